import Verif.Proof.Retain
import Verif.Proof.RouteTable
import Verif.Props.Route
/-!
# Retained-message properties (C06 – C08, retained half of C02)
-/
namespace Akasa
open RetainNode

/-! ## helper facts -/

theorem matchP_exact {n : RetainNode} {fs : List Str} (h : ∀ l ∈ fs, l ≠ matchAll ∧ l ≠ matchOne) :
    n.matchP fs = (n.contentAt fs).toList.map fun c => (fs, c) := by
  induction fs generalizing n with
  | nil => cases hc : n.content <;> simp [matchP, ownP, hc]
  | cons l ls ih =>
    rw [matchP, if_neg (h l (by simp)).1, if_neg (h l (by simp)).2, contentAt_cons]
    cases FMap.get n.nodes l with
    | none => simp
    | some m =>
      simp only [Option.elim_some]
      rw [ih (fun x hx => h x (by simp [hx]))]
      simp [Function.comp_def]

theorem validFilter_of_topic {t : Str} (h : ValidTopic t) : ValidFilter t := by
  have : ∀ ls : List Str, (∀ l ∈ ls, '#' ∉ l ∧ '+' ∉ l) → ValidFilterLevels ls := by
    intro ls
    induction ls with
    | nil => intro _; trivial
    | cons l ls ih =>
      intro hl
      exact ⟨Or.inr (Or.inr (hl l (by simp))), ih (fun x hx => hl x (by simp [hx]))⟩
  apply this
  intro l hl
  exact ⟨fun hc => h.1 (mem_levels_chars hl hc), fun hc => h.2 (mem_levels_chars hl hc)⟩

/-- Retained lookup in terms of the history (helper for C07). -/
theorem getMatches_retained (h : List RetainContent) {f : Str} (hv : ValidFilter f) :
    ∃ rs, (RetainTable.empty.run h).getMatches f = some rs ∧
      (∀ c, c ∈ rs ↔ retained h c.topic = some c ∧ Matches f c.topic) ∧
      rs.Pairwise (fun a b => a.topic ≠ b.topic) := by
  have inv := RetInv.run h
  have hv' : ValidFilterLevels ((splitTopic f).1 :: cursorLevels (splitTopic f).2) := by
    rw [← levels_split]; exact hv
  refine ⟨_, getMatches_eq _ _ _ _ hv', ?_, ?_⟩
  · intro c
    rw [← levels_split, List.mem_filter, List.mem_map]
    have hok : ok (decide (f.head? = some '+' ∨ f.head? = some '#')) c = true ↔
        ¬ (c.topic.head? = some '$' ∧ (f.head? = some '+' ∨ f.head? = some '#')) := by
      unfold ok
      simp only [Bool.not_eq_true', Bool.and_eq_false_iff, decide_eq_false_iff_not]
      constructor
      · rintro h ⟨h1, h2⟩; rcases h with h | h
        · exact h h1
        · exact h h2
      · intro h
        by_cases h1 : c.topic.head? = some '$'
        · right; intro h2; exact h ⟨h1, h2⟩
        · left; exact h1
    rw [hok]
    constructor
    · rintro ⟨⟨⟨p, d⟩, hm, rfl⟩, hx⟩
      obtain ⟨h1, h2⟩ := (mem_matchP inv.wft hv).mp hm
      have hp := inv.path p d h2
      subst hp
      exact ⟨by rw [← inv.content]; exact h2, h1, hx⟩
    · rintro ⟨h1, h2, hx⟩
      refine ⟨⟨(levels c.topic, c), (mem_matchP inv.wft hv).mpr ⟨h2, ?_⟩, rfl⟩, hx⟩
      rw [inv.content]; exact h1
  · apply List.Pairwise.filter
    rw [List.pairwise_map, ← levels_split]
    refine (distinct_matchP inv.wft _).imp_of_mem ?_
    rintro ⟨p, d⟩ ⟨q, e⟩ ha hb hne heq
    have h1 := inv.path p d ((mem_matchP inv.wft hv).mp ha).2
    have h2 := inv.path q e ((mem_matchP inv.wft hv).mp hb).2
    exact hne (by simp only; rw [h1, h2, heq])

/-! ## C06 -/

/-- **C06.**  After any history of retained publishes, looking up a topic name yields exactly the
last message published to it (nothing if the last one was empty or there was none). -/
theorem C06_retained_latest (h : List RetainContent) {topic : Str} (hv : ValidTopic topic) :
    (RetainTable.empty.run h).getMatches topic = some (retained h topic).toList := by
  have inv := RetInv.run h
  have hv' : ValidFilterLevels ((splitTopic topic).1 :: cursorLevels (splitTopic topic).2) := by
    rw [← levels_split]; exact validFilter_of_topic hv
  unfold RetainTable.getMatches
  simp only
  rw [getMatches_eq _ _ _ _ hv', ← levels_split, matchP_exact (fun _ hl => hv.level_ne hl),
    inv.content]
  have hw : decide (topic.head? = some '+' ∨ topic.head? = some '#') = false := by
    rw [decide_eq_false_iff_not]
    rintro (e | e)
    · exact hv.2 (List.mem_of_mem_head? e)
    · exact hv.1 (List.mem_of_mem_head? e)
  rw [hw]
  cases retained h topic with
  | none => rfl
  | some c => simp [ok, List.filter]

/-- **C06, independence.**  Publishes to other topics do not matter. -/
theorem C06_other_topics (h : List RetainContent) (c : RetainContent) {topic : Str}
    (hv : ValidTopic topic) (hne : c.topic ≠ topic) :
    (RetainTable.empty.run (h ++ [c])).getMatches topic =
      (RetainTable.empty.run h).getMatches topic := by
  rw [C06_retained_latest _ hv, C06_retained_latest _ hv, retained_snoc, if_neg hne]

/-- Message of the examples. -/
def rmsg (topic : String) (payload : Bytes) : RetainContent :=
  { publisher := str "p", qos := 1, topic := str topic, payload := payload }

/-- A history with overwriting and clearing. -/
def exRetain : List RetainContent :=
  [rmsg "a/b" [1], rmsg "a" [2], rmsg "a/b" [3], rmsg "x" [4], rmsg "x" [], rmsg "$SYS/a" [5]]

example : ValidTopic (str "a/b") ∧
    (RetainTable.empty.run exRetain).getMatches (str "a/b") = some [rmsg "a/b" [3]] ∧
    (RetainTable.empty.run exRetain).getMatches (str "x") = some [] := by
  refine ⟨by unfold ValidTopic; decide, by decide, by decide⟩

/-! ## C07 -/

/-- **C07.**  Looking up a valid filter never panics and yields exactly the currently retained
messages whose topic matches, each topic once. -/
theorem C07_retained_lookup (h : List RetainContent) {f : Str} (hv : ValidFilter f) :
    ∃ rs, (RetainTable.empty.run h).getMatches f = some rs ∧
      (∀ c, c ∈ rs ↔ retained h c.topic = some c ∧ Matches f c.topic) ∧
      rs.Pairwise (fun a b => a.topic ≠ b.topic) :=
  getMatches_retained h hv

/-- **C07, agreement.**  Live routing and retained lookup agree: if a message with this topic is
retained and a client is subscribed to the plain filter, the retained lookup for the filter
contains the message exactly if the live lookup for its topic contains the filter. -/
theorem C07_agrees_with_routing (h : List RetainContent) {ops : List RouteOp} {t : RouteTable}
    (hrun : RouteTable.empty.run ops = some t) {f : Str} (hv : ValidFilter f) (hp : IsPlain f)
    {id : ClientId} {q : QoS} (hs : subscribed ops f id = some q)
    {c : RetainContent} (hvt : ValidTopic c.topic) (hc : retained h c.topic = some c) :
    (∃ rs, (RetainTable.empty.run h).getMatches f = some rs ∧ c ∈ rs) ↔
      (∃ d ∈ t.getMatches c.topic, d.topicFilter = some f) := by
  obtain ⟨rs, h1, h2, _⟩ := C07_retained_lookup h hv
  constructor
  · rintro ⟨rs', e, hm⟩
    rw [h1] at e; simp at e; subst e
    obtain ⟨d, hd, hf, _⟩ := C01_lookup_complete hrun hvt hp ((h2 c).mp hm).2 hs
    exact ⟨d, hd, hf⟩
  · rintro ⟨d, hd, hf⟩
    obtain ⟨f', e1, e2, _⟩ := C01_lookup_sound hrun hvt hd
    rw [hf] at e1; simp at e1; subst e1
    exact ⟨rs, h1, (h2 c).mpr ⟨hc, e2⟩⟩

example : ValidFilter (str "+/#") ∧
    (RetainTable.empty.run exRetain).getMatches (str "+/#") =
      some [rmsg "a/b" [3], rmsg "a" [2]] ∧
    (RetainTable.empty.run exRetain).getMatches (str "$SYS/#") = some [rmsg "$SYS/a" [5]] := by
  refine ⟨?_, ?_, ?_⟩
  · refine ⟨Or.inl rfl, Or.inr (Or.inl ⟨rfl, rfl⟩), trivial⟩
  · decide +kernel
  · decide +kernel

/-! ## C02, retained half -/

/-- **C02, retained messages.**  A lookup with a filter that begins with a wildcard never returns
a message whose topic begins with '$'. -/
theorem C02_dollar_not_retained (h : List RetainContent) {f : Str} (hv : ValidFilter f)
    (hw : f.head? = some '+' ∨ f.head? = some '#') {rs : List RetainContent}
    (hr : (RetainTable.empty.run h).getMatches f = some rs) {c : RetainContent} (hc : c ∈ rs) :
    c.topic.head? ≠ some '$' := by
  obtain ⟨rs', h1, h2, _⟩ := C07_retained_lookup h hv
  rw [hr] at h1; simp at h1; subst h1
  intro e
  exact ((h2 c).mp hc).2.2 ⟨e, hw⟩

/-- **C02, literal level.**  A filter naming the '$' level finds it. -/
theorem C02_literal_dollar_retained (h : List RetainContent) {f : Str} (hv : ValidFilter f)
    (hw : ¬ (f.head? = some '+' ∨ f.head? = some '#')) {rs : List RetainContent}
    (hr : (RetainTable.empty.run h).getMatches f = some rs) {c : RetainContent}
    (hc : retained h c.topic = some c) (hl : LevelsMatch (levels f) (levels c.topic)) : c ∈ rs := by
  obtain ⟨rs', h1, h2, _⟩ := C07_retained_lookup h hv
  rw [hr] at h1; simp at h1; subst h1
  exact (h2 c).mpr ⟨hc, hl, fun h => hw h.2⟩

example : (RetainTable.empty.run exRetain).getMatches (str "#") =
    some [rmsg "a/b" [3], rmsg "a" [2]] := by decide +kernel

/-! ## C08 -/

/-- **C08, no leak.**  The store holds a node for a level path exactly if some currently retained
topic goes through it. -/
theorem C08_no_leak (h : List RetainContent) {p : List Str} (hp : p ≠ []) :
    RetainNodeAt (RetainTable.empty.run h).inner.nodes p ↔
      ∃ topic, p <+: levels topic ∧ (retained h topic).isSome := by
  have inv := RetInv.run h
  rw [RetainNode.nodeAt_find hp]
  constructor
  · rintro ⟨m, hm⟩
    obtain ⟨r, c, hc⟩ := inv.pruned p m hp hm
    have hc' : (RetainTable.empty.run h).inner.contentAt (p ++ r) = some c := by
      unfold contentAt at hc ⊢
      rw [RetainNode.find_append hm]; exact hc
    have hpath := inv.path _ _ hc'
    refine ⟨c.topic, ⟨r, hpath⟩, ?_⟩
    rw [← inv.content, ← hpath, hc']; rfl
  · rintro ⟨topic, ⟨r, hr⟩, hs⟩
    apply RetainNode.find_prefix (r := r)
    rw [hr]
    rw [← inv.content] at hs
    unfold contentAt at hs
    cases hfd : (RetainTable.empty.run h).inner.find (levels topic) with
    | some m => exact ⟨m, rfl⟩
    | none => rw [hfd] at hs; cases hs

/-- **C08, empty store.**  Once nothing is retained the store is as it was at the start. -/
theorem C08_empty (h : List RetainContent) (hn : ∀ topic, retained h topic = none) :
    RetainTable.empty.run h = RetainTable.empty := by
  have inv := RetInv.run h
  have hroot := inv.root
  have hnil : (RetainTable.empty.run h).inner.nodes = [] := by
    cases ht : (RetainTable.empty.run h).inner.nodes with
    | nil => rfl
    | cons a b =>
      have : RetainNodeAt (RetainTable.empty.run h).inner.nodes [a.1] :=
        .here (n := a.2) (by rw [ht, FMap.get_cons]; simp)
      obtain ⟨topic, _, hs⟩ := (C08_no_leak h (by simp)).mp this
      rw [hn] at hs; cases hs
  generalize RetainTable.empty.run h = t at hroot hnil
  obtain ⟨⟨c, ns⟩⟩ := t
  simp only [nodes_mk, content_mk] at hroot hnil
  subst hroot; subst hnil; rfl

example : (RetainTable.empty.run [rmsg "a/b" [1], rmsg "a" [2], rmsg "a/b" [], rmsg "a" []]).inner.nodes.length
    = 0 := by decide

end Akasa

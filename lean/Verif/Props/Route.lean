import Verif.Proof.RouteShared
/-!
# Routing properties (C01 – C05)
-/
namespace Akasa
open RouteNode

/-- Strings of the examples. -/
def str (s : String) : Str := s.toList

/-! ## C01 -/

/-- **C01, soundness.**  Every result of a lookup is the content of one filter that matches the
topic, and its client map is exactly the map of current plain subscribers with their last granted
QoS. -/
theorem C01_lookup_sound {ops : List RouteOp} {t : RouteTable}
    (hrun : RouteTable.empty.run ops = some t) {topic : Str} (hv : ValidTopic topic)
    {c : RouteContent} (hc : c ∈ t.getMatches topic) :
    ∃ f, c.topicFilter = some f ∧ Matches f topic ∧ (c.clients.map (·.1)).Nodup ∧
      ∀ id q, (id, q) ∈ c.clients ↔ IsPlain f ∧ subscribed ops f id = some q := by
  have inv := RInv.empty.run hrun
  obtain ⟨f, h1, h2, h3, h4⟩ := (RouteTable.mem_getMatches hv inv.tf).mp hc
  refine ⟨f, h3, h1, by rw [h2]; exact inv.wf _, ?_⟩
  intro id q
  rw [FMap.mem_iff_get (by rw [h2]; exact inv.wf _), h2, inv.clients]
  unfold plainPart
  split
  · rename_i hp; simp [hp, subscribed]
  · rename_i hp; simp [hp]

/-- **C01, completeness.**  If a client is subscribed to a plain filter that matches the topic,
the lookup yields that filter. -/
theorem C01_lookup_complete {ops : List RouteOp} {t : RouteTable}
    (hrun : RouteTable.empty.run ops = some t) {topic : Str} (hv : ValidTopic topic)
    {f : Str} (hp : IsPlain f) (hm : Matches f topic) {id : ClientId} {q : QoS}
    (hs : subscribed ops f id = some q) :
    ∃ c ∈ t.getMatches topic, c.topicFilter = some f ∧ (id, q) ∈ c.clients := by
  have inv := RInv.empty.run hrun
  have hget : (t.root.contentAt (levels f)).clients.get id = some q := by
    rw [inv.clients, plainPart, if_pos hp]; exact hs
  have hmem := FMap.mem_of_get hget
  have hne : (t.root.contentAt (levels f)).isEmpty = false := by
    simp only [RouteContent.isEmpty]
    cases hcl : (t.root.contentAt (levels f)).clients with
    | nil => rw [hcl] at hmem; cases hmem
    | cons a b => rfl
  obtain ⟨f', h1, h2⟩ := inv.tf _ hne
  have := levels_injective h2; subst this
  exact ⟨_, (RouteTable.mem_getMatches hv inv.tf).mpr ⟨f', hm, rfl, h1, hne⟩, h1, hmem⟩

/-- **C01, exactly once.**  No filter is reported twice. -/
theorem C01_lookup_once {ops : List RouteOp} {t : RouteTable}
    (hrun : RouteTable.empty.run ops = some t) {topic : Str} (hv : ValidTopic topic) :
    ((t.getMatches topic).map (·.topicFilter)).Nodup := by
  have inv := RInv.empty.run hrun
  rw [RouteTable.getMatches_eq_map t hv, List.map_map]
  have hn := RouteTable.nodup_tableMatchP t hv
  unfold List.Nodup at hn ⊢
  rw [List.pairwise_map] at hn ⊢
  refine hn.imp_of_mem ?_
  rintro ⟨p, c⟩ ⟨p', c'⟩ hm hm' hne e
  obtain ⟨_, rfl, h3, _⟩ := (RouteTable.mem_tableMatchP hv).mp hm
  obtain ⟨_, rfl, h3', _⟩ := (RouteTable.mem_tableMatchP hv).mp hm'
  obtain ⟨f, h1, h2⟩ := inv.tf _ h3
  obtain ⟨f', h1', h2'⟩ := inv.tf _ h3'
  simp only [Function.comp_apply] at e
  rw [h1, h1'] at e
  simp at e
  exact hne (by simp only; rw [← h2, ← h2', e])

/-- **C01, no panic.**  Histories of plain subscriptions (and shared ones in which nobody comes
back to a group they left while it lives on) never panic. -/
theorem C01_no_panic (ops : List RouteOp) (h : NoRejoin ops) :
    ∃ t, RouteTable.empty.run ops = some t := by
  obtain ⟨t, h, _⟩ := run_noRejoin ops h
  exact ⟨t, h⟩

/-- **C01, no panic (plain).** -/
theorem C01_no_panic_plain (ops : List RouteOp) (h : ∀ op ∈ ops, IsPlain op.filter) :
    ∃ t, RouteTable.empty.run ops = some t :=
  C01_no_panic ops (noRejoin_of_plain h)

/-- A history with overlapping, shared and removed subscriptions. -/
def exOps : List RouteOp :=
  [.sub (str "a/+") 1 1, .sub (str "a/#") 2 2, .sub (str "$share/g/a/b") 3 0, .sub (str "a/b") 1 0,
   .sub (str "a/+") 4 2, .unsub (str "a/+") 4, .sub (str "a/+") 1 2, .sub (str "#") 5 1]

/-- The hypotheses of C01 are met by it, and the lookup gives what one expects. -/
example : ValidTopic (str "a/b") ∧ (RouteTable.empty.run exOps).map
      (fun t => (t.getMatches (str "a/b")).map fun c => (c.topicFilter, c.clients)) =
    some [(some (str "a/b"), [(1, 0)]), (some (str "a/#"), [(2, 2)]), (some (str "a/+"), [(1, 2)]),
       (some (str "#"), [(5, 1)])] :=
  ⟨by unfold ValidTopic; decide, by decide⟩

example : IsPlain (str "a/+") ∧ subscribed exOps (str "a/+") 1 = some 2 ∧
    Matches (str "a/+") (str "a/b") := by
  refine ⟨by decide, by decide, ?_, by decide⟩
  exact .same _ (.plus _ .done)

/-! ## C02 (live routing) -/

/-- **C02, live messages.**  A topic that begins with '$' is never routed to a filter that begins
with a wildcard. -/
theorem C02_dollar_not_routed {ops : List RouteOp} {t : RouteTable}
    (hrun : RouteTable.empty.run ops = some t) {topic : Str} (hv : ValidTopic topic)
    (hd : topic.head? = some '$') {c : RouteContent} (hc : c ∈ t.getMatches topic) :
    ∃ f, c.topicFilter = some f ∧ f.head? ≠ some '+' ∧ f.head? ≠ some '#' := by
  obtain ⟨f, h1, h2, _⟩ := C01_lookup_sound hrun hv hc
  exact ⟨f, h1, fun e => h2.2 ⟨hd, Or.inl e⟩, fun e => h2.2 ⟨hd, Or.inr e⟩⟩

/-- **C02, literal level.**  A filter that does not begin with a wildcard and matches level by
level still sees the '$' topic. -/
theorem C02_literal_dollar_routed {ops : List RouteOp} {t : RouteTable}
    (hrun : RouteTable.empty.run ops = some t) {topic : Str} (hv : ValidTopic topic)
    {f : Str} (hp : IsPlain f) (hw : f.head? ≠ some '+' ∧ f.head? ≠ some '#')
    (hl : LevelsMatch (levels f) (levels topic)) {id : ClientId} {q : QoS}
    (hs : subscribed ops f id = some q) :
    ∃ c ∈ t.getMatches topic, c.topicFilter = some f ∧ (id, q) ∈ c.clients :=
  C01_lookup_complete hrun hv hp ⟨hl, fun h => h.2.elim hw.1 hw.2⟩ hs

example : ValidTopic (str "$SYS/x") ∧ (RouteTable.empty.run
      [.sub (str "#") 1 1, .sub (str "+/x") 2 1, .sub (str "$SYS/#") 3 2]).map
      (fun t => (t.getMatches (str "$SYS/x")).map fun c => (c.topicFilter, c.clients)) =
    some [(some (str "$SYS/#"), [(3, 2)])] :=
  ⟨by unfold ValidTopic; decide, by decide⟩

/-! ## C03 -/

/-- **C03, precision.**  After unsubscribing `id` from `f`, lookups give the same subscriptions as
before except that one: any plain subscription `(f', id')` other than `(f, id)` is reported with
QoS `q` for a topic afterwards exactly if it was before, and `(f, id)` is not reported. -/
theorem C03_unsubscribe_precise {ops : List RouteOp} {t t' : RouteTable}
    (hrun : RouteTable.empty.run ops = some t) {f : Str} {id : ClientId}
    (hun : t.unsubscribe f id = some t') {topic : Str} (hv : ValidTopic topic)
    (f' : Str) (id' : ClientId) (q : QoS) :
    (∃ c ∈ t'.getMatches topic, c.topicFilter = some f' ∧ (id', q) ∈ c.clients) ↔
      ¬ (f' = f ∧ id' = id) ∧
      (∃ c ∈ t.getMatches topic, c.topicFilter = some f' ∧ (id', q) ∈ c.clients) := by
  have hrun' : RouteTable.empty.run (ops ++ [.unsub f id]) = some t' := by
    rw [run_snoc, hrun]; exact hun
  have key : ∀ {o : List RouteOp} {s : RouteTable}, RouteTable.empty.run o = some s →
      ((∃ c ∈ s.getMatches topic, c.topicFilter = some f' ∧ (id', q) ∈ c.clients) ↔
        IsPlain f' ∧ Matches f' topic ∧ subscribed o f' id' = some q) := by
    intro o s hs
    constructor
    · rintro ⟨c, hc, h1, h2⟩
      obtain ⟨g, e1, e2, _, e4⟩ := C01_lookup_sound hs hv hc
      rw [h1] at e1; simp at e1; subst e1
      exact ⟨((e4 _ _).mp h2).1, e2, ((e4 _ _).mp h2).2⟩
    · rintro ⟨h1, h2, h3⟩
      exact C01_lookup_complete hs hv h1 h2 h3
  rw [key hrun, key hrun', subscribed_snoc]
  simp only [SubState.step]
  by_cases e : f' = f ∧ id' = id
  · simp [e]
  · simp [e]

example : ((RouteTable.empty.run exOps).bind (·.unsubscribe (str "a/+") 1)).map
      (fun t => (t.getMatches (str "a/b")).map fun c => (c.topicFilter, c.clients)) =
    some [(some (str "a/b"), [(1, 0)]), (some (str "a/#"), [(2, 2)]), (some (str "#"), [(5, 1)])] := by
  decide

theorem nodeAt_find {n : RouteNode} {p : List Str} (hp : p ≠ []) :
    NodeAt n.nodes p ↔ ∃ m, n.find p = some m := by
  induction p generalizing n with
  | nil => exact absurd rfl hp
  | cons l ls ih =>
    rw [find_cons]
    constructor
    · intro h
      cases h with
      | here hg => rw [hg]; exact ⟨_, rfl⟩
      | down hg hrest =>
        rw [hg]
        cases ls with
        | nil => exact ⟨_, rfl⟩
        | cons a b => exact (ih (by simp)).mp hrest
    · intro ⟨m, h⟩
      cases hg : FMap.get n.nodes l with
      | none => rw [hg] at h; cases h
      | some c =>
        rw [hg] at h
        cases ls with
        | nil => exact .here hg
        | cons a b => exact .down hg ((ih (by simp)).mpr ⟨m, h⟩)

theorem find_append {n m : RouteNode} {p r : List Str} (h : n.find p = some m) :
    n.find (p ++ r) = m.find r := by
  induction p generalizing n with
  | nil => simp [find] at h; subst h; rfl
  | cons l ls ih =>
    rw [find_cons] at h
    rw [List.cons_append, find_cons]
    cases hg : FMap.get n.nodes l with
    | none => rw [hg] at h; cases h
    | some c => rw [hg] at h; simp only at h ⊢; exact ih h

theorem find_prefix {n : RouteNode} {p r : List Str} (h : ∃ m, n.find (p ++ r) = some m) :
    ∃ m, n.find p = some m := by
  induction p generalizing n with
  | nil => exact ⟨n, rfl⟩
  | cons l ls ih =>
    obtain ⟨m, h⟩ := h
    rw [List.cons_append, find_cons] at h
    rw [find_cons]
    cases hg : FMap.get n.nodes l with
    | none => rw [hg] at h; cases h
    | some c => rw [hg] at h; exact ih ⟨m, h⟩

/-- Subscribed to `f`, directly or through a shared subscription of some group. -/
def SubscribedVia (ops : List RouteOp) (f : Str) : Prop :=
  (∃ id q, IsPlain f ∧ subscribed ops f id = some q) ∨
  (∃ g id q, '/' ∉ g ∧ subscribed ops (shareFilter g f) id = some q)

theorem content_iff {ops : List RouteOp} {t : RouteTable} (hs : SInv ops t)
    (hr : RInv (subscribed ops) t) (f : Str) :
    (t.root.contentAt (levels f)).isEmpty = false ↔ SubscribedVia ops f := by
  constructor
  · intro h
    cases hcl : (t.root.contentAt (levels f)).clients with
    | cons a b =>
      left
      have hw := hr.wf (levels f)
      have : (t.root.contentAt (levels f)).clients.get a.1 = some a.2 :=
        FMap.get_of_mem hw (by rw [hcl]; simp)
      rw [hr.clients, plainPart] at this
      split at this
      · rename_i hp; exact ⟨a.1, a.2, hp, this⟩
      · cases this
    | nil =>
      right
      cases hgr : (t.root.contentAt (levels f)).groups with
      | nil => rw [RouteContent.isEmpty, hcl, hgr] at h; cases h
      | cons a b =>
        have hget : (t.root.contentAt (levels f)).groups.get a.1 = some a.2 :=
          FMap.get_of_mem (hs.wf (levels f)) (by rw [hgr]; simp)
        have hn := hs.name _ _ _ hget
        have hg := hs.group a.1 f hn
        rw [hget] at hg
        cases hi : a.2.items with
        | nil => exact absurd hi hg.2
        | cons x y =>
          exact ⟨a.1, x.1, x.2, hn, (hg.1.mem x.1 x.2).mp (by rw [hi]; simp)⟩
  · rintro (⟨id, q, hp, h⟩ | ⟨g, id, q, hg, h⟩)
    · have : (t.root.contentAt (levels f)).clients.get id = some q := by
        rw [hr.clients, plainPart, if_pos hp]; exact h
      have := FMap.mem_of_get this
      simp only [RouteContent.isEmpty]
      cases hcl : (t.root.contentAt (levels f)).clients with
      | nil => rw [hcl] at this; cases this
      | cons a b => rfl
    · have hgo := hs.group g f hg
      cases hget : (t.root.contentAt (levels f)).groups.get g with
      | none => rw [hget] at hgo; rw [hgo id] at h; cases h
      | some s =>
        have := FMap.mem_of_get hget
        simp only [RouteContent.isEmpty]
        cases hcl : (t.root.contentAt (levels f)).groups with
        | nil => rw [hcl] at this; cases this
        | cons a b => simp

theorem isEmpty_of_not {c : RouteContent} (h : ¬ c.isEmpty = true) : c.isEmpty = false := by
  cases e : c.isEmpty
  · rfl
  · exact absurd e h

/-- **C03, no leak.**  The table holds a node for a level path exactly if the filter of some
current subscription (plain or shared) goes through it. -/
theorem C03_no_leak {ops : List RouteOp} (h : NoRejoin ops) {t : RouteTable}
    (hrun : RouteTable.empty.run ops = some t) {p : List Str} (hp : p ≠ []) :
    NodeAt t.nodes p ↔ ∃ f, p <+: levels f ∧ SubscribedVia ops f := by
  obtain ⟨t', hrun', hs, hr⟩ := run_noRejoin ops h
  rw [hrun] at hrun'; simp at hrun'; subst hrun'
  rw [show t.nodes = t.root.nodes from rfl, nodeAt_find hp]
  constructor
  · rintro ⟨m, hm⟩
    obtain ⟨r, hne⟩ := hr.pruned p m hp hm
    have hc : (t.root.contentAt (p ++ r)).isEmpty = false := by
      unfold contentAt at hne ⊢
      rw [find_append hm]; exact hne
    obtain ⟨f, _, hf⟩ := hr.tf _ hc
    refine ⟨f, ⟨r, hf.symm⟩, (content_iff hs hr f).mp (by rw [hf]; exact hc)⟩
  · rintro ⟨f, ⟨r, hf⟩, hsub⟩
    have hc := (content_iff hs hr f).mpr hsub
    apply find_prefix (r := r)
    rw [hf]
    unfold contentAt at hc
    cases hfd : t.root.find (levels f) with
    | some m => exact ⟨m, rfl⟩
    | none => rw [hfd] at hc; cases hc

/-- **C03, empty table.**  When nobody is subscribed any more the table is empty. -/
theorem C03_empty {ops : List RouteOp} (h : NoRejoin ops) {t : RouteTable}
    (hrun : RouteTable.empty.run ops = some t) (hn : ∀ f id, subscribed ops f id = none) :
    t = RouteTable.empty := by
  cases ht : t.nodes with
  | nil => cases t; simp only at ht; subst ht; rfl
  | cons a b =>
    have : NodeAt t.nodes [a.1] := .here (n := a.2) (by rw [ht, FMap.get_cons]; simp)
    obtain ⟨f, _, hs⟩ := (C03_no_leak h hrun (by simp)).mp this
    rcases hs with ⟨id, q, _, h⟩ | ⟨g, id, q, _, h⟩
    · rw [hn] at h; cases h
    · rw [hn] at h; cases h

example : (RouteTable.empty.run [.sub (str "a/b/+") 1 1, .sub (str "a/#") 2 2,
      .unsub (str "a/b/+") 1, .sub (str "$share/g/x") 3 1, .unsub (str "a/#") 2,
      .unsub (str "$share/g/x") 3]).map (·.nodes.length) = some 0 := by decide

/-! ## C04, C05 -/

/-- The statement C04 demands for a history. -/
def GroupSelectsMembers (ops : List RouteOp) : Prop :=
  ∃ t, RouteTable.empty.run ops = some t ∧
    ∀ topic, ValidTopic topic → ∀ c ∈ t.getMatches topic, ∃ f, c.topicFilter = some f ∧
      ∀ g s, (g, s) ∈ c.groups →
        (∀ n, ∃ id q, s.getByNumber n = some (id, q) ∧
          subscribed ops (shareFilter g f) id = some q) ∧
        (∀ id q, subscribed ops (shareFilter g f) id = some q → ∃ n, s.getByNumber n = some (id, q))

/-- The full C04 is false of the code: a client that leaves a group as its last entry and joins
again makes `SharedClients::insert` index out of bounds. -/
theorem C04_false : ¬ ∀ ops, GroupSelectsMembers ops := by
  intro h
  obtain ⟨t, ht, _⟩ := h [.sub (str "$share/g/x") 1 0, .sub (str "$share/g/x") 2 0,
    .unsub (str "$share/g/x") 2, .sub (str "$share/g/x") 2 0]
  have : (RouteTable.empty.run [.sub (str "$share/g/x") 1 0, .sub (str "$share/g/x") 2 0,
    .unsub (str "$share/g/x") 2, .sub (str "$share/g/x") 2 0]).isSome = false := by decide
  rw [ht] at this
  cases this

/-- **C04, partial**: holds for all histories in which no client comes back to a group it left
while the group has lived on.  Missing: histories with such a return, where the code panics or
loses members (`C04_false`). -/
theorem C04_group_selects_member_partial (ops : List RouteOp) (h : NoRejoin ops) :
    GroupSelectsMembers ops := by
  obtain ⟨t, hrun, hs, hr⟩ := run_noRejoin ops h
  refine ⟨t, hrun, ?_⟩
  intro topic hv c hc
  obtain ⟨f, h1, h2, h3, h4⟩ := (RouteTable.mem_getMatches hv hr.tf).mp hc
  refine ⟨f, h3, ?_⟩
  intro g s hgs
  rw [h2] at hgs
  have hget := FMap.get_of_mem (hs.wf _) hgs
  have hn := hs.name _ _ _ hget
  have hg := hs.group g f hn
  rw [hget] at hg
  obtain ⟨hinv, hne⟩ := hg
  have hpos : 0 < s.items.length := List.length_pos_iff.mpr hne
  constructor
  · intro n
    have hlt := Nat.mod_lt n hpos
    refine ⟨s.items[n % s.items.length].1, s.items[n % s.items.length].2, ?_, ?_⟩
    · unfold SharedClients.getByNumber
      rw [List.getElem?_eq_getElem hlt]
    · exact (hinv.mem _ _).mp (List.getElem_mem hlt)
  · intro id q hsub
    obtain ⟨i, hi⟩ := List.mem_iff_getElem?.mp ((hinv.mem id q).mpr hsub)
    refine ⟨i, ?_⟩
    unfold SharedClients.getByNumber
    rw [Nat.mod_eq_of_lt (lt_of_getElem? hi), hi]

/-- Every matching group with a member is found by the lookup. -/
theorem C04_group_found_partial (ops : List RouteOp) (h : NoRejoin ops) {t : RouteTable}
    (hrun : RouteTable.empty.run ops = some t) {topic : Str} (hv : ValidTopic topic)
    {g f : Str} (hg : '/' ∉ g) (hm : Matches f topic) {id : ClientId} {q : QoS}
    (hsub : subscribed ops (shareFilter g f) id = some q) :
    ∃ c ∈ t.getMatches topic, c.topicFilter = some f ∧ ∃ s, (g, s) ∈ c.groups := by
  obtain ⟨t', hrun', hs, hr⟩ := run_noRejoin ops h
  rw [hrun] at hrun'; simp at hrun'; subst hrun'
  have hc := (content_iff hs hr f).mpr (Or.inr ⟨g, id, q, hg, hsub⟩)
  obtain ⟨f', h1, h2⟩ := hr.tf _ hc
  have := levels_injective h2; subst this
  refine ⟨_, (RouteTable.mem_getMatches hv hr.tf).mpr ⟨f', hm, rfl, h1, hc⟩, h1, ?_⟩
  have hgo := hs.group g f' hg
  cases hget : (t.root.contentAt (levels f')).groups.get g with
  | none => rw [hget] at hgo; rw [hgo id] at hsub; cases hsub
  | some s => exact ⟨s, FMap.mem_of_get hget⟩

/-- A history with a group of three, one leaving, and a group that died and was founded again. -/
def exShared : List RouteOp :=
  [.sub (str "$share/g/x/+") 1 0, .sub (str "$share/g/x/+") 2 1, .sub (str "$share/g/x/+") 3 2,
   .unsub (str "$share/g/x/+") 1, .sub (str "$share/h/x/+") 1 2, .unsub (str "$share/h/x/+") 1,
   .sub (str "$share/h/x/+") 1 1]

theorem exShared_noRejoin : NoRejoin exShared := by
  have key : ∀ i (hi : i < exShared.length), ¬ IsPlain exShared[i].filter →
      ¬ LeftLiveGroup (exShared.take i) exShared[i].filter exShared[i].client := by
    intro i hi _
    rintro ⟨k, q, h1, h2, h3⟩
    have hk := lt_of_getElem? h2
    have hk' : k < i := by
      have := List.length_take_le i exShared; omega
    have hi7 : i < 7 := hi
    have hcase : (i = 6 ∧ k = 5) ∨ ¬ (i = 6 ∧ k = 5) := Decidable.em _
    rcases hcase with ⟨rfl, rfl⟩ | hne
    · obtain ⟨x, q, hx⟩ := h3 6 (by omega) (by decide)
      have : ∀ x, subscribed ((exShared.take 6).take 6) exShared[6].filter x = none := by
        intro x
        have hd : str "$share/h/x/+" ≠ str "$share/g/x/+" := by decide
        simp only [subscribed, exShared, List.take, List.foldl, SubState.step, RouteOp.filter,
          List.getElem_cons_succ, List.getElem_cons_zero, SubState.none]
        by_cases e : x = 1 <;> simp [e, hd]
      have hx' := (this x).symm.trans hx
      cases hx'
    · revert hne
      rw [List.getElem?_take] at h2
      rw [if_pos hk'] at h2
      revert h2
      revert hk' hi7
      clear h1 h3 hk
      intro hk' hi7
      have hall : ∀ i : Fin 7, ∀ k : Fin 7, k.val < i.val →
          exShared[k.val]?.map (fun o => (o.filter, o.client, (match o with | .sub .. => true | .unsub .. => false)))
            = (exShared[i.val]?.map (fun o => (o.filter, o.client, false))) →
          (i.val = 6 ∧ k.val = 5) := by decide
      intro h2 hne
      apply hne
      apply hall ⟨i, hi7⟩ ⟨k, by omega⟩ hk'
      simp only
      rw [h2, List.getElem?_eq_getElem hi]
      rfl
  intro pre op post e hp
  have hlen : pre.length < exShared.length := by rw [e]; simp
  have hop : exShared[pre.length] = op := by simp [e]
  have hpre : exShared.take pre.length = pre := by rw [e]; simp
  have := key pre.length hlen (by rw [hop]; exact hp)
  rw [hop, hpre] at this
  exact this

example : (RouteTable.empty.run exShared).map
      (fun t => (t.getMatches (str "x/y")).map fun c => c.groups.map fun g => (g.1, g.2.items)) =
    some [[(str "h", [(1, 1)]), (str "g", [(3, 2), (2, 1)])]] := by decide

/-- The members of a group as found by the lookup of `topic`. -/
def GroupMember (t : RouteTable) (topic g f : Str) (id : ClientId) (q : QoS) : Prop :=
  ∃ c ∈ t.getMatches topic, c.topicFilter = some f ∧ ∃ s, (g, s) ∈ c.groups ∧ (id, q) ∈ s.items

theorem groupMember_iff {ops : List RouteOp} (h : NoRejoin ops) {t : RouteTable}
    (hrun : RouteTable.empty.run ops = some t) {topic : Str} (hv : ValidTopic topic)
    {g f : Str} (hm : Matches f topic) (hg : '/' ∉ g) (id : ClientId) (q : QoS) :
    GroupMember t topic g f id q ↔ subscribed ops (shareFilter g f) id = some q := by
  obtain ⟨t', hrun', hs, hr⟩ := run_noRejoin ops h
  rw [hrun] at hrun'; simp at hrun'; subst hrun'
  have hgo := hs.group g f hg
  constructor
  · rintro ⟨c, hc, h1, s, h2, h3⟩
    obtain ⟨f', _, e2, e3, _⟩ := (RouteTable.mem_getMatches hv hr.tf).mp hc
    rw [h1] at e3; simp at e3; subst e3
    rw [e2] at h2
    rw [FMap.get_of_mem (hs.wf _) h2] at hgo
    exact (hgo.1.mem id q).mp h3
  · intro hsub
    obtain ⟨c, hc, h1, s, h2⟩ := C04_group_found_partial ops h hrun hv hg hm hsub
    refine ⟨c, hc, h1, s, h2, ?_⟩
    obtain ⟨f', _, e2, e3, _⟩ := (RouteTable.mem_getMatches hv hr.tf).mp hc
    rw [h1] at e3; simp at e3; subst e3
    rw [e2] at h2
    rw [FMap.get_of_mem (hs.wf _) h2] at hgo
    exact (hgo.1.mem id q).mpr hsub

/-- What C05 demands of one leave after a history. -/
def LeaveIsPrecise (ops : List RouteOp) (g f : Str) (id : ClientId) : Prop :=
  ∃ t t', RouteTable.empty.run ops = some t ∧ t.unsubscribe (shareFilter g f) id = some t' ∧
    ∀ topic, ValidTopic topic → Matches f topic → ∀ id' q,
      (GroupMember t' topic g f id' q ↔ id' ≠ id ∧ GroupMember t topic g f id' q)

/-- Client 1 and 2 join, 2 leaves. -/
def exLeave : List RouteOp := [.sub (str "$share/g/x") 1 0, .sub (str "$share/g/x") 2 0,
  .unsub (str "$share/g/x") 2]

/-- The full C05 is false of the code: unsubscribing twice removes another member. -/
theorem C05_false : ¬ ∀ ops g f id, '/' ∉ g → LeaveIsPrecise ops g f id := by
  intro h
  obtain ⟨t, t', h1, h2, h3⟩ := h exLeave (str "g") (str "x") 2 (by decide)
  have key := (h3 (str "x") (by unfold ValidTopic; decide)
    ⟨.same _ .done, by decide⟩ 1 0).mpr ⟨by decide, ?_⟩
  · obtain ⟨c, hc, _⟩ := key
    have : ((RouteTable.empty.run exLeave).bind (·.unsubscribe (str "$share/g/x") 2)).map
        (fun t => (t.getMatches (str "x")).length) = some 0 := by decide
    rw [h1] at this
    simp only [Option.bind_some] at this
    rw [show str "$share/g/x" = shareFilter (str "g") (str "x") from rfl, h2] at this
    simp at this
    rw [this] at hc
    cases hc
  · have : (RouteTable.empty.run exLeave).map
        (fun t => (t.getMatches (str "x")).any fun c => decide (c.topicFilter = some (str "x")) &&
          c.groups.any fun g => decide (g.1 = str "g") && decide ((1, 0) ∈ g.2.items))
        = some true := by decide
    rw [h1] at this
    simp only [Option.map_some, Option.some.injEq, List.any_eq_true, Bool.and_eq_true,
      decide_eq_true_eq] at this
    obtain ⟨c, hc, e, g, hg, e2, e3⟩ := this
    exact ⟨c, hc, e, g.2, by rw [← e2]; exact hg, e3⟩

/-- **C05, partial**: holds if the history including this leave has no client that comes back to a
group it left while the group has lived on.  Missing: the remaining histories, where it is false
(`C05_false`). -/
theorem C05_leave_precise_partial (ops : List RouteOp) (g f : Str) (id : ClientId) (hg : '/' ∉ g)
    (h : NoRejoin (ops ++ [.unsub (shareFilter g f) id])) : LeaveIsPrecise ops g f id := by
  obtain ⟨t, hrun, _⟩ := run_noRejoin ops h.prefix
  obtain ⟨t', hrun', _⟩ := run_noRejoin _ h
  refine ⟨t, t', hrun, ?_, ?_⟩
  · rw [run_snoc, hrun] at hrun'; exact hrun'
  · intro topic hv hm id' q
    rw [groupMember_iff h.prefix hrun hv hm hg, groupMember_iff h hrun' hv hm hg, subscribed_snoc]
    simp only [SubState.step, true_and]
    by_cases e : id' = id <;> simp [e]

/-- The hypothesis of C05 is met by a non-trivial history: `exShared` up to the leave of client 1
from a group of three. -/
example : NoRejoin (exShared.take 3 ++ [.unsub (shareFilter (str "g") (str "x/+")) 1]) := by
  have h := exShared_noRejoin
  have e : exShared = exShared.take 3 ++ [.unsub (shareFilter (str "g") (str "x/+")) 1] ++
      exShared.drop 4 := by rfl
  intro pre op post e' hp
  exact h pre op (post ++ exShared.drop 4) (e.trans (by rw [e']; simp)) hp

end Akasa

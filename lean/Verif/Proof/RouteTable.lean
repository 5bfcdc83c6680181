import Verif.Spec.Route
import Verif.Proof.Route
import Verif.Proof.Shared
/-! Refinement of the routing table to the abstract subscription state. -/
namespace Akasa
open RouteNode

namespace RouteTable

/-- The table as a node (with empty content). -/
def root (t : RouteTable) : RouteNode := .mk RouteContent.empty t.nodes

@[simp] theorem root_nodes (t : RouteTable) : t.root.nodes = t.nodes := rfl
@[simp] theorem root_content (t : RouteTable) : t.root.content = RouteContent.empty := rfl

theorem subscribeShared_eq (t : RouteTable) (f : Str) (id : ClientId) (q : QoS) (g : Option Str) :
    t.subscribeShared f id q g =
      (t.root.insertL f id q g (levels f)).map fun n => ⟨n.nodes⟩ := by
  unfold subscribeShared
  rw [levels_split f, insertL]
  simp only [root_nodes, insert_eq_insertL]
  cases insertL ((FMap.get t.nodes (splitTopic f).1).getD RouteNode.new) f id q g
    (cursorLevels (splitTopic f).2) <;> rfl

theorem unsubscribeShared_eq (t : RouteTable) (f : Str) (id : ClientId) (g : Option Str) :
    t.unsubscribeShared f id g =
      (t.root.removeL id g (levels f)).map fun n => ⟨n.1.nodes⟩ := by
  unfold unsubscribeShared
  rw [levels_split f, removeL]
  simp only [root_nodes]
  cases FMap.get t.nodes (splitTopic f).1 with
  | none => rfl
  | some node =>
    simp only [remove_eq_removeL]
    rcases removeL node id g (cursorLevels (splitTopic f).2) with _ | ⟨_, _ | _⟩ <;> rfl

theorem root_contentAt_of {n : RouteNode} (h : n.content = RouteContent.empty) (r : List Str) :
    (root ⟨n.nodes⟩).contentAt r = n.contentAt r := by
  cases r with
  | nil => simp [h]
  | cons l ls => simp [contentAt_cons]

theorem root_nil (t : RouteTable) : t.root.contentAt [] = RouteContent.empty := rfl

theorem subscribeShared_some {t : RouteTable} {f : Str} {id : ClientId} {q : QoS} {g : Option Str}
    {c' : RouteContent} (h : (t.root.contentAt (levels f)).add f id q g = some c') :
    ∃ t', t.subscribeShared f id q g = some t' ∧
      ∀ r, t'.root.contentAt r = if r = levels f then c' else t.root.contentAt r := by
  obtain ⟨n', h1, h2⟩ := insertL_some h
  refine ⟨⟨n'.nodes⟩, by rw [subscribeShared_eq, h1]; rfl, ?_⟩
  intro r
  rw [root_contentAt_of, h2]
  have := h2 []
  rw [if_neg (Ne.symm (levels_ne_nil f))] at this
  simpa using this

theorem subscribeShared_none {t : RouteTable} {f : Str} {id : ClientId} {q : QoS} {g : Option Str}
    (h : (t.root.contentAt (levels f)).add f id q g = none) :
    t.subscribeShared f id q g = none := by
  rw [subscribeShared_eq, insertL_none h]; rfl

theorem unsubscribeShared_some {t : RouteTable} {f : Str} {id : ClientId} {g : Option Str}
    {c' : RouteContent} (hc : t.root.Clean)
    (h : (t.root.contentAt (levels f)).del id g = some c') :
    ∃ t', t.unsubscribeShared f id g = some t' ∧
      ∀ r, t'.root.contentAt r = if r = levels f then c' else t.root.contentAt r := by
  obtain ⟨n', b, h1, h2, _⟩ := removeL_some hc h
  refine ⟨⟨n'.nodes⟩, by rw [unsubscribeShared_eq, h1]; rfl, ?_⟩
  intro r
  rw [root_contentAt_of, h2]
  have := h2 []
  rw [if_neg (Ne.symm (levels_ne_nil f))] at this
  simpa using this

theorem unsubscribeShared_none {t : RouteTable} {f : Str} {id : ClientId} {g : Option Str}
    (h : (t.root.contentAt (levels f)).del id g = none) :
    t.unsubscribeShared f id g = none := by
  rw [unsubscribeShared_eq, removeL_none h]; rfl

/-! ### Lookup in the table -/

/-- Matches of a topic with their paths. -/
def tableMatchP (t : RouteTable) (topic : Str) : List (List Str × RouteContent) :=
  (match FMap.get t.nodes (splitTopic topic).1 with
    | some c => (c.matchP (cursorLevels (splitTopic topic).2)).map
        fun (x : List Str × RouteContent) => ((splitTopic topic).1 :: x.1, x.2)
    | none => []) ++
  (if topic.head? = some '$' then []
   else
    (match FMap.get t.nodes matchAll with
      | some c => c.pushContent.map fun x => ([matchAll], x)
      | none => []) ++
    (match FMap.get t.nodes matchOne with
      | some c => (c.matchP (cursorLevels (splitTopic topic).2)).map
          fun (x : List Str × RouteContent) => (matchOne :: x.1, x.2)
      | none => []))

theorem getMatches_eq_map (t : RouteTable) {topic : Str} (hv : ValidTopic topic) :
    t.getMatches topic = (t.tableMatchP topic).map (·.2) := by
  have hl : ∀ l ∈ levels topic, l ≠ matchAll := fun l hl => (hv.level_ne hl).1
  rw [levels_split] at hl
  have h1 : (splitTopic topic).1 ≠ matchAll := hl _ (by simp)
  have h2 : ∀ l ∈ cursorLevels (splitTopic topic).2, l ≠ matchAll := fun l h => hl l (by simp [h])
  unfold getMatches tableMatchP
  simp only [List.map_append]
  congr 1
  · cases FMap.get t.nodes (splitTopic topic).1 with
    | none => rfl
    | some c => simp only; rw [getMatches_eq _ _ _ h1 h2]; simp [Function.comp_def]
  · split
    · rfl
    · rw [List.map_append]
      congr 1
      · cases FMap.get t.nodes matchAll with
        | none => rfl
        | some c => simp only; rw [getMatches_all]; simp [Function.comp_def]
      · cases FMap.get t.nodes matchOne with
        | none => rfl
        | some c => simp only; rw [getMatches_eq _ _ _ (by decide) h2]; simp [Function.comp_def]

theorem tableMatchP_sublist (t : RouteTable) (topic : Str) :
    (t.tableMatchP topic).Sublist (t.root.matchP (levels topic)) := by
  rw [levels_split topic]
  rw [matchP]
  unfold tableMatchP
  simp only [root_nodes]
  rw [List.append_assoc]
  apply List.Sublist.append (List.Sublist.refl _)
  split
  · exact List.nil_sublist _
  · exact List.Sublist.refl _

theorem mem_tableMatchP {t : RouteTable} {topic : Str} (hv : ValidTopic topic)
    {p : List Str} {c : RouteContent} :
    (p, c) ∈ t.tableMatchP topic ↔
      LevelsMatch p (levels topic) ∧ c = t.root.contentAt p ∧ c.isEmpty = false ∧
        ¬ (topic.head? = some '$' ∧ (p.head? = some matchAll ∨ p.head? = some matchOne)) := by
  have hroot := mem_matchP (n := t.root) (ts := levels topic) (p := p) (c := c)
  constructor
  · intro h
    have h1 := hroot.mp ((tableMatchP_sublist t topic).subset h)
    refine ⟨h1.1, h1.2.1, h1.2.2, ?_⟩
    rintro ⟨hd, hp⟩
    unfold tableMatchP at h
    rw [if_pos hd, List.append_nil] at h
    have hne := hv.level_ne (l := (splitTopic topic).1) (by rw [levels_split]; simp)
    cases hg : FMap.get t.nodes (splitTopic topic).1 with
    | none => rw [hg] at h; simp at h
    | some d =>
      rw [hg] at h
      simp only [List.mem_map, Prod.mk.injEq] at h
      obtain ⟨a, _, rfl, _⟩ := h
      simp only [List.head?_cons, Option.some.injEq] at hp
      rcases hp with hp | hp
      · exact hne.1 hp
      · exact hne.2 hp
  · rintro ⟨h1, h2, h3, h4⟩
    have hm := hroot.mpr ⟨h1, h2, h3⟩
    by_cases hd : topic.head? = some '$'
    · unfold tableMatchP
      rw [if_pos hd, List.append_nil]
      rw [levels_split topic] at hm
      rw [matchP] at hm
      simp only [root_nodes, List.mem_append] at hm
      rcases hm with (hm | hm) | hm
      · exact hm
      · exfalso
        cases hg : FMap.get t.nodes matchAll with
        | none => rw [hg] at hm; simp at hm
        | some d =>
          rw [hg] at hm
          simp only [List.mem_map, Prod.mk.injEq] at hm
          obtain ⟨a, _, rfl, _⟩ := hm
          exact h4 ⟨hd, Or.inl rfl⟩
      · exfalso
        cases hg : FMap.get t.nodes matchOne with
        | none => rw [hg] at hm; simp at hm
        | some d =>
          rw [hg] at hm
          simp only [List.mem_map, Prod.mk.injEq] at hm
          obtain ⟨a, _, rfl, _⟩ := hm
          exact h4 ⟨hd, Or.inr rfl⟩
    · unfold tableMatchP
      rw [if_neg hd, ← List.append_assoc]
      rw [levels_split topic] at hm
      rw [matchP] at hm
      exact hm

theorem nodup_tableMatchP (t : RouteTable) {topic : Str} (hv : ValidTopic topic) :
    ((t.tableMatchP topic).map (·.1)).Nodup :=
  (nodup_matchP t.root (fun _ hl => hv.level_ne hl)).sublist
    ((tableMatchP_sublist t topic).map _)

/-- For a valid topic, exclusion on levels is exclusion on first characters. -/
theorem excl_iff {topic f : Str} (hv : ValidTopic topic)
    (hm : LevelsMatch (levels f) (levels topic)) :
    ((levels f).head? = some matchAll ∨ (levels f).head? = some matchOne) ↔
      (f.head? = some '+' ∨ f.head? = some '#') := by
  constructor
  · intro h
    cases e : levels f with
    | nil => exact absurd e (levels_ne_nil f)
    | cons l ls =>
      rw [e] at h
      simp only [List.head?_cons, Option.some.injEq] at h
      rcases h with h | h
      · subst h; right; exact head?_of_levels e
      · subst h; left; exact head?_of_levels e
  · intro h
    have key : ∀ ch, (ch = '+' ∨ ch = '#') → f.head? = some ch →
        ((levels f).head? = some matchAll ∨ (levels f).head? = some matchOne) := by
      intro ch hch hf
      obtain ⟨l, ls, e⟩ := levels_of_head? hf (by rcases hch with h | h <;> subst h <;> decide)
      rw [e] at hm ⊢
      obtain ⟨t0, ts, et⟩ : ∃ a b, levels topic = a :: b := by
        cases e2 : levels topic with
        | nil => exact absurd e2 (levels_ne_nil topic)
        | cons a b => exact ⟨a, b, rfl⟩
      rw [et] at hm
      rcases levelsMatch_cons_iff.mp hm with h | ⟨gs, h, _⟩ | ⟨gs, h, _⟩
      · left; simp at h; simp [h, matchAll]
      · right; simp only [List.cons.injEq] at h; simp [h.1]
      · exfalso
        simp only [List.cons.injEq] at h
        have hmem : ch ∈ topic := mem_levels_chars (l := t0) (by rw [et]; simp) (by rw [← h.1]; simp)
        rcases hch with h | h
        · subst h; exact hv.2 hmem
        · subst h; exact hv.1 hmem
    rcases h with h | h
    · exact key '+' (Or.inl rfl) h
    · exact key '#' (Or.inr rfl) h

/-- Lookup, in terms of filters. -/
theorem mem_getMatches {t : RouteTable} {topic : Str} (hv : ValidTopic topic) {c : RouteContent}
    (hf : ∀ p, (t.root.contentAt p).isEmpty = false → ∃ f, (t.root.contentAt p).topicFilter = some f ∧ levels f = p) :
    c ∈ t.getMatches topic ↔
      ∃ f, Matches f topic ∧ c = t.root.contentAt (levels f) ∧ c.topicFilter = some f ∧
        c.isEmpty = false := by
  rw [getMatches_eq_map t hv, List.mem_map]
  constructor
  · rintro ⟨⟨p, c'⟩, h, rfl⟩
    obtain ⟨h1, h2, h3, h4⟩ := (mem_tableMatchP hv).mp h
    simp only at h2 h3 ⊢
    subst h2
    obtain ⟨f, hf1, rfl⟩ := hf p h3
    refine ⟨f, ⟨h1, ?_⟩, rfl, hf1, h3⟩
    rintro ⟨hd, hw⟩
    exact h4 ⟨hd, (excl_iff hv h1).mpr hw⟩
  · rintro ⟨f, ⟨h1, h2⟩, h3, _, h5⟩
    refine ⟨(levels f, c), (mem_tableMatchP hv).mpr ⟨h1, h3, h5, ?_⟩, rfl⟩
    rintro ⟨hd, hw⟩
    exact h2 ⟨hd, (excl_iff hv h1).mp hw⟩

end RouteTable

/-! ### Invariant for plain subscriptions (any history) -/

/-- Plain part of the abstract state. -/
def plainPart (σ : SubState) : SubState := fun f id => if IsPlain f then σ f id else none

/-- The routing table represents the plain part of `σ`. -/
structure RInv (σ : SubState) (t : RouteTable) : Prop where
  clean : t.root.Clean
  tf : ∀ p, (t.root.contentAt p).isEmpty = false →
    ∃ f, (t.root.contentAt p).topicFilter = some f ∧ levels f = p
  clients : ∀ f id, (t.root.contentAt (levels f)).clients.get id = plainPart σ f id
  wf : ∀ p, FMap.WF (t.root.contentAt p).clients
  pruned : t.root.Pruned

theorem RInv.empty : RInv SubState.none RouteTable.empty := by
  have h : ∀ p, RouteTable.empty.root.contentAt p = RouteContent.empty := contentAt_new
  constructor
  · intro p _; exact h p
  · intro p hp; rw [h] at hp; cases hp
  · intro f id; rw [h]; simp [plainPart, SubState.none, RouteContent.empty]
  · intro p; rw [h]; exact FMap.wf_nil
  · exact pruned_new

theorem add_facts {c c' : RouteContent} {f : Str} {id : ClientId} {q : QoS} {g : Option Str}
    (h : c.add f id q g = some c') :
    c'.isEmpty = false ∧
    (c'.topicFilter = some (c.topicFilter.getD f)) ∧
    c'.clients = g.elim (c.clients.insert id q) (fun _ => c.clients) := by
  unfold RouteContent.add at h
  cases g with
  | none =>
    simp at h; subst h
    refine ⟨by simp [RouteContent.isEmpty, FMap.insert], ?_, rfl⟩
    simp only; cases c.topicFilter <;> rfl
  | some name =>
    simp only at h
    split at h
    · cases h
    · simp at h; subst h
      refine ⟨by simp [RouteContent.isEmpty, FMap.insert], ?_, rfl⟩
      simp only; cases c.topicFilter <;> rfl

theorem del_facts {c c' : RouteContent} {id : ClientId} {g : Option Str}
    (h : c.del id g = some c') :
    (c'.isEmpty = false → c'.topicFilter = c.topicFilter) ∧
    (c.isEmpty = true → c'.isEmpty = true) ∧
    c'.clients = g.elim (c.clients.erase id) (fun _ => c.clients) := by
  unfold RouteContent.del at h
  simp only [Option.map_eq_some_iff] at h
  obtain ⟨d, h1, h2⟩ := h
  have hd : d.topicFilter = c.topicFilter ∧ (c.isEmpty = true → d.isEmpty = true) ∧
      d.clients = g.elim (c.clients.erase id) (fun _ => c.clients) := by
    cases g with
    | none =>
      simp at h1; subst h1
      refine ⟨rfl, ?_, rfl⟩
      intro he
      obtain ⟨e1, e2⟩ := isEmpty_eq he
      simp [RouteContent.isEmpty, e1, e2, FMap.erase]
    | some name =>
      simp only at h1
      cases hg : c.groups.get name with
      | none => rw [hg] at h1; simp at h1; subst h1; exact ⟨rfl, fun h => h, rfl⟩
      | some sc =>
        rw [hg] at h1
        have hne : c.isEmpty = true → False := by
          intro he
          obtain ⟨_, e2⟩ := isEmpty_eq he
          rw [e2] at hg; simp at hg
        simp only at h1
        split at h1
        · cases h1
        · split at h1
          · simp at h1; subst h1; exact ⟨rfl, fun h => (hne h).elim, rfl⟩
          · simp at h1; subst h1; exact ⟨rfl, fun h => (hne h).elim, rfl⟩
  split at h2
  · rename_i he
    subst h2
    refine ⟨?_, fun _ => he, hd.2.2⟩
    intro hf
    have : ({ d with topicFilter := none } : RouteContent).isEmpty = d.isEmpty := rfl
    rw [this, he] at hf; cases hf
  · subst h2
    exact ⟨fun _ => hd.1, hd.2.1, hd.2.2⟩

/-- How a call on the table is split into group and filter. -/
def RouteOp.target (f : Str) : Str × Option Str :=
  match sharedInfo f with
  | some (g, sf) => (sf, some g)
  | none => (f, none)

theorem step_sub_eq (t : RouteTable) (f : Str) (id : ClientId) (q : QoS) :
    t.step (.sub f id q) = t.subscribeShared (RouteOp.target f).1 id q (RouteOp.target f).2 := by
  simp only [RouteTable.step, RouteTable.subscribe, RouteOp.target]
  cases sharedInfo f <;> rfl

theorem step_unsub_eq (t : RouteTable) (f : Str) (id : ClientId) :
    t.step (.unsub f id) = t.unsubscribeShared (RouteOp.target f).1 id (RouteOp.target f).2 := by
  simp only [RouteTable.step, RouteTable.unsubscribe, RouteOp.target]
  cases sharedInfo f <;> rfl

theorem target_plain {f : Str} (h : IsPlain f) : RouteOp.target f = (f, none) := by
  unfold IsPlain at h; simp [RouteOp.target, h]

theorem target_none {f : Str} (h : (RouteOp.target f).2 = none) : IsPlain f := by
  unfold RouteOp.target at h
  unfold IsPlain
  cases hs : sharedInfo f with
  | none => rfl
  | some x => rw [hs] at h; simp at h

theorem RInv.step {σ : SubState} {t t' : RouteTable} (h : RInv σ t) {op : RouteOp}
    (hs : t.step op = some t') : RInv (σ.step op) t' := by
  cases op with
  | sub f id q =>
    rw [step_sub_eq] at hs
    generalize htg : RouteOp.target f = tg at hs
    obtain ⟨sf, g⟩ := tg
    simp only at hs
    cases ha : (t.root.contentAt (levels sf)).add sf id q g with
    | none => rw [RouteTable.subscribeShared_none ha] at hs; cases hs
    | some c' =>
      obtain ⟨t2, e1, e2⟩ := RouteTable.subscribeShared_some ha
      rw [e1] at hs; simp at hs; subst hs
      obtain ⟨a1, a2, a3⟩ := add_facts ha
      constructor
      · intro p hp
        rw [e2] at hp ⊢
        split
        · rename_i e; rw [if_pos e, a1] at hp; cases hp
        · rename_i e; rw [if_neg e] at hp; exact h.clean p hp
      · intro p hp
        rw [e2] at hp ⊢
        split
        · rename_i e
          subst e
          cases htf : (t.root.contentAt (levels sf)).topicFilter with
          | none => exact ⟨sf, by rw [a2, htf]; rfl, rfl⟩
          | some f0 =>
            refine ⟨f0, by rw [a2, htf]; rfl, ?_⟩
            cases he : (t.root.contentAt (levels sf)).isEmpty with
            | true => rw [h.clean _ he] at htf; simp [RouteContent.empty] at htf
            | false =>
              obtain ⟨f1, h1, h2⟩ := h.tf _ he
              rw [htf] at h1; simp at h1; rw [h1]; exact h2
        · rename_i e; rw [if_neg e] at hp; exact h.tf p hp
      · intro f' id'
        rw [e2]
        cases g with
        | none =>
          have hp := target_none (f := f) (by rw [htg])
          rw [target_plain hp] at htg; simp at htg; subst htg
          simp only [Option.elim_none] at a3
          split
          · rename_i e
            have := levels_injective e; subst this
            rw [a3, FMap.get_insert, h.clients]
            simp only [plainPart, SubState.step, if_pos hp, true_and]
            by_cases e : id = id'
            · simp [e]
            · simp [e, Ne.symm e]
          · rename_i e
            rw [h.clients]
            have : f' ≠ f := fun e2 => e (by rw [e2])
            simp [plainPart, SubState.step, this]
        | some g0 =>
          simp only [Option.elim_some] at a3
          have hnp : ¬ IsPlain f := by
            intro hp; rw [target_plain hp] at htg; simp at htg
          have hold : (if levels f' = levels sf then c' else t.root.contentAt (levels f')).clients
              = (t.root.contentAt (levels f')).clients := by
            split
            · rename_i e; rw [a3, e]
            · rfl
          rw [hold, h.clients]
          simp only [plainPart, SubState.step]
          split
          · rename_i hp'
            have : f' ≠ f := fun e => hnp (e ▸ hp')
            simp [this]
          · rfl
      · intro p
        rw [e2]
        split
        · rw [a3]
          cases g with
          | none => exact FMap.wf_insert (h.wf _) _ _
          | some _ => exact h.wf _
        · exact h.wf p
      · rw [RouteTable.subscribeShared_eq] at e1
        cases hi : t.root.insertL sf id q g (levels sf) with
        | none => rw [hi] at e1; cases e1
        | some n' =>
          rw [hi] at e1; simp at e1; subst e1
          have := (insertL_pruned h.pruned hi).1
          exact pruned_mk (n := n') _ (fun l d hd => this.child hd)
  | unsub f id =>
    rw [step_unsub_eq] at hs
    generalize htg : RouteOp.target f = tg at hs
    obtain ⟨sf, g⟩ := tg
    simp only at hs
    cases ha : (t.root.contentAt (levels sf)).del id g with
    | none => rw [RouteTable.unsubscribeShared_none ha] at hs; cases hs
    | some c' =>
      obtain ⟨t2, e1, e2⟩ := RouteTable.unsubscribeShared_some h.clean ha
      rw [e1] at hs; simp at hs; subst hs
      obtain ⟨a1, a2, a3⟩ := del_facts ha
      constructor
      · intro p hp
        rw [e2] at hp ⊢
        split
        · rename_i e; rw [if_pos e] at hp; exact del_clean ha hp
        · rename_i e; rw [if_neg e] at hp; exact h.clean p hp
      · intro p hp
        rw [e2] at hp ⊢
        split
        · rename_i e
          rw [if_pos e] at hp
          subst e
          cases he : (t.root.contentAt (levels sf)).isEmpty with
          | true => rw [a2 he] at hp; cases hp
          | false =>
            obtain ⟨f1, h1, h2⟩ := h.tf _ he
            exact ⟨f1, by rw [a1 hp]; exact h1, h2⟩
        · rename_i e; rw [if_neg e] at hp; exact h.tf p hp
      · intro f' id'
        rw [e2]
        cases g with
        | none =>
          have hp := target_none (f := f) (by rw [htg])
          rw [target_plain hp] at htg; simp at htg; subst htg
          simp only [Option.elim_none] at a3
          split
          · rename_i e
            have := levels_injective e; subst this
            rw [a3, FMap.get_erase, h.clients]
            simp only [plainPart, SubState.step, if_pos hp, true_and]
            by_cases e : id = id'
            · simp [e]
            · simp [e, Ne.symm e]
          · rename_i e
            rw [h.clients]
            have : f' ≠ f := fun e2 => e (by rw [e2])
            simp [plainPart, SubState.step, this]
        | some g0 =>
          simp only [Option.elim_some] at a3
          have hnp : ¬ IsPlain f := by
            intro hp; rw [target_plain hp] at htg; simp at htg
          have hold : (if levels f' = levels sf then c' else t.root.contentAt (levels f')).clients
              = (t.root.contentAt (levels f')).clients := by
            split
            · rename_i e; rw [a3, e]
            · rfl
          rw [hold, h.clients]
          simp only [plainPart, SubState.step]
          split
          · rename_i hp'
            have : f' ≠ f := fun e => hnp (e ▸ hp')
            simp [this]
          · rfl
      · intro p
        rw [e2]
        split
        · rw [a3]
          cases g with
          | none => exact FMap.wf_erase (h.wf _) _
          | some _ => exact h.wf _
        · exact h.wf p
      · rw [RouteTable.unsubscribeShared_eq] at e1
        cases hi : t.root.removeL id g (levels sf) with
        | none => rw [hi] at e1; cases e1
        | some n' =>
          rw [hi] at e1; simp at e1; subst e1
          obtain ⟨n', b⟩ := n'
          have := (removeL_pruned h.pruned hi).1
          exact pruned_mk (n := n') _ (fun l d hd => this.child hd)

theorem RInv.run {σ : SubState} {t t' : RouteTable} (h : RInv σ t) {ops : List RouteOp}
    (hs : t.run ops = some t') : RInv (ops.foldl SubState.step σ) t' := by
  induction ops generalizing σ t with
  | nil => simp [RouteTable.run] at hs; subst hs; exact h
  | cons op ops ih =>
    simp only [RouteTable.run] at hs
    cases hst : t.step op with
    | none => rw [hst] at hs; cases hs
    | some t1 => rw [hst] at hs; exact ih (h.step hst) hs

end Akasa

import Verif.Spec.Retain
import Verif.Proof.Topic
import Verif.Proof.FMap
import Verif.Proof.Util
/-! Lemmas about the retained-message trie. -/
namespace Akasa
namespace RetainNode

@[simp] theorem content_mk (c : Option RetainContent) (ns) : (mk c ns).content = c := rfl
@[simp] theorem nodes_mk (c : Option RetainContent) (ns) : (mk c ns).nodes = ns := rfl

/-- Node reached by following a level path. -/
def find (n : RetainNode) : List Str → Option RetainNode
  | [] => some n
  | l :: ls => match FMap.get n.nodes l with
    | none => none
    | some c => find c ls

/-- Content stored under a level path. -/
def contentAt (n : RetainNode) (p : List Str) : Option RetainContent :=
  match n.find p with
  | none => none
  | some m => m.content

@[simp] theorem contentAt_nil (n : RetainNode) : n.contentAt [] = n.content := rfl

theorem contentAt_cons (n : RetainNode) (l : Str) (ls : List Str) :
    n.contentAt (l :: ls) = (FMap.get n.nodes l).elim none (·.contentAt ls) := by
  unfold contentAt
  simp only [find]
  cases FMap.get n.nodes l <;> rfl

theorem contentAt_new (p : List Str) : new.contentAt p = none := by
  cases p <;> simp [contentAt, find, new]

/-- Insertion with the topic already split. -/
def insertL (n : RetainNode) (c : RetainContent) : List Str → RetainNode
  | [] => mk (some c) n.nodes
  | l :: ls => mk n.content (FMap.insert n.nodes l (insertL ((FMap.get n.nodes l).getD new) c ls))

/-- Removal with the topic already split. -/
def removeL (n : RetainNode) : List Str → RetainNode
  | [] => mk none n.nodes
  | l :: ls => match FMap.get n.nodes l with
    | none => n
    | some node => n.putBack l (removeL node ls)

theorem insert_eq_insertL (n : RetainNode) (prev : Str) (cur : Option Str) (c : RetainContent) :
    n.insert prev cur c = n.insertL c (prev :: cursorLevels cur) := by
  induction h : cursorLen cur using Nat.strongRecOn generalizing n cur prev with
  | _ k ih =>
    unfold insert
    cases cur with
    | none => simp [cursorLevels, insertL]
    | some s =>
      rw [cursorLevels_some]
      simp only [insertL]
      rw [ih (cursorLen (splitTopic s).2) (by rw [← h]; exact splitTopic_cursorLen s) _ _ _ rfl]
      rfl

theorem remove_eq_removeL (n : RetainNode) (prev : Str) (cur : Option Str) :
    n.remove prev cur = n.removeL (prev :: cursorLevels cur) := by
  induction h : cursorLen cur using Nat.strongRecOn generalizing n cur prev with
  | _ k ih =>
    unfold remove
    simp only [removeL]
    cases hg : FMap.get n.nodes prev with
    | none => rfl
    | some node =>
      cases cur with
      | none => simp [cursorLevels, removeL]
      | some s =>
        rw [cursorLevels_some]
        simp only
        rw [ih (cursorLen (splitTopic s).2) (by rw [← h]; exact splitTopic_cursorLen s) _ _ _ rfl]

theorem contentAt_insertL (n : RetainNode) (c : RetainContent) (p r : List Str) :
    (n.insertL c p).contentAt r = if r = p then some c else n.contentAt r := by
  induction p generalizing n r with
  | nil =>
    cases r with
    | nil => simp [insertL]
    | cons a as => simp [insertL, contentAt_cons]
  | cons l ls ih =>
    cases r with
    | nil => simp [insertL]
    | cons a as =>
      simp only [insertL, contentAt_cons, nodes_mk, FMap.get_insert, List.cons.injEq]
      by_cases ha : l = a
      · subst ha
        simp only [if_true, true_and, Option.elim_some, ih]
        split
        · rfl
        · cases FMap.get n.nodes l with
          | none => simp [contentAt_new]
          | some m => simp
      · have : a ≠ l := fun e => ha e.symm
        simp [ha, this]

theorem contentAt_of_isEmpty {n : RetainNode} (h : n.isEmpty = true) (p : List Str) :
    n.contentAt p = none := by
  simp only [isEmpty, Bool.and_eq_true, Option.isNone_iff_eq_none, List.isEmpty_iff] at h
  cases p with
  | nil => simp [h.1]
  | cons l ls => simp [contentAt_cons, h.2]

theorem contentAt_putBack (n : RetainNode) (l : Str) (m : RetainNode) (r : List Str) :
    (n.putBack l m).contentAt r = match r with
      | [] => n.content
      | a :: as => if a = l then m.contentAt as else n.contentAt (a :: as) := by
  unfold putBack
  cases r with
  | nil => split <;> rfl
  | cons a as =>
    split
    · rename_i he
      simp only [contentAt_cons, nodes_mk]
      by_cases ha : a = l
      · subst ha; simp [FMap.get_erase_self, contentAt_of_isEmpty he]
      · simp [FMap.get_erase_ne _ (Ne.symm ha), ha]
    · simp only [contentAt_cons, nodes_mk]
      by_cases ha : a = l
      · subst ha; simp [FMap.get_insert_self]
      · simp [FMap.get_insert_ne _ _ (Ne.symm ha), ha]

theorem contentAt_removeL (n : RetainNode) (p r : List Str) :
    (n.removeL p).contentAt r = if r = p then none else n.contentAt r := by
  induction p generalizing n r with
  | nil =>
    cases r with
    | nil => simp [removeL]
    | cons a as => simp [removeL, contentAt_cons]
  | cons l ls ih =>
    simp only [removeL]
    cases hg : FMap.get n.nodes l with
    | none =>
      simp only
      split
      · rename_i e; subst e; simp [contentAt_cons, hg]
      · rfl
    | some node =>
      simp only
      rw [contentAt_putBack]
      cases r with
      | nil => simp
      | cons a as =>
        simp only [List.cons.injEq]
        by_cases ha : a = l
        · subst ha; simp [ih, contentAt_cons, hg]
        · simp [ha]

/-! ### Well-formedness -/

/-- All child maps have distinct keys. -/
inductive WFT : RetainNode → Prop
  | mk {c : Option RetainContent} {ns : List (Str × RetainNode)} :
      FMap.WF ns → (∀ x ∈ ns, WFT x.2) → WFT (.mk c ns)

theorem WFT.nodes {n : RetainNode} (h : WFT n) : FMap.WF n.nodes := by cases h; assumption
theorem WFT.child {n : RetainNode} (h : WFT n) : ∀ x ∈ n.nodes, WFT x.2 := by cases h; assumption

theorem wft_new : WFT new := .mk FMap.wf_nil (by simp)

theorem WFT.with {n : RetainNode} (h : WFT n) (c : Option RetainContent) : WFT (.mk c n.nodes) :=
  .mk h.nodes h.child

theorem mem_erase {κ α : Type} [DecidableEq κ] {m : FMap κ α} {k : κ} {x : κ × α}
    (h : x ∈ FMap.erase m k) : x ∈ m := by
  unfold FMap.erase at h
  exact (List.mem_filter.mp h).1

theorem WFT.insert {n m : RetainNode} (h : WFT n) (hm : WFT m) (l : Str) :
    WFT (.mk n.content (FMap.insert n.nodes l m)) := by
  refine .mk (FMap.wf_insert h.nodes _ _) ?_
  intro x hx
  unfold FMap.insert at hx
  rcases List.mem_cons.mp hx with e | hx
  · subst e; exact hm
  · exact h.child x (mem_erase hx)

theorem WFT.erase {n : RetainNode} (h : WFT n) (l : Str) :
    WFT (.mk n.content (FMap.erase n.nodes l)) :=
  .mk (FMap.wf_erase h.nodes _) (fun x hx => h.child x (mem_erase hx))

theorem WFT.getD {n : RetainNode} (h : WFT n) (l : Str) : WFT ((FMap.get n.nodes l).getD new) := by
  cases hg : FMap.get n.nodes l with
  | none => exact wft_new
  | some m => exact h.child (l, m) (FMap.mem_of_get hg)

theorem WFT.insertL {n : RetainNode} (h : WFT n) (c : RetainContent) (p : List Str) :
    WFT (n.insertL c p) := by
  induction p generalizing n with
  | nil => exact h.with _
  | cons l ls ih => exact h.insert (ih (h.getD l)) l

theorem WFT.removeL {n : RetainNode} (h : WFT n) (p : List Str) : WFT (n.removeL p) := by
  induction p generalizing n with
  | nil => exact h.with _
  | cons l ls ih =>
    simp only [RetainNode.removeL]
    cases hg : FMap.get n.nodes l with
    | none => exact h
    | some m =>
      simp only [putBack]
      split
      · exact h.erase l
      · exact h.insert (ih (h.child (l, m) (FMap.mem_of_get hg))) l

/-! ### Lookup -/

theorem ind {P : RetainNode → Prop} (h : ∀ c ns, (∀ x ∈ ns, P x.2) → P (mk c ns)) :
    ∀ n, P n
  | mk c ns => h c ns (fun x _hx => ind h x.2)
decreasing_by
  have := List.sizeOf_lt_of_mem _hx
  obtain ⟨l, n⟩ := x
  simp only [Prod.mk.sizeOf_spec, mk.sizeOf_spec] at this ⊢
  omega

/-- Own content with its (empty) path. -/
def ownP (c : Option RetainContent) : List (List Str × RetainContent) :=
  match c with
  | some c => [([], c)]
  | none => []

/-- All contents of a subtree with their paths. -/
def allP : RetainNode → List (List Str × RetainContent)
  | mk c ns => (ns.attach.flatMap fun x =>
      (allP x.1.2).map fun (y : List Str × RetainContent) => (x.1.1 :: y.1, y.2)) ++ ownP c
decreasing_by
  obtain ⟨⟨l, n⟩, hx⟩ := x
  have := List.sizeOf_lt_of_mem hx
  simp only [Prod.mk.sizeOf_spec, mk.sizeOf_spec] at this ⊢
  omega

theorem flatMap_attach {α β : Type} (l : List α) (f : α → List β) :
    (l.attach.flatMap fun x => f x.1) = l.flatMap f := by
  simp

theorem allP_mk (c : Option RetainContent) (ns : List (Str × RetainNode)) :
    (mk c ns).allP = (ns.flatMap fun x =>
      x.2.allP.map fun (y : List Str × RetainContent) => (x.1 :: y.1, y.2)) ++ ownP c := by
  rw [allP]
  congr 1
  exact flatMap_attach ns fun x =>
    x.2.allP.map fun (y : List Str × RetainContent) => (x.1 :: y.1, y.2)

theorem getAll_mk (w : Bool) (c : Option RetainContent) (ns : List (Str × RetainNode)) :
    (mk c ns).getAll w = (ns.flatMap fun x => x.2.getAll w) ++ push w c := by
  rw [getAll]
  congr 1
  induction ns with
  | nil => rfl
  | cons x xs ih =>
    obtain ⟨l, n⟩ := x
    rw [getAllNodes, ih, List.flatMap_cons, getAllNode]

/-- May be returned for a filter (`w`: it begins with a wildcard). -/
def ok (w : Bool) (c : RetainContent) : Bool := !(decide (c.topic.head? = some '$') && w)

theorem push_eq (w : Bool) (c : Option RetainContent) :
    push w c = ((ownP c).map (·.2)).filter (ok w) := by
  cases c with
  | none => rfl
  | some c =>
    simp only [push, ownP]
    by_cases h : c.topic.head? = some '$' <;> cases w <;> simp [h, ok, List.filter]

theorem getAll_eq (w : Bool) (n : RetainNode) :
    n.getAll w = (n.allP.map (·.2)).filter (ok w) := by
  induction n using ind with
  | h c ns ih =>
    rw [getAll_mk, allP_mk, List.map_append, List.filter_append, push_eq]
    congr 1
    induction ns with
    | nil => rfl
    | cons x xs ih2 =>
      rw [List.flatMap_cons, List.flatMap_cons, List.map_append, List.filter_append,
        ih x (by simp), ih2 (fun y hy => ih y (by simp [hy]))]
      simp [Function.comp_def]

/-- Lookup with paths. -/
def matchP (n : RetainNode) : List Str → List (List Str × RetainContent)
  | [] => ownP n.content
  | l :: ls =>
    if l = matchAll then n.allP
    else if l = matchOne then n.nodes.flatMap fun x =>
      (matchP x.2 ls).map fun (y : List Str × RetainContent) => (x.1 :: y.1, y.2)
    else match FMap.get n.nodes l with
      | none => []
      | some m => (matchP m ls).map fun (y : List Str × RetainContent) => (l :: y.1, y.2)

theorem concatOpt_map {α : Type} (l : List α) (f : α → Option (List RetainContent))
    (g : α → List RetainContent) (h : ∀ x ∈ l, f x = some (g x)) :
    concatOpt (l.map f) = some (l.flatMap g) := by
  induction l with
  | nil => rfl
  | cons x xs ih =>
    rw [List.map_cons, h x (by simp), concatOpt, ih (fun y hy => h y (by simp [hy]))]
    simp

theorem filter_flatMap {α β : Type} (l : List α) (f : α → List β) (p : β → Bool) :
    (l.flatMap f).filter p = l.flatMap fun x => (f x).filter p := by
  induction l with
  | nil => rfl
  | cons x xs ih => simp [List.flatMap_cons, List.filter_append, ih]

theorem map_flatMap' {α β γ : Type} (l : List α) (f : α → List β) (g : β → γ) :
    (l.flatMap f).map g = l.flatMap fun x => (f x).map g := by
  induction l with
  | nil => rfl
  | cons x xs ih => simp [List.flatMap_cons, ih]

theorem getMatches_eq (n : RetainNode) (prev : Str) (cur : Option Str) (w : Bool)
    (hv : ValidFilterLevels (prev :: cursorLevels cur)) :
    n.getMatches prev cur w =
      some (((n.matchP (prev :: cursorLevels cur)).map (·.2)).filter (ok w)) := by
  induction h : cursorLen cur using Nat.strongRecOn generalizing n cur prev with
  | _ k ih =>
    unfold getMatches
    by_cases h1 : prev = matchAll
    · subst h1
      have hnil : cursorLevels cur = [] := by
        rcases hv.1 with e | ⟨_, e⟩ | e
        · exact absurd e (by decide)
        · exact e
        · exact absurd e.1 (by decide)
      cases cur with
      | some s => exact absurd hnil (by rw [cursorLevels_some]; simp)
      | none => simp [matchP, getAll_eq]
    · rw [if_neg h1]
      by_cases h2 : prev = matchOne
      · subst h2
        rw [if_pos rfl]
        cases cur with
        | none =>
          simp only [cursorLevels, matchP, if_neg h1, if_true, push_eq]
          rw [map_flatMap', filter_flatMap]
          simp [Function.comp_def]
        | some s =>
          simp only
          have hv2 := hv.2
          rw [cursorLevels_some] at hv2
          rw [concatOpt_map _ _ (fun x => ((x.2.matchP (cursorLevels (some s))).map (·.2)).filter (ok w))
            (fun x _ => by
              rw [cursorLevels_some]
              exact ih (cursorLen (splitTopic s).2) (by rw [← h]; exact splitTopic_cursorLen s)
                x.2 _ _ hv2 rfl)]
          simp only [matchP, if_neg h1, if_true]
          rw [map_flatMap', filter_flatMap]
          simp [Function.comp_def]
      · rw [if_neg h2]
        cases hg : FMap.get n.nodes prev with
        | none => simp [matchP, h1, h2, hg]
        | some m =>
          cases cur with
          | none => simp [matchP, h1, h2, hg, cursorLevels, push_eq, Function.comp_def]
          | some s =>
            simp only
            have hv2 := hv.2
            rw [cursorLevels_some] at hv2
            rw [ih (cursorLen (splitTopic s).2) (by rw [← h]; exact splitTopic_cursorLen s)
              m _ _ hv2 rfl]
            rw [cursorLevels_some]
            have : n.matchP (prev :: (splitTopic s).1 :: cursorLevels (splitTopic s).2) =
                (m.matchP ((splitTopic s).1 :: cursorLevels (splitTopic s).2)).map
                  fun (y : List Str × RetainContent) => (prev :: y.1, y.2) := by
              rw [matchP, if_neg h1, if_neg h2, hg]
            rw [this, List.map_map]
            rfl

theorem mem_ownP {c : Option RetainContent} {p : List Str} {d : RetainContent} :
    (p, d) ∈ ownP c ↔ p = [] ∧ c = some d := by
  cases c with
  | none => simp [ownP]
  | some c => simp [ownP, eq_comm]

theorem mem_children {n : RetainNode} (hw : FMap.WF n.nodes) {f : RetainNode → List (List Str × RetainContent)}
    {p : List Str} {d : RetainContent} :
    (p, d) ∈ (n.nodes.flatMap fun x => (f x.2).map fun (y : List Str × RetainContent) => (x.1 :: y.1, y.2)) ↔
      ∃ l q m, p = l :: q ∧ FMap.get n.nodes l = some m ∧ (q, d) ∈ f m := by
  simp only [List.mem_flatMap, List.mem_map, Prod.mk.injEq]
  constructor
  · rintro ⟨⟨l, m⟩, hx, ⟨q, e⟩, h, rfl, rfl⟩
    exact ⟨l, q, m, rfl, FMap.get_of_mem hw hx, h⟩
  · rintro ⟨l, q, m, rfl, hg, h⟩
    exact ⟨(l, m), FMap.mem_of_get hg, (q, d), h, rfl, rfl⟩

theorem mem_allP {n : RetainNode} (hw : WFT n) {p : List Str} {d : RetainContent} :
    (p, d) ∈ n.allP ↔ n.contentAt p = some d := by
  induction n using ind generalizing p with
  | h c ns ih =>
    rw [allP_mk, List.mem_append, mem_ownP]
    have hmc := mem_children (n := mk c ns) hw.nodes (f := allP) (p := p) (d := d)
    simp only [nodes_mk] at hmc
    rw [hmc]
    cases p with
    | nil => simp
    | cons l q =>
      rw [contentAt_cons]
      simp only [nodes_mk, List.cons.injEq]
      constructor
      · rintro (⟨l', q', m, ⟨rfl, rfl⟩, hg, h⟩ | h)
        · rw [hg]
          exact (ih (l, m) (FMap.mem_of_get hg) (hw.child (l, m) (FMap.mem_of_get hg))).mp h
        · simp at h
      · intro h
        cases hg : FMap.get ns l with
        | none => rw [hg] at h; simp at h
        | some m =>
          rw [hg] at h
          exact Or.inl ⟨l, q, m, ⟨rfl, rfl⟩, hg,
            (ih (l, m) (FMap.mem_of_get hg) (hw.child (l, m) (FMap.mem_of_get hg))).mpr h⟩

theorem levelsMatch_cons {l : Str} {ls ps : List Str} (hv : ValidFilterLevels (l :: ls)) :
    LevelsMatch (l :: ls) ps ↔
      if l = matchAll then True
      else ∃ a as, ps = a :: as ∧ (l = matchOne ∨ l = a) ∧ LevelsMatch ls as := by
  split
  · rename_i e
    subst e
    have : ls = [] := by
      rcases hv.1 with e | ⟨_, e⟩ | e
      · exact absurd e (by decide)
      · exact e
      · exact absurd e.1 (by decide)
    subst this
    exact ⟨fun _ => trivial, fun _ => .hash ps⟩
  · rename_i hne
    constructor
    · intro h
      cases h with
      | hash => exact absurd rfl hne
      | plus t h => exact ⟨_, _, rfl, Or.inl rfl, h⟩
      | same l h => exact ⟨_, _, rfl, Or.inr rfl, h⟩
    · rintro ⟨a, as, rfl, e | e, h⟩
      · subst e; exact .plus a h
      · subst e; exact .same l h

theorem mem_matchP {n : RetainNode} (hw : WFT n) {fs : List Str} (hv : ValidFilterLevels fs)
    {p : List Str} {d : RetainContent} :
    (p, d) ∈ n.matchP fs ↔ LevelsMatch fs p ∧ n.contentAt p = some d := by
  induction fs generalizing n p with
  | nil =>
    rw [matchP, mem_ownP]
    constructor
    · rintro ⟨rfl, h⟩; exact ⟨.done, h⟩
    · rintro ⟨h1, h2⟩
      cases h1
      exact ⟨rfl, h2⟩
  | cons l ls ih =>
    rw [levelsMatch_cons hv, matchP]
    by_cases h1 : l = matchAll
    · simp only [if_pos h1, true_and]; exact mem_allP hw
    · simp only [if_neg h1]
      by_cases h2 : l = matchOne
      · rw [if_pos h2, mem_children hw.nodes (f := fun m => m.matchP ls)]
        constructor
        · rintro ⟨a, q, m, rfl, hg, h⟩
          have := (ih (hw.child (a, m) (FMap.mem_of_get hg)) hv.2).mp h
          exact ⟨⟨a, q, rfl, Or.inl h2, this.1⟩, by rw [contentAt_cons, hg]; exact this.2⟩
        · rintro ⟨⟨a, as, rfl, _, h3⟩, h4⟩
          rw [contentAt_cons] at h4
          cases hg : FMap.get n.nodes a with
          | none => rw [hg] at h4; simp at h4
          | some m =>
            rw [hg] at h4
            exact ⟨a, as, m, rfl, hg, (ih (hw.child (a, m) (FMap.mem_of_get hg)) hv.2).mpr ⟨h3, h4⟩⟩
      · rw [if_neg h2]
        cases hg : FMap.get n.nodes l with
        | none =>
          constructor
          · intro h; cases h
          · rintro ⟨⟨a, as, rfl, h, _⟩, h4⟩
            rcases h with h | h
            · exact absurd h h2
            · subst h; rw [contentAt_cons, hg] at h4; simp at h4
        | some m =>
          simp only [List.mem_map, Prod.mk.injEq]
          constructor
          · rintro ⟨⟨q, e⟩, h, rfl, rfl⟩
            have := (ih (hw.child (l, m) (FMap.mem_of_get hg)) hv.2).mp h
            exact ⟨⟨l, q, rfl, Or.inr rfl, this.1⟩, by rw [contentAt_cons, hg]; exact this.2⟩
          · rintro ⟨⟨a, as, rfl, h, h3⟩, h4⟩
            rcases h with h | h
            · exact absurd h h2
            · subst h
              rw [contentAt_cons, hg] at h4
              exact ⟨(as, d), (ih (hw.child (l, m) (FMap.mem_of_get hg)) hv.2).mpr ⟨h3, h4⟩, rfl, rfl⟩

/-! ### Each path once -/

/-- Distinct paths. -/
abbrev PathsDistinct (l : List (List Str × RetainContent)) : Prop := l.Pairwise fun a b => a.1 ≠ b.1

theorem distinct_ownP (c : Option RetainContent) : PathsDistinct (ownP c) := by
  cases c <;> simp [ownP, PathsDistinct]

theorem distinct_children {ns : List (Str × RetainNode)} (hw : FMap.WF ns)
    {f : RetainNode → List (List Str × RetainContent)} (hf : ∀ x ∈ ns, PathsDistinct (f x.2)) :
    PathsDistinct (ns.flatMap fun x =>
      (f x.2).map fun (y : List Str × RetainContent) => (x.1 :: y.1, y.2)) := by
  unfold PathsDistinct
  rw [List.pairwise_flatMap]
  constructor
  · intro x hx
    rw [List.pairwise_map]
    exact (hf x hx).imp (fun h e => h (by simpa using e))
  · unfold FMap.WF FMap.keys List.Nodup at hw
    rw [List.pairwise_map] at hw
    refine hw.imp ?_
    intro a b hne x hx y hy e
    simp only [List.mem_map] at hx hy
    obtain ⟨_, _, rfl⟩ := hx
    obtain ⟨_, _, rfl⟩ := hy
    simp at e
    exact hne e.1

theorem distinct_allP {n : RetainNode} (hw : WFT n) : PathsDistinct n.allP := by
  induction n using ind with
  | h c ns ih =>
    rw [allP_mk]
    unfold PathsDistinct
    rw [List.pairwise_append]
    refine ⟨distinct_children hw.nodes (fun x hx => ih x hx (hw.child x hx)), distinct_ownP c, ?_⟩
    rintro ⟨p, d⟩ ha ⟨q, e⟩ hb
    have hmc := (mem_children (n := mk c ns) hw.nodes (f := allP) (p := p) (d := d)).mp ha
    obtain ⟨l, r, m, rfl, _⟩ := hmc
    have := mem_ownP.mp hb
    rw [this.1]; simp

theorem distinct_matchP {n : RetainNode} (hw : WFT n) (fs : List Str) :
    PathsDistinct (n.matchP fs) := by
  induction fs generalizing n with
  | nil => exact distinct_ownP _
  | cons l ls ih =>
    rw [matchP]
    split
    · exact distinct_allP hw
    · split
      · exact distinct_children (f := fun m => m.matchP ls) hw.nodes (fun x hx => ih (hw.child x hx))
      · cases hg : FMap.get n.nodes l with
        | none => exact List.Pairwise.nil
        | some m =>
          simp only
          unfold PathsDistinct
          rw [List.pairwise_map]
          exact (ih (hw.child (l, m) (FMap.mem_of_get hg))).imp (fun h e => h (by simpa using e))

/-! ### No leak -/

/-- Something is stored below. -/
def Live (n : RetainNode) : Prop := ∃ p c, n.contentAt p = some c

/-- Every proper descendant is live. -/
def Pruned (n : RetainNode) : Prop := ∀ p m, p ≠ [] → n.find p = some m → m.Live

theorem find_cons (n : RetainNode) (l : Str) (ls : List Str) :
    n.find (l :: ls) = match FMap.get n.nodes l with
      | none => none
      | some c => c.find ls := rfl

theorem Pruned.child {n : RetainNode} (h : n.Pruned) {l : Str} {c : RetainNode}
    (hg : FMap.get n.nodes l = some c) : c.Live ∧ c.Pruned := by
  refine ⟨h [l] c (by simp) (by simp [find, hg]), ?_⟩
  intro p m hp hm
  exact h (l :: p) m (by simp) (by simp [find, hg, hm])

theorem pruned_mk (c : Option RetainContent) {ns : List (Str × RetainNode)}
    (h : ∀ l d, FMap.get ns l = some d → d.Live ∧ d.Pruned) : (mk c ns).Pruned := by
  intro p m hp hm
  cases p with
  | nil => exact absurd rfl hp
  | cons l ls =>
    rw [find_cons] at hm
    simp only [nodes_mk] at hm
    cases hg : FMap.get ns l with
    | none => rw [hg] at hm; cases hm
    | some d =>
      rw [hg] at hm
      simp only at hm
      cases ls with
      | nil => simp [find] at hm; subst hm; exact (h l d hg).1
      | cons a as => exact (h l d hg).2 (a :: as) m (by simp) hm

theorem pruned_new : new.Pruned := by
  intro p m hp hm
  cases p with
  | nil => exact absurd rfl hp
  | cons l ls => simp [find, new] at hm

/-- A pruned node that is not empty is live. -/
theorem live_of_not_empty {n : RetainNode} (hp : n.Pruned) (h : n.isEmpty = false) : n.Live := by
  cases hc : n.content with
  | some c => exact ⟨[], c, hc⟩
  | none =>
    cases hn : n.nodes with
    | nil => simp [isEmpty, hc, hn] at h
    | cons x xs =>
      have hg : FMap.get n.nodes x.1 = some x.2 := by rw [hn, FMap.get_cons]; simp
      obtain ⟨p, c, h⟩ := (hp.child hg).1
      exact ⟨x.1 :: p, c, by rw [contentAt_cons, hg]; exact h⟩

theorem insertL_pruned {n : RetainNode} (hp : n.Pruned) (c : RetainContent) (p : List Str) :
    (n.insertL c p).Pruned := by
  induction p generalizing n with
  | nil => exact pruned_mk _ (fun l d hg => hp.child hg)
  | cons l ls ih =>
    apply pruned_mk
    intro a d hg
    rw [FMap.get_insert] at hg
    split at hg
    · simp at hg; subst hg
      refine ⟨⟨ls, c, by rw [contentAt_insertL]; simp⟩, ih ?_⟩
      cases hg : FMap.get n.nodes l with
      | none => exact pruned_new
      | some m => exact (hp.child hg).2
    · exact hp.child hg

theorem removeL_pruned {n : RetainNode} (hp : n.Pruned) (p : List Str) : (n.removeL p).Pruned := by
  induction p generalizing n with
  | nil => exact pruned_mk _ (fun l d hg => hp.child hg)
  | cons l ls ih =>
    simp only [removeL]
    cases hg : FMap.get n.nodes l with
    | none => exact hp
    | some m =>
      simp only [putBack]
      split
      · apply pruned_mk
        intro a d hd
        rw [FMap.get_erase] at hd
        split at hd
        · cases hd
        · exact hp.child hd
      · rename_i he
        apply pruned_mk
        intro a d hd
        rw [FMap.get_insert] at hd
        split at hd
        · simp at hd; subst hd
          have := ih (hp.child hg).2
          refine ⟨live_of_not_empty this ?_, this⟩
          cases h : (m.removeL ls).isEmpty
          · rfl
          · exact absurd h he
        · exact hp.child hd

theorem find_append {n m : RetainNode} {p r : List Str} (h : n.find p = some m) :
    n.find (p ++ r) = m.find r := by
  induction p generalizing n with
  | nil => simp [find] at h; subst h; rfl
  | cons l ls ih =>
    rw [find_cons] at h
    rw [List.cons_append, find_cons]
    cases hg : FMap.get n.nodes l with
    | none => rw [hg] at h; cases h
    | some c => rw [hg] at h; simp only at h ⊢; exact ih h

theorem find_prefix {n : RetainNode} {p r : List Str} (h : ∃ m, n.find (p ++ r) = some m) :
    ∃ m, n.find p = some m := by
  induction p generalizing n with
  | nil => exact ⟨n, rfl⟩
  | cons l ls ih =>
    obtain ⟨m, h⟩ := h
    rw [List.cons_append, find_cons] at h
    rw [find_cons]
    cases hg : FMap.get n.nodes l with
    | none => rw [hg] at h; cases h
    | some c => rw [hg] at h; exact ih ⟨m, h⟩

theorem nodeAt_find {n : RetainNode} {p : List Str} (hp : p ≠ []) :
    RetainNodeAt n.nodes p ↔ ∃ m, n.find p = some m := by
  induction p generalizing n with
  | nil => exact absurd rfl hp
  | cons l ls ih =>
    rw [find_cons]
    constructor
    · intro h
      cases h with
      | here hg => rw [hg]; exact ⟨_, rfl⟩
      | down hg hrest =>
        rw [hg]
        cases ls with
        | nil => exact ⟨_, rfl⟩
        | cons a b => exact (ih (by simp)).mp hrest
    · intro ⟨m, h⟩
      cases hg : FMap.get n.nodes l with
      | none => rw [hg] at h; cases h
      | some c =>
        rw [hg] at h
        cases ls with
        | nil => exact .here hg
        | cons a b => exact .down hg ((ih (by simp)).mpr ⟨m, h⟩)

end RetainNode

open RetainNode

theorem retained_snoc (h : List RetainContent) (c : RetainContent) (t : Str) :
    retained (h ++ [c]) t =
      if c.topic = t then (if c.payload = [] then none else some c) else retained h t := by
  unfold retained
  rw [List.filter_append]
  by_cases e : c.topic = t
  · simp [e]
  · simp [e]

/-- The store represents the history. -/
structure RetInv (h : List RetainContent) (t : RetainTable) : Prop where
  wft : WFT t.inner
  pruned : t.inner.Pruned
  content : ∀ topic, t.inner.contentAt (levels topic) = retained h topic
  path : ∀ p c, t.inner.contentAt p = some c → p = levels c.topic
  root : t.inner.content = none

theorem RetInv.empty : RetInv [] RetainTable.empty := by
  refine ⟨wft_new, pruned_new, ?_, ?_, rfl⟩
  · intro t; exact contentAt_new _
  · intro p c h; rw [show RetainTable.empty.inner = new from rfl, contentAt_new] at h; cases h

theorem RetInv.publish {h : List RetainContent} {t : RetainTable} (hi : RetInv h t)
    (c : RetainContent) : RetInv (h ++ [c]) (t.publish c) := by
  unfold RetainTable.publish
  by_cases hp : c.payload = []
  · rw [if_pos (by simp [hp])]
    have e : (t.remove c.topic).inner = t.inner.removeL (levels c.topic) := by
      unfold RetainTable.remove
      rw [remove_eq_removeL, ← levels_split]
    constructor
    · rw [e]; exact hi.wft.removeL _
    · rw [e]; exact removeL_pruned hi.pruned _
    · intro topic
      rw [e, contentAt_removeL, retained_snoc, hi.content]
      by_cases et : c.topic = topic
      · simp [et, hp]
      · have : levels topic ≠ levels c.topic := fun e => et (levels_injective e).symm
        simp [this, et]
    · intro p d
      rw [e, contentAt_removeL]
      split
      · intro h; cases h
      · exact hi.path p d
    · rw [e]
      have := contentAt_removeL t.inner (levels c.topic) []
      rw [if_neg (Ne.symm (levels_ne_nil _))] at this
      simpa [hi.root] using this
  · rw [if_neg (by simp [hp])]
    have e : (t.insert c).inner = t.inner.insertL c (levels c.topic) := by
      unfold RetainTable.insert
      rw [insert_eq_insertL, ← levels_split]
    constructor
    · rw [e]; exact hi.wft.insertL _ _
    · rw [e]; exact insertL_pruned hi.pruned _ _
    · intro topic
      rw [e, contentAt_insertL, retained_snoc, hi.content]
      by_cases et : c.topic = topic
      · simp [et, hp]
      · have : levels topic ≠ levels c.topic := fun e => et (levels_injective e).symm
        simp [this, et]
    · intro p d
      rw [e, contentAt_insertL]
      split
      · rename_i hp; intro h; simp at h; rw [hp, h]
      · exact hi.path p d
    · rw [e]
      have := contentAt_insertL t.inner c (levels c.topic) []
      rw [if_neg (Ne.symm (levels_ne_nil _))] at this
      simpa [hi.root] using this

theorem RetInv.run (h : List RetainContent) : RetInv h (RetainTable.empty.run h) := by
  induction h using snoc_induction with
  | nil => exact RetInv.empty
  | snoc h c ih =>
    rw [show RetainTable.empty.run (h ++ [c]) = (RetainTable.empty.run h).publish c by
      simp [RetainTable.run]]
    exact ih.publish c

end Akasa

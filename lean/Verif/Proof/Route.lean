import Verif.Model.Route
import Verif.Proof.Topic
/-! Lemmas about the routing trie: paths, contents, insertion, removal, lookup. -/
namespace Akasa
namespace RouteNode

/-- Node reached by following a level path. -/
def find (n : RouteNode) : List Str → Option RouteNode
  | [] => some n
  | l :: ls => match FMap.get n.nodes l with
    | none => none
    | some c => find c ls

/-- Content stored under a level path (empty if there is no node). -/
def contentAt (n : RouteNode) (p : List Str) : RouteContent :=
  match n.find p with
  | none => RouteContent.empty
  | some m => m.content

/-- Insertion with the filter already split into levels. -/
def insertL (n : RouteNode) (tf : Str) (id : ClientId) (qos : QoS) (group : Option Str) :
    List Str → Option RouteNode
  | [] => match n.content.add tf id qos group with
    | none => none
    | some c => some (mk c n.nodes)
  | l :: ls =>
    match insertL ((FMap.get n.nodes l).getD new) tf id qos group ls with
    | none => none
    | some child => some (mk n.content (FMap.insert n.nodes l child))

/-- Removal with the filter already split into levels. -/
def removeL (n : RouteNode) (id : ClientId) (group : Option Str) :
    List Str → Option (RouteNode × Bool)
  | [] => match n.content.del id group with
    | none => none
    | some c => some (mk c n.nodes, c.isEmpty && n.nodes.isEmpty)
  | l :: ls =>
    match FMap.get n.nodes l with
    | none => some (n, false)
    | some child =>
      match removeL child id group ls with
      | none => none
      | some (_, true) =>
        some (mk n.content (FMap.erase n.nodes l), n.content.isEmpty && (FMap.erase n.nodes l).isEmpty)
      | some (child', false) => some (mk n.content (FMap.insert n.nodes l child'), false)

theorem insert_eq_insertL (n : RouteNode) (tf : Str) (cur : Option Str) (id : ClientId) (qos : QoS)
    (group : Option Str) :
    n.insert tf cur id qos group = n.insertL tf id qos group (cursorLevels cur) := by
  induction h : cursorLen cur using Nat.strongRecOn generalizing n cur with
  | _ k ih =>
    cases cur with
    | none => unfold insert; simp only [cursorLevels, insertL]; rfl
    | some s =>
      unfold insert
      rw [cursorLevels_some]
      simp only [insertL]
      rw [ih (cursorLen (splitTopic s).2) (by rw [← h]; exact splitTopic_cursorLen s) _ _ rfl]
      rfl

theorem remove_eq_removeL (n : RouteNode) (cur : Option Str) (id : ClientId) (group : Option Str) :
    n.remove cur id group = n.removeL id group (cursorLevels cur) := by
  induction h : cursorLen cur using Nat.strongRecOn generalizing n cur with
  | _ k ih =>
    cases cur with
    | none => unfold remove; simp only [cursorLevels, removeL]; rfl
    | some s =>
      unfold remove
      rw [cursorLevels_some]
      simp only [removeL]
      cases hg : FMap.get n.nodes (splitTopic s).1 with
      | none => simp only
      | some child =>
        simp only
        rw [ih (cursorLen (splitTopic s).2) (by rw [← h]; exact splitTopic_cursorLen s) _ _ rfl]
        rcases removeL child id group (cursorLevels (splitTopic s).2) with _ | ⟨_, _ | _⟩ <;> rfl

@[simp] theorem contentAt_nil (n : RouteNode) : n.contentAt [] = n.content := rfl

theorem contentAt_cons (n : RouteNode) (l : Str) (ls : List Str) :
    n.contentAt (l :: ls) = ((FMap.get n.nodes l).getD new).contentAt ls := by
  unfold contentAt
  simp only [find]
  cases FMap.get n.nodes l with
  | some c => simp
  | none =>
    cases ls with
    | nil => rfl
    | cons a as => simp [find, new, nodes]

@[simp] theorem content_mk (c : RouteContent) (ns) : (mk c ns).content = c := rfl
@[simp] theorem nodes_mk (c : RouteContent) (ns) : (mk c ns).nodes = ns := rfl

theorem contentAt_new (p : List Str) : new.contentAt p = RouteContent.empty := by
  cases p <;> simp [contentAt, find, new]

/-- Effect of an insertion on every path. -/
theorem insertL_some {n : RouteNode} {tf : Str} {id : ClientId} {qos : QoS} {g : Option Str}
    {p : List Str} {c' : RouteContent} (h : (n.contentAt p).add tf id qos g = some c') :
    ∃ n', n.insertL tf id qos g p = some n' ∧
      ∀ r, n'.contentAt r = if r = p then c' else n.contentAt r := by
  induction p generalizing n with
  | nil =>
    simp only [contentAt_nil] at h
    refine ⟨mk c' n.nodes, by simp [insertL, h], ?_⟩
    intro r
    cases r with
    | nil => simp
    | cons a as => simp [contentAt_cons]
  | cons l ls ih =>
    rw [contentAt_cons] at h
    obtain ⟨child, h1, h2⟩ := ih h
    refine ⟨mk n.content (FMap.insert n.nodes l child), by simp [insertL, h1], ?_⟩
    intro r
    cases r with
    | nil => simp
    | cons a as =>
      simp only [contentAt_cons, nodes_mk, FMap.get_insert, List.cons.injEq]
      by_cases ha : l = a
      · subst ha; simp [h2]
      · have : a ≠ l := fun e => ha e.symm
        simp [ha, this]

theorem insertL_none {n : RouteNode} {tf : Str} {id : ClientId} {qos : QoS} {g : Option Str}
    {p : List Str} (h : (n.contentAt p).add tf id qos g = none) :
    n.insertL tf id qos g p = none := by
  induction p generalizing n with
  | nil => simp only [contentAt_nil] at h; simp [insertL, h]
  | cons l ls ih =>
    rw [contentAt_cons] at h
    simp [insertL, ih h]

/-- Every content that has no clients and no groups is the pristine one. -/
def Clean (n : RouteNode) : Prop :=
  ∀ p, (n.contentAt p).isEmpty = true → n.contentAt p = RouteContent.empty

theorem Clean.child {n : RouteNode} (h : n.Clean) (l : Str) :
    ((FMap.get n.nodes l).getD new).Clean := by
  intro p hp
  have := h (l :: p)
  rw [contentAt_cons] at this
  exact this hp

theorem isEmpty_eq {c : RouteContent} (h : c.isEmpty = true) : c.clients = [] ∧ c.groups = [] := by
  simpa [RouteContent.isEmpty] using h

theorem del_clean {c c' : RouteContent} {id : ClientId} {g : Option Str}
    (h : c.del id g = some c') (he : c'.isEmpty = true) : c' = RouteContent.empty := by
  unfold RouteContent.del at h
  simp only [Option.map_eq_some_iff] at h
  obtain ⟨d, _, h2⟩ := h
  split at h2
  · rename_i hd
    subst h2
    obtain ⟨h3, h4⟩ := isEmpty_eq hd
    cases d
    simp_all [RouteContent.empty]
  · rename_i hd; subst h2; exact absurd he hd

theorem del_empty (id : ClientId) (g : Option Str) :
    RouteContent.empty.del id g = some RouteContent.empty := by
  cases g <;> rfl

theorem contentAt_of_leaf {n : RouteNode} (h1 : n.content.isEmpty = true) (hc : n.Clean)
    (h2 : n.nodes.isEmpty = true) (p : List Str) : n.contentAt p = RouteContent.empty := by
  cases p with
  | nil => exact hc [] h1
  | cons l ls =>
    rw [contentAt_cons]
    have : n.nodes = [] := by simpa using h2
    rw [this]
    exact contentAt_new ls

/-- Effect of a removal on every path. -/
theorem removeL_some {n : RouteNode} {id : ClientId} {g : Option Str}
    {p : List Str} {c' : RouteContent} (hc : n.Clean) (h : (n.contentAt p).del id g = some c') :
    ∃ n' b, n.removeL id g p = some (n', b) ∧
      (∀ r, n'.contentAt r = if r = p then c' else n.contentAt r) ∧
      (b = true → ∀ r, n'.contentAt r = RouteContent.empty) := by
  induction p generalizing n with
  | nil =>
    simp only [contentAt_nil] at h
    have key : ∀ r, (mk c' n.nodes).contentAt r = if r = [] then c' else n.contentAt r := by
      intro r
      cases r with
      | nil => simp
      | cons a as => simp [contentAt_cons]
    refine ⟨mk c' n.nodes, _, by simp [removeL, h]; rfl, key, ?_⟩
    intro hb
    simp only [Bool.and_eq_true] at hb
    intro r
    apply contentAt_of_leaf (n := mk c' n.nodes) hb.1 _ hb.2
    intro q hq
    rw [key] at hq ⊢
    split
    · rename_i e; rw [if_pos e] at hq; exact del_clean h hq
    · rename_i e; rw [if_neg e] at hq; exact hc q hq
  | cons l ls ih =>
    have hcc := hc.child l
    rw [contentAt_cons] at h
    cases hg : FMap.get n.nodes l with
    | none =>
      rw [hg] at h
      simp only [Option.getD_none, contentAt_new, del_empty, Option.some.injEq] at h
      refine ⟨n, false, by simp [removeL, hg], ?_, by simp⟩
      intro r
      split
      · rename_i e; subst e; rw [contentAt_cons, hg, ← h]; exact contentAt_new ls
      · rfl
    | some child =>
      rw [hg] at h hcc
      simp only [Option.getD_some] at h hcc
      obtain ⟨m', b, h1, h2, h3⟩ := ih hcc h
      cases b with
      | true =>
        have key : ∀ r, (mk n.content (FMap.erase n.nodes l)).contentAt r =
            if r = l :: ls then c' else n.contentAt r := by
          intro r
          cases r with
          | nil => simp
          | cons a as =>
            simp only [contentAt_cons, nodes_mk, FMap.get_erase, List.cons.injEq]
            by_cases ha : l = a
            · subst ha
              have h4 := h2 as
              rw [h3 rfl as] at h4
              simp only [↓reduceIte, Option.getD_none, contentAt_new, true_and, hg, Option.getD_some]
              exact h4
            · have : a ≠ l := fun e => ha e.symm
              simp [ha, this]
        refine ⟨mk n.content (FMap.erase n.nodes l), _, by simp [removeL, hg, h1]; rfl, key, ?_⟩
        intro hb
        simp only [Bool.and_eq_true] at hb
        intro r
        apply contentAt_of_leaf (n := mk n.content (FMap.erase n.nodes l)) hb.1 _ hb.2
        intro q hq
        rw [key] at hq ⊢
        split
        · rename_i e
          have h4 := h2 ls
          rw [h3 rfl ls] at h4
          simp at h4
          exact h4.symm
        · rename_i e; rw [if_neg e] at hq; exact hc q hq
      | false =>
        refine ⟨mk n.content (FMap.insert n.nodes l m'), false, by simp [removeL, hg, h1], ?_, by simp⟩
        intro r
        cases r with
        | nil => simp
        | cons a as =>
          simp only [contentAt_cons, nodes_mk, FMap.get_insert, List.cons.injEq]
          by_cases ha : l = a
          · subst ha; simp [h2, hg]
          · have : a ≠ l := fun e => ha e.symm
            simp [ha, this]

theorem removeL_none {n : RouteNode} {id : ClientId} {g : Option Str}
    {p : List Str} (h : (n.contentAt p).del id g = none) : n.removeL id g p = none := by
  induction p generalizing n with
  | nil => simp only [contentAt_nil] at h; simp [removeL, h]
  | cons l ls ih =>
    rw [contentAt_cons] at h
    cases hg : FMap.get n.nodes l with
    | none => rw [hg] at h; simp [contentAt_new, del_empty] at h
    | some child =>
      rw [hg] at h
      simp only [Option.getD_some] at h
      simp [removeL, hg, ih h]

/-! ### Lookup -/

/-- Contents matched below `n` for the remaining topic levels, with their paths. -/
def matchP (n : RouteNode) : List Str → List (List Str × RouteContent)
  | [] => (n.pushContent.map fun c => ([], c)) ++
      (match FMap.get n.nodes matchAll with
        | some c => c.pushContent.map fun x => ([matchAll], x)
        | none => [])
  | t :: ts =>
      (match FMap.get n.nodes t with
        | some c => (matchP c ts).map fun x => (t :: x.1, x.2)
        | none => []) ++
      (match FMap.get n.nodes matchAll with
        | some c => c.pushContent.map fun x => ([matchAll], x)
        | none => []) ++
      (match FMap.get n.nodes matchOne with
        | some c => (matchP c ts).map fun x => (matchOne :: x.1, x.2)
        | none => [])

theorem getMatches_all (n : RouteNode) (cur : Option Str) :
    n.getMatches matchAll cur = n.pushContent := by
  unfold getMatches; simp

theorem getMatches_eq (n : RouteNode) (prev : Str) (cur : Option Str) (hp : prev ≠ matchAll)
    (hv : ∀ l ∈ cursorLevels cur, l ≠ matchAll) :
    n.getMatches prev cur = (n.matchP (cursorLevels cur)).map (·.2) := by
  induction h : cursorLen cur using Nat.strongRecOn generalizing n cur prev with
  | _ k ih =>
    unfold getMatches
    rw [if_neg hp]
    cases cur with
    | none =>
      simp only [cursorLevels, matchP, List.map_append, List.map_map]
      congr 1
      · simp [Function.comp_def]
      · cases FMap.get n.nodes matchAll <;> simp [Function.comp_def]
    | some s =>
      have hlt := splitTopic_cursorLen s
      rw [cursorLevels_some] at hv ⊢
      have hv1 : (splitTopic s).1 ≠ matchAll := hv _ (by simp)
      have hv2 : ∀ l ∈ cursorLevels (splitTopic s).2, l ≠ matchAll := fun l hl => hv l (by simp [hl])
      have ih' := fun (m : RouteNode) (pr : Str) (hpr : pr ≠ matchAll) =>
        ih (cursorLen (splitTopic s).2) (by rw [← h]; exact hlt) m pr (splitTopic s).2 hpr hv2 rfl
      simp only [matchP, List.map_append]
      congr 1
      · congr 1
        · cases FMap.get n.nodes (splitTopic s).1 with
          | some c => simp only; rw [ih' _ _ hv1]; simp [Function.comp_def]
          | none => rfl
        · cases FMap.get n.nodes matchAll with
          | some c => simp only; rw [getMatches_all]; simp [Function.comp_def]
          | none => rfl
      · cases FMap.get n.nodes matchOne with
        | some c => simp only; rw [ih' _ _ (by decide)]; simp [Function.comp_def]
        | none => rfl

theorem mem_pushContent {n : RouteNode} {c : RouteContent} :
    c ∈ n.pushContent ↔ c = n.content ∧ c.isEmpty = false := by
  unfold pushContent
  split
  · rename_i h; constructor
    · simp
    · rintro ⟨rfl, h2⟩; rw [h] at h2; cases h2
  · rename_i h; simp only [List.mem_singleton]
    constructor
    · rintro rfl; exact ⟨rfl, by simpa using h⟩
    · exact And.left

theorem levelsMatch_cons_iff {fs ts : List Str} {t : Str} :
    LevelsMatch fs (t :: ts) ↔
      fs = [matchAll] ∨ (∃ gs, fs = matchOne :: gs ∧ LevelsMatch gs ts) ∨
        (∃ gs, fs = t :: gs ∧ LevelsMatch gs ts) := by
  constructor
  · intro h
    cases h with
    | hash => left; rfl
    | plus _ h => right; left; exact ⟨_, rfl, h⟩
    | same _ h => right; right; exact ⟨_, rfl, h⟩
  · rintro (rfl | ⟨gs, rfl, h⟩ | ⟨gs, rfl, h⟩)
    · exact .hash _
    · exact .plus _ h
    · exact .same _ h

theorem levelsMatch_nil_iff {fs : List Str} :
    LevelsMatch fs [] ↔ fs = [] ∨ fs = [matchAll] := by
  constructor
  · intro h
    cases h with
    | done => left; rfl
    | hash => right; rfl
  · rintro (rfl | rfl)
    · exact .done
    · exact .hash _

theorem mem_hash {m : RouteNode} {p : List Str} {c : RouteContent} :
    (p, c) ∈ (match FMap.get m.nodes matchAll with
        | some c => c.pushContent.map fun x => ([matchAll], x)
        | none => ([] : List (List Str × RouteContent))) ↔
        p = [matchAll] ∧ c = m.contentAt p ∧ c.isEmpty = false := by
  have hne : RouteContent.empty.isEmpty = true := rfl
  cases hg : FMap.get m.nodes matchAll with
  | none =>
    constructor
    · intro h; cases h
    · rintro ⟨rfl, rfl, h⟩
      rw [contentAt_cons, hg] at h
      simp [hne, new, content] at h
  | some d =>
    simp only [List.mem_map, Prod.mk.injEq, mem_pushContent]
    constructor
    · rintro ⟨a, ⟨h1, h2⟩, rfl, rfl⟩
      refine ⟨rfl, ?_, h2⟩
      rw [contentAt_cons, hg]; exact h1
    · rintro ⟨rfl, h1, h2⟩
      rw [contentAt_cons, hg] at h1
      exact ⟨c, ⟨h1, h2⟩, rfl, rfl⟩

/-- Lookup finds exactly the non-empty contents whose path matches. -/
theorem mem_matchP {n : RouteNode} {ts : List Str}
    {p : List Str} {c : RouteContent} :
    (p, c) ∈ n.matchP ts ↔ LevelsMatch p ts ∧ c = n.contentAt p ∧ c.isEmpty = false := by
  have hne : RouteContent.empty.isEmpty = true := rfl
  induction ts generalizing n p with
  | nil =>
    simp only [matchP, List.mem_append, mem_hash, levelsMatch_nil_iff, List.mem_map, Prod.mk.injEq,
      mem_pushContent]
    constructor
    · rintro (⟨a, ⟨h1, h2⟩, rfl, rfl⟩ | ⟨rfl, h1, h2⟩)
      · exact ⟨Or.inl rfl, h1, h2⟩
      · exact ⟨Or.inr rfl, h1, h2⟩
    · rintro ⟨rfl | rfl, h1, h2⟩
      · left; exact ⟨c, ⟨h1, h2⟩, rfl, rfl⟩
      · right; exact ⟨rfl, h1, h2⟩
  | cons t ts ih =>
    have sub : ∀ (x : Str), (p, c) ∈ (match FMap.get n.nodes x with
        | some c => (matchP c ts).map fun (y : List Str × RouteContent) => (x :: y.1, y.2)
        | none => ([] : List (List Str × RouteContent))) ↔
        (∃ q, p = x :: q ∧ LevelsMatch q ts) ∧ c = n.contentAt p ∧ c.isEmpty = false := by
      intro x
      cases hg : FMap.get n.nodes x with
      | none =>
        constructor
        · intro h; cases h
        · rintro ⟨⟨q, rfl, _⟩, rfl, h⟩
          rw [contentAt_cons, hg] at h
          simp [contentAt_new, hne] at h
      | some d =>
        simp only [List.mem_map, Prod.mk.injEq]
        constructor
        · rintro ⟨⟨q, c0⟩, h, rfl, rfl⟩
          have hh := ih.mp h
          refine ⟨⟨q, rfl, hh.1⟩, ?_, hh.2.2⟩
          rw [contentAt_cons, hg]; exact hh.2.1
        · rintro ⟨⟨q, rfl, h1⟩, h2, h3⟩
          rw [contentAt_cons, hg] at h2
          exact ⟨(q, c), ih.mpr ⟨h1, h2, h3⟩, rfl, rfl⟩
    simp only [matchP, List.mem_append, sub, mem_hash, levelsMatch_cons_iff]
    constructor
    · rintro ((⟨⟨q, h1, h2⟩, h3⟩ | ⟨h1, h3⟩) | ⟨⟨q, h1, h2⟩, h3⟩)
      · exact ⟨Or.inr (Or.inr ⟨q, h1, h2⟩), h3⟩
      · exact ⟨Or.inl h1, h3⟩
      · exact ⟨Or.inr (Or.inl ⟨q, h1, h2⟩), h3⟩
    · rintro ⟨h1 | ⟨q, h1, h2⟩ | ⟨q, h1, h2⟩, h3⟩
      · exact Or.inl (Or.inr ⟨h1, h3⟩)
      · exact Or.inr ⟨⟨q, h1, h2⟩, h3⟩
      · exact Or.inl (Or.inl ⟨⟨q, h1, h2⟩, h3⟩)

end RouteNode
end Akasa

namespace Akasa
namespace RouteNode

theorem nodup_map_cons {l : Str} {L : List (List Str × RouteContent)}
    (h : (L.map (·.1)).Nodup) :
    ((L.map fun x => (l :: x.1, x.2)).map (·.1)).Nodup := by
  rw [List.map_map]
  have : ((fun x : List Str × RouteContent => x.1) ∘ fun x : List Str × RouteContent => (l :: x.1, x.2))
      = (fun q : List Str => l :: q) ∘ (·.1) := rfl
  rw [this, ← List.map_map]
  apply List.Pairwise.map _ _ h
  intro a b hab e
  exact hab (by simpa using e)

theorem nodup_push (n : RouteNode) (q : List Str) :
    ((n.pushContent.map fun c => (q, c)).map (·.1)).Nodup := by
  unfold pushContent; split <;> simp

theorem fst_mem_cons {l : Str} {p : List Str} {L : List (List Str × RouteContent)}
    (h : p ∈ ((L.map fun x => (l :: x.1, x.2)).map (·.1))) : p.head? = some l := by
  simp only [List.map_map, List.mem_map, Function.comp_def] at h
  obtain ⟨a, _, rfl⟩ := h
  rfl

theorem fst_mem_push {n : RouteNode} {q p : List Str}
    (h : p ∈ ((n.pushContent.map fun c => (q, c)).map (·.1))) : p = q := by
  simp only [List.map_map, List.mem_map, Function.comp_def] at h
  obtain ⟨a, _, rfl⟩ := h
  rfl

theorem nodup_matchP (n : RouteNode) {ts : List Str}
    (hv : ∀ l ∈ ts, l ≠ matchAll ∧ l ≠ matchOne) : ((n.matchP ts).map (fun z : List Str × RouteContent => z.1)).Nodup := by
  induction ts generalizing n with
  | nil =>
    unfold matchP
    rw [List.map_append, List.nodup_append]
    refine ⟨nodup_push n [], ?_, ?_⟩
    · cases FMap.get n.nodes matchAll with
      | none => simp
      | some c => exact nodup_push c _
    · intro a ha b hb
      have h1 := fst_mem_push ha
      cases hg : FMap.get n.nodes matchAll with
      | none => rw [hg] at hb; simp at hb
      | some c =>
        rw [hg] at hb
        have h2 := fst_mem_push hb
        subst h1; subst h2; simp
  | cons t ts ih =>
    have hvt := hv t (by simp)
    have hvs : ∀ l ∈ ts, l ≠ matchAll ∧ l ≠ matchOne := fun l hl => hv l (by simp [hl])
    have sub : ∀ x : Str, ((match FMap.get n.nodes x with
        | some c => (matchP c ts).map fun (y : List Str × RouteContent) => (x :: y.1, y.2)
        | none => ([] : List (List Str × RouteContent))).map (fun z : List Str × RouteContent => z.1)).Nodup := by
      intro x
      cases FMap.get n.nodes x with
      | none => simp
      | some c => exact nodup_map_cons (ih c hvs)
    have subm : ∀ (x : Str) (p : List Str), p ∈ ((match FMap.get n.nodes x with
        | some c => (matchP c ts).map fun (y : List Str × RouteContent) => (x :: y.1, y.2)
        | none => ([] : List (List Str × RouteContent))).map (fun z : List Str × RouteContent => z.1)) → p.head? = some x := by
      intro x p hp
      cases hg : FMap.get n.nodes x with
      | none => rw [hg] at hp; simp at hp
      | some c => rw [hg] at hp; exact fst_mem_cons hp
    have hashm : ∀ (p : List Str), p ∈ ((match FMap.get n.nodes matchAll with
        | some c => c.pushContent.map fun x => ([matchAll], x)
        | none => ([] : List (List Str × RouteContent))).map (fun z : List Str × RouteContent => z.1)) → p.head? = some matchAll := by
      intro p hp
      cases hg : FMap.get n.nodes matchAll with
      | none => rw [hg] at hp; simp at hp
      | some c => rw [hg] at hp; rw [fst_mem_push hp]; rfl
    unfold matchP
    rw [List.map_append, List.map_append, List.nodup_append, List.nodup_append]
    refine ⟨⟨sub t, ?_, ?_⟩, sub matchOne, ?_⟩
    · cases FMap.get n.nodes matchAll with
      | none => simp
      | some c => exact nodup_push c _
    · intro a ha b hb e
      subst e
      have h1 := subm t a ha
      have h2 := hashm a hb
      rw [h1] at h2
      exact hvt.1 (by simpa using h2)
    · intro a ha b hb e
      subst e
      have h2 := subm matchOne a hb
      rcases List.mem_append.mp ha with ha | ha
      · have h1 := subm t a ha
        rw [h1] at h2
        exact hvt.2 (by simpa using h2)
      · have h1 := hashm a ha
        rw [h1] at h2
        revert h2; decide

/-! ### Pruning -/

/-- Something is stored at or below the node. -/
def Live (n : RouteNode) : Prop := ∃ p, (n.contentAt p).isEmpty = false

/-- Every proper descendant is live. -/
def Pruned (n : RouteNode) : Prop := ∀ p m, p ≠ [] → n.find p = some m → m.Live

theorem find_cons (n : RouteNode) (l : Str) (ls : List Str) :
    n.find (l :: ls) = match FMap.get n.nodes l with
      | none => none
      | some c => c.find ls := rfl

theorem Pruned.child {n : RouteNode} (h : n.Pruned) {l : Str} {c : RouteNode}
    (hg : FMap.get n.nodes l = some c) : c.Live ∧ c.Pruned := by
  refine ⟨h [l] c (by simp) (by simp [find, hg]), ?_⟩
  intro p m hp hm
  exact h (l :: p) m (by simp) (by simp [find, hg, hm])

theorem live_of_child {n : RouteNode} {l : Str} {c : RouteNode}
    (hg : FMap.get n.nodes l = some c) (hc : c.Live) : n.Live := by
  obtain ⟨p, hp⟩ := hc
  exact ⟨l :: p, by rw [contentAt_cons, hg]; exact hp⟩

theorem live_of_nodes {n : RouteNode} (h : n.Pruned) (hn : n.nodes.isEmpty = false) : n.Live := by
  cases hns : n.nodes with
  | nil => rw [hns] at hn; cases hn
  | cons p ps =>
    obtain ⟨l, c⟩ := p
    have hg : FMap.get n.nodes l = some c := by rw [hns]; simp [FMap.get_cons]
    exact live_of_child hg (h.child hg).1

theorem pruned_mk {n : RouteNode} (c : RouteContent) {ns : List (Str × RouteNode)}
    (h : ∀ l d, FMap.get ns l = some d → d.Live ∧ d.Pruned) : (mk c ns).Pruned := by
  let _ := n
  intro p m hp hm
  cases p with
  | nil => exact absurd rfl hp
  | cons l ls =>
    rw [find_cons] at hm
    simp only [nodes_mk] at hm
    cases hg : FMap.get ns l with
    | none => rw [hg] at hm; cases hm
    | some d =>
      rw [hg] at hm
      simp only at hm
      cases ls with
      | nil => simp [find] at hm; subst hm; exact (h l d hg).1
      | cons a as => exact (h l d hg).2 (a :: as) m (by simp) hm

theorem pruned_new : new.Pruned := by
  intro p m hp hm
  cases p with
  | nil => exact absurd rfl hp
  | cons l ls => simp [find, new] at hm

theorem insertL_pruned {n n' : RouteNode} {tf : Str} {id : ClientId} {qos : QoS} {g : Option Str}
    {p : List Str} (hp : n.Pruned) (h : n.insertL tf id qos g p = some n') :
    n'.Pruned ∧ n'.Live := by
  induction p generalizing n n' with
  | nil =>
    simp only [insertL] at h
    split at h
    · cases h
    · rename_i c hc
      simp at h; subst h
      refine ⟨pruned_mk (n := n) _ (fun l d hg => hp.child hg), ⟨[], ?_⟩⟩
      unfold RouteContent.add at hc
      cases g with
      | none => simp at hc; subst hc; simp [RouteContent.isEmpty, FMap.insert]
      | some name =>
        simp only at hc
        split at hc
        · cases hc
        · simp at hc; subst hc; simp [RouteContent.isEmpty, FMap.insert]
  | cons l ls ih =>
    simp only [insertL] at h
    split at h
    · cases h
    · rename_i child hc
      simp at h; subst h
      have hpc : ((FMap.get n.nodes l).getD new).Pruned := by
        cases hg : FMap.get n.nodes l with
        | none => exact pruned_new
        | some c => exact (hp.child hg).2
      have hh := ih hpc hc
      refine ⟨pruned_mk (n := n) _ ?_, ?_⟩
      · intro a d hd
        rw [FMap.get_insert] at hd
        split at hd
        · simp at hd; subst hd; exact ⟨hh.2, hh.1⟩
        · exact hp.child hd
      · exact live_of_child (l := l) (c := child) (by simp) hh.2

theorem removeL_pruned {n n' : RouteNode} {id : ClientId} {g : Option Str} {b : Bool}
    {p : List Str} (hp : n.Pruned) (h : n.removeL id g p = some (n', b)) :
    n'.Pruned ∧ (n.Live → b = false → n'.Live) := by
  induction p generalizing n n' b with
  | nil =>
    simp only [removeL] at h
    split at h
    · cases h
    · rename_i c hc
      simp only [Option.some.injEq, Prod.mk.injEq] at h
      obtain ⟨rfl, rfl⟩ := h
      have hpr : (mk c n.nodes).Pruned := pruned_mk (n := n) _ (fun l d hg => hp.child hg)
      refine ⟨hpr, ?_⟩
      intro _ hb
      simp only [Bool.and_eq_false_iff] at hb
      rcases hb with hb | hb
      · exact ⟨[], hb⟩
      · exact live_of_nodes hpr hb
  | cons l ls ih =>
    simp only [removeL] at h
    split at h
    · simp only [Option.some.injEq, Prod.mk.injEq] at h
      obtain ⟨rfl, rfl⟩ := h
      exact ⟨hp, fun hl _ => hl⟩
    · rename_i child hg
      have hc := hp.child hg
      split at h
      · cases h
      · rename_i m' hm
        simp only [Option.some.injEq, Prod.mk.injEq] at h
        obtain ⟨rfl, rfl⟩ := h
        have hpr : (mk n.content (FMap.erase n.nodes l)).Pruned := by
          apply pruned_mk (n := n)
          intro a d hd
          rw [FMap.get_erase] at hd
          split at hd
          · cases hd
          · exact hp.child hd
        refine ⟨hpr, ?_⟩
        intro _ hb
        simp only [Bool.and_eq_false_iff] at hb
        rcases hb with hb | hb
        · exact ⟨[], hb⟩
        · exact live_of_nodes hpr hb
      · rename_i child' hm
        simp only [Option.some.injEq, Prod.mk.injEq] at h
        obtain ⟨rfl, rfl⟩ := h
        have hh := ih hc.2 hm
        have hl := hh.2 hc.1 rfl
        refine ⟨pruned_mk (n := n) _ ?_, fun _ _ => live_of_child (l := l) (c := child') (by simp) hl⟩
        intro a d hd
        rw [FMap.get_insert] at hd
        split at hd
        · simp at hd; subst hd; exact ⟨hl, hh.1⟩
        · exact hp.child hd

end RouteNode
end Akasa

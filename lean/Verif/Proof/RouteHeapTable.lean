import Verif.Proof.RouteHeap
/-! The table with references: invariant, one call, many calls, and what a reference read later
leads to. -/
namespace Akasa
namespace RefNode

/-- The reference of the node at a path below some children. -/
def refAtL (ns : List (Str × RefNode)) : List Str → Option Nat
  | [] => none
  | l :: ls => match FMap.get ns l with
    | none => none
    | some c => c.refAt ls

theorem refAt_cons (n : RefNode) (l : Str) (ls : List Str) :
    n.refAt (l :: ls) = refAtL n.nodes (l :: ls) := rfl

theorem refAt_mem {n : RefNode} {p : List Str} {r : Nat} (h : n.refAt p = some r) : r ∈ n.refs := by
  induction p generalizing n with
  | nil => simp only [refAt, Option.some.injEq] at h; rw [refs_eq, ← h]; exact List.mem_cons_self ..
  | cons l ls ih =>
    simp only [refAt] at h
    split at h
    · cases h
    · rename_i c hc
      rw [refs_eq]
      exact List.mem_cons_of_mem _ (refs_of_get hc (ih h))

theorem refAtL_mem {ns : List (Str × RefNode)} {p : List Str} {r : Nat}
    (h : refAtL ns p = some r) : r ∈ refsL ns := by
  cases p with
  | nil => cases h
  | cons l ls =>
    simp only [refAtL] at h
    split at h
    · cases h
    · rename_i c hc; exact refs_of_get hc (refAt_mem h)

mutual
theorem mem_refAt : ∀ (n : RefNode), n.WfN → ∀ r ∈ n.refs, ∃ p, n.refAt p = some r
  | mk x ns, hw, r, hr => by
    simp only [refs, List.mem_cons] at hr
    rcases hr with rfl | hr
    · exact ⟨[], rfl⟩
    · obtain ⟨p, hp⟩ := mem_refAtL ns hw.1 hw.2 r hr
      cases p with
      | nil => cases hp
      | cons l ls => exact ⟨l :: ls, hp⟩
theorem mem_refAtL : ∀ (ns : List (Str × RefNode)), FMap.WF ns → WfL ns → ∀ r ∈ refsL ns,
    ∃ p, refAtL ns p = some r
  | [], _, _, r, hr => by simp [refsL] at hr
  | (k, n) :: ns, hw, hl, r, hr => by
    simp only [FMap.WF, FMap.keys, List.map_cons, List.nodup_cons] at hw
    simp only [refsL, List.mem_append] at hr
    rcases hr with hr | hr
    · obtain ⟨p, hp⟩ := mem_refAt n hl.1 r hr
      exact ⟨k :: p, by simp [refAtL, FMap.get, hp]⟩
    · obtain ⟨p, hp⟩ := mem_refAtL ns hw.2 hl.2 r hr
      cases p with
      | nil => cases hp
      | cons l ls =>
        refine ⟨l :: ls, ?_⟩
        simp only [refAtL, FMap.get] at hp ⊢
        have hne : k ≠ l := by
          rintro rfl
          rw [(FMap.get_eq_none_iff ns k).2 hw.1] at hp; cases hp
        rw [if_neg hne]; exact hp
end

theorem get_disjoint {ns : List (Str × RefNode)} (hn : (refsL ns).Nodup) {k k' : Str}
    {c c' : RefNode} (hg : FMap.get ns k = some c) (hg' : FMap.get ns k' = some c') (hk : k ≠ k')
    {r : Nat} (hr : r ∈ c.refs) : r ∉ c'.refs := by
  intro hr'
  have : FMap.get (FMap.erase ns k) k' = some c' := by rw [FMap.get_erase_ne _ hk]; exact hg'
  exact refsL_erase_disjoint hn hg hr (refs_of_get this hr')

theorem refAt_inj {n : RefNode} (hn : n.refs.Nodup) {p q : List Str} {r : Nat}
    (hp : n.refAt p = some r) (hq : n.refAt q = some r) : p = q := by
  induction p generalizing n q with
  | nil =>
    cases q with
    | nil => rfl
    | cons a as =>
      rw [refAt_cons] at hq
      have h1 := refAtL_mem hq
      simp only [refAt, Option.some.injEq] at hp
      rw [refs_eq, List.nodup_cons, hp] at hn
      exact absurd h1 hn.1
  | cons l ls ih =>
    have hn' := hn
    rw [refs_eq, List.nodup_cons] at hn'
    cases q with
    | nil =>
      rw [refAt_cons] at hp
      have h1 := refAtL_mem hp
      simp only [refAt, Option.some.injEq] at hq
      rw [hq] at hn'
      exact absurd h1 hn'.1
    | cons a as =>
      simp only [refAt] at hp hq
      split at hp
      · cases hp
      · rename_i c hc
        split at hq
        · cases hq
        · rename_i c' hc'
          by_cases hla : l = a
          · subst hla
            rw [hc] at hc'; cases hc'
            rw [ih (refs_nodup_of_get hn'.2 hc) hp hq]
          · exact absurd (refAt_mem hq) (get_disjoint hn'.2 hc hc' hla (refAt_mem hp))

theorem refAtL_inj {ns : List (Str × RefNode)} (hn : (refsL ns).Nodup) {p q : List Str} {r : Nat}
    (hp : refAtL ns p = some r) (hq : refAtL ns q = some r) : p = q := by
  cases p with
  | nil => cases hp
  | cons l ls =>
    cases q with
    | nil => cases hq
    | cons a as =>
      simp only [refAtL] at hp hq
      split at hp
      · cases hp
      · rename_i c hc
        split at hq
        · cases hq
        · rename_i c' hc'
          by_cases hla : l = a
          · subst hla
            rw [hc] at hc'; cases hc'
            rw [refAt_inj (refs_nodup_of_get hn hc) hp hq]
          · exact absurd (refAt_mem hq) (get_disjoint hn hc hc' hla (refAt_mem hp))

theorem contentAt_abs (n : RefNode) (h : Heap) (p : List Str) :
    (n.abs h).contentAt p = match n.refAt p with
      | none => RouteContent.empty
      | some r => h.read r := by
  induction p generalizing n with
  | nil => simp [refAt]
  | cons l ls ih =>
    rw [RouteNode.contentAt_cons, abs_nodes, get_absL]
    simp only [refAt]
    cases FMap.get n.nodes l with
    | none => simp [RouteNode.contentAt_new]
    | some c => simp [ih]

theorem push_mem {n : RefNode} {h : Heap} {r : Nat} (hr : r ∈ n.push h) : r ∈ n.refs := by
  unfold push at hr
  split at hr
  · cases hr
  · rw [refs_eq, List.mem_singleton.1 hr]; exact List.mem_cons_self ..

theorem getMatches_mem {n : RefNode} {h : Heap} {prev : Str} {cur : Option Str} {r : Nat}
    (hr : r ∈ n.getMatches h prev cur) : r ∈ n.refs := by
  induction hl : cursorLen cur using Nat.strongRecOn generalizing n prev cur with
  | _ k ih =>
    unfold getMatches at hr
    split at hr
    · exact push_mem hr
    · cases cur with
      | none =>
        simp only [List.mem_append] at hr
        rcases hr with hr | hr
        · exact push_mem hr
        · split at hr
          · rename_i c hc
            rw [refs_eq]; exact List.mem_cons_of_mem _ (refs_of_get hc (push_mem hr))
          · cases hr
      | some s =>
        have hs : cursorLen (splitTopic s).2 < k := by rw [← hl]; exact splitTopic_cursorLen s
        simp only [List.mem_append] at hr
        have key : ∀ item, r ∈ (match FMap.get n.nodes item with
              | some c => getMatches c h item (splitTopic s).2
              | none => []) → r ∈ n.refs := by
          intro item hi
          split at hi
          · rename_i c hc
            rw [refs_eq]
            exact List.mem_cons_of_mem _ (refs_of_get hc (ih _ hs hi rfl))
          · cases hi
        rcases hr with (hr | hr) | hr
        · exact key _ hr
        · exact key _ hr
        · exact key _ hr

end RefNode

namespace RefTable
open RefNode

/-- The table with its contents inside. -/
def abs (t : RefTable) : RouteTable := ⟨absL t.heap t.nodes⟩

/-- The reference of the node at a path. -/
def refAt (t : RefTable) (p : List Str) : Option Nat := refAtL t.nodes p

/-- What is known of a table: references are distinct and known, and a reference that is not in
the table leads to an empty content. -/
structure Sound (t : RefTable) : Prop where
  wf : FMap.WF t.nodes
  wfl : WfL t.nodes
  nodup : (refsL t.nodes).Nodup
  bound : ∀ r ∈ refsL t.nodes, r < t.heap.length
  clean : t.heap.Clean
  gone : ∀ r, r < t.heap.length → r ∉ refsL t.nodes → t.heap.read r = RouteContent.empty

theorem Sound.empty : Sound RefTable.empty :=
  ⟨FMap.wf_nil, trivial, List.nodup_nil, by simp [RefTable.empty, refsL],
    by intro r _; simp [RefTable.empty, Heap.read], by simp [RefTable.empty]⟩

theorem getMatches_eq (t : RefTable) (topic : Str) :
    (t.getMatches topic).map t.heap.read = t.abs.getMatches topic := by
  unfold getMatches RouteTable.getMatches abs
  simp only [List.map_append, get_absL]
  have key : ∀ item, List.map t.heap.read (match FMap.get t.nodes item with
        | some c => c.getMatches t.heap item (splitTopic topic).2
        | none => []) =
      match (FMap.get t.nodes item).map (RefNode.abs t.heap) with
        | some c => c.getMatches item (splitTopic topic).2
        | none => [] := by
    intro item
    cases FMap.get t.nodes item with
    | none => rfl
    | some c => exact getMatches_abs c _ _ _
  congr 1
  · exact key _
  · split
    · rfl
    · rw [List.map_append]
      exact congr (congrArg _ (key _)) (key _)

theorem getMatches_refs {t : RefTable} {topic : Str} {r : Nat} (hr : r ∈ t.getMatches topic) :
    r ∈ refsL t.nodes := by
  have key : ∀ item, r ∈ (match FMap.get t.nodes item with
        | some c => c.getMatches t.heap item (splitTopic topic).2
        | none => []) → r ∈ refsL t.nodes := by
    intro item hi
    split at hi
    · rename_i c hc; exact refs_of_get hc (getMatches_mem hi)
    · cases hi
  unfold getMatches at hr
  simp only [List.mem_append] at hr
  rcases hr with hr | hr
  · exact key _ hr
  · split at hr
    · cases hr
    · simp only [List.mem_append] at hr
      exact hr.elim (key _) (key _)

theorem contentAt_eq (t : RefTable) {p : List Str} (hp : p ≠ []) :
    t.abs.root.contentAt p = match t.refAt p with
      | none => RouteContent.empty
      | some r => t.heap.read r := by
  cases p with
  | nil => exact absurd rfl hp
  | cons l ls =>
    rw [RouteNode.contentAt_cons]
    simp only [RouteTable.root_nodes, abs, get_absL, refAt, refAtL]
    cases FMap.get t.nodes l with
    | none => simp [RouteNode.contentAt_new]
    | some c => simp [contentAt_abs]

/-- One call: the same as on the table without references, and references stay where they are. -/
structure After (t t' : RefTable) : Prop where
  sound : Sound t'
  len : t.heap.length ≤ t'.heap.length
  keep : ∀ p r, t.refAt p = some r → t'.refAt p = some r ∨ t'.refAt p = none
  back : ∀ p r, t'.refAt p = some r → t.refAt p = some r ∨ t.heap.length ≤ r

theorem grow_after {t : RefTable} (hs : Sound t) {k : Str} {c' : RefNode} {h' : Heap}
    (hc : WfN c') (g : Grow t.heap (refsL t.nodes) h' (refsL (FMap.insert t.nodes k c'))) :
    Sound ⟨FMap.insert t.nodes k c', h'⟩ := by
  refine ⟨FMap.wf_insert hs.wf _ _, hs.wfl.insert _ hc, g.nodup, g.bound, g.clean hs.clean, ?_⟩
  intro r hr hnr
  simp only at hr hnr ⊢
  by_cases hlt : r < t.heap.length
  · by_cases hin : r ∈ refsL t.nodes
    · exact absurd (g.kept r hin) hnr
    · rw [g.frame r hlt hin]; exact hs.gone r hlt hin
  · exact absurd (g.fresh r (by omega) hr) hnr

theorem shrink_after {t : RefTable} (hs : Sound t) {ns' : List (Str × RefNode)} {h' : Heap}
    (hw : FMap.WF ns') (hc : WfL ns') (g : Shrink t.heap (refsL t.nodes) h' (refsL ns')) :
    Sound ⟨ns', h'⟩ := by
  refine ⟨hw, hc, g.nodup, ?_, g.clean hs.clean, ?_⟩
  · intro r hr
    simp only
    rw [g.len]; exact hs.bound r (g.from' r hr)
  · intro r hr hnr
    simp only at hr hnr ⊢
    rw [g.len] at hr
    by_cases hin : r ∈ refsL t.nodes
    · exact g.gone hs.clean r hin hnr
    · rw [g.frame r hin]; exact hs.gone r hr hin

theorem subscribeShared_abs {t : RefTable} (hs : Sound t) (f : Str) (id : ClientId) (q : QoS)
    (g : Option Str) :
    match t.subscribeShared f id q g with
    | none => t.abs.subscribeShared f id q g = none
    | some t' => t.abs.subscribeShared f id q g = some t'.abs ∧ After t t' := by
  unfold subscribeShared RouteTable.subscribeShared
  simp only [abs, get_absL, entry]
  cases hg : FMap.get t.nodes (splitTopic f).1 with
  | some c =>
    simp only [Option.map_some, Option.getD_some]
    have hfc : Fits' t.heap c := ⟨hs.wfl.get hg, refs_nodup_of_get hs.nodup hg,
      fun r hr => hs.bound r (refs_of_get hg hr)⟩
    have := insert_abs hfc f (splitTopic f).2 id q g
    cases hi : c.insert t.heap f (splitTopic f).2 id q g with
    | none => rw [hi] at this; simp only at this ⊢; rw [this]
    | some x =>
      obtain ⟨c', h'⟩ := x
      rw [hi] at this
      simp only at this ⊢
      obtain ⟨h1, h2, h3, h4, h5, h6⟩ := this
      rw [h1]
      have hgrow := grow_child hs.wf hs.nodup hs.bound hg h4
      refine ⟨?_, grow_after hs h2 hgrow, hgrow.len, ?_, ?_⟩
      · simp only [Option.some.injEq, RouteTable.mk.injEq]
        simp only [FMap.insert, absL, erase_absL, List.cons.injEq, true_and]
        exact absL_frame h4 fun r hr => ⟨hs.bound r ((refsL_erase_sublist _ _).subset hr),
          fun hc => refsL_erase_disjoint hs.nodup hg hc hr⟩
      · intro p r hp
        left
        cases p with
        | nil => cases hp
        | cons a as =>
          simp only [refAt, refAtL, FMap.get_insert] at hp ⊢
          by_cases ha : (splitTopic f).1 = a
          · subst ha
            rw [hg] at hp
            simp only [if_true]
            exact h5 as r hp
          · rw [if_neg ha]; exact hp
      · intro p r hp
        cases p with
        | nil => cases hp
        | cons a as =>
          simp only [refAt, refAtL, FMap.get_insert] at hp ⊢
          by_cases ha : (splitTopic f).1 = a
          · subst ha
            rw [hg]
            simp only [if_true] at hp
            exact h6 as r hp
          · rw [if_neg ha] at hp; exact Or.inl hp
  | none =>
    simp only [Option.map_none, Option.getD_none]
    have := insert_abs (fits_new t.heap) f (splitTopic f).2 id q g
    have habs : RefNode.abs (t.heap ++ [RouteContent.empty]) (RefNode.mk t.heap.length []) =
        RouteNode.new := by
      simp [RefNode.abs, absL, Heap.read, RouteNode.new]
    rw [habs] at this
    cases hi : (RefNode.mk t.heap.length []).insert (t.heap ++ [RouteContent.empty]) f
        (splitTopic f).2 id q g with
    | none => rw [hi] at this; simp only at this ⊢; rw [this]
    | some x =>
      obtain ⟨c', h'⟩ := x
      rw [hi] at this
      simp only at this ⊢
      obtain ⟨h1, h2, h3, h4, h5, h6⟩ := this
      rw [h1]
      have h4' : Grow (t.heap ++ [RouteContent.empty]) [t.heap.length] h' c'.refs := by
        simpa [refs, refsL] using h4
      have hgrow := grow_new hs.nodup hs.bound hg h4'
      refine ⟨?_, grow_after hs h2 hgrow, hgrow.len, ?_, ?_⟩
      · simp only [Option.some.injEq, RouteTable.mk.injEq]
        simp only [FMap.insert, absL, erase_absL, List.cons.injEq, true_and]
        refine absL_congr _ fun r hr => ?_
        have hr' := hs.bound r ((refsL_erase_sublist _ _).subset hr)
        rw [h4'.frame r (by simp; omega) (by simp; omega), Heap.read_append_empty]
      · intro p r hp
        left
        cases p with
        | nil => cases hp
        | cons a as =>
          simp only [refAt, refAtL, FMap.get_insert] at hp ⊢
          by_cases ha : (splitTopic f).1 = a
          · subst ha; rw [hg] at hp; cases hp
          · rw [if_neg ha]; exact hp
      · intro p r hp
        cases p with
        | nil => cases hp
        | cons a as =>
          simp only [refAt, refAtL, FMap.get_insert] at hp ⊢
          by_cases ha : (splitTopic f).1 = a
          · subst ha
            simp only [if_true] at hp
            right
            rcases h6 as r hp with h7 | h7
            · cases as with
              | nil => simp [RefNode.refAt] at h7; omega
              | cons b bs => simp [RefNode.refAt] at h7
            · simp at h7; omega
          · rw [if_neg ha] at hp; exact Or.inl hp

theorem unsubscribeShared_abs {t : RefTable} (hs : Sound t) (f : Str) (id : ClientId)
    (g : Option Str) :
    match t.unsubscribeShared f id g with
    | none => t.abs.unsubscribeShared f id g = none
    | some t' => t.abs.unsubscribeShared f id g = some t'.abs ∧ After t t' := by
  unfold unsubscribeShared RouteTable.unsubscribeShared
  simp only [abs, get_absL]
  cases hg : FMap.get t.nodes (splitTopic f).1 with
  | none =>
    simp only [Option.map_none]
    exact ⟨trivial, hs, Nat.le_refl _, fun p r h => Or.inl h, fun p r h => Or.inl h⟩
  | some c =>
    simp only [Option.map_some]
    have hfc : Fits' t.heap c := ⟨hs.wfl.get hg, refs_nodup_of_get hs.nodup hg,
      fun r hr => hs.bound r (refs_of_get hg hr)⟩
    have := remove_abs hfc (splitTopic f).2 id g
    cases hi : c.remove t.heap (splitTopic f).2 id g with
    | none => rw [hi] at this; simp only at this ⊢; rw [this]
    | some x =>
      obtain ⟨c', h', b⟩ := x
      rw [hi] at this
      simp only at this ⊢
      obtain ⟨h1, h2, h3, h4, h5, h6, h9⟩ := this
      rw [h1]
      have hrest : absL t.heap (FMap.erase t.nodes (splitTopic f).1) =
          absL h' (FMap.erase t.nodes (splitTopic f).1) :=
        absL_congr _ fun r hr => (h4.frame r fun hc =>
          refsL_erase_disjoint hs.nodup hg hc hr).symm
      cases b with
      | true =>
        obtain ⟨h7, h8⟩ := h5 rfl
        have hsh := shrink_drop hs.wf hs.nodup hg h4 h7 h8
        refine ⟨?_, shrink_after hs (FMap.wf_erase hs.wf _) (hs.wfl.erase _) hsh,
          Nat.le_of_eq hsh.len.symm, ?_, ?_⟩
        · simp only [erase_absL, hrest]
        · intro p r hp
          cases p with
          | nil => cases hp
          | cons a as =>
            simp only [refAt, refAtL, FMap.get_erase] at hp ⊢
            by_cases ha : (splitTopic f).1 = a
            · subst ha; simp
            · rw [if_neg ha]; exact Or.inl hp
        · intro p r hp
          cases p with
          | nil => cases hp
          | cons a as =>
            simp only [refAt, refAtL, FMap.get_erase] at hp ⊢
            by_cases ha : (splitTopic f).1 = a
            · subst ha; simp at hp
            · rw [if_neg ha] at hp; exact Or.inl hp
      | false =>
        have hsh := shrink_child hs.wf hs.nodup hg h4
        refine ⟨?_, shrink_after hs (FMap.wf_insert hs.wf _ _) (hs.wfl.insert _ h2) hsh,
          Nat.le_of_eq hsh.len.symm, ?_, ?_⟩
        · simp only [FMap.insert, absL, erase_absL, hrest]
        · intro p r hp
          cases p with
          | nil => cases hp
          | cons a as =>
            simp only [refAt, refAtL, FMap.get_insert] at hp ⊢
            by_cases ha : (splitTopic f).1 = a
            · subst ha
              rw [hg] at hp
              simp only [if_true]
              exact h6 as r hp
            · rw [if_neg ha]; exact Or.inl hp
        · intro p r hp
          cases p with
          | nil => cases hp
          | cons a as =>
            simp only [refAt, refAtL, FMap.get_insert] at hp ⊢
            by_cases ha : (splitTopic f).1 = a
            · subst ha
              rw [hg]
              simp only [if_true] at hp
              exact Or.inl (h9 as r hp)
            · rw [if_neg ha] at hp; exact Or.inl hp

theorem step_abs {t : RefTable} (hs : Sound t) (op : RouteOp) :
    match t.step op with
    | none => t.abs.step op = none
    | some t' => t.abs.step op = some t'.abs ∧ After t t' := by
  cases op with
  | sub f id q =>
    simp only [step, RouteTable.step, subscribe, RouteTable.subscribe]
    cases sharedInfo f with
    | none => exact subscribeShared_abs hs f id q none
    | some x => obtain ⟨g, f'⟩ := x; exact subscribeShared_abs hs f' id q (some g)
  | unsub f id =>
    simp only [step, RouteTable.step, unsubscribe, RouteTable.unsubscribe]
    cases sharedInfo f with
    | none => exact unsubscribeShared_abs hs f id none
    | some x => obtain ⟨g, f'⟩ := x; exact unsubscribeShared_abs hs f' id (some g)

theorem step_some_abs {t t' : RefTable} (hs : Sound t) {op : RouteOp} (h : t.step op = some t') :
    t.abs.step op = some t'.abs ∧ After t t' := by
  have := step_abs hs op; rw [h] at this; exact this

/-- Many calls, on the table with and without references. -/
theorem run_abs {t : RefTable} (hs : Sound t) (ops : List RouteOp) :
    match t.run ops with
    | none => t.abs.run ops = none
    | some t' => t.abs.run ops = some t'.abs ∧ Sound t' ∧ t.heap.length ≤ t'.heap.length ∧
        ∀ p r, t'.refAt p = some r → t.refAt p = some r ∨ t.heap.length ≤ r := by
  induction ops generalizing t with
  | nil => exact ⟨rfl, hs, Nat.le_refl _, fun p r h => Or.inl h⟩
  | cons op ops ih =>
    simp only [run, RouteTable.run]
    have := step_abs hs op
    cases h : t.step op with
    | none => rw [h] at this; simp only at this ⊢; rw [this]
    | some t1 =>
      rw [h] at this
      simp only at this ⊢
      rw [this.1]
      simp only
      have ih1 := ih this.2.sound
      cases h1 : t1.run ops with
      | none => rw [h1] at ih1; exact ih1
      | some t2 =>
        rw [h1] at ih1
        obtain ⟨h2, h3, h4, h5⟩ := ih1
        refine ⟨h2, h3, Nat.le_trans this.2.len h4, fun p r hp => ?_⟩
        rcases h5 p r hp with h6 | h6
        · exact this.2.back p r h6
        · exact Or.inr (Nat.le_trans this.2.len h6)

theorem run_some_abs {t t' : RefTable} (hs : Sound t) {ops : List RouteOp}
    (h : t.run ops = some t') :
    t.abs.run ops = some t'.abs ∧ Sound t' ∧ t.heap.length ≤ t'.heap.length ∧
      ∀ p r, t'.refAt p = some r → t.refAt p = some r ∨ t.heap.length ≤ r := by
  have := run_abs hs ops; rw [h] at this; exact this

/-- A reference read later leads to the content at the same path, or, if the node was dropped
meanwhile, to an empty content. -/
theorem read_later {t t' : RefTable} (hs : Sound t) {ops : List RouteOp} (h : t.run ops = some t')
    {p : List Str} {r : Nat} (hp : t.refAt p = some r) :
    (t'.refAt p = some r ∧ t'.heap.read r = t'.abs.root.contentAt p) ∨
    t'.heap.read r = RouteContent.empty := by
  obtain ⟨_, hs', hl, hb⟩ := run_some_abs hs h
  have hne : p ≠ [] := by rintro rfl; cases hp
  have hr : r < t.heap.length := hs.bound r (refAtL_mem hp)
  by_cases hin : r ∈ refsL t'.nodes
  · left
    obtain ⟨q, hq⟩ := mem_refAtL _ hs'.wf hs'.wfl r hin
    rcases hb q r hq with h1 | h1
    · have : q = p := refAtL_inj hs.nodup h1 hp
      subst this
      refine ⟨hq, ?_⟩
      rw [contentAt_eq t' hne, show t'.refAt q = some r from hq]
    · omega
  · right; exact hs'.gone r (by omega) hin

/-- The reference at a path stays while there is something at the path. -/
theorem refAt_stays {t t' : RefTable} (hs : Sound t) {ops : List RouteOp} (h : t.run ops = some t')
    {p : List Str} {r : Nat} (hp : t.refAt p = some r)
    (hne : ∀ pre t1, pre <+: ops → t.run pre = some t1 →
      (t1.abs.root.contentAt p).isEmpty = false) :
    t'.refAt p = some r := by
  induction ops generalizing t with
  | nil => cases h; exact hp
  | cons op ops ih =>
    simp only [run] at h
    cases h1 : t.step op with
    | none => rw [h1] at h; cases h
    | some t1 =>
      rw [h1] at h
      obtain ⟨_, ha⟩ := step_some_abs hs h1
      have hpe : p ≠ [] := by rintro rfl; cases hp
      refine ih ha.sound h ?_ ?_
      · rcases ha.keep p r hp with h2 | h2
        · exact h2
        · have := hne [op] t1 ⟨ops, rfl⟩ (by simp [run, h1])
          rw [contentAt_eq t1 hpe, h2] at this
          cases this
      · intro pre t2 hpre hrun
        exact hne (op :: pre) t2 (List.cons_prefix_cons.2 ⟨rfl, hpre⟩) (by simp [run, h1, hrun])

theorem run_append (t : RefTable) (a b : List RouteOp) :
    t.run (a ++ b) = (t.run a).bind (·.run b) := by
  induction a generalizing t with
  | nil => rfl
  | cons op a ih =>
    simp only [List.cons_append, run]
    cases t.step op with
    | none => rfl
    | some t1 => exact ih t1

end RefTable
end Akasa

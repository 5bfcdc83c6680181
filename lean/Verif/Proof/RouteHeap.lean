import Verif.Model.RouteHeap
import Verif.Proof.RouteTable
/-! The table with references does what the table without does (`RefTable.abs`), and what a
reference means after other calls. -/
namespace Akasa

theorem Heap.read_append_left (h : Heap) {r : Nat} (hr : r < h.length) (l : Heap) :
    Heap.read (h ++ l) r = h.read r := by
  simp [Heap.read, List.getElem?_append_left hr]

theorem Heap.read_append_empty (h : Heap) (r : Nat) :
    Heap.read (h ++ [RouteContent.empty]) r = h.read r := by
  unfold Heap.read
  rcases Nat.lt_trichotomy r h.length with hr | hr | hr
  · rw [List.getElem?_append_left hr]
  · subst hr; simp
  · rw [List.getElem?_eq_none (by simp; omega), List.getElem?_eq_none (by omega)]

theorem Heap.read_set_self (h : Heap) {r : Nat} (hr : r < h.length) (c : RouteContent) :
    Heap.read (h.set r c) r = c := by
  simp [Heap.read, hr]

theorem Heap.read_set_ne (h : Heap) {r r' : Nat} (hne : r ≠ r') (c : RouteContent) :
    Heap.read (h.set r c) r' = h.read r' := by
  simp [Heap.read, List.getElem?_set_ne hne]

namespace RefNode

mutual
/-- The node with its contents inside. -/
def abs (h : Heap) : RefNode → RouteNode
  | mk r ns => .mk (h.read r) (absL h ns)
def absL (h : Heap) : List (Str × RefNode) → List (Str × RouteNode)
  | [] => []
  | (k, n) :: ns => (k, abs h n) :: absL h ns
end

mutual
/-- All references of a node and the nodes below. -/
def refs : RefNode → List Nat
  | mk r ns => r :: refsL ns
def refsL : List (Str × RefNode) → List Nat
  | [] => []
  | (_, n) :: ns => refs n ++ refsL ns
end

@[simp] theorem ref_mk (r : Nat) (ns) : (mk r ns).ref = r := rfl
@[simp] theorem rnodes_mk (r : Nat) (ns) : (mk r ns).nodes = ns := rfl

theorem refs_eq (n : RefNode) : n.refs = n.ref :: refsL n.nodes := by
  cases n; simp [refs, nodes]

theorem abs_eq (h : Heap) (n : RefNode) : n.abs h = .mk (h.read n.ref) (absL h n.nodes) := by
  cases n; simp [abs, nodes]

@[simp] theorem abs_content (h : Heap) (n : RefNode) : (n.abs h).content = h.read n.ref := by
  rw [abs_eq]; rfl
@[simp] theorem abs_nodes (h : Heap) (n : RefNode) : (n.abs h).nodes = absL h n.nodes := by
  rw [abs_eq]; rfl

mutual
theorem abs_congr {h h' : Heap} : ∀ (n : RefNode), (∀ r ∈ n.refs, h.read r = h'.read r) →
    n.abs h = n.abs h'
  | mk r ns, hh => by
    simp only [abs]
    rw [hh r (by simp [refs]), absL_congr ns fun r hr => hh r (by simp [refs, hr])]
theorem absL_congr {h h' : Heap} : ∀ (ns : List (Str × RefNode)),
    (∀ r ∈ refsL ns, h.read r = h'.read r) → absL h ns = absL h' ns
  | [], _ => rfl
  | (k, n) :: ns, hh => by
    simp only [absL]
    rw [abs_congr n fun r hr => hh r (by simp [refsL, hr]),
      absL_congr ns fun r hr => hh r (by simp [refsL, hr])]
end

theorem get_absL (h : Heap) (ns : List (Str × RefNode)) (k : Str) :
    FMap.get (absL h ns) k = (FMap.get ns k).map (abs h) := by
  induction ns with
  | nil => rfl
  | cons e ns ih =>
    obtain ⟨k', n⟩ := e
    simp only [absL, FMap.get]
    split
    · rfl
    · exact ih

theorem erase_absL (h : Heap) (ns : List (Str × RefNode)) (k : Str) :
    FMap.erase (absL h ns) k = absL h (FMap.erase ns k) := by
  induction ns with
  | nil => rfl
  | cons e ns ih =>
    obtain ⟨k', n⟩ := e
    simp only [FMap.erase] at ih
    simp only [absL, FMap.erase, List.filter_cons]
    split
    · simp only [absL, ih]
    · exact ih

theorem absL_nil_iff (h : Heap) (ns : List (Str × RefNode)) : (absL h ns).isEmpty = ns.isEmpty := by
  cases ns with
  | nil => rfl
  | cons e ns => obtain ⟨k, n⟩ := e; rfl

/-! ### References of a list of children -/

theorem refs_of_get {ns : List (Str × RefNode)} {k : Str} {c : RefNode}
    (hg : FMap.get ns k = some c) {r : Nat} (hr : r ∈ c.refs) : r ∈ refsL ns := by
  induction ns with
  | nil => cases hg
  | cons e ns ih =>
    obtain ⟨k', n⟩ := e
    simp only [FMap.get] at hg
    simp only [refsL, List.mem_append]
    split at hg
    · cases hg; exact Or.inl hr
    · exact Or.inr (ih hg)

theorem refsL_erase_sublist (ns : List (Str × RefNode)) (k : Str) :
    (refsL (FMap.erase ns k)).Sublist (refsL ns) := by
  induction ns with
  | nil => exact List.Sublist.refl _
  | cons e ns ih =>
    obtain ⟨k', n⟩ := e
    simp only [FMap.erase] at ih
    simp only [FMap.erase, List.filter_cons]
    split
    · simp only [refsL]; exact List.Sublist.append (List.Sublist.refl _) ih
    · simp only [refsL]; exact ih.trans (List.sublist_append_right _ _)

theorem refsL_erase_disjoint {ns : List (Str × RefNode)} (hn : (refsL ns).Nodup) {k : Str}
    {c : RefNode} (hg : FMap.get ns k = some c) {r : Nat} (hr : r ∈ c.refs) :
    r ∉ refsL (FMap.erase ns k) := by
  induction ns with
  | nil => cases hg
  | cons e ns ih =>
    obtain ⟨k', n⟩ := e
    simp only [FMap.get] at hg
    simp only [refsL, List.nodup_append] at hn
    simp only [FMap.erase] at ih
    simp only [FMap.erase, List.filter_cons]
    split at hg
    · rename_i hk
      cases hg
      simp only [hk, ne_eq, not_true_eq_false, decide_false]
      intro hc
      exact hn.2.2 r hr r ((refsL_erase_sublist ns k).subset hc) rfl
    · rename_i hk
      simp only [hk, ne_eq, not_false_eq_true, decide_true, if_true, refsL, List.mem_append]
      rintro (hc | hc)
      · exact hn.2.2 r hc r (refs_of_get hg hr) rfl
      · exact ih hn.2.1 hg hc

theorem refs_nodup_of_get {ns : List (Str × RefNode)} (hn : (refsL ns).Nodup) {k : Str}
    {c : RefNode} (hg : FMap.get ns k = some c) : c.refs.Nodup := by
  induction ns with
  | nil => cases hg
  | cons e ns ih =>
    obtain ⟨k', n⟩ := e
    simp only [FMap.get] at hg
    simp only [refsL, List.nodup_append] at hn
    split at hg
    · cases hg; exact hn.1
    · exact ih hn.2.1 hg

theorem refsL_split {ns : List (Str × RefNode)} {k : Str} {c : RefNode}
    (hw : FMap.WF ns) (hg : FMap.get ns k = some c) {r : Nat} (hr : r ∈ refsL ns) :
    r ∈ c.refs ∨ r ∈ refsL (FMap.erase ns k) := by
  induction ns with
  | nil => cases hg
  | cons e ns ih =>
    obtain ⟨k', n⟩ := e
    simp only [FMap.get] at hg
    simp only [refsL, List.mem_append] at hr
    have hw' : FMap.WF ns := by
      simp only [FMap.WF, FMap.keys, List.map_cons, List.nodup_cons] at hw; exact hw.2
    have hk' : k' ∉ FMap.keys ns := by
      simp only [FMap.WF, FMap.keys, List.map_cons, List.nodup_cons] at hw; exact hw.1
    simp only [FMap.erase] at ih
    simp only [FMap.erase, List.filter_cons]
    split at hg
    · rename_i hk
      cases hg
      simp only [hk, ne_eq, not_true_eq_false, decide_false]
      rcases hr with hr | hr
      · exact Or.inl hr
      · have := FMap.erase_eq_self ((FMap.get_eq_none_iff ns k').2 hk')
        simp only [FMap.erase, hk] at this
        refine Or.inr ?_
        rw [if_neg (by decide)]
        simpa only [ne_eq, this] using hr
    · rename_i hk
      simp only [hk, ne_eq, not_false_eq_true, decide_true, if_true, refsL, List.mem_append]
      rcases hr with hr | hr
      · exact Or.inr (Or.inl hr)
      · rcases ih hw' hg hr with h | h
        · exact Or.inl h
        · exact Or.inr (Or.inr h)

/-! ### Lookup -/

theorem push_abs (n : RefNode) (h : Heap) :
    (n.push h).map h.read = (n.abs h).pushContent := by
  unfold push RouteNode.pushContent
  rw [abs_content]
  split <;> simp

theorem getMatches_abs (n : RefNode) (h : Heap) (prev : Str) (cur : Option Str) :
    (n.getMatches h prev cur).map h.read = (n.abs h).getMatches prev cur := by
  induction hl : cursorLen cur using Nat.strongRecOn generalizing n prev cur with
  | _ k ih =>
    unfold getMatches RouteNode.getMatches
    split
    · exact push_abs n h
    · cases cur with
      | none =>
        simp only [List.map_append, push_abs, abs_nodes, get_absL]
        cases FMap.get n.nodes matchAll with
        | none => rfl
        | some c => simp [push_abs]
      | some s =>
        have hs : cursorLen (splitTopic s).2 < k := by rw [← hl]; exact splitTopic_cursorLen s
        have key : ∀ item, List.map h.read (match FMap.get n.nodes item with
              | some c => getMatches c h item (splitTopic s).2
              | none => []) =
            match FMap.get (n.abs h).nodes item with
              | some c => c.getMatches item (splitTopic s).2
              | none => [] := by
          intro item
          rw [abs_nodes, get_absL]
          cases FMap.get n.nodes item with
          | none => rfl
          | some c => exact ih _ hs c item _ rfl
        simp only [List.map_append]
        exact congr (congrArg _ (congr (congrArg _ (key _)) (key _))) (key _)

end RefNode

/-! ### What a call does to the contents -/

/-- An empty content is as it was created. -/
def Heap.Clean (h : Heap) : Prop := ∀ r, (h.read r).isEmpty = true → h.read r = RouteContent.empty

theorem Heap.Clean.snoc {h : Heap} (hc : h.Clean) : Heap.Clean (h ++ [RouteContent.empty]) := by
  intro r hr
  rw [Heap.read_append_empty] at hr ⊢
  exact hc r hr

theorem Heap.Clean.set {h : Heap} (hc : h.Clean) {r : Nat} {c : RouteContent}
    (hcc : c.isEmpty = true → c = RouteContent.empty) : Heap.Clean (h.set r c) := by
  intro r' hr'
  by_cases hrr : r = r'
  · subst hrr
    by_cases hl : r < h.length
    · rw [Heap.read_set_self h hl] at hr' ⊢; exact hcc hr'
    · have : h.set r c = h := List.set_eq_of_length_le (by omega)
      rw [this] at hr' ⊢; exact hc r hr'
  · rw [Heap.read_set_ne h hrr] at hr' ⊢; exact hc r' hr'

/-- A subscribe: from contents `h` with the references `R` to contents `h'` with `R'`. -/
structure Grow (h : Heap) (R : List Nat) (h' : Heap) (R' : List Nat) : Prop where
  nodup : R'.Nodup
  bound : ∀ r ∈ R', r < h'.length
  len : h.length ≤ h'.length
  from' : ∀ r ∈ R', r ∈ R ∨ h.length ≤ r
  kept : ∀ r ∈ R, r ∈ R'
  frame : ∀ r, r < h.length → r ∉ R → h'.read r = h.read r
  fresh : ∀ r, h.length ≤ r → r < h'.length → r ∈ R'
  clean : h.Clean → h'.Clean

/-- An unsubscribe: the references dropped lead to empty contents. -/
structure Shrink (h : Heap) (R : List Nat) (h' : Heap) (R' : List Nat) : Prop where
  nodup : R'.Nodup
  len : h'.length = h.length
  from' : ∀ r ∈ R', r ∈ R
  frame : ∀ r, r ∉ R → h'.read r = h.read r
  gone : h.Clean → ∀ r ∈ R, r ∉ R' → h'.read r = RouteContent.empty
  clean : h.Clean → h'.Clean

namespace RefNode

mutual
/-- No name occurs twice among the children. -/
def WfN : RefNode → Prop
  | mk _ ns => FMap.WF ns ∧ WfL ns
def WfL : List (Str × RefNode) → Prop
  | [] => True
  | (_, n) :: ns => WfN n ∧ WfL ns
end

theorem WfL.erase {ns : List (Str × RefNode)} (hw : WfL ns) (k : Str) : WfL (FMap.erase ns k) := by
  induction ns with
  | nil => trivial
  | cons e ns ih =>
    obtain ⟨k', n⟩ := e
    simp only [WfL] at hw
    simp only [FMap.erase] at ih
    simp only [FMap.erase, List.filter_cons]
    split
    · exact ⟨hw.1, ih hw.2⟩
    · exact ih hw.2

theorem WfL.get {ns : List (Str × RefNode)} (hw : WfL ns) {k : Str} {c : RefNode}
    (hg : FMap.get ns k = some c) : WfN c := by
  induction ns with
  | nil => cases hg
  | cons e ns ih =>
    obtain ⟨k', n⟩ := e
    simp only [WfL] at hw
    simp only [FMap.get] at hg
    split at hg
    · cases hg; exact hw.1
    · exact ih hw.2 hg

theorem WfL.insert {ns : List (Str × RefNode)} (hw : WfL ns) (k : Str) {c : RefNode}
    (hc : WfN c) : WfL (FMap.insert ns k c) := ⟨hc, hw.erase k⟩

theorem refsL_insert (ns : List (Str × RefNode)) (k : Str) (c : RefNode) :
    refsL (FMap.insert ns k c) = c.refs ++ refsL (FMap.erase ns k) := rfl

/-! ### Subscribe -/

theorem grow_child {h h' : Heap} {ns : List (Str × RefNode)} {k : Str} {c c' : RefNode}
    (hw : FMap.WF ns) (hn : (refsL ns).Nodup) (hb : ∀ r ∈ refsL ns, r < h.length)
    (hg : FMap.get ns k = some c) (g : Grow h c.refs h' c'.refs) :
    Grow h (refsL ns) h' (refsL (FMap.insert ns k c')) := by
  have hsub := refsL_erase_sublist ns k
  constructor
  · rw [refsL_insert, List.nodup_append]
    refine ⟨g.nodup, hn.sublist hsub, ?_⟩
    rintro a ha b hb' rfl
    rcases g.from' a ha with h1 | h1
    · exact refsL_erase_disjoint hn hg h1 hb'
    · exact absurd (hb a (hsub.subset hb')) (by omega)
  · intro r hr
    rw [refsL_insert, List.mem_append] at hr
    rcases hr with hr | hr
    · exact g.bound r hr
    · exact Nat.lt_of_lt_of_le (hb r (hsub.subset hr)) g.len
  · exact g.len
  · intro r hr
    rw [refsL_insert, List.mem_append] at hr
    rcases hr with hr | hr
    · exact (g.from' r hr).imp (refs_of_get hg) id
    · exact Or.inl (hsub.subset hr)
  · intro r hr
    rw [refsL_insert, List.mem_append]
    exact (refsL_split hw hg hr).imp (g.kept r) id
  · intro r hr hnr
    exact g.frame r hr fun hc => hnr (refs_of_get hg hc)
  · intro r h1 h2
    rw [refsL_insert, List.mem_append]
    exact Or.inl (g.fresh r h1 h2)
  · exact g.clean

theorem grow_new {h h' : Heap} {ns : List (Str × RefNode)} {k : Str} {c' : RefNode}
    (hn : (refsL ns).Nodup) (hb : ∀ r ∈ refsL ns, r < h.length)
    (hg : FMap.get ns k = none) (g : Grow (h ++ [RouteContent.empty]) [h.length] h' c'.refs) :
    Grow h (refsL ns) h' (refsL (FMap.insert ns k c')) := by
  have he : FMap.erase ns k = ns := FMap.erase_eq_self hg
  have hlen := g.len
  simp only [List.length_append, List.length_cons, List.length_nil] at hlen
  have hf : ∀ r ∈ c'.refs, h.length ≤ r := by
    intro r hr
    rcases g.from' r hr with h1 | h1
    · simp at h1; omega
    · simp at h1; omega
  constructor
  · rw [refsL_insert, he, List.nodup_append]
    refine ⟨g.nodup, hn, ?_⟩
    rintro a ha b hb' rfl
    have := hf a ha
    exact absurd (hb a hb') (by omega)
  · intro r hr
    rw [refsL_insert, he, List.mem_append] at hr
    rcases hr with hr | hr
    · exact g.bound r hr
    · have := hb r hr; omega
  · omega
  · intro r hr
    rw [refsL_insert, he, List.mem_append] at hr
    exact hr.elim (fun hr => Or.inr (hf r hr)) Or.inl
  · intro r hr
    rw [refsL_insert, he, List.mem_append]
    exact Or.inr hr
  · intro r hr hnr
    rw [g.frame r (by simp; omega) (by simp; omega), Heap.read_append_empty]
  · intro r h1 h2
    rw [refsL_insert, List.mem_append]
    refine Or.inl ?_
    by_cases hr : r = h.length
    · exact g.kept r (by simp [hr])
    · exact g.fresh r (by simp; omega) h2
  · intro hc; exact g.clean hc.snoc

theorem grow_node {h h' : Heap} {r : Nat} {ns ns' : List (Str × RefNode)}
    (hr : r < h.length) (hnr : r ∉ refsL ns) (g : Grow h (refsL ns) h' (refsL ns')) :
    Grow h (refs (mk r ns)) h' (refs (mk r ns')) := by
  simp only [refs]
  constructor
  · rw [List.nodup_cons]
    refine ⟨fun hc => ?_, g.nodup⟩
    rcases g.from' r hc with h1 | h1
    · exact hnr h1
    · omega
  · intro x hx
    rcases List.mem_cons.1 hx with rfl | hx
    · exact Nat.lt_of_lt_of_le hr g.len
    · exact g.bound x hx
  · exact g.len
  · intro x hx
    rcases List.mem_cons.1 hx with rfl | hx
    · exact Or.inl (List.mem_cons_self ..)
    · exact (g.from' x hx).imp (List.mem_cons_of_mem _) id
  · intro x hx
    rcases List.mem_cons.1 hx with rfl | hx
    · exact List.mem_cons_self ..
    · exact List.mem_cons_of_mem _ (g.kept x hx)
  · intro x hx hnx
    exact g.frame x hx fun hc => hnx (List.mem_cons_of_mem _ hc)
  · intro x h1 h2
    exact List.mem_cons_of_mem _ (g.fresh x h1 h2)
  · exact g.clean

/-- What is known of a node in a heap. -/
structure Fits' (h : Heap) (n : RefNode) : Prop where
  wf : n.WfN
  nodup : n.refs.Nodup
  bound : ∀ r ∈ n.refs, r < h.length

theorem fits_new (h : Heap) : Fits' (h ++ [RouteContent.empty]) (mk h.length []) :=
  ⟨⟨FMap.wf_nil, trivial⟩, by simp [refs, refsL], by simp [refs, refsL]⟩

/-- The reference of the node at a path. -/
def refAt (n : RefNode) : List Str → Option Nat
  | [] => some n.ref
  | l :: ls => match FMap.get n.nodes l with
    | none => none
    | some c => c.refAt ls

theorem absL_frame {h h' : Heap} {ns : List (Str × RefNode)} {R R' : List Nat}
    (g : Grow h R h' R') (hd : ∀ r ∈ refsL ns, r < h.length ∧ r ∉ R) :
    absL h ns = absL h' ns :=
  absL_congr ns fun r hr => (g.frame r (hd r hr).1 (hd r hr).2).symm

/-- Inserting, in terms of the node with its contents inside. -/
theorem insert_abs {n : RefNode} {h : Heap} (hf : Fits' h n) (tf : Str) (cur : Option Str)
    (id : ClientId) (qos : QoS) (g : Option Str) :
    match n.insert h tf cur id qos g with
    | none => (n.abs h).insert tf cur id qos g = none
    | some (n', h') => (n.abs h).insert tf cur id qos g = some (n'.abs h') ∧ WfN n' ∧
        n'.ref = n.ref ∧ Grow h n.refs h' n'.refs ∧
        (∀ p r, n.refAt p = some r → n'.refAt p = some r) ∧
        ∀ p r, n'.refAt p = some r → n.refAt p = some r ∨ h.length ≤ r := by
  induction hl : cursorLen cur using Nat.strongRecOn generalizing n h cur with
  | _ k ih =>
    cases cur with
    | none =>
      unfold insert RouteNode.insert
      simp only [abs_content, abs_nodes]
      have hr : n.ref < h.length := hf.bound _ (by rw [refs_eq]; simp)
      cases hadd : (h.read n.ref).add tf id qos g with
      | none => simp
      | some c =>
        simp only
        have hnr : n.ref ∉ refsL n.nodes := by
          have := hf.nodup; rw [refs_eq, List.nodup_cons] at this; exact this.1
        refine ⟨?_, hf.wf, trivial, ?_, fun p r hp => hp, fun p r hp => Or.inl hp⟩
        · rw [abs_eq, Heap.read_set_self h hr]
          congr 2
          exact absL_congr _ fun r hr' => (Heap.read_set_ne h (by rintro rfl; exact hnr hr') c).symm
        · refine ⟨hf.nodup, by simpa using hf.bound, by simp, fun r hr => Or.inl hr,
            fun r hr => hr, ?_, ?_, ?_⟩
          · intro r _ hr'
            exact Heap.read_set_ne h (by rintro rfl; exact hr' (by rw [refs_eq]; simp)) c
          · intro r h1 h2; simp at h2; omega
          · intro hc
            refine hc.set fun he => ?_
            rw [(add_facts hadd).1] at he; cases he
    | some s =>
      have hs : cursorLen (splitTopic s).2 < k := by rw [← hl]; exact splitTopic_cursorLen s
      have hwf : FMap.WF n.nodes ∧ WfL n.nodes := by
        have := hf.wf; cases n; exact this
      have hnn : n.ref ∉ refsL n.nodes ∧ (refsL n.nodes).Nodup := by
        have := hf.nodup; rw [refs_eq, List.nodup_cons] at this; exact this
      have hbb : n.ref < h.length ∧ ∀ r ∈ refsL n.nodes, r < h.length := by
        have := hf.bound; rw [refs_eq] at this
        exact ⟨this _ (by simp), fun r hr => this r (by simp [hr])⟩
      unfold insert RouteNode.insert
      simp only [abs_content, abs_nodes, get_absL, entry]
      cases hg : FMap.get n.nodes (splitTopic s).1 with
      | some c =>
        simp only [Option.map_some, Option.getD_some]
        have hfc : Fits' h c := ⟨hwf.2.get hg, ?_, fun r hr => hbb.2 r (refs_of_get hg hr)⟩
        · have := ih _ hs (n := c) (h := h) hfc (splitTopic s).2 rfl
          cases hi : c.insert h tf (splitTopic s).2 id qos g with
          | none => rw [hi] at this; simp only at this ⊢; rw [this]
          | some x =>
            obtain ⟨c', h'⟩ := x
            rw [hi] at this
            simp only at this ⊢
            obtain ⟨h1, h2, h3, h4, h5, h6⟩ := this
            rw [h1]
            have hgrow := grow_child hwf.1 hnn.2 hbb.2 hg h4
            refine ⟨?_, ?_, rfl, ?_, ?_, ?_⟩
            · simp only [abs, Option.some.injEq, RouteNode.mk.injEq]
              refine ⟨(h4.frame _ hbb.1 fun hc => hnn.1 (refs_of_get hg hc)).symm, ?_⟩
              simp only [FMap.insert, absL, erase_absL, List.cons.injEq, true_and]
              exact absL_frame h4 fun r hr => ⟨hbb.2 r ((refsL_erase_sublist _ _).subset hr),
                fun hc => refsL_erase_disjoint hnn.2 hg hc hr⟩
            · exact ⟨FMap.wf_insert hwf.1 _ _, hwf.2.insert _ h2⟩
            · rw [refs_eq n]
              have := grow_node hbb.1 hnn.1 hgrow
              simpa only [refs] using this
            · intro p r hp
              cases p with
              | nil => exact hp
              | cons a as =>
                simp only [refAt, rnodes_mk, FMap.get_insert] at hp ⊢
                by_cases ha : (splitTopic s).1 = a
                · subst ha
                  rw [hg] at hp
                  simp only [if_true]
                  exact h5 as r hp
                · rw [if_neg ha]; exact hp
            · intro p r hp
              cases p with
              | nil => exact Or.inl hp
              | cons a as =>
                simp only [refAt, rnodes_mk, FMap.get_insert] at hp ⊢
                by_cases ha : (splitTopic s).1 = a
                · subst ha
                  rw [hg]
                  simp only [if_true] at hp
                  exact h6 as r hp
                · rw [if_neg ha] at hp; exact Or.inl hp
        · exact refs_nodup_of_get hnn.2 hg
      | none =>
        simp only [Option.map_none, Option.getD_none]
        have := ih _ hs (n := mk h.length []) (h := h ++ [RouteContent.empty]) (fits_new h)
          (splitTopic s).2 rfl
        have habs : abs (h ++ [RouteContent.empty]) (mk h.length []) = RouteNode.new := by
          simp [abs, absL, Heap.read, RouteNode.new]
        rw [habs] at this
        cases hi : (mk h.length []).insert (h ++ [RouteContent.empty]) tf (splitTopic s).2 id qos g with
        | none => rw [hi] at this; simp only at this ⊢; rw [this]
        | some x =>
          obtain ⟨c', h'⟩ := x
          rw [hi] at this
          simp only at this ⊢
          obtain ⟨h1, h2, h3, h4, h5, h6⟩ := this
          rw [h1]
          have h4' : Grow (h ++ [RouteContent.empty]) [h.length] h' c'.refs := by
            simpa [refs, refsL] using h4
          have hgrow := grow_new hnn.2 hbb.2 hg h4'
          refine ⟨?_, ?_, rfl, ?_, ?_, ?_⟩
          · simp only [abs, Option.some.injEq, RouteNode.mk.injEq]
            refine ⟨(hgrow.frame _ hbb.1 hnn.1).symm, ?_⟩
            simp only [FMap.insert, absL, erase_absL, List.cons.injEq, true_and]
            refine absL_congr _ fun r hr => ?_
            have hr' := hbb.2 r ((refsL_erase_sublist _ _).subset hr)
            rw [h4'.frame r (by simp; omega) (by simp; omega), Heap.read_append_empty]
          · exact ⟨FMap.wf_insert hwf.1 _ _, hwf.2.insert _ h2⟩
          · rw [refs_eq n]
            have := grow_node hbb.1 hnn.1 hgrow
            simpa only [refs] using this
          · intro p r hp
            cases p with
            | nil => exact hp
            | cons a as =>
              simp only [refAt, rnodes_mk, FMap.get_insert] at hp ⊢
              by_cases ha : (splitTopic s).1 = a
              · subst ha; rw [hg] at hp; cases hp
              · rw [if_neg ha]; exact hp
          · intro p r hp
            cases p with
            | nil => exact Or.inl hp
            | cons a as =>
              simp only [refAt, rnodes_mk, FMap.get_insert] at hp ⊢
              by_cases ha : (splitTopic s).1 = a
              · subst ha
                simp only [if_true] at hp
                right
                rcases h6 as r hp with h7 | h7
                · cases as with
                  | nil => simp [refAt] at h7; omega
                  | cons b bs => simp [refAt] at h7
                · simp at h7; omega
              · rw [if_neg ha] at hp; exact Or.inl hp

/-! ### Unsubscribe -/

theorem shrink_child {h h' : Heap} {ns : List (Str × RefNode)} {k : Str} {c c' : RefNode}
    (hw : FMap.WF ns) (hn : (refsL ns).Nodup) (hg : FMap.get ns k = some c)
    (g : Shrink h c.refs h' c'.refs) :
    Shrink h (refsL ns) h' (refsL (FMap.insert ns k c')) := by
  have hsub := refsL_erase_sublist ns k
  constructor
  · rw [refsL_insert, List.nodup_append]
    refine ⟨g.nodup, hn.sublist hsub, ?_⟩
    rintro a ha b hb' rfl
    exact refsL_erase_disjoint hn hg (g.from' a ha) hb'
  · exact g.len
  · intro r hr
    rw [refsL_insert, List.mem_append] at hr
    exact hr.elim (fun hr => refs_of_get hg (g.from' r hr)) fun hr => hsub.subset hr
  · intro r hnr
    exact g.frame r fun hc => hnr (refs_of_get hg hc)
  · intro hc r hr hnr
    rw [refsL_insert, List.mem_append] at hnr
    rcases refsL_split hw hg hr with h1 | h1
    · exact g.gone hc r h1 fun h2 => hnr (Or.inl h2)
    · exact absurd (Or.inr h1) hnr
  · exact g.clean

theorem shrink_drop {h h' : Heap} {ns : List (Str × RefNode)} {k : Str} {c c' : RefNode}
    (hw : FMap.WF ns) (hn : (refsL ns).Nodup) (hg : FMap.get ns k = some c)
    (g : Shrink h c.refs h' c'.refs) (hc' : c'.nodes = [])
    (he : h.Clean → h'.read c'.ref = RouteContent.empty) :
    Shrink h (refsL ns) h' (refsL (FMap.erase ns k)) := by
  have hsub := refsL_erase_sublist ns k
  constructor
  · exact hn.sublist hsub
  · exact g.len
  · intro r hr; exact hsub.subset hr
  · intro r hnr
    exact g.frame r fun hc => hnr (refs_of_get hg hc)
  · intro hc r hr hnr
    rcases refsL_split hw hg hr with h1 | h1
    · by_cases h2 : r ∈ c'.refs
      · rw [refs_eq, hc'] at h2
        simp only [refsL, List.mem_singleton] at h2
        rw [h2]; exact he hc
      · exact g.gone hc r h1 h2
    · exact absurd h1 hnr
  · exact g.clean

theorem shrink_node {h h' : Heap} {r : Nat} {ns ns' : List (Str × RefNode)}
    (hnr : r ∉ refsL ns) (g : Shrink h (refsL ns) h' (refsL ns')) :
    Shrink h (refs (mk r ns)) h' (refs (mk r ns')) := by
  simp only [refs]
  constructor
  · rw [List.nodup_cons]
    exact ⟨fun hc => hnr (g.from' r hc), g.nodup⟩
  · exact g.len
  · intro x hx
    rcases List.mem_cons.1 hx with rfl | hx
    · exact List.mem_cons_self ..
    · exact List.mem_cons_of_mem _ (g.from' x hx)
  · intro x hnx
    exact g.frame x fun hc => hnx (List.mem_cons_of_mem _ hc)
  · intro hc x hx hnx
    rcases List.mem_cons.1 hx with rfl | hx
    · exact absurd (List.mem_cons_self ..) hnx
    · exact g.gone hc x hx fun h2 => hnx (List.mem_cons_of_mem _ h2)
  · exact g.clean

theorem Shrink.refl {h : Heap} {R : List Nat} (hn : R.Nodup) : Shrink h R h R :=
  ⟨hn, rfl, fun _ h => h, fun _ _ => rfl, fun _ _ h1 h2 => absurd h1 h2, fun h => h⟩

/-- Removing, in terms of the node with its contents inside. -/
theorem remove_abs {n : RefNode} {h : Heap} (hf : Fits' h n) (cur : Option Str)
    (id : ClientId) (g : Option Str) :
    match n.remove h cur id g with
    | none => (n.abs h).remove cur id g = none
    | some (n', h', b) => (n.abs h).remove cur id g = some (n'.abs h', b) ∧ WfN n' ∧
        n'.ref = n.ref ∧ Shrink h n.refs h' n'.refs ∧
        (b = true → n'.nodes = [] ∧ (h.Clean → h'.read n'.ref = RouteContent.empty)) ∧
        (∀ p r, n.refAt p = some r → n'.refAt p = some r ∨ n'.refAt p = none) ∧
        ∀ p r, n'.refAt p = some r → n.refAt p = some r := by
  induction hl : cursorLen cur using Nat.strongRecOn generalizing n h cur with
  | _ k ih =>
    have hnn : n.ref ∉ refsL n.nodes ∧ (refsL n.nodes).Nodup := by
      have := hf.nodup; rw [refs_eq, List.nodup_cons] at this; exact this
    cases cur with
    | none =>
      unfold remove RouteNode.remove
      simp only [abs_content, abs_nodes]
      have hr : n.ref < h.length := hf.bound _ (by rw [refs_eq]; simp)
      cases hdel : (h.read n.ref).del id g with
      | none => simp
      | some c =>
        simp only
        refine ⟨?_, hf.wf, trivial, ?_, ?_, fun p r hp => Or.inl hp, fun p r hp => hp⟩
        · rw [abs_eq, Heap.read_set_self h hr, absL_nil_iff]
          congr 3
          exact absL_congr _ fun r hr' => (Heap.read_set_ne h (by rintro rfl; exact hnn.1 hr') c).symm
        · refine ⟨hf.nodup, by simp, fun r hr => hr, ?_, fun _ r h1 h2 => absurd h1 h2, ?_⟩
          · intro r hr'
            exact Heap.read_set_ne h (by rintro rfl; exact hr' (by rw [refs_eq]; simp)) c
          · intro hc
            exact hc.set fun he => RouteNode.del_clean hdel he
        · intro hb
          simp only [Bool.and_eq_true, List.isEmpty_iff] at hb
          refine ⟨hb.2, fun _ => ?_⟩
          rw [Heap.read_set_self h hr]
          exact RouteNode.del_clean hdel hb.1
    | some s =>
      have hs : cursorLen (splitTopic s).2 < k := by rw [← hl]; exact splitTopic_cursorLen s
      have hwf : FMap.WF n.nodes ∧ WfL n.nodes := by
        have := hf.wf; cases n; exact this
      have hbb : n.ref < h.length ∧ ∀ r ∈ refsL n.nodes, r < h.length := by
        have := hf.bound; rw [refs_eq] at this
        exact ⟨this _ (by simp), fun r hr => this r (by simp [hr])⟩
      unfold remove RouteNode.remove
      simp only [abs_content, abs_nodes, get_absL]
      cases hg : FMap.get n.nodes (splitTopic s).1 with
      | none =>
        simp only [Option.map_none]
        exact ⟨trivial, hf.wf, trivial, Shrink.refl hf.nodup, by simp, fun p r hp => Or.inl hp,
          fun p r hp => hp⟩
      | some c =>
        simp only [Option.map_some]
        have hfc : Fits' h c := ⟨hwf.2.get hg, refs_nodup_of_get hnn.2 hg,
          fun r hr => hbb.2 r (refs_of_get hg hr)⟩
        have := ih _ hs (n := c) (h := h) hfc (splitTopic s).2 rfl
        cases hi : c.remove h (splitTopic s).2 id g with
        | none => rw [hi] at this; simp only at this ⊢; rw [this]
        | some x =>
          obtain ⟨c', h', b⟩ := x
          rw [hi] at this
          simp only at this ⊢
          obtain ⟨h1, h2, h3, h4, h5, h6, h9⟩ := this
          rw [h1]
          have hown : h'.read n.ref = h.read n.ref :=
            h4.frame _ fun hc => hnn.1 (refs_of_get hg hc)
          have hrest : absL h (FMap.erase n.nodes (splitTopic s).1) =
              absL h' (FMap.erase n.nodes (splitTopic s).1) :=
            absL_congr _ fun r hr => (h4.frame r fun hc =>
              refsL_erase_disjoint hnn.2 hg hc hr).symm
          cases b with
          | true =>
            simp only
            obtain ⟨h7, h8⟩ := h5 rfl
            have hsh := shrink_drop hwf.1 hnn.2 hg h4 h7 h8
            refine ⟨?_, ⟨FMap.wf_erase hwf.1 _, hwf.2.erase _⟩, rfl, ?_, ?_, ?_, ?_⟩
            · simp only [abs, erase_absL, absL_nil_iff, hown, hrest]
            · rw [refs_eq n]
              have := shrink_node hnn.1 hsh
              simpa only [refs] using this
            · intro hb
              simp only [Bool.and_eq_true, List.isEmpty_iff] at hb
              exact ⟨hb.2, fun hc => h4.clean hc _ hb.1⟩
            · intro p r hp
              cases p with
              | nil => exact Or.inl hp
              | cons a as =>
                simp only [refAt, rnodes_mk, FMap.get_erase] at hp ⊢
                by_cases ha : (splitTopic s).1 = a
                · subst ha; simp
                · rw [if_neg ha]; exact Or.inl hp
            · intro p r hp
              cases p with
              | nil => exact hp
              | cons a as =>
                simp only [refAt, rnodes_mk, FMap.get_erase] at hp ⊢
                by_cases ha : (splitTopic s).1 = a
                · subst ha; simp at hp
                · rw [if_neg ha] at hp; exact hp
          | false =>
            simp only
            have hsh := shrink_child hwf.1 hnn.2 hg h4
            refine ⟨?_, ⟨FMap.wf_insert hwf.1 _ _, hwf.2.insert _ h2⟩, rfl, ?_, by simp, ?_, ?_⟩
            · simp only [abs, FMap.insert, absL, erase_absL, hown, hrest]
            · rw [refs_eq n]
              have := shrink_node hnn.1 hsh
              simpa only [refs] using this
            · intro p r hp
              cases p with
              | nil => exact Or.inl hp
              | cons a as =>
                simp only [refAt, rnodes_mk, FMap.get_insert] at hp ⊢
                by_cases ha : (splitTopic s).1 = a
                · subst ha
                  rw [hg] at hp
                  simp only [if_true]
                  exact h6 as r hp
                · rw [if_neg ha]; exact Or.inl hp
            · intro p r hp
              cases p with
              | nil => exact hp
              | cons a as =>
                simp only [refAt, rnodes_mk, FMap.get_insert] at hp ⊢
                by_cases ha : (splitTopic s).1 = a
                · subst ha
                  rw [hg]
                  simp only [if_true] at hp
                  exact h9 as r hp
                · rw [if_neg ha] at hp; exact hp

end RefNode
end Akasa

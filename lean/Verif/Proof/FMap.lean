import Verif.Model.FMap
/-! Lemmas about finite maps. -/
namespace Akasa
namespace FMap
variable {κ α : Type} [DecidableEq κ]

@[simp] theorem get_nil (k : κ) : get ([] : FMap κ α) k = none := rfl

theorem get_cons (m : FMap κ α) (k k' : κ) (v : α) :
    get ((k', v) :: m) k = if k' = k then some v else get m k := rfl

theorem get_erase (m : FMap κ α) (k k' : κ) :
    get (erase m k) k' = if k = k' then none else get m k' := by
  induction m with
  | nil => simp [erase]
  | cons p m ih =>
    obtain ⟨a, v⟩ := p
    unfold erase at ih ⊢
    by_cases h : a = k
    · subst h
      simp only [List.filter_cons, ne_eq, not_true_eq_false, decide_false, Bool.false_eq_true,
        ↓reduceIte, ih, get_cons]
      split <;> rfl
    · simp only [List.filter_cons, ne_eq, h, not_false_eq_true, decide_true, ↓reduceIte, get_cons, ih]
      by_cases h2 : a = k'
      · subst h2
        have : k ≠ a := fun e => h e.symm
        simp [this]
      · simp [h2]

@[simp] theorem get_erase_self (m : FMap κ α) (k : κ) : get (erase m k) k = none := by
  simp [get_erase]

theorem get_erase_ne (m : FMap κ α) {k k' : κ} (h : k ≠ k') : get (erase m k) k' = get m k' := by
  simp [get_erase, h]

theorem get_insert (m : FMap κ α) (k k' : κ) (v : α) :
    get (insert m k v) k' = if k = k' then some v else get m k' := by
  unfold insert
  rw [get_cons, get_erase]
  split <;> rfl

@[simp] theorem get_insert_self (m : FMap κ α) (k : κ) (v : α) : get (insert m k v) k = some v := by
  simp [get_insert]

theorem get_insert_ne (m : FMap κ α) {k k' : κ} (v : α) (h : k ≠ k') :
    get (insert m k v) k' = get m k' := by
  simp [get_insert, h]

theorem mem_of_get {m : FMap κ α} {k : κ} {v : α} (h : get m k = some v) : (k, v) ∈ m := by
  induction m with
  | nil => simp at h
  | cons p m ih =>
    obtain ⟨a, w⟩ := p
    rw [get_cons] at h
    by_cases hk : a = k
    · simp [hk] at h; simp [hk, h]
    · simp [hk] at h; exact List.mem_cons_of_mem _ (ih h)

theorem get_isSome_iff (m : FMap κ α) (k : κ) : (get m k).isSome ↔ k ∈ keys m := by
  induction m with
  | nil => simp [keys]
  | cons p m ih =>
    obtain ⟨a, w⟩ := p
    simp only [get_cons, keys, List.map_cons, List.mem_cons] at ih ⊢
    by_cases hk : a = k
    · simp [hk]
    · simp only [hk, ↓reduceIte, ih]
      constructor
      · exact Or.inr
      · rintro (h | h)
        · exact absurd h.symm hk
        · exact h

theorem get_eq_none_iff (m : FMap κ α) (k : κ) : get m k = none ↔ k ∉ keys m := by
  rw [← get_isSome_iff]; cases get m k <;> simp

omit [DecidableEq κ] in
theorem mem_keys_of_mem {m : FMap κ α} {k : κ} {v : α} (h : (k, v) ∈ m) : k ∈ keys m :=
  List.mem_map.mpr ⟨_, h, rfl⟩

omit [DecidableEq κ] in
theorem wf_nil : WF ([] : FMap κ α) := by simp [WF, keys]

theorem get_of_mem {m : FMap κ α} (hw : WF m) {k : κ} {v : α} (h : (k, v) ∈ m) :
    get m k = some v := by
  induction m with
  | nil => cases h
  | cons p m ih =>
    obtain ⟨a, w⟩ := p
    simp only [WF, keys, List.map_cons, List.nodup_cons] at hw
    rw [get_cons]
    rcases List.mem_cons.mp h with h | h
    · cases h; simp
    · have : a ≠ k := fun e => hw.1 (e ▸ mem_keys_of_mem h)
      simp [this, ih hw.2 h]

theorem mem_iff_get {m : FMap κ α} (hw : WF m) {k : κ} {v : α} :
    (k, v) ∈ m ↔ get m k = some v := ⟨get_of_mem hw, mem_of_get⟩

theorem mem_keys_erase {m : FMap κ α} {k k' : κ} :
    k' ∈ keys (erase m k) ↔ k' ∈ keys m ∧ k' ≠ k := by
  rw [← get_isSome_iff, ← get_isSome_iff, get_erase]
  by_cases h : k = k'
  · simp [h]
  · simp [h, Ne.symm h]

theorem wf_erase {m : FMap κ α} (hw : WF m) (k : κ) : WF (erase m k) := by
  unfold WF keys erase at *
  exact hw.sublist ((List.filter_sublist (l := m)).map _)

theorem wf_insert {m : FMap κ α} (hw : WF m) (k : κ) (v : α) : WF (insert m k v) := by
  have h := wf_erase hw k
  unfold insert
  unfold WF at *
  simp only [keys, List.map_cons, List.nodup_cons] at *
  refine ⟨?_, h⟩
  intro hm
  exact (mem_keys_erase.mp hm).2 rfl

theorem eq_nil_iff_get (m : FMap κ α) : m = [] ↔ ∀ k, get m k = none := by
  constructor
  · rintro rfl k; rfl
  · intro h
    cases m with
    | nil => rfl
    | cons p m => obtain ⟨a, v⟩ := p; have := h a; simp [get_cons] at this

theorem erase_eq_self {m : FMap κ α} {k : κ} (h : get m k = none) : erase m k = m := by
  unfold erase
  rw [List.filter_eq_self]
  intro p hp
  have := (get_eq_none_iff m k).mp h
  simp only [ne_eq, decide_eq_true_eq]
  exact fun e => this (e ▸ mem_keys_of_mem (v := p.2) hp)

theorem length_erase_of_get {m : FMap κ α} (hw : WF m) {k : κ} {v : α} (h : get m k = some v) :
    (erase m k).length + 1 = m.length := by
  induction m with
  | nil => simp at h
  | cons p m ih =>
    obtain ⟨a, w⟩ := p
    simp only [WF, keys, List.map_cons, List.nodup_cons] at hw
    rw [get_cons] at h
    by_cases hk : a = k
    · subst hk
      have hn : get m a = none := (get_eq_none_iff m a).mpr hw.1
      have : erase ((a, w) :: m) a = erase m a := by simp [erase]
      rw [this, erase_eq_self hn]; rfl
    · simp [hk] at h
      have : erase ((a, w) :: m) k = (a, w) :: erase m k := by simp [erase, hk]
      rw [this]; simp [ih hw.2 h]

theorem length_insert_of_none {m : FMap κ α} {k : κ} {v : α} (h : get m k = none) :
    (insert m k v).length = m.length + 1 := by
  simp [insert, erase_eq_self h]

theorem length_insert_of_some {m : FMap κ α} (hw : WF m) {k : κ} {v w : α} (h : get m k = some w) :
    (insert m k v).length = m.length := by
  simp [insert, length_erase_of_get hw h]

theorem length_erase_le (m : FMap κ α) (k : κ) : (erase m k).length ≤ m.length := by
  unfold erase; exact List.length_filter_le _ _

end FMap
end Akasa

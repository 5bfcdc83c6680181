import Verif.Model.Topic
import Verif.Proof.FMap
/-! Lemmas about splitting topics into levels. -/
namespace Akasa

/-- Levels of the remaining input of a cursor. -/
def cursorLevels : Option Str → List Str
  | none => []
  | some s => levels s

theorem levels_ne_nil (s : Str) : levels s ≠ [] := by
  cases s with
  | nil => simp [levels]
  | cons c cs =>
    unfold levels
    split
    · simp
    · split <;> simp

theorem levels_split (s : Str) :
    levels s = (splitTopic s).1 :: cursorLevels (splitTopic s).2 := by
  induction s with
  | nil => simp [levels, splitTopic, cursorLevels]
  | cons c cs ih =>
    unfold levels splitTopic
    split
    · simp [cursorLevels]
    · rw [ih]

theorem cursorLevels_some (s : Str) :
    cursorLevels (some s) = (splitTopic s).1 :: cursorLevels (splitTopic s).2 := levels_split s

theorem levels_injective : ∀ {a b : Str}, levels a = levels b → a = b := by
  intro a
  induction a with
  | nil =>
    intro b h
    cases b with
    | nil => rfl
    | cons c cs =>
      exfalso
      unfold levels at h
      split at h
      · have := levels_ne_nil cs
        simp_all
      · split at h <;> simp_all
  | cons c cs ih =>
    intro b h
    cases b with
    | nil =>
      exfalso
      unfold levels at h
      split at h
      · have := levels_ne_nil cs
        simp_all
      · split at h <;> simp_all
    | cons d ds =>
      unfold levels at h
      by_cases hc : c = '/'
      · by_cases hd : d = '/'
        · simp [hc, hd] at h; rw [ih h, hc, hd]
        · simp only [hc, hd, ↓reduceIte] at h
          split at h <;> simp at h
      · by_cases hd : d = '/'
        · simp only [hc, hd, ↓reduceIte] at h
          split at h <;> simp at h
        · simp only [hc, hd, ↓reduceIte] at h
          have h1 := levels_ne_nil cs
          have h2 := levels_ne_nil ds
          cases e1 : levels cs with
          | nil => exact absurd e1 h1
          | cons l1 ls1 =>
            cases e2 : levels ds with
            | nil => exact absurd e2 h2
            | cons l2 ls2 =>
              rw [e1, e2] at h
              simp only [List.cons.injEq] at h
              obtain ⟨⟨hcd, hl⟩, hls⟩ := h
              have : levels cs = levels ds := by rw [e1, e2, hl, hls]
              rw [ih this, hcd]

theorem mem_levels_chars {s l : Str} (hl : l ∈ levels s) {x : Char} (hx : x ∈ l) : x ∈ s := by
  induction s generalizing l with
  | nil => simp [levels] at hl; subst hl; simp at hx
  | cons c cs ih =>
    unfold levels at hl
    split at hl
    · rcases List.mem_cons.mp hl with h | h
      · subst h; simp at hx
      · exact List.mem_cons_of_mem _ (ih h hx)
    · split at hl
      · simp at hl; subst hl; simp at hx; simp [hx]
      · rename_i l0 ls0 e
        rcases List.mem_cons.mp hl with h | h
        · subst h
          rcases List.mem_cons.mp hx with hx | hx
          · simp [hx]
          · exact List.mem_cons_of_mem _ (ih (by rw [e]; simp) hx)
        · exact List.mem_cons_of_mem _ (ih (by rw [e]; simp [h]) hx)

/-- Levels of a topic name are not wildcards. -/
theorem ValidTopic.level_ne {t l : Str} (h : ValidTopic t) (hl : l ∈ levels t) :
    l ≠ matchAll ∧ l ≠ matchOne := by
  constructor
  · intro e; subst e; exact h.1 (mem_levels_chars hl (by simp [matchAll]))
  · intro e; subst e; exact h.2 (mem_levels_chars hl (by simp [matchOne]))

/-- First character and first level. -/
theorem head?_of_levels {s l : Str} {ls : List Str} {c : Char} (h : levels s = (c :: l) :: ls) :
    s.head? = some c := by
  cases s with
  | nil => simp [levels] at h
  | cons d cs =>
    unfold levels at h
    split at h
    · simp at h
    · split at h
      · simp at h; simp [h.1.1]
      · simp at h; simp [h.1.1]

theorem levels_of_head? {s : Str} {c : Char} (h : s.head? = some c) (hc : c ≠ '/') :
    ∃ l ls, levels s = (c :: l) :: ls := by
  cases s with
  | nil => simp at h
  | cons d cs =>
    simp at h; subst h
    unfold levels
    rw [if_neg hc]
    split
    · exact ⟨_, _, rfl⟩
    · exact ⟨_, _, rfl⟩

end Akasa

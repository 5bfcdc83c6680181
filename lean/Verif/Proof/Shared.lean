import Verif.Model.Route
import Verif.Proof.FMap
/-! Lemmas about shared-subscription groups. -/
namespace Akasa

/-- Relation between a group and its abstract membership `σ`; `dead` are the clients that may have
a stale index entry. -/
structure GroupInv (σ : ClientId → Option QoS) (dead : ClientId → Prop) (s : SharedClients) :
    Prop where
  nodup : (s.items.map (·.1)).Nodup
  mem : ∀ id q, (id, q) ∈ s.items ↔ σ id = some q
  idx : ∀ i id q, s.items[i]? = some (id, q) → s.index.get id = some i
  back : ∀ id i, s.index.get id = some i → (∃ q, s.items[i]? = some (id, q)) ∨ dead id

theorem lt_of_getElem? {α : Type} {l : List α} {i : Nat} {x : α} (h : l[i]? = some x) :
    i < l.length := (List.getElem?_eq_some_iff.mp h).1

theorem nodup_of_getElem? {α : Type} {l : List α}
    (h : ∀ a b, a < b → b < l.length → l[a]? ≠ l[b]?) : l.Nodup := by
  unfold List.Nodup
  rw [List.pairwise_iff_getElem]
  intro i j hi hj hij e
  apply h i j hij hj
  rw [List.getElem?_eq_getElem hi, List.getElem?_eq_getElem hj, e]

namespace GroupInv

theorem empty (dead : ClientId → Prop) : GroupInv (fun _ => none) dead SharedClients.empty := by
  constructor <;> simp [SharedClients.empty]

theorem insert {σ : ClientId → Option QoS} {dead : ClientId → Prop} {s : SharedClients}
    (h : GroupInv σ dead s) {id : ClientId} (q : QoS) (hd : ¬ dead id) :
    ∃ s', s.insert (id, q) = some s' ∧ s'.items ≠ [] ∧
      GroupInv (fun x => if x = id then some q else σ x) dead s' := by
  unfold SharedClients.insert
  cases hi : s.index.get id with
  | some i =>
    obtain ⟨q0, hq0⟩ := (h.back id i hi).resolve_right hd
    have hlt : i < s.items.length := by
      exact lt_of_getElem? hq0
    simp only [hq0]
    refine ⟨_, rfl, ?_, ?_⟩
    · intro e
      have := congrArg List.length e
      simp only [List.length_set, List.length_nil] at this; omega
    · constructor
      · simp only [List.map_set]
        have : (s.items.map (·.1)).set i id = s.items.map (·.1) := by
          apply List.ext_getElem?
          intro j
          rw [List.getElem?_set]
          split
          · rename_i e; subst e
            simp only [List.length_map, hlt, ↓reduceIte, List.getElem?_map, hq0, Option.map_some]
          · rfl
        rw [this]; exact h.nodup
      · intro id' q'
        constructor
        · intro hm
          obtain ⟨j, hj⟩ := List.mem_iff_getElem?.mp hm
          rw [List.getElem?_set] at hj
          split at hj
          · simp at hj; simp [hj.1.symm, hj.2]
          · rename_i hne
            have hne2 : id' ≠ id := by
              rintro rfl
              have := h.idx j _ _ hj
              rw [hi] at this
              exact hne (by simpa using this)
            simp only [hne2, ↓reduceIte]
            exact (h.mem _ _).mp (List.mem_of_getElem? hj)
        · intro hm
          split at hm
          · rename_i e; subst e; simp at hm; subst hm
            apply List.mem_iff_getElem?.mpr
            exact ⟨i, by rw [List.getElem?_set]; simp [hlt]⟩
          · rename_i hne
            obtain ⟨j, hj⟩ := List.mem_iff_getElem?.mp ((h.mem _ _).mpr hm)
            apply List.mem_iff_getElem?.mpr
            refine ⟨j, ?_⟩
            rw [List.getElem?_set]
            have : i ≠ j := by
              rintro rfl
              rw [hq0] at hj; simp at hj; exact hne hj.1.symm
            simp [this, hj]
      · intro j id' q' hj
        rw [List.getElem?_set] at hj
        split at hj
        · rename_i e; subst e
          simp at hj
          rw [← hj.1]; exact hi
        · exact h.idx j _ _ hj
      · intro id' j hj
        rcases h.back id' j hj with ⟨q', hq'⟩ | hdd
        · left
          by_cases e : i = j
          · subst e
            rw [hq0] at hq'; simp at hq'
            refine ⟨q, ?_⟩
            rw [List.getElem?_set]; simp [hlt, hq'.1]
          · exact ⟨q', by rw [List.getElem?_set]; simp [e, hq']⟩
        · exact Or.inr hdd
  | none =>
    simp only
    refine ⟨_, rfl, by simp, ?_⟩
    have hnm : ∀ q0, (id, q0) ∉ s.items := by
      intro q0 hm
      obtain ⟨j, hj⟩ := List.mem_iff_getElem?.mp hm
      have := h.idx j _ _ hj
      rw [hi] at this; cases this
    constructor
    · simp only [List.map_append, List.map_cons, List.map_nil]
      rw [List.nodup_append]
      refine ⟨h.nodup, by simp, ?_⟩
      intro a ha b hb e
      simp at hb; subst hb; subst e
      obtain ⟨⟨a1, q1⟩, hm, e⟩ := List.mem_map.mp ha
      simp at e; subst e
      exact hnm q1 hm
    · intro id' q'
      simp only [List.mem_append, List.mem_singleton, Prod.mk.injEq]
      constructor
      · rintro (hm | ⟨rfl, rfl⟩)
        · have hne : id' ≠ id := by rintro rfl; exact hnm _ hm
          simp only [hne, ↓reduceIte]; exact (h.mem _ _).mp hm
        · simp
      · intro hm
        split at hm
        · rename_i e; simp at hm; exact Or.inr ⟨e, hm.symm⟩
        · exact Or.inl ((h.mem _ _).mpr hm)
    · intro j id' q' hj
      rw [FMap.get_insert]
      rw [List.getElem?_append] at hj
      split at hj
      · have hne : id ≠ id' := by rintro rfl; exact hnm _ (List.mem_of_getElem? hj)
        simp only [hne, ↓reduceIte]; exact h.idx j _ _ hj
      · rename_i hge
        have hj0 : j - s.items.length = 0 := by
          have := lt_of_getElem? hj
          simp at this; omega
        rw [hj0] at hj; simp at hj
        simp only [hj.1, ↓reduceIte]
        congr 1; omega
    · intro id' j hj
      rw [FMap.get_insert] at hj
      split at hj
      · rename_i e; subst e; simp at hj; subst hj
        left; exact ⟨q, by simp⟩
      · rcases h.back id' j hj with ⟨q', hq'⟩ | hdd
        · left
          refine ⟨q', ?_⟩
          rw [List.getElem?_append, if_pos]
          · exact hq'
          · exact lt_of_getElem? hq'
        · exact Or.inr hdd

theorem remove {σ : ClientId → Option QoS} {dead : ClientId → Prop} {s : SharedClients}
    (h : GroupInv σ dead s) {id : ClientId} (hd : ¬ dead id) :
    ∃ s', s.remove id = some s' ∧
      GroupInv (fun x => if x = id then none else σ x) (fun x => dead x ∨ x = id) s' := by
  unfold SharedClients.remove
  cases hi : s.index.get id with
  | none =>
    simp only
    refine ⟨_, rfl, ?_⟩
    have hnm : ∀ q0, (id, q0) ∉ s.items := by
      intro q0 hm
      obtain ⟨j, hj⟩ := List.mem_iff_getElem?.mp hm
      have := h.idx j _ _ hj
      rw [hi] at this; cases this
    constructor
    · exact h.nodup
    · intro id' q'
      rw [h.mem]
      split
      · rename_i e; subst e
        constructor
        · intro hc; exact absurd ((h.mem _ _).mpr hc) (hnm _)
        · intro hc; cases hc
      · rfl
    · exact h.idx
    · intro id' i hh
      rcases h.back id' i hh with h1 | h1
      · exact Or.inl h1
      · exact Or.inr (Or.inl h1)
  | some i =>
    obtain ⟨q0, hq0⟩ := (h.back id i hi).resolve_right hd
    have hlt : i < s.items.length := by
      exact lt_of_getElem? hq0
    simp only
    -- positions are determined by ids
    have huniq : ∀ j q', s.items[j]? = some (id, q') → j = i := by
      intro j q' hj
      have := h.idx j _ _ hj
      rw [hi] at this; simpa using this.symm
    split
    · rename_i h1
      refine ⟨_, rfl, ?_⟩
      constructor
      · simp
      · intro id' q'
        simp only [List.not_mem_nil, false_iff]
        split
        · simp
        · rename_i hne
          intro hc
          obtain ⟨j, hj⟩ := List.mem_iff_getElem?.mp ((h.mem _ _).mpr hc)
          have hjl : j < s.items.length := by
            exact lt_of_getElem? hj
          have : j = i := by omega
          subst this
          rw [hq0] at hj; simp at hj; exact hne hj.1.symm
      · intro j id' q' hj; simp at hj
      · intro id' j hj
        rw [FMap.get_erase] at hj
        split at hj
        · cases hj
        · rename_i hne
          rcases h.back id' j hj with ⟨q', hq'⟩ | hdd
          · have hjl : j < s.items.length := by
              exact lt_of_getElem? hq'
            have : j = i := by omega
            subst this
            rw [hq0] at hq'; simp at hq'; exact absurd hq'.1 hne
          · exact Or.inr (Or.inl hdd)
    · rename_i h1
      have hnil : s.items ≠ [] := by intro e; simp [e] at hlt
      have hlast : s.items.getLast? = some (s.items.getLast hnil) := List.getLast?_eq_some_getLast hnil
      rw [hlast]
      simp only [SharedClients.swapRemove, hlt, ↓reduceDIte]
      refine ⟨_, rfl, ?_⟩
      obtain ⟨⟨lid, lq⟩, hl⟩ : ∃ x, s.items.getLast hnil = x := ⟨_, rfl⟩
      simp only [hl]
      have hlg : s.items[s.items.length - 1]? = some (lid, lq) := by
        rw [← hl, List.getLast_eq_getElem, List.getElem?_eq_getElem]
      -- the new vector, pointwise
      have hget : ∀ j, ((s.items.set i (lid, lq)).dropLast)[j]? =
          if j < s.items.length - 1 then (if j = i then some (lid, lq) else s.items[j]?) else none := by
        intro j
        rw [List.getElem?_dropLast, List.getElem?_set, List.length_set]
        by_cases hj : j < s.items.length - 1
        · simp only [hj, ↓reduceIte]
          by_cases e : i = j
          · subst e; simp [hlt]
          · simp [e, Ne.symm e]
        · simp [hj]
      have hpos : ∀ j id' q', s.items[j]? = some (id', q') → j < s.items.length := by
        intro j id' q' hj
        exact lt_of_getElem? hj
      have hlidx := h.idx _ _ _ hlg
      have hmem : ∀ id' q', (id', q') ∈ (s.items.set i (lid, lq)).dropLast ↔
          (if id' = id then none else σ id') = some q' := by
        intro id' q'
        rw [List.mem_iff_getElem?]
        constructor
        · rintro ⟨j, hj⟩
          rw [hget] at hj
          split at hj
          · rename_i hjl
            split at hj
            · rename_i hji
              simp at hj
              obtain ⟨rfl, rfl⟩ := hj
              have hne : lid ≠ id := by
                rintro rfl
                have := huniq _ _ hlg
                omega
              simp only [hne, ↓reduceIte]
              exact (h.mem _ _).mp (List.mem_of_getElem? hlg)
            · rename_i hji
              have hne : id' ≠ id := by
                rintro rfl
                exact hji (huniq _ _ hj)
              simp only [hne, ↓reduceIte]
              exact (h.mem _ _).mp (List.mem_of_getElem? hj)
          · cases hj
        · intro hh
          split at hh
          · cases hh
          · rename_i hne
            obtain ⟨j, hj⟩ := List.mem_iff_getElem?.mp ((h.mem _ _).mpr hh)
            have hjl := hpos _ _ _ hj
            have hji : j ≠ i := by
              rintro rfl
              rw [hq0] at hj; simp at hj; exact hne hj.1.symm
            by_cases e : j = s.items.length - 1
            · subst e
              rw [hlg] at hj; simp at hj
              refine ⟨i, ?_⟩
              rw [hget]
              have : i < s.items.length - 1 := by omega
              simp [this, hj]
            · refine ⟨j, ?_⟩
              rw [hget]
              have : j < s.items.length - 1 := by omega
              simp [this, hji, hj]
      constructor
      · -- distinct ids: two positions with the same id coincide
        apply nodup_of_getElem?
        intro a b hab hb
        simp only [List.length_map, List.length_dropLast, List.length_set] at hb
        simp only [List.getElem?_map, hget]
        have ha : a < s.items.length - 1 := by omega
        simp only [ha, hb, ↓reduceIte]
        have hga : s.items[a]? = some s.items[a] := List.getElem?_eq_getElem (by omega)
        have hgb : s.items[b]? = some s.items[b] := List.getElem?_eq_getElem (by omega)
        intro e
        have key : ∀ x y (hx : x < s.items.length) (hy : y < s.items.length),
            (s.items[x]).1 = (s.items[y]).1 → x = y := by
          intro x y hx hy exy
          have h1 := h.idx x (s.items[x]).1 (s.items[x]).2 (by simp [hx])
          have h2 := h.idx y (s.items[y]).1 (s.items[y]).2 (by simp [hy])
          rw [exy, h2] at h1
          simpa using h1.symm
        have hlast2 : s.items[s.items.length - 1] = (lid, lq) := by
          rw [List.getElem?_eq_getElem (by omega)] at hlg; simpa using hlg
        by_cases ea : a = i
        · have eb : b ≠ i := by omega
          simp only [ea, eb, ↓reduceIte, hgb, Option.map_some, Option.some.injEq] at e
          have := key (s.items.length - 1) b (by omega) (by omega) (by rw [hlast2]; exact e)
          omega
        · by_cases eb : b = i
          · simp only [ea, eb, ↓reduceIte, hga, Option.map_some, Option.some.injEq] at e
            have := key a (s.items.length - 1) (by omega) (by omega) (by rw [hlast2]; exact e)
            omega
          · simp only [ea, eb, ↓reduceIte, hga, hgb, Option.map_some, Option.some.injEq] at e
            have := key a b (by omega) (by omega) e
            omega
      · exact hmem
      · intro j id' q' hj
        rw [hget] at hj
        split at hj
        · rename_i hjl
          split at hj
          · rename_i e; subst e; simp at hj; simp [hj.1]
          · rename_i hji
            rw [FMap.get_insert]
            have hne1 : lid ≠ id' := by
              rintro rfl
              have := h.idx _ _ _ hj
              rw [hlidx] at this; simp at this; omega
            have hne2 : id ≠ id' := by
              rintro rfl; exact hji (huniq _ _ hj)
            simp only [hne1, ↓reduceIte, FMap.get_erase, hne2]
            exact h.idx _ _ _ hj
        · cases hj
      · intro id' j hj
        rw [FMap.get_insert] at hj
        split at hj
        · rename_i e; subst e; simp at hj; subst hj
          by_cases e : i = s.items.length - 1
          · -- the stale entry
            subst e
            rw [hq0] at hlg; simp at hlg
            exact Or.inr (Or.inr hlg.1.symm)
          · left
            refine ⟨lq, ?_⟩
            rw [hget]
            have : i < s.items.length - 1 := by omega
            simp [this]
        · rename_i hne1
          rw [FMap.get_erase] at hj
          split at hj
          · cases hj
          · rename_i hne2
            rcases h.back id' j hj with ⟨q', hq'⟩ | hdd
            · have hjl := hpos _ _ _ hq'
              left
              refine ⟨q', ?_⟩
              rw [hget]
              have h3 : j ≠ s.items.length - 1 := by
                rintro rfl
                rw [hlg] at hq'; simp at hq'; exact hne1 hq'.1
              have h4 : j ≠ i := by
                rintro rfl
                rw [hq0] at hq'; simp at hq'; exact hne2 hq'.1
              have : j < s.items.length - 1 := by omega
              simp [this, h4, hq']
            · exact Or.inr (Or.inl hdd)

end GroupInv
end Akasa

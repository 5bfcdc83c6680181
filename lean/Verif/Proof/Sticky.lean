import Verif.Proof.SharedOnce
/-! # The order of the members of a shared group -/
namespace Akasa
open RouteNode

/-- The members of a group, in the order in which they are numbered. -/
def idsOf (t : RouteTable) (g f : Str) : List ClientId :=
  match (t.root.contentAt (levels f)).groups.get g with
  | none => []
  | some sc => sc.items.map (·.1)

theorem selOf_ids {t : RouteTable} {pick : Str → Str → Nat} {g f : Str} {id : ClientId} {q : QoS}
    (h : selOf t pick g f = some (id, q)) :
    (idsOf t g f)[pick g f % (idsOf t g f).length]? = some id := by
  unfold selOf at h
  rw [Option.bind_eq_some_iff] at h
  obtain ⟨sc, h1, h2⟩ := h
  unfold SharedClients.getByNumber at h2
  simp [idsOf, h1, List.getElem?_map, h2]

theorem RouteContent.groups_add {c c' : RouteContent} {f : Str} {id : ClientId} {q : QoS}
    {o : Option Str} {g : Str} (h : c.add f id q o = some c') (hg : o ≠ some g) :
    c'.groups.get g = c.groups.get g := by
  unfold RouteContent.add at h
  simp only at h
  split at h
  · split at h
    · cases h
    · cases h
      rename_i name sc _
      exact FMap.get_insert_ne _ _ (fun e => hg (by rw [e]))
  · cases h; rfl

theorem RouteContent.groups_del {c c' : RouteContent} {id : ClientId} {o : Option Str} {g : Str}
    (h : c.del id o = some c') (hg : o ≠ some g) : c'.groups.get g = c.groups.get g := by
  unfold RouteContent.del at h
  simp only [Option.map_eq_some_iff] at h
  obtain ⟨d, h1, h2⟩ := h
  have hd : d.groups.get g = c.groups.get g := by
    split at h1
    · rename_i name
      have hne : name ≠ g := fun e => hg (by rw [e])
      split at h1
      · cases h1; rfl
      · split at h1
        · cases h1
        · split at h1
          · cases h1; exact FMap.get_erase_ne _ hne
          · cases h1; exact FMap.get_insert_ne _ _ hne
    · cases h1; rfl
  subst h2
  split
  · exact hd
  · exact hd

/-- A call about something else. -/
theorem ids_other {t t' : RouteTable} {op : RouteOp} (hc : t.root.Clean)
    (hs : t.step op = some t') {g f : Str} (hg : '/' ∉ g) (hf : op.filter ≠ shareFilter g f) :
    idsOf t' g f = idsOf t g f := by
  have htg : RouteOp.target op.filter ≠ (f, some g) := by
    intro h
    apply hf
    unfold RouteOp.target at h
    split at h
    · rename_i g' f' hsi
      cases h
      exact (sharedInfo_some hsi).1
    · cases h
  unfold idsOf
  cases op with
  | sub F id q =>
    rw [step_sub_eq] at hs
    simp only [RouteOp.filter] at htg
    generalize RouteOp.target F = tg at hs htg
    obtain ⟨f', g'⟩ := tg
    simp only at hs
    cases ha : (t.root.contentAt (levels f')).add f' id q g' with
    | none => rw [RouteTable.subscribeShared_none ha] at hs; cases hs
    | some c' =>
      obtain ⟨t1, h1, h2⟩ := RouteTable.subscribeShared_some ha
      rw [hs] at h1; cases h1
      rw [h2]
      by_cases e : levels f = levels f'
      · have := levels_injective e; subst this
        rw [if_pos rfl, RouteContent.groups_add ha (fun e => htg (by rw [e]))]
      · rw [if_neg e]
  | unsub F id =>
    rw [step_unsub_eq] at hs
    simp only [RouteOp.filter] at htg
    generalize RouteOp.target F = tg at hs htg
    obtain ⟨f', g'⟩ := tg
    simp only at hs
    cases ha : (t.root.contentAt (levels f')).del id g' with
    | none => rw [RouteTable.unsubscribeShared_none ha] at hs; cases hs
    | some c' =>
      obtain ⟨t1, h1, h2⟩ := RouteTable.unsubscribeShared_some hc ha
      rw [hs] at h1; cases h1
      rw [h2]
      by_cases e : levels f = levels f'
      · have := levels_injective e; subst this
        rw [if_pos rfl, RouteContent.groups_del ha (fun e => htg (by rw [e]))]
      · rw [if_neg e]

/-- A member subscribes again. -/
theorem ids_again {ops : List RouteOp} {t t' : RouteTable} (h : SInv ops t) {g f : Str}
    (hg : '/' ∉ g) {id : ClientId} {q q0 : QoS}
    (hm : subscribed ops (shareFilter g f) id = some q0)
    (hs : t.step (.sub (shareFilter g f) id q) = some t') : idsOf t' g f = idsOf t g f := by
  rw [step_sub_eq, target_share hg] at hs
  simp only at hs
  have hgrp := h.group g f hg
  cases ha : (t.root.contentAt (levels f)).add f id q (some g) with
  | none => rw [RouteTable.subscribeShared_none ha] at hs; cases hs
  | some c' =>
    obtain ⟨t1, h1, h2⟩ := RouteTable.subscribeShared_some ha
    rw [hs] at h1; cases h1
    unfold idsOf
    rw [h2, if_pos rfl]
    cases hget : (t.root.contentAt (levels f)).groups.get g with
    | none =>
      rw [hget] at hgrp
      have := hgrp id
      rw [hm] at this; cases this
    | some sc =>
      rw [hget] at hgrp
      obtain ⟨i, hi⟩ := List.mem_iff_getElem?.mp ((hgrp.1.mem id q0).2 hm)
      have hidx := hgrp.1.idx i id q0 hi
      simp only [RouteContent.add, hget, Option.getD_some, SharedClients.insert, hidx, hi] at ha
      cases ha
      simp only [FMap.get_insert_self]
      rw [List.map_set]
      apply List.ext_getElem?
      intro j
      rw [List.getElem?_set]
      split
      · rename_i e; subst e
        have hlt := lt_of_getElem? hi
        rw [List.length_map, if_pos hlt, List.getElem?_map, hi]
        rfl
      · rfl

/-- Somebody who is no member unsubscribes. -/
theorem ids_stranger {ops : List RouteOp} {t t' : RouteTable} (h : SInv ops t)
    (hc : t.root.Clean) {g f : Str} (hg : '/' ∉ g) {id : ClientId}
    (hm : subscribed ops (shareFilter g f) id = none)
    (hnl : ¬ LeftLiveGroup ops (shareFilter g f) id)
    (hs : t.step (.unsub (shareFilter g f) id) = some t') : idsOf t' g f = idsOf t g f := by
  rw [step_unsub_eq, target_share hg] at hs
  simp only at hs
  have hgrp := h.group g f hg
  cases ha : (t.root.contentAt (levels f)).del id (some g) with
  | none => rw [RouteTable.unsubscribeShared_none ha] at hs; cases hs
  | some c' =>
    obtain ⟨t1, h1, h2⟩ := RouteTable.unsubscribeShared_some hc ha
    rw [hs] at h1; cases h1
    unfold idsOf
    rw [h2, if_pos rfl]
    have hcut : ∀ d : RouteContent,
        (if d.isEmpty then { d with topicFilter := none } else d).groups = d.groups := by
      intro d; split <;> rfl
    cases hget : (t.root.contentAt (levels f)).groups.get g with
    | none =>
      simp only [RouteContent.del, hget, Option.map_some] at ha
      cases ha
      rw [hcut, hget]
    | some sc =>
      rw [hget] at hgrp
      have hidx : sc.index.get id = none := by
        cases hi : sc.index.get id with
        | none => rfl
        | some i =>
          obtain ⟨q, hq⟩ := (hgrp.1.back id i hi).resolve_right hnl
          have := (hgrp.1.mem id q).mp (List.mem_of_getElem? hq)
          rw [hm] at this; cases this
      have hne : sc.isEmpty = false := by
        cases hi : sc.items with
        | nil => exact absurd hi hgrp.2
        | cons a b => simp [SharedClients.isEmpty, hi]
      simp only [RouteContent.del, hget, SharedClients.remove, hidx, hne] at ha
      cases ha
      rw [hcut]
      simp [FMap.get_insert_self]

end Akasa

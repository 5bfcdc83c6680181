import Verif.Proof.FMap
import Verif.Spec.Registry
/-! # Invariants of the registry -/
namespace Akasa
namespace Registry

theorem get_mark (r : Registry) (id : ClientId) (on : Bool) (id' : ClientId) :
    FMap.get (r.mark id on) id' =
      if id' = id then (r.idMap.get id).map fun e => (e.1, on) else r.idMap.get id' := by
  unfold mark
  split
  · rename_i e he
    by_cases h : id' = id
    · subst h; rw [FMap.get_insert_self, if_pos rfl, he]; rfl
    · rw [FMap.get_insert_ne _ _ (Ne.symm h), if_neg h]
  · rename_i he
    by_cases h : id' = id
    · subst h; rw [if_pos rfl, he]; rfl
    · rw [if_neg h]

theorem wf_mark {r : Registry} (h : r.idMap.WF) (id : ClientId) (on : Bool) :
    FMap.WF (r.mark id on) := by
  unfold mark
  split
  · exact FMap.wf_insert h _ _
  · exact h

/-- What holds of every registry the broker can have. -/
structure Inv (r : Registry) : Prop where
  wf : r.idMap.WF
  below : ∀ id e, r.idMap.get id = some e → id < r.nextId
  inverse : ∀ id name, (r.idMap.get id).map (·.1) = some name ↔ r.identMap.get name = some id
  queue : ∀ id, r.clients.contains id = (r.idMap.get id).isSome

theorem Inv.empty : Inv {} where
  wf := FMap.wf_nil
  below := by intro id e h; cases h
  inverse := by intro id name; constructor <;> intro h <;> cases h
  queue := by intro id; rfl

theorem Inv.mark {r : Registry} (h : r.Inv) (id : ClientId) (on : Bool) (n : Nat) :
    Inv { r with online := n, idMap := r.mark id on } where
  wf := wf_mark h.wf _ _
  below := by
    intro id' e he
    have he : FMap.get (r.mark id on) id' = some e := he
    rw [get_mark] at he
    split at he
    · rename_i hid; subst hid
      cases hg : r.idMap.get id' with
      | none => rw [hg] at he; cases he
      | some e' => exact h.below _ _ hg
    · exact h.below _ _ he
  inverse := by
    intro id' name
    rw [← h.inverse]
    show (FMap.get (r.mark id on) id').map (·.1) = some name ↔ _
    rw [get_mark]
    split
    · rename_i hid; subst hid; cases r.idMap.get id' <;> simp
    · rfl
  queue := by
    intro id'
    rw [h.queue]
    show _ = (FMap.get (r.mark id on) id').isSome
    rw [get_mark]
    split
    · rename_i hid; subst hid; cases r.idMap.get id' <;> rfl
    · rfl

theorem contains_insert {κ α : Type} [DecidableEq κ] (m : FMap κ α) (k k' : κ) (v : α) :
    (m.insert k v).contains k' = (decide (k' = k) || m.contains k') := by
  unfold FMap.contains
  by_cases h : k' = k
  · subst h; rw [FMap.get_insert_self]; simp
  · rw [FMap.get_insert_ne _ _ (Ne.symm h)]; simp [h]

theorem contains_erase {κ α : Type} [DecidableEq κ] (m : FMap κ α) (k k' : κ) :
    (m.erase k).contains k' = (!decide (k' = k) && m.contains k') := by
  unfold FMap.contains
  by_cases h : k' = k
  · subst h; rw [FMap.get_erase_self]; simp
  · rw [FMap.get_erase_ne _ (Ne.symm h)]; simp [h]

theorem Inv.add_ne_none {r : Registry} (h : r.Inv) (name : Str) : r.add name ≠ none := by
  unfold add
  split
  · rename_i old hold
    have : r.clients.contains old = true := by
      rw [h.queue]
      have := (h.inverse old name).mpr hold
      cases hg : r.idMap.get old with
      | none => rw [hg] at this; cases this
      | some e => rfl
    rw [if_pos this]; simp
  · simp

/-- What `add_client` finds. -/
inductive AddCase (r : Registry) (name : Str) : Registry → Added → Prop
  | present (id : ClientId) (on : Bool) : r.identMap.get name = some id →
      r.idMap.get id = some (name, on) →
      AddCase r name { r with online := r.online + 1, idMap := r.mark id true } (.present id)
  | new : r.identMap.get name = none →
      AddCase r name { nextId := r.nextId + 1
                       online := r.online + 1
                       idMap := r.idMap.insert r.nextId (name, true)
                       identMap := r.identMap.insert name r.nextId
                       clients := r.clients.insert r.nextId () } (.new r.nextId)

theorem Inv.add_cases {r : Registry} (h : r.Inv) {name : Str} {r' : Registry} {a : Added}
    (ha : r.add name = some (r', a)) : AddCase r name r' a := by
  unfold add at ha
  split at ha
  · rename_i old hold
    split at ha
    · cases ha
      have := (h.inverse old name).mpr hold
      cases hg : r.idMap.get old with
      | none => rw [hg] at this; cases this
      | some e =>
        obtain ⟨n, on⟩ := e
        rw [hg] at this
        simp at this
        subst this
        exact .present old on hold hg
    · cases ha
  · cases ha
    rename_i hn
    exact .new hn

theorem Inv.add {r : Registry} (h : r.Inv) {name : Str} {r' : Registry} {a : Added}
    (ha : r.add name = some (r', a)) : r'.Inv := by
  cases h.add_cases ha with
  | present id on h1 h2 => exact h.mark _ _ _
  | new hn =>
    have hfresh : r.idMap.get r.nextId = none := by
      cases hg : r.idMap.get r.nextId with
      | none => rfl
      | some e => exact absurd (h.below _ _ hg) (Nat.lt_irrefl _)
    constructor
    · exact FMap.wf_insert h.wf _ _
    · intro id e he
      simp only at he ⊢
      by_cases hid : id = r.nextId
      · subst hid; exact Nat.lt_succ_self _
      · rw [FMap.get_insert_ne _ _ (Ne.symm hid)] at he
        exact Nat.lt_succ_of_lt (h.below _ _ he)
    · intro id name'
      simp only
      by_cases hid : id = r.nextId
      · subst hid
        rw [FMap.get_insert_self]
        by_cases hname : name' = name
        · subst hname; rw [FMap.get_insert_self]; simp
        · rw [FMap.get_insert_ne _ _ (Ne.symm hname), ← h.inverse, hfresh]
          simp [Ne.symm hname]
      · rw [FMap.get_insert_ne _ _ (Ne.symm hid)]
        by_cases hname : name' = name
        · subst hname
          rw [FMap.get_insert_self, h.inverse, hn]
          simp [Ne.symm hid]
        · rw [FMap.get_insert_ne _ _ (Ne.symm hname), h.inverse]
    · intro id
      simp only
      rw [contains_insert, h.queue]
      by_cases hid : id = r.nextId
      · subst hid; rw [FMap.get_insert_self]; simp
      · rw [FMap.get_insert_ne _ _ (Ne.symm hid)]; simp [hid]

/-- The registry after `remove_client`. -/
theorem Inv.remove_get {r : Registry} (h : r.Inv) {id : ClientId} {r' : Registry}
    (hr : r.remove id = some r') :
    r'.nextId = r.nextId ∧ r'.idMap = r.idMap.erase id ∧
      (∀ name, r'.identMap.get name =
        if r.identMap.get name = some id then none else r.identMap.get name) ∧
      r'.clients = r.clients.erase id := by
  unfold remove at hr
  split at hr
  · rename_i name on hg
    split at hr
    · cases hr
    · cases hr
      refine ⟨rfl, rfl, ?_, rfl⟩
      intro name'
      simp only
      by_cases hn : name' = name
      · subst hn
        rw [FMap.get_erase_self]
        have : r.identMap.get name' = some id := (h.inverse id name').mp (by rw [hg]; rfl)
        rw [if_pos this]
      · rw [FMap.get_erase_ne _ (Ne.symm hn)]
        split
        · rename_i hi
          have := (h.inverse id name').mpr hi
          rw [hg] at this
          simp at this
          exact absurd this.symm hn
        · rfl
  · rename_i hg
    cases hr
    refine ⟨rfl, ?_, ?_, rfl⟩
    · exact (FMap.erase_eq_self hg).symm
    · intro name
      simp only
      split
      · rename_i hi
        have := (h.inverse id name).mpr hi
        rw [hg] at this; cases this
      · rfl

theorem Inv.remove {r : Registry} (h : r.Inv) {id : ClientId} {r' : Registry}
    (hr : r.remove id = some r') : r'.Inv := by
  obtain ⟨h1, h2, h3, h4⟩ := h.remove_get hr
  constructor
  · rw [h2]; exact FMap.wf_erase h.wf _
  · intro id' e he
    rw [h2] at he
    rw [h1]
    by_cases hid : id' = id
    · subst hid; rw [FMap.get_erase_self] at he; cases he
    · rw [FMap.get_erase_ne _ (Ne.symm hid)] at he; exact h.below _ _ he
  · intro id' name
    rw [h2, h3]
    by_cases hid : id' = id
    · subst hid
      rw [FMap.get_erase_self]
      constructor
      · intro hc; cases hc
      · intro hc
        split at hc
        · cases hc
        · rename_i hne; exact absurd hc hne
    · rw [FMap.get_erase_ne _ (Ne.symm hid), h.inverse]
      by_cases hc : r.identMap.get name = some id
      · rw [if_pos hc, hc]
        simp [Ne.symm hid]
      · rw [if_neg hc]
  · intro id'
    rw [h4, h2, contains_erase, h.queue]
    by_cases hid : id' = id
    · subst hid; rw [FMap.get_erase_self]; simp
    · rw [FMap.get_erase_ne _ (Ne.symm hid)]; simp [hid]

theorem Inv.offline {r : Registry} (h : r.Inv) {id : ClientId} {r' : Registry}
    (hr : r.offline id = some r') : r'.Inv := by
  unfold Registry.offline at hr
  split at hr
  · cases hr
  · cases hr; exact h.mark _ _ _

theorem Inv.call {r : Registry} (h : r.Inv) {c : RegCall} {r' : Registry} {out : List Added}
    (hr : r.call c = some (r', out)) : r'.Inv := by
  cases c with
  | add name =>
    simp only [Registry.call, Option.map_eq_some_iff] at hr
    obtain ⟨⟨r1, a⟩, h1, h2⟩ := hr
    cases h2
    exact h.add h1
  | remove id =>
    simp only [Registry.call, Option.map_eq_some_iff] at hr
    obtain ⟨r1, h1, h2⟩ := hr
    cases h2
    exact h.remove h1
  | offline id =>
    simp only [Registry.call, Option.map_eq_some_iff] at hr
    obtain ⟨r1, h1, h2⟩ := hr
    cases h2
    exact h.offline h1

theorem Inv.run {r : Registry} (h : r.Inv) {cs : List RegCall} {r' : Registry} {out : List Added}
    (hr : r.run cs = some (r', out)) : r'.Inv := by
  induction cs generalizing r out with
  | nil => cases hr; exact h
  | cons c cs ih =>
    simp only [Registry.run] at hr
    split at hr
    · cases hr
    · rename_i r1 o1 h1
      simp only [Option.map_eq_some_iff] at hr
      obtain ⟨⟨r2, o2⟩, h2, h3⟩ := hr
      cases h3
      exact ih (h.call h1) h2

/-- Ids only grow, and new ones are not below the counter. -/
theorem Inv.call_new {r : Registry} (h : r.Inv) {c : RegCall} {r' : Registry} {out : List Added}
    (hr : r.call c = some (r', out)) : r.nextId ≤ r'.nextId ∧
      ((out.filterMap (·.new?) = []) ∨
        (out.filterMap (·.new?) = [r.nextId] ∧ r.nextId < r'.nextId)) := by
  cases c with
  | add name =>
    simp only [Registry.call, Option.map_eq_some_iff] at hr
    obtain ⟨⟨r1, a⟩, h1, h2⟩ := hr
    cases h2
    cases h.add_cases h1 with
    | present id on _ _ => exact ⟨Nat.le_refl _, .inl rfl⟩
    | new _ => exact ⟨Nat.le_succ _, .inr ⟨rfl, Nat.lt_succ_self _⟩⟩
  | remove id =>
    simp only [Registry.call, Option.map_eq_some_iff] at hr
    obtain ⟨r1, h1, h2⟩ := hr
    cases h2
    rw [(h.remove_get h1).1]
    exact ⟨Nat.le_refl _, .inl rfl⟩
  | offline id =>
    simp only [Registry.call, Option.map_eq_some_iff] at hr
    obtain ⟨r1, h1, h2⟩ := hr
    cases h2
    unfold Registry.offline at h1
    split at h1
    · cases h1
    · cases h1; exact ⟨Nat.le_refl _, .inl rfl⟩

theorem Inv.run_new {r : Registry} (h : r.Inv) {cs : List RegCall} {r' : Registry}
    {out : List Added} (hr : r.run cs = some (r', out)) :
    (out.filterMap (·.new?)).Nodup ∧ ∀ id ∈ out.filterMap (·.new?), r.nextId ≤ id := by
  induction cs generalizing r out with
  | nil => cases hr; exact ⟨List.nodup_nil, by intro id hid; cases hid⟩
  | cons c cs ih =>
    simp only [Registry.run] at hr
    split at hr
    · cases hr
    · rename_i r1 o1 h1
      simp only [Option.map_eq_some_iff] at hr
      obtain ⟨⟨r2, o2⟩, h2, h3⟩ := hr
      cases h3
      obtain ⟨hle, hc⟩ := h.call_new h1
      obtain ⟨hnd, hge⟩ := ih (h.call h1) h2
      simp only [List.filterMap_append]
      rcases hc with hc | ⟨hc, hlt⟩
      · rw [hc, List.nil_append]
        exact ⟨hnd, fun id hid => Nat.le_trans hle (hge id hid)⟩
      · rw [hc]
        constructor
        · rw [List.singleton_append, List.nodup_cons]
          exact ⟨fun hm => absurd (hge _ hm) (Nat.not_le_of_lt hlt), hnd⟩
        · intro id hid
          rw [List.singleton_append, List.mem_cons] at hid
          rcases hid with rfl | hid
          · exact Nat.le_refl _
          · exact Nat.le_trans hle (hge id hid)

/-! ## The counter -/

/-- 1 for an entry that is marked online. -/
def tick : Option (Str × Bool) → Nat
  | some (_, true) => 1
  | _ => 0

theorem count_erase {m : FMap ClientId (Str × Bool)} (h : m.WF) (id : ClientId) :
    ((m.erase id).filter fun e => e.2.2).length + tick (m.get id) =
      (m.filter fun e => e.2.2).length := by
  induction m with
  | nil => rfl
  | cons a rest ih =>
    obtain ⟨k, v⟩ := a
    have hwf : (k :: FMap.keys rest).Nodup := h
    rw [List.nodup_cons] at hwf
    have ih := ih hwf.2
    obtain ⟨n, b⟩ := v
    by_cases hk : k = id
    · subst hk
      have hn : FMap.get rest k = none := (FMap.get_eq_none_iff _ _).mpr hwf.1
      rw [hn] at ih
      rw [FMap.get_cons, if_pos rfl]
      have he : FMap.erase ((k, n, b) :: rest) k = FMap.erase rest k := by
        simp [FMap.erase]
      rw [he, List.filter_cons]
      cases b <;> simp [tick] at ih ⊢ <;> omega
    · rw [FMap.get_cons, if_neg hk]
      have he : FMap.erase ((k, n, b) :: rest) id = (k, n, b) :: FMap.erase rest id := by
        simp [FMap.erase, hk]
      rw [he, List.filter_cons, List.filter_cons]
      cases b <;> simp at ih ⊢ <;> omega

/-- How many clients are marked online once one entry is set. -/
theorem count_insert {m : FMap ClientId (Str × Bool)} (h : m.WF) (id : ClientId) (e : Str × Bool) :
    ((m.insert id e).filter fun e => e.2.2).length + tick (m.get id) =
      (m.filter fun e => e.2.2).length + tick (some e) := by
  have := count_erase h id
  unfold FMap.insert
  rw [List.filter_cons]
  obtain ⟨n, b⟩ := e
  cases b
  · rw [show tick (some (n, false)) = 0 from rfl]; simpa using this
  · rw [show tick (some (n, true)) = 1 from rfl]
    simp only [if_true, List.length_cons]
    omega

theorem count_pos {r : Registry} (h : r.Inv) {id : ClientId} (ho : r.isOnline id) :
    0 < r.countOnline := by
  have := count_erase h.wf id
  obtain ⟨n, ho⟩ := ho
  rw [ho] at this
  show 0 < (r.idMap.filter fun e => e.2.2).length
  simp only [tick] at this
  omega

theorem count_mark {r : Registry} (h : r.Inv) (id : ClientId) (on : Bool) {e : Str × Bool}
    (he : r.idMap.get id = some e) :
    ((r.mark id on).filter fun e => e.2.2).length + tick (some e) =
      r.countOnline + tick (some (e.1, on)) := by
  have := count_insert h.wf id (e.1, on)
  rw [he] at this
  unfold mark
  rw [he]
  exact this

/-- An orderly call keeps the counter right and does not fail. -/
theorem Inv.orderly_call {r : Registry} (h : r.Inv) (hc : r.online = r.countOnline) {c : RegCall}
    (ho : c.Orderly r) : ∃ r' out, r.call c = some (r', out) ∧ r'.online = r'.countOnline := by
  cases c with
  | add name =>
    cases ha : r.add name with
    | none => exact absurd ha (h.add_ne_none name)
    | some x =>
      obtain ⟨r', a⟩ := x
      refine ⟨r', [a], by simp only [Registry.call, ha]; rfl, ?_⟩
      cases h.add_cases ha with
      | present id on h1 h2 =>
        have hon : on = false := by
          cases on
          · rfl
          · exact absurd ⟨name, h2⟩ (ho id h1)
        subst hon
        have := count_mark h id true h2
        simp only [tick, Nat.add_zero] at this
        show r.online + 1 = (List.filter _ (r.mark id true)).length
        omega
      | new hn =>
        have hfresh : r.idMap.get r.nextId = none := by
          cases hg : r.idMap.get r.nextId with
          | none => rfl
          | some e => exact absurd (h.below _ _ hg) (Nat.lt_irrefl _)
        have := count_insert h.wf r.nextId (name, true)
        rw [hfresh] at this
        simp only [tick, Nat.add_zero] at this
        show r.online + 1 = (List.filter _ (r.idMap.insert r.nextId (name, true))).length
        rw [this, hc]; rfl
  | remove id =>
    simp only [Registry.call, Registry.remove]
    cases hg : r.idMap.get id with
    | none => exact ⟨_, _, rfl, hc⟩
    | some e =>
      obtain ⟨name, on⟩ := e
      have hcount := count_erase h.wf id
      rw [hg] at hcount
      have hcount : _ = r.countOnline := hcount
      cases on with
      | false =>
        simp only [tick, Nat.add_zero] at hcount
        refine ⟨_, _, rfl, ?_⟩
        exact hc.trans hcount.symm
      | true =>
        simp only [tick] at hcount
        have hne : r.online ≠ 0 := by omega
        refine ⟨_, _, by simp [hne]; exact ⟨rfl, rfl⟩, ?_⟩
        show r.online - 1 = (List.filter _ (r.idMap.erase id)).length
        omega
  | offline id =>
    have ho : r.isOnline id := ho
    have hpos := count_pos h ho
    obtain ⟨name, hg⟩ := ho
    have hne : r.online ≠ 0 := by omega
    have := count_mark h id false hg
    simp only [tick, Nat.add_zero] at this
    refine ⟨_, _, by simp only [Registry.call, Registry.offline, if_neg hne]; rfl, ?_⟩
    show r.online - 1 = (List.filter _ (r.mark id false)).length
    omega

end Registry
end Akasa

import Verif.Spec.Fanout
import Verif.Proof.FMap
import Verif.Proof.Util
import Verif.Proof.RouteShared
/-! The receivers of a published message. -/
namespace Akasa

/-- One reason to send a message to a client. -/
abbrev Cause := ClientId × Str × QoS

/-- The reasons for the plain subscribers of a filter. -/
def causesClients (s : Session) (f : Str) (cl : List (ClientId × QoS)) : List Cause :=
  (cl.filter fun e => !s.skipOwn e.1 f).map fun e => (e.1, f, e.2)

/-- The reasons for the groups of a filter. -/
def causesGroups (pick : Str → Str → Nat) (f : Str) :
    List (Str × SharedClients) → Option (List Cause)
  | [] => some []
  | (g, sc) :: gs =>
    match sc.getByNumber (pick g f) with
    | none => none
    | some (id, q) => (causesGroups pick f gs).map fun l => (id, fullFilter g f, q) :: l

/-- All reasons. -/
def causes (s : Session) (pick : Str → Str → Nat) : List RouteContent → Option (List Cause)
  | [] => some []
  | c :: cs =>
    match c.topicFilter with
    | none => none
    | some f =>
      match causesGroups pick f c.groups with
      | none => none
      | some l => (causes s pick cs).map fun l' => causesClients s f c.clients ++ l ++ l'

/-- Merge the reasons. -/
def addAll (l : List Cause) (r : Receivers) : Receivers :=
  l.foldl (fun r e => addReceiver e.1 e.2.1 e.2.2 r) r

theorem addAll_append (l l' : List Cause) (r : Receivers) :
    addAll (l ++ l') r = addAll l' (addAll l r) := List.foldl_append ..

theorem addClients_eq (s : Session) (f : Str) (cl : List (ClientId × QoS)) (r : Receivers) :
    addClients s f cl r = addAll (causesClients s f cl) r := by
  induction cl generalizing r with
  | nil => rfl
  | cons e cl ih =>
    obtain ⟨id, q⟩ := e
    simp only [addClients, ih, causesClients, List.filter_cons]
    cases h : s.skipOwn id f <;> simp [addAll]

theorem addGroups_eq (pick : Str → Str → Nat) (f : Str) (gs : List (Str × SharedClients))
    (r : Receivers) :
    addGroups pick f gs r = (causesGroups pick f gs).map fun l => addAll l r := by
  induction gs generalizing r with
  | nil => rfl
  | cons e gs ih =>
    obtain ⟨g, sc⟩ := e
    simp only [addGroups, causesGroups]
    cases h : sc.getByNumber (pick g f) with
    | none => rfl
    | some x =>
      obtain ⟨id, q⟩ := x
      simp only [ih, Option.map_map]
      rfl

theorem collectV5_eq (s : Session) (pick : Str → Str → Nat) (cs : List RouteContent)
    (r : Receivers) : collectV5 s pick cs r = (causes s pick cs).map fun l => addAll l r := by
  induction cs generalizing r with
  | nil => rfl
  | cons c cs ih =>
    simp only [collectV5, causes]
    cases h : c.topicFilter with
    | none => rfl
    | some f =>
      simp only [addGroups_eq, addClients_eq]
      cases h2 : causesGroups pick f c.groups with
      | none => rfl
      | some l =>
        simp only [Option.map_some, ih, Option.map_map]
        congr 1
        funext l'
        simp [addAll_append]

theorem mem_causesClients {s : Session} {f : Str} {cl : List (ClientId × QoS)} {id : ClientId}
    {F : Str} {q : QoS} :
    (id, F, q) ∈ causesClients s f cl ↔ F = f ∧ (id, q) ∈ cl ∧ s.skipOwn id f = false := by
  simp only [causesClients, List.mem_map, List.mem_filter, Prod.mk.injEq, Prod.exists]
  constructor
  · rintro ⟨a, b, ⟨h1, h2⟩, rfl, rfl, rfl⟩
    exact ⟨rfl, h1, by simpa using h2⟩
  · rintro ⟨rfl, h1, h2⟩
    exact ⟨id, q, ⟨h1, by simpa using h2⟩, rfl, rfl, rfl⟩

theorem mem_causesGroups {pick : Str → Str → Nat} {f : Str} {gs : List (Str × SharedClients)}
    {l : List Cause} (h : causesGroups pick f gs = some l) {id : ClientId} {F : Str} {q : QoS} :
    (id, F, q) ∈ l ↔ ∃ g sc, (g, sc) ∈ gs ∧ F = fullFilter g f ∧
      sc.getByNumber (pick g f) = some (id, q) := by
  induction gs generalizing l with
  | nil => cases h; simp
  | cons e gs ih =>
    obtain ⟨g, sc⟩ := e
    simp only [causesGroups] at h
    split at h
    · cases h
    · rename_i id' q' hx
      rw [Option.map_eq_some_iff] at h
      obtain ⟨l', h1, rfl⟩ := h
      rw [List.mem_cons, ih h1]
      constructor
      · rintro (h | ⟨g', sc', h2, h3, h4⟩)
        · cases h; exact ⟨g, sc, .head _, rfl, hx⟩
        · exact ⟨g', sc', .tail _ h2, h3, h4⟩
      · rintro ⟨g', sc', h2, h3, h4⟩
        cases h2 with
        | head => rw [hx] at h4; cases h4; exact .inl (by rw [h3])
        | tail _ h2 => exact .inr ⟨g', sc', h2, h3, h4⟩

theorem mem_causes {s : Session} {pick : Str → Str → Nat} {cs : List RouteContent} {l : List Cause}
    (h : causes s pick cs = some l) {id : ClientId} {F : Str} {q : QoS} :
    (id, F, q) ∈ l ↔ ∃ c ∈ cs, ∃ f, c.topicFilter = some f ∧
      ((F = f ∧ (id, q) ∈ c.clients ∧ s.skipOwn id f = false) ∨
       ∃ g sc, (g, sc) ∈ c.groups ∧ F = fullFilter g f ∧
         sc.getByNumber (pick g f) = some (id, q)) := by
  induction cs generalizing l with
  | nil => cases h; simp
  | cons c cs ih =>
    simp only [causes] at h
    split at h
    · cases h
    rename_i f hf
    split at h
    · cases h
    rename_i lg hg
    rw [Option.map_eq_some_iff] at h
    obtain ⟨l', h1, rfl⟩ := h
    rw [List.mem_append, List.mem_append, ih h1, mem_causesClients, mem_causesGroups hg]
    constructor
    · rintro ((h | h) | ⟨c', h2, h3⟩)
      · exact ⟨c, .head _, f, hf, .inl h⟩
      · exact ⟨c, .head _, f, hf, .inr h⟩
      · exact ⟨c', .tail _ h2, h3⟩
    · rintro ⟨c', h2, f', h3, h4⟩
      cases h2 with
      | head =>
        rw [hf] at h3; cases h3
        exact .inl h4
      | tail _ h2 => exact .inr ⟨c', h2, f', h3, h4⟩

/-! Merging. -/

theorem get_addReceiver (id : ClientId) (f : Str) (q : QoS) (r : Receivers) (id' : ClientId) :
    FMap.get (addReceiver id f q r) id' =
      if id' = id then
        some (match FMap.get r id with
          | none => ([f], q)
          | some (fs, q0) => (fs ++ [f], max q0 q))
      else FMap.get r id' := by
  induction r with
  | nil =>
    simp only [addReceiver, FMap.get_cons, FMap.get_nil]
    by_cases e : id' = id
    · subst e; simp
    · simp [e]; exact fun h => absurd h.symm e
  | cons x r ih =>
    obtain ⟨k, fs, q0⟩ := x
    simp only [addReceiver]
    by_cases hk : k = id
    · subst hk
      rw [if_pos rfl]
      simp only [FMap.get_cons]
      by_cases e : id' = k
      · subst e; simp
      · have : ¬ k = id' := fun h => e h.symm
        simp [e, this]
    · rw [if_neg hk]
      simp only [FMap.get_cons, ih]
      by_cases e : id' = id
      · subst e; simp [hk]
      · simp [e]

theorem keys_addReceiver (id : ClientId) (f : Str) (q : QoS) (r : Receivers) :
    ∀ x, x ∈ (addReceiver id f q r).map (·.1) → x = id ∨ x ∈ r.map (·.1) := by
  induction r with
  | nil => intro x hx; simp [addReceiver] at hx; exact .inl hx
  | cons y r ih =>
    intro x hx
    simp only [addReceiver] at hx
    split at hx
    · simp only [List.map_cons, List.mem_cons] at hx ⊢
      exact .inr hx
    · simp only [List.map_cons, List.mem_cons] at hx ⊢
      rcases hx with h | h
      · exact .inr (.inl h)
      · rcases ih x h with h | h
        · exact .inl h
        · exact .inr (.inr h)

theorem wf_addReceiver {id : ClientId} {f : Str} {q : QoS} {r : Receivers}
    (h : (r.map (·.1)).Nodup) : ((addReceiver id f q r).map (·.1)).Nodup := by
  induction r with
  | nil => simp [addReceiver]
  | cons y r ih =>
    simp only [addReceiver]
    rw [List.map_cons, List.nodup_cons] at h
    split
    · rw [List.map_cons, List.nodup_cons]; exact h
    · rename_i hk
      rw [List.map_cons, List.nodup_cons]
      refine ⟨fun hx => ?_, ih h.2⟩
      rcases keys_addReceiver _ _ _ _ _ hx with e | e
      · exact hk e
      · exact h.1 e

theorem wf_addAll (l : List Cause) {r : Receivers} (h : (r.map (·.1)).Nodup) :
    ((addAll l r).map (·.1)).Nodup := by
  induction l generalizing r with
  | nil => exact h
  | cons e l ih => exact ih (wf_addReceiver h)

theorem le_max_left' (a b : QoS) : a ≤ max a b := by
  show a ≤ if a ≤ b then b else a
  split
  · assumption
  · exact Nat.le_refl _

theorem le_max_right' (a b : QoS) : b ≤ max a b := by
  show b ≤ if a ≤ b then b else a
  split
  · exact Nat.le_refl _
  · rename_i h; exact Nat.le_of_lt (Nat.lt_of_not_le h)

theorem max_eq_or' (a b : QoS) : max a b = a ∨ max a b = b := by
  show (if a ≤ b then b else a) = a ∨ (if a ≤ b then b else a) = b
  split
  · exact .inr rfl
  · exact .inl rfl

/-- The reasons for one client. -/
def ofClient (id : ClientId) (l : List Cause) : List Cause := l.filter fun e => decide (e.1 = id)

/-- What is collected for a client. -/
theorem get_addAll (l : List Cause) (id : ClientId) :
    (ofClient id l = [] ∧ FMap.get (addAll l []) id = none) ∨
    ∃ q, FMap.get (addAll l []) id = some ((ofClient id l).map (·.2.1), q) ∧
      (∃ e ∈ ofClient id l, e.2.2 = q) ∧ ∀ e ∈ ofClient id l, e.2.2 ≤ q := by
  induction l using snoc_induction with
  | nil => exact .inl ⟨rfl, rfl⟩
  | snoc l e ih =>
    obtain ⟨k, f, q0⟩ := e
    have e1 : addAll (l ++ [(k, f, q0)]) [] = addReceiver k f q0 (addAll l []) := by
      rw [addAll_append]; rfl
    have e2 : ofClient id (l ++ [(k, f, q0)]) =
        ofClient id l ++ if k = id then [(k, f, q0)] else [] := by
      simp only [ofClient, List.filter_append, List.filter_cons, List.filter_nil]
      by_cases e : k = id <;> simp [e]
    rw [e1, get_addReceiver, e2]
    by_cases e : k = id
    · subst e
      simp only [if_true]
      right
      rcases ih with ⟨h1, h2⟩ | ⟨q, h1, ⟨e, h2, h2'⟩, h3⟩
      · rw [h2, h1]
        exact ⟨q0, rfl, ⟨_, .head _, rfl⟩, by simp⟩
      · rw [h1]
        refine ⟨max q q0, by simp, ?_, ?_⟩
        · rcases max_eq_or' q q0 with h | h
          · exact ⟨e, List.mem_append_left _ h2, by rw [h2', h]⟩
          · exact ⟨_, List.mem_append_right _ (.head _), h.symm⟩
        · intro x hx
          rw [List.mem_append] at hx
          rcases hx with hx | hx
          · exact Nat.le_trans (h3 x hx) (le_max_left' q q0)
          · rw [List.mem_singleton] at hx; subst hx
            exact le_max_right' q q0
    · have : ¬ id = k := fun h => e h.symm
      rw [if_neg this, if_neg e, List.append_nil]
      exact ih

/-! Queueing. -/

theorem get_pushCopy (s : Session) (reg : ClientId → Bool) (k : ClientId) (m : NormalMsg)
    (id : ClientId) :
    (s.pushCopy reg k m).bcast.get id =
      if id = k then
        (match s.bcast.get k with
          | some q => some (q ++ [m])
          | none => if reg k then some [m] else none)
      else s.bcast.get id := by
  unfold Session.pushCopy
  split
  · rename_i q hq
    rw [hq]
    simp only [FMap.get_insert]
    by_cases e : id = k
    · subst e; simp
    · simp [e]
      intro h; exact absurd h.symm e
  · rename_i hq
    rw [hq]
    split
    · simp only [FMap.get_insert]
      by_cases e : id = k
      · subst e; simp
      · simp [e]
        intro h; exact absurd h.symm e
    · by_cases e : id = k
      · subst e; simpa using hq
      · simp [e]

theorem queued_pushFold (reg : ClientId → Bool) (cs : List (ClientId × NormalMsg)) (s : Session)
    (id : ClientId) :
    (Reachable reg s id →
      (cs.foldl (fun s c => s.pushCopy reg c.1 c.2) s).queued id =
        s.queued id ++ (cs.filter fun c => decide (c.1 = id)).map (·.2)) ∧
    (¬ Reachable reg s id →
      (cs.foldl (fun s c => s.pushCopy reg c.1 c.2) s).bcast.get id = s.bcast.get id) := by
  induction cs generalizing s with
  | nil => exact ⟨fun _ => by simp, fun _ => rfl⟩
  | cons c cs ih =>
    obtain ⟨k, m⟩ := c
    simp only [List.foldl_cons]
    obtain ⟨ih1, ih2⟩ := ih (s.pushCopy reg k m)
    have hg := get_pushCopy s reg k m id
    constructor
    · intro hr
      have hr' : Reachable reg (s.pushCopy reg k m) id := by
        rcases hr with h | ⟨q, h⟩
        · exact .inl h
        · right
          rw [hg]
          by_cases e : id = k
          · subst e; rw [if_pos rfl, h]; exact ⟨_, rfl⟩
          · rw [if_neg e]; exact ⟨_, h⟩
      rw [ih1 hr']
      by_cases e : id = k
      · subst e
        simp only [List.filter_cons, decide_true, if_true, List.map_cons]
        rw [show (m :: List.map (·.2) (cs.filter fun c => decide (c.1 = id))) =
          [m] ++ List.map (·.2) (cs.filter fun c => decide (c.1 = id)) from rfl,
          ← List.append_assoc]
        congr 1
        unfold Session.queued
        rw [hg, if_pos rfl]
        cases h : s.bcast.get id with
        | some q => rfl
        | none =>
          rcases hr with h' | ⟨q, h'⟩
          · simp [h']
          · rw [h] at h'; cases h'
      · have e' : ¬ k = id := fun h => e h.symm
        simp only [List.filter_cons, e', decide_false]
        congr 1
        unfold Session.queued
        rw [hg, if_neg e]
    · intro hr
      have hn : s.bcast.get id = none := by
        cases h : s.bcast.get id with
        | none => rfl
        | some q => exact absurd (.inr ⟨q, h⟩) hr
      have hreg : reg id = false := by
        cases h : reg id with
        | false => rfl
        | true => exact absurd (.inl h) hr
      have e1 : (s.pushCopy reg k m).bcast.get id = s.bcast.get id := by
        rw [hg]
        by_cases e : id = k
        · subst e; rw [if_pos rfl, hn]; simp [hreg]
        · rw [if_neg e]
      rw [ih2, e1]
      rintro (h | ⟨q, h⟩)
      · exact hr (.inl h)
      · rw [e1, hn] at h; cases h

theorem queued_pushCopies (s : Session) (reg : ClientId → Bool) (cs : List (ClientId × NormalMsg))
    (id : ClientId) :
    (Reachable reg s id →
      (s.pushCopies reg cs).queued id =
        s.queued id ++ (cs.filter fun c => decide (c.1 = id)).map (·.2)) ∧
    (¬ Reachable reg s id → (s.pushCopies reg cs).bcast.get id = s.bcast.get id) :=
  queued_pushFold reg cs { s with bcastCnt := s.bcastCnt + cs.length } id

/-- The entries of a client in a list of receivers. -/
theorem filter_of_get {r : Receivers} (h : (r.map (·.1)).Nodup) (id : ClientId) :
    (r.filter fun e => decide (e.1 = id)) =
      match FMap.get r id with
      | none => []
      | some x => [(id, x)] := by
  induction r with
  | nil => rfl
  | cons e r ih =>
    obtain ⟨k, x⟩ := e
    rw [List.map_cons, List.nodup_cons] at h
    simp only [List.filter_cons, FMap.get_cons]
    by_cases hk : k = id
    · subst hk
      simp only [decide_true, if_true]
      rw [ih h.2]
      have : FMap.get r k = none := by
        rw [FMap.get_eq_none_iff]
        exact h.1
      rw [this]
    · simp only [hk, decide_false, if_false, Bool.false_eq_true]
      rw [ih h.2]

end Akasa

import Verif.Spec.Watch
import Verif.Proof.WorldInv
/-! # Lemmas for C86 -/
namespace Akasa

variable {cfg : Config} {ext : Ext} {w w' : World} {e : List Event}

/-- The client of a connection in the online loop. -/
def Stage.onlineId? : Stage → Option ClientId
  | .online s => some s.clientId
  | _ => none

def Tasks.onlineId (m : Tasks) (t : TaskId) : Option ClientId :=
  (FMap.get m t).bind fun x => x.stage.onlineId?

@[grind =] theorem Tasks.onlineId_insert (m : Tasks) (t u : TaskId) (x : Task) :
    onlineId (FMap.insert m t x) u = if t = u then x.stage.onlineId? else onlineId m u := by
  unfold onlineId; rw [FMap.get_insert]; split <;> rfl

theorem Tasks.onlineId_of {m : Tasks} {t : TaskId} {x : Task} (hx : FMap.get m t = some x) :
    onlineId m t = x.stage.onlineId? := by
  unfold onlineId; rw [hx]; rfl

theorem Tasks.onlineId_client {m : Tasks} {t : TaskId} {id : ClientId} (h : onlineId m t = some id) :
    client m t = some id := by
  unfold onlineId at h
  unfold client
  cases hx : FMap.get m t with
  | none => rw [hx] at h; cases h
  | some x =>
    rw [hx] at h
    simp only [Option.bind_some] at h ⊢
    cases hst : x.stage <;> rw [hst] at h <;> first | exact h | cases h

/-- Which events matter. -/
theorem hears_willEvents (t : TaskId) (s s' : Session) (m : Option SendPub) :
    (willEvents t s s' m).findSome? Event.hears = none ∧
    (willEvents t s s' m).findSome? Event.accepts = none := by
  cases m <;> exact ⟨rfl, rfl⟩

/-- What matters of the events of a step. -/
inductive EventCase (e : List Event) : Prop
  | accepted (t : TaskId) (pre post : List Event) (present : Bool)
      (he : e = pre ++ .accepted t present :: post)
      (h1 : ∀ x ∈ pre ++ post, x.hears = none)
  | received (t : TaskId) (p : InPkt) (post : List Event) (he : e = .received t p :: post)
      (h1 : ∀ x ∈ post, x.hears = none)
  | other (h : ∀ x ∈ e, x.hears = none)

theorem accepts_hears {x : Event} (h : x.hears = none) : x.accepts = none := by
  cases x <;> first | rfl | cases h

theorem event_case {a : Act} (hc : WCase cfg ext w a w' e) : EventCase e := by
  have hw : ∀ (t : TaskId) (s s' : Session) (m : Option SendPub), ∀ x ∈ willEvents t s s' m,
      x.hears = none := by
    intro t s s' m x hx
    have := (hears_willEvents t s s' m).1
    rw [List.findSome?_eq_none_iff] at this
    exact this x hx
  cases hc with
  | fresh req env r id hadd hw s out hs =>
    exact .accepted _ [] _ _ rfl (by simp [Event.hears])
  | accept t env x old level hx hst hw s0 present h0 s out hs =>
    refine .accepted _ _ _ _ rfl ?_
    cases present <;> simp [Event.hears]
  | packet t env after size p x s hx hst hd r hr =>
    exact .received _ _ _ rfl (by simp [Event.hears])
  | handOff t env x s hx hst hd b y q hq hy msgs inbox hm =>
    refine .other ?_
    intro v hv
    rcases List.mem_append.1 hv with hv | hv
    · obtain ⟨_, _, rfl⟩ := List.mem_map.1 hv; rfl
    · obtain rfl := List.mem_singleton.1 hv; rfl
  | expire t env x s hx hst hd time q hq hpr ht s' g m hw' =>
    refine .other ?_
    intro v hv
    rcases List.mem_append.1 hv with hv | hv
    · exact hw _ _ _ _ _ hv
    · obtain rfl := List.mem_singleton.1 hv; rfl
  | lateWill t env x s hx hst hd time q hq hpr ht s' g m hw' =>
    exact .other fun v hv => hw _ _ _ _ _ hv
  | closeWill t env lost x s hx hst hd hp s' g m hw' =>
    refine .other ?_
    intro v hv
    rcases List.mem_cons.1 hv with rfl | hv
    · rfl
    · exact hw _ _ _ _ _ hv
  | _ => exact .other (by simp [Event.hears])

theorem find_none {f : Event → Option TaskId} {l : List Event} (h : ∀ x ∈ l, f x = none) :
    l.findSome? f = none := by
  rw [List.findSome?_eq_none_iff]; exact h

theorem hears_iff (hc : EventCase e) (t : TaskId) :
    ((∃ present, .accepted t present ∈ e) ∨ ∃ p, .received t p ∈ e) ↔
      e.findSome? Event.hears = some t := by
  have hno : ∀ {l : List Event}, (∀ x ∈ l, x.hears = none) →
      (∀ present, .accepted t present ∉ l) ∧ ∀ p, .received t p ∉ l := by
    intro l h
    constructor
    · intro present hm; cases h _ hm
    · intro p hm; cases h _ hm
  cases hc with
  | accepted u pre post present he h1 =>
    subst he
    have hpre := hno (l := pre) fun x hx => h1 x (by simp [hx])
    have hpost := hno (l := post) fun x hx => h1 x (by simp [hx])
    rw [List.findSome?_append, find_none (fun x hx => h1 x (by simp [hx]))]
    simp only [List.mem_append, List.mem_cons, hpre.1, hpre.2, hpost.1, hpost.2, or_false, false_or,
      Option.none_or, List.findSome?_cons, Event.hears]
    constructor
    · rintro (⟨_, h⟩ | ⟨_, h⟩) <;> cases h
      rfl
    · intro h; cases h; exact .inl ⟨_, rfl⟩
  | received u p post he h1 =>
    subst he
    have hpost := hno h1
    simp only [List.mem_cons, hpost.1, hpost.2, or_false, List.findSome?_cons, Event.hears]
    constructor
    · rintro (⟨_, h⟩ | ⟨_, h⟩) <;> cases h
      rfl
    · intro h; cases h; exact .inr ⟨_, rfl⟩
  | other h =>
    have hn := hno h
    rw [find_none h]
    simp [hn.1, hn.2]

theorem accepts_imp (hc : EventCase e) {t : TaskId} (h : e.findSome? Event.accepts = some t) :
    e.findSome? Event.hears = some t := by
  cases hc with
  | accepted u pre post present he h1 =>
    subst he
    rw [List.findSome?_append, find_none (fun x hx => accepts_hears (h1 x (by simp [hx])))] at h
    rw [List.findSome?_append, find_none (fun x hx => h1 x (by simp [hx]))]
    exact h
  | received u p post he h1 =>
    subst he
    simp only [List.findSome?_cons, Event.accepts] at h
    rw [find_none fun x hx => accepts_hears (h1 x hx)] at h
    cases h
  | other h' =>
    rw [find_none fun x hx => accepts_hears (h' x hx)] at h
    cases h

/-- What a step does that matters for the timers. -/
structure WatchStep (w w' : World) (a : Act) (e : List Event) : Prop where
  name : ∀ u n, Tasks.name w.tasks u = some n → Tasks.name w'.tasks u = some n
  next : w.registry.nextId ≤ w'.registry.nextId
  client : ∀ u id, Tasks.client w'.tasks u = some id → w.registry.nextId ≤ id ∨
    ∃ u', Tasks.client w.tasks u' = some id ∧ Tasks.name w.tasks u' = Tasks.name w'.tasks u
  kick : ∀ id q', w'.control.get id = some q' → .kick ∈ q' →
    ∃ q, w.control.get id = some q ∧ .kick ∈ q
  online : ∀ t id, Tasks.onlineId w'.tasks t = some id → e.findSome? Event.accepts ≠ some t →
    Tasks.onlineId w.tasks t = some id ∧
    ∀ q, w.control.get id = some q → .kick ∈ q → ∃ q', w'.control.get id = some q' ∧ .kick ∈ q'
  accepted : ∀ t, e.findSome? Event.accepts = some t → ∃ id, Tasks.onlineId w'.tasks t = some id

theorem onlineId_cases (st : Stage) : st.onlineId? = st.session?.map (·.clientId) ∨
    st.onlineId? = none := by
  cases st <;> first | exact .inl rfl | exact .inr rfl

/-- A step that changes one task, not its client, and does not touch the control queues. -/
theorem WatchStep.one {a : Act} {t : TaskId} {x x' : Task} (hx : w.tasks.get t = some x)
    (htasks : w'.tasks = w.tasks.insert t x') (hreq : x'.req = x.req)
    (hclient : ∀ s', x'.stage.session? = some s' → ∃ s, x.stage.session? = some s ∧
      s'.clientId = s.clientId)
    (hon : ∀ id, x'.stage.onlineId? = some id → x.stage.onlineId? = some id ∨
      e.findSome? Event.accepts = some t)
    (hacc : ∀ u, e.findSome? Event.accepts = some u → u = t ∧ ∃ id, x'.stage.onlineId? = some id)
    (hreg : w.registry.nextId ≤ w'.registry.nextId)
    (hk : ∀ id q', w'.control.get id = some q' → .kick ∈ q' →
      ∃ q, w.control.get id = some q ∧ .kick ∈ q)
    (hk' : ∀ u id, Tasks.onlineId w'.tasks u = some id → ∀ q, w.control.get id = some q → .kick ∈ q →
      ∃ q', w'.control.get id = some q' ∧ .kick ∈ q') :
    WatchStep w w' a e := by
  have v := Tasks.views hx
  have vo := Tasks.onlineId_of hx
  refine ⟨?_, hreg, ?_, hk, ?_, ?_⟩
  · intro u n h
    rw [htasks, Tasks.name_insert]
    split
    · rename_i htu; subst htu; rw [v.2.2.2.1] at h; rw [hreq]; exact h
    · exact h
  · intro u id h
    rw [htasks, Tasks.client_insert] at h
    right
    split at h
    · rename_i htu
      subst htu
      cases hs : x'.stage.session? with
      | none => rw [hs] at h; cases h
      | some s' =>
        rw [hs] at h
        obtain ⟨s, h1, h2⟩ := hclient s' hs
        refine ⟨t, ?_, ?_⟩
        · rw [v.1, h1]; simpa [← h2] using h
        · rw [htasks, Tasks.name_insert, if_pos rfl, v.2.2.2.1, hreq]
    · rename_i htu
      exact ⟨u, h, by rw [htasks, Tasks.name_insert, if_neg htu]⟩
  · intro u id h hne
    refine ⟨?_, hk' u id h⟩
    rw [htasks, Tasks.onlineId_insert] at h
    split at h
    · rename_i htu
      subst htu
      rw [vo]
      rcases hon id h with h | h
      · exact h
      · exact absurd h hne
    · exact h
  · intro u hu
    obtain ⟨rfl, id, h⟩ := hacc u hu
    exact ⟨id, by rw [htasks, Tasks.onlineId_insert, if_pos rfl]; exact h⟩

/-- Timers do not kick. -/
def QuietTimers (w : World) : Prop := ∀ tm ∈ w.timers, tm.msg ≠ .kick

theorem QuietTimers.case {a : Act} (h : QuietTimers w) (hc : WCase cfg ext w a w' e) :
    QuietTimers w' := by
  cases hc with
  | closeDelayed =>
    intro tm htm
    rcases List.mem_append.1 htm with h1 | h1
    · exact h tm h1
    · obtain ⟨_, _, rfl⟩ := List.mem_map.1 h1; intro h; cases h
  | rest t x s hx hst hd he r hr timers htm =>
    intro tm htm'
    rcases List.mem_append.1 htm' with h1 | h1
    · exact h tm h1
    · subst htm
      split at h1
      · cases h1
      · obtain ⟨_, _, rfl⟩ := List.mem_map.1 h1; intro h; cases h
  | fire i tm ht _ hw =>
    rcases hw with ⟨rfl, _⟩ | ⟨q, _, _, rfl⟩ <;> exact fun tm htm => h tm (mem_of_eraseIdx htm)
  | _ => exact h

theorem same_queue {c : FMap ClientId (List Control)} (id : ClientId) (q : List Control)
    (h1 : c.get id = some q) (h2 : Control.kick ∈ q) : ∃ q, c.get id = some q ∧ .kick ∈ q :=
  ⟨q, h1, h2⟩

theorem popped {c : FMap ClientId (List Control)} {k : ClientId} {m : Control} {q0 : List Control}
    (h : c.get k = some (m :: q0)) (id : ClientId) (q : List Control)
    (h1 : (c.insert k q0).get id = some q) (h2 : Control.kick ∈ q) :
    ∃ q, c.get id = some q ∧ .kick ∈ q := by
  rw [FMap.get_insert] at h1
  split at h1
  · rename_i hk; subst hk; cases h1; exact ⟨_, h, by simp [h2]⟩
  · exact ⟨q, h1, h2⟩

theorem kept {c : FMap ClientId (List Control)} {k : ClientId} {m : Control} {q0 : List Control}
    (h : c.get k = some (m :: q0)) (id : ClientId) (hm : id = k → m ≠ .kick) (q : List Control)
    (h1 : c.get id = some q) (h2 : Control.kick ∈ q) :
    ∃ q, (c.insert k q0).get id = some q ∧ .kick ∈ q := by
  rw [FMap.get_insert]
  split
  · rename_i hk
    subst hk
    rw [h] at h1
    cases h1
    refine ⟨q0, rfl, ?_⟩
    rcases List.mem_cons.1 h2 with h3 | h3
    · exact absurd h3.symm (hm rfl)
    · exact h3
  · exact ⟨q, h1, h2⟩

theorem none_accepts {l : List Event} (h : ∀ x ∈ l, x.accepts = none) {P : TaskId → Prop} :
    ∀ u, l.findSome? Event.accepts = some u → P u := by
  intro u hu
  rw [find_none h] at hu
  cases hu

theorem sending_online {st : Stage} {s : Session} (h : st.sending? = some s) (s' : Session)
    (hid : s'.clientId = s.clientId) :
    (∀ s'', (st.setSession s').session? = some s'' →
      ∃ s, st.session? = some s ∧ s''.clientId = s.clientId) ∧
    ∀ id, (st.setSession s').onlineId? = some id → st.onlineId? = some id := by
  cases st <;> simp [Stage.sending?] at h <;> subst h <;>
    simp [Stage.session?, Stage.setSession, Stage.onlineId?, hid]

theorem watch_handOver {a : Act} (ho : OInv w) {t b : TaskId} {x x' y y' : Task} {s old : Session}
    {level : Level} {q : List Control} (hx : w.tasks.get t = some x)
    (hs : x.stage.session? = some s) (hold : old.clientId = s.clientId)
    (hq : w.control.get s.clientId = some (.online x.req.level.proto b :: q))
    (hy : w.tasks.get b = some y)
    (hreg : w'.registry = w.registry) (hctl : w'.control = w.control.insert s.clientId q)
    (htasks : w'.tasks = (w.tasks.insert t x').insert b y')
    (hx' : x' = { x with stage := .gone, sinks := [] })
    (hy' : y' = { y with stage := .granted old level })
    (hev : ∀ v ∈ e, v.accepts = none) : WatchStep w w' a e := by
  have vx := Tasks.views hx
  have vy := Tasks.views hy
  have hb := ho.queue _ _ x.req.level.proto b hq (by simp)
  have hcl : Tasks.client w.tasks t = some s.clientId := by rw [vx.1, hs]; rfl
  have hn := ho.wait _ _ _ hb.1 hcl
  have hbt : b ≠ t := by
    intro h
    have := (Tasks.waiting_client hb.1).1
    rw [h, hcl] at this
    cases this
  have hname : ∀ u, Tasks.name w'.tasks u = Tasks.name w.tasks u := by
    intro u
    rw [htasks, Tasks.name_insert, Tasks.name_insert, hx', hy']
    split
    · rename_i h; subst h; exact vy.2.2.2.1.symm
    · split
      · rename_i h; subst h; exact vx.2.2.2.1.symm
      · rfl
  refine ⟨?_, ?_, ?_, ?_, ?_, none_accepts hev⟩
  · intro u n h; rw [hname]; exact h
  · rw [hreg]; exact Nat.le_refl _
  · intro u id h
    right
    rw [htasks, Tasks.client_insert, Tasks.client_insert, hx', hy'] at h
    rw [hname]
    split at h
    · rename_i hu
      refine ⟨t, ?_, ?_⟩
      · rw [hcl, ← hold]; exact h
      · rw [← hu]; exact hn.symm
    · split at h
      · cases h
      · exact ⟨u, h, rfl⟩
  · rw [hctl]; exact popped hq
  · intro u id h _
    rw [htasks, Tasks.onlineId_insert, Tasks.onlineId_insert, hx', hy'] at h
    split at h
    · cases h
    · split at h
      · cases h
      · refine ⟨h, ?_⟩
        rw [hctl]
        exact kept hq id fun _ h => by cases h

theorem watch_step {a : Act} (ho : OInv w) (ho' : OInv w') (hq : QuietTimers w)
    (hk : ∀ id, a ≠ .kick id) (hc : WCase cfg ext w a w' e) : WatchStep w w' a e := by
  cases hc with
  | idle =>
    exact ⟨fun _ _ h => h, Nat.le_refl _, fun u id h => .inr ⟨u, h, rfl⟩, same_queue,
      fun t id h _ => ⟨h, same_queue id⟩, fun t h => by cases h⟩
  | lose t x s hx hst =>
    exact .one hx rfl rfl (fun s' h => ⟨s, by rw [hst]; rfl, by cases h; rfl⟩)
      (fun id h => by cases h) (none_accepts (by simp)) (Nat.le_refl _) same_queue
      (fun _ id _ => same_queue id)
  | packet t env after size p x s hx hst hd r hr =>
    refine .one hx rfl rfl (fun s' h => ⟨s, by rw [hst]; rfl, ?_⟩)
      (fun id h => .inl ?_) (none_accepts (by simp [Event.accepts])) (Nat.le_refl _) same_queue
      (fun _ id _ => same_queue id)
    · have := (ends_onPacket hr).1.client
      simp only at h
      split at h <;> cases h <;> exact this
    · have := (ends_onPacket hr).1.client
      simp only at h
      split at h
      · cases h
      · cases h; rw [hst, this]; rfl
  | fresh req env r id hadd hw s out hs =>
    have hid : s.clientId = id :=
      (sameId_pendings hs).client.trans (start_ids cfg req.level.proto req.identifier id req.params).1
    have hn : Tasks.name w.tasks w.nextTask = none := by
      cases hg : Tasks.name w.tasks w.nextTask with
      | none => rfl
      | some n => exact absurd (ho.fresh _ (by rw [hg]; simp)) (Nat.lt_irrefl _)
    cases ho.reg.add_cases hadd with
    | new hnew =>
      refine ⟨?_, Nat.le_succ _, ?_, ?_, ?_, ?_⟩
      · intro u n h
        rw [Tasks.name_insert, if_neg (fun hu => by rw [← hu, hn] at h; cases h)]
        exact h
      · intro u id h
        rw [Tasks.client_insert] at h
        split at h
        · left; simp only [Stage.session?, Option.map_some, Option.some.injEq] at h
          rw [← h, hid]; exact Nat.le_refl _
        · rename_i hu
          exact .inr ⟨u, h, by rw [Tasks.name_insert, if_neg hu]⟩
      · intro id q' h1 h2
        rw [FMap.get_insert] at h1
        split at h1
        · cases h1; cases h2
        · exact ⟨q', h1, h2⟩
      · intro t id h hne
        rw [Tasks.onlineId_insert] at h
        split at h
        · rename_i hu; subst hu; exact absurd rfl hne
        · refine ⟨h, fun q h1 h2 => ⟨q, ?_, h2⟩⟩
          rw [FMap.get_insert, if_neg]
          · exact h1
          · intro hi
            have := ho.below _ _ (Tasks.onlineId_client h)
            rw [← hi] at this
            exact absurd this (Nat.lt_irrefl _)
      · intro t h
        cases h
        exact ⟨_, by rw [Tasks.onlineId_insert, if_pos rfl]; rfl⟩
  | stillborn req env wr r id hadd =>
    have hn : Tasks.name w.tasks w.nextTask = none := by
      cases hg : Tasks.name w.tasks w.nextTask with
      | none => rfl
      | some n => exact absurd (ho.fresh _ (by rw [hg]; simp)) (Nat.lt_irrefl _)
    cases ho.reg.add_cases hadd with
    | new hnew =>
      refine ⟨?_, Nat.le_succ _, ?_, ?_, ?_, ?_⟩
      · intro u n h
        rw [Tasks.name_insert, if_neg (fun hu => by rw [← hu, hn] at h; cases h)]
        exact h
      · intro u id h
        rw [Tasks.client_insert] at h
        split at h
        · cases h
        · rename_i hu
          exact .inr ⟨u, h, by rw [Tasks.name_insert, if_neg hu]⟩
      · intro id q' h1 h2
        rw [FMap.get_erase, FMap.get_insert] at h1
        split at h1
        · cases h1
        · exact ⟨q', h1, h2⟩
      · intro t id h hne
        rw [Tasks.onlineId_insert] at h
        split at h
        · cases h
        · refine ⟨h, fun q h1 h2 => ⟨q, ?_, h2⟩⟩
          have hi : w.registry.nextId ≠ id := fun hi => by
            have := ho.below _ _ (Tasks.onlineId_client h)
            rw [← hi] at this
            exact absurd this (Nat.lt_irrefl _)
          rw [FMap.get_erase, if_neg hi, FMap.get_insert, if_neg hi]
          exact h1
      · intro t h; cases h
  | wait req env wr r id q hadd hq' =>
    have hn : Tasks.name w.tasks w.nextTask = none := by
      cases hg : Tasks.name w.tasks w.nextTask with
      | none => rfl
      | some n => exact absurd (ho.fresh _ (by rw [hg]; simp)) (Nat.lt_irrefl _)
    cases ho.reg.add_cases hadd with
    | present id on h1 h2 =>
      refine ⟨?_, Nat.le_refl _, ?_, ?_, ?_, ?_⟩
      · intro u n h
        rw [Tasks.name_insert, if_neg (fun hu => by rw [← hu, hn] at h; cases h)]
        exact h
      · intro u id h
        rw [Tasks.client_insert] at h
        split at h
        · cases h
        · rename_i hu
          exact .inr ⟨u, h, by rw [Tasks.name_insert, if_neg hu]⟩
      · intro id q' h1 h2
        rw [FMap.get_insert] at h1
        split at h1
        · rename_i hi
          subst hi
          cases h1
          exact ⟨q, hq', by simpa using h2⟩
        · exact ⟨q', h1, h2⟩
      · intro t id h hne
        rw [Tasks.onlineId_insert] at h
        split at h
        · cases h
        · refine ⟨h, fun q' h1 h2 => ?_⟩
          rw [FMap.get_insert]
          split
          · rename_i hi
            subst hi
            rw [hq'] at h1
            cases h1
            exact ⟨_, rfl, by simp [h2]⟩
          · exact ⟨q', h1, h2⟩
      · intro t h; cases h
  | locked req env wr r id hadd hq' =>
    have hn : Tasks.name w.tasks w.nextTask = none := by
      cases hg : Tasks.name w.tasks w.nextTask with
      | none => rfl
      | some n => exact absurd (ho.fresh _ (by rw [hg]; simp)) (Nat.lt_irrefl _)
    cases ho.reg.add_cases hadd with
    | present id on h1 h2 =>
      refine ⟨?_, Nat.le_refl _, ?_, same_queue, ?_, ?_⟩
      · intro u n h
        rw [Tasks.name_insert, if_neg (fun hu => by rw [← hu, hn] at h; cases h)]
        exact h
      · intro u id h
        rw [Tasks.client_insert] at h
        split at h
        · cases h
        · rename_i hu
          exact .inr ⟨u, h, by rw [Tasks.name_insert, if_neg hu]⟩
      · intro t id h hne
        rw [Tasks.onlineId_insert] at h
        split at h
        · cases h
        · exact ⟨h, same_queue id⟩
      · intro t h; cases h
  | accept t env x old level hx hst hw s0 present h0 s out hs =>
    have hid : s.clientId = old.clientId := by
      have h1 := session_client cfg x.req old level
      rw [h0] at h1
      exact (sameId_pendings hs).client.trans h1
    have hacc : ((if present then [] else [.discarded t old]) ++
        [.accepted t present, .sent t out] : List Event).findSome? Event.accepts = some t := by
      cases present <;> rfl
    refine .one hx rfl rfl (fun s' h => ⟨old, by rw [hst]; rfl, by cases h; exact hid⟩)
      (fun id h => .inr hacc) (fun u hu => ?_) (Nat.le_refl _) same_queue
      (fun _ id _ => same_queue id)
    rw [hacc] at hu
    cases hu
    exact ⟨rfl, _, rfl⟩
  | refused t env wr x old level hx hst =>
    refine .one hx rfl rfl (fun s' h => by cases h) (fun id h => by cases h)
      (none_accepts (by simp [Event.accepts])) (Nat.le_refl _) (fun id q' h1 h2 => ?_)
      (fun u id hu q h1 h2 => ?_)
    · rw [FMap.get_erase] at h1
      split at h1
      · cases h1
      · exact ⟨q', h1, h2⟩
    · refine ⟨q, ?_, h2⟩
      rw [FMap.get_erase, if_neg]
      · exact h1
      · intro hi
        rw [Tasks.onlineId_insert] at hu
        split at hu
        · cases hu
        · rename_i hne
          refine hne (ho.uniq t u id ?_ (Tasks.onlineId_client hu))
          rw [(Tasks.views hx).1, hst, ← hi]; rfl
  | normalOn t env x s hx hst hd src m rest hi =>
    exact .one hx rfl rfl (fun s' h => ⟨s, by rw [hst]; rfl, by cases h; exact sameEnd_onNormal.1.client⟩)
      (fun id h => .inl (by cases h; rw [hst, sameEnd_onNormal.1.client]; rfl))
      (none_accepts (by simp [Event.accepts])) (Nat.le_refl _) same_queue
      (fun _ id _ => same_queue id)
  | normalOff t env x s hx hst hd src m rest hi =>
    exact .one hx rfl rfl (fun s' h => ⟨s, by rw [hst]; rfl, by cases h; exact sameEnd_normal.1.client⟩)
      (fun id h => by cases h)
      (none_accepts (by simp [Event.accepts])) (Nat.le_refl _) same_queue
      (fun _ id _ => same_queue id)
  | handOn t env x s hx hst b y q hq' hy =>
    exact watch_handOver ho hx (by rw [hst]; rfl) rfl hq' hy rfl rfl rfl rfl rfl (by simp [Event.accepts])
  | handOff t env x s hx hst hd b y q hq' hy msgs inbox hm =>
    refine watch_handOver ho hx (s := s) (by rw [hst]; rfl)
      (SameEnd.of_core (core_drain ..)).1.client hq' hy rfl rfl rfl rfl rfl ?_
    intro v hv
    rcases List.mem_append.1 hv with hv | hv
    · obtain ⟨_, _, rfl⟩ := List.mem_map.1 hv; rfl
    · obtain rfl := List.mem_singleton.1 hv; rfl
  | deny t env x s hx hst pr b y q hq' hpr hy =>
    have hb := ho.queue _ _ pr b hq' (by simp)
    refine .one hy rfl rfl (fun s' h => by cases h) (fun id h => by cases h)
      (none_accepts (by simp)) (Nat.le_refl _) (popped hq') (fun u id hu => kept hq' id ?_)
    intro _ h; cases h
  | ignored t env x s hx hst c q hq' hc =>
    refine ⟨fun _ _ h => h, Nat.le_refl _, fun u id h => .inr ⟨u, h, rfl⟩, popped hq',
      fun u id h _ => ⟨h, kept hq' id fun hid => ?_⟩, fun t h => by cases h⟩
    rcases hc with ⟨pr, b, rfl, _⟩ | ⟨rfl, hoff⟩ | ⟨time, rfl | rfl, _⟩
    · intro h; cases h
    · have hu : t = u := by
        refine ho.uniq t u id ?_ (Tasks.onlineId_client h)
        rw [(Tasks.views hx).1, hoff, hid]; rfl
      subst hu
      rw [Tasks.onlineId_of hx, hoff] at h
      cases h
    · intro h; cases h
    · intro h; cases h
  | kicked t env x s hx hst q hq' =>
    refine .one hx rfl rfl (fun s' h => ⟨s, by rw [hst]; rfl, by cases h; rfl⟩)
      (fun id h => by cases h) (none_accepts (by simp)) (Nat.le_refl _) (popped hq')
      (fun u id hu => kept hq' id fun hid => ?_)
    exfalso
    rw [Tasks.onlineId_insert] at hu
    split at hu
    · cases hu
    · rename_i hne
      refine hne (ho.uniq t u id ?_ (Tasks.onlineId_client hu))
      rw [(Tasks.views hx).1, hst, hid]; rfl
  | expire t env x s hx hst hd time q hq' hpr ht s' g m hw r route hrem =>
    obtain ⟨h1, h2, h3, h4⟩ := ho.reg.removed hrem
    refine .one hx rfl rfl (fun s'' h => ⟨s, by rw [hst]; rfl, by cases h; exact hw.client⟩)
      (fun id h => by cases h) (none_accepts ?_) (Nat.le_of_eq h2.symm) (popped hq')
      (fun u id hu => kept hq' id fun hid h => by cases h)
    intro v hv
    rcases List.mem_append.1 hv with hv | hv
    · exact accepts_hears (List.findSome?_eq_none_iff.1 (hears_willEvents _ _ _ _).1 v hv)
    · obtain rfl := List.mem_singleton.1 hv; rfl
  | lateWill t env x s hx hst hd time q hq' hpr ht s' g m hw =>
    refine .one hx rfl rfl (fun s'' h => ⟨s, by rw [hst]; rfl, by cases h; exact hw.client⟩)
      (fun id h => by cases h) (none_accepts ?_) (Nat.le_refl _) (popped hq')
      (fun u id hu => kept hq' id fun hid h => by cases h)
    intro v hv
    exact accepts_hears (List.findSome?_eq_none_iff.1 (hears_willEvents _ _ _ _).1 v hv)
  | closeQuiet t env lost x s hx hst hd =>
    exact .one hx rfl rfl (fun s' h => ⟨s, by rw [hst]; rfl, by cases h; rfl⟩)
      (fun id h => by cases h) (none_accepts (by simp [Event.accepts])) (Nat.le_refl _) same_queue
      (fun _ id _ => same_queue id)
  | closeWill t env lost x s hx hst hd hp s' g m hw =>
    refine .one hx rfl rfl (fun s'' h => ⟨s, by rw [hst]; rfl, by cases h; exact hw.client⟩)
      (fun id h => by cases h) (none_accepts ?_) (Nat.le_refl _) same_queue
      (fun _ id _ => same_queue id)
    intro v hv
    rcases List.mem_cons.1 hv with rfl | hv
    · rfl
    · exact accepts_hears (List.findSome?_eq_none_iff.1 (hears_willEvents _ _ _ _).1 v hv)
  | closeDelayed t env lost x s hx hst hd hp =>
    exact .one hx rfl rfl (fun s' h => ⟨s, by rw [hst]; rfl, by cases h; rfl⟩)
      (fun id h => by cases h) (none_accepts (by simp [Event.accepts])) (Nat.le_refl _) same_queue
      (fun _ id _ => same_queue id)
  | push t d x s hx hst m rest hq' hk' =>
    have := sending_online hst { s with bcast := if rest.isEmpty then s.bcast.erase d else s.bcast.insert d rest
                                        bcastCnt := s.bcastCnt - 1 } rfl
    exact .one hx rfl rfl this.1 (fun id h => .inl (this.2 id h)) (none_accepts (by simp)) (Nat.le_refl _) same_queue
      (fun _ id _ => same_queue id)
  | flush t d x hx m q hk' hi hl =>
    exact .one hx rfl rfl (fun s h => ⟨s, h, rfl⟩) (fun id h => .inl h) (none_accepts (by simp))
      (Nat.le_refl _) same_queue (fun _ id _ => same_queue id)
  | giveUp t d x s hx hst hi =>
    have := sending_online hst { s with bcast := s.bcast.erase d
                                        bcastCnt := s.bcastCnt - (s.queue d).length } rfl
    exact .one hx rfl rfl this.1 (fun id h => .inl (this.2 id h)) (none_accepts (by simp)) (Nat.le_refl _) same_queue
      (fun _ id _ => same_queue id)
  | remove t x s hx hst hd r route hrem =>
    obtain ⟨h1, h2, h3, h4⟩ := ho.reg.removed hrem
    have hcl : Tasks.client w.tasks t = some s.clientId := by
      rw [(Tasks.views hx).1]
      rcases hst with ⟨hst, _⟩ | hst <;> rw [hst] <;> rfl
    refine .one hx rfl rfl (fun s' h => by cases h) (fun id h => by cases h)
      (none_accepts (by simp [Event.accepts])) (Nat.le_of_eq h2.symm) (fun id q' h1 h2 => ?_)
      (fun u id hu q h1 h2 => ?_)
    · rw [FMap.get_erase] at h1
      split at h1
      · cases h1
      · exact ⟨q', h1, h2⟩
    · refine ⟨q, ?_, h2⟩
      rw [FMap.get_erase, if_neg]
      · exact h1
      · intro hi
        rw [Tasks.onlineId_insert] at hu
        split at hu
        · cases hu
        · rename_i hne
          exact hne (ho.uniq t u id (by rw [hcl, hi]) (Tasks.onlineId_client hu))
  | rest t x s hx hst hd he r hr timers htm =>
    obtain ⟨h1, h2⟩ := Registry.Inv.offline_get hr
    exact .one hx rfl rfl (fun s' h => ⟨s, by rw [hst]; rfl, by cases h; rfl⟩)
      (fun id h => by cases h) (none_accepts (by simp)) (Nat.le_of_eq h2.symm) same_queue
      (fun _ id _ => same_queue id)
  | fire i tm ht _ hw =>
    rcases hw with ⟨rfl, _⟩ | ⟨q, hr, hq', rfl⟩
    · exact ⟨fun _ _ h => h, Nat.le_refl _, fun u id h => .inr ⟨u, h, rfl⟩, same_queue,
        fun t id h _ => ⟨h, same_queue id⟩, fun t h => by cases h⟩
    · have htm := hq tm (List.mem_of_getElem? ht)
      refine ⟨fun _ _ h => h, Nat.le_refl _, fun u id h => .inr ⟨u, h, rfl⟩, ?_,
        fun t id h _ => ⟨h, ?_⟩, fun t h => by cases h⟩
      · intro id q' h1 h2
        rw [FMap.get_insert] at h1
        split at h1
        · rename_i hi
          subst hi
          cases h1
          refine ⟨q, hq', ?_⟩
          rcases List.mem_append.1 h2 with h | h
          · exact h
          · exact absurd (List.mem_singleton.1 h).symm htm
        · exact ⟨q', h1, h2⟩
      · intro q' h1 h2
        rw [FMap.get_insert]
        split
        · rename_i hi
          subst hi
          rw [hq'] at h1
          cases h1
          exact ⟨_, rfl, by simp [h2]⟩
        · exact ⟨q', h1, h2⟩
  | kick id => exact absurd rfl (hk id)

end Akasa

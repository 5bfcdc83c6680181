import Verif.Props.Will
import Verif.Spec.Ending
/-!
# C71: whether a session outlives its connection

The whole broker with any number of connections.
-/
namespace Akasa

variable {cfg : Config} {ext : Ext} {w w' : World} {evs e : List Event}

theorem outlives_iff {req : Request} {s : Session} :
    Outlives req s ↔ req.endsSession s = false := by
  unfold Outlives Request.endsSession
  cases req.level <;> simp [Level.proto]

theorem atEnd_idle {x : Task} {s : Session} : x.idle s = true ↔ s.bcast = [] ∧ x.sinks = [] := by
  unfold Task.idle
  simp [List.isEmpty_iff]

/-- **C71, kept.**  When a connection is over and its session is to outlive it, the session is kept as
it is; nothing is observed. -/
theorem C71_kept {t : TaskId} {s : Session} {req : Request} (h : w.atEnd t s)
    (hreq : w.request t = some req) (ho : Outlives req s)
    (hs : w.step cfg ext (.finish t) = some (w', e)) :
    w'.offlineSession t = some s ∧ w'.route = w.route ∧ w'.retain = w.retain ∧ e = [] := by
  obtain ⟨x, hx, hst, hb, hk⟩ := h
  unfold World.request at hreq
  rw [hx] at hreq
  cases hreq
  have hi := atEnd_idle.mpr ⟨hb, hk⟩
  have he := outlives_iff.mp ho
  simp only [World.step, World.finish, hx, hst, hi, he, if_true, Bool.false_eq_true, if_false] at hs
  split at hs
  · cases hs
  · cases hs
    exact ⟨offline_of (FMap.get_insert_self _ _ _) rfl, rfl, rfl, rfl⟩

/-- **C71, removed.**  When a connection is over and its session is not to outlive it, the session is
removed: nobody owns a session of this client, its identifier is not registered, messages and control
messages for it are not accepted any more, and the task stops. -/
theorem C71_removed {acts : List Act} (hrun : Reaches cfg ext acts w evs) {t : TaskId} {s : Session}
    {req : Request} (h : w.atEnd t s) (hreq : w.request t = some req) (ho : ¬ Outlives req s)
    (hs : w.step cfg ext (.finish t) = some (w', e)) :
    e = [.removed t s.clientId] ∧ w'.stopped t ∧ w'.registry.lookup req.identifier = none ∧
    (∀ u s', w'.owned u = some s' → s'.identifier ≠ req.identifier) ∧
    w'.inbox.get s.clientId = none ∧ w'.control.get s.clientId = none := by
  have hb := BrokerInv.run hrun
  have hb' := hb.step hs
  obtain ⟨x, hx, hst, hbc, hk⟩ := h
  unfold World.request at hreq
  rw [hx] at hreq
  cases hreq
  have hi := atEnd_idle.mpr ⟨hbc, hk⟩
  have he : x.req.endsSession s = true := by
    cases hh : x.req.endsSession s with
    | true => rfl
    | false => exact absurd (outlives_iff.mpr hh) ho
  simp only [World.step, World.finish, hx, hst, hi, he, if_true, World.remove] at hs
  split at hs
  · cases hs
  · rename_i r route hrem
    have v := Tasks.views hx
    have hown : Tasks.owner w.tasks t = some s.clientId := by rw [v.2.1, hst]; rfl
    have hname := hb.own.named _ _ _ hown v.2.2.2.1
    obtain ⟨h1, h2, h3, h4⟩ := hb.own.reg.remove_get (removeClient_run hrem).1
    have hlook : r.identMap.get x.req.identifier = none := by rw [h3, if_pos hname]
    have hfree : ∀ u s', w'.owned u = some s' → s'.identifier ≠ x.req.identifier := by
      intro u s' hu hn
      obtain ⟨y, hy, hys⟩ := owned_stage hu
      have hv := Tasks.views hy
      have h5 := hb'.own.session _ _ _ hy hys
      have h6 := hb'.own.named u s'.clientId y.req.identifier (by rw [hv.2.1, hys]; rfl) hv.2.2.2.1
      rw [← h5, hn] at h6
      cases hs
      simp only [World.dropReceivers, World.setTask] at h6
      rw [hlook] at h6
      cases h6
    cases hs
    exact ⟨rfl, ⟨_, FMap.get_insert_self _ _ _, rfl⟩, hlook, hfree, FMap.get_erase_self _ _,
      FMap.get_erase_self _ _⟩

/-- MQTT 3 without clean session, and MQTT 5 with an expiry interval. -/
example (level : Level) : ∃ w evs w' e s, Reaches {} exExt
    [.connect (exReq level false 100 0) {} true, .lose 0, .close 0 {} []] w evs ∧ w.atEnd 0 s ∧
    w.request 0 = some (exReq level false 100 0) ∧ Outlives (exReq level false 100 0) s ∧
    w.step {} exExt (.finish 0) = some (w', e) := by
  cases level <;> exact ⟨_, _, _, _, _, rfl, ⟨_, rfl, rfl, rfl, rfl⟩, rfl, (by unfold Outlives; decide), rfl⟩

/-- MQTT 3 with clean session, and MQTT 5 without expiry interval. -/
example (level : Level) : ∃ w evs w' e s, Reaches {} exExt
    [.connect (exReq level true 0 0) {} true, .lose 0, .close 0 {} []] w evs ∧ w.atEnd 0 s ∧
    w.request 0 = some (exReq level true 0 0) ∧ ¬ Outlives (exReq level true 0 0) s ∧
    w.step {} exExt (.finish 0) = some (w', e) := by
  cases level <;> exact ⟨_, _, _, _, _, rfl, ⟨_, rfl, rfl, rfl, rfl⟩, rfl, (by unfold Outlives; decide), rfl⟩

theorem connSession_life {t : TaskId} {s : Session} (h : w.connSession t = some s) :
    ∃ k, Tasks.life w.tasks t = .conn k s.ending := by
  unfold World.connSession at h
  split at h
  · cases h
  · rename_i x hx
    rw [Tasks.life_eq hx]
    cases hst : x.stage <;> rw [hst] at h <;> simp at h <;> subst h <;> exact ⟨_, rfl⟩

/-- **C71.**  The end of a connection waits for the copies that are still to be passed on: until then
nothing is decided about the session. -/
theorem C71_waits {t : TaskId} (h : w.stillSends t) :
    w.step cfg ext (.finish t) = some (w, []) := by
  obtain ⟨y, s, hy, hst, hb⟩ := h
  have hi : y.idle s = false := by
    cases hi : y.idle s with
    | false => rfl
    | true =>
      have := atEnd_idle.mp hi
      rcases hb with hb | hb
      · exact absurd this.1 hb
      · exact absurd this.2 hb
  rcases hst with hst | hst <;> simp [World.step, World.finish, hy, hst, hi]

/-- The will of a lost connection is on its way to another client. -/
example : ∃ w evs, Reaches {} exExt
    [.connect { level := .v311, identifier := str "d", clean := true } {} true,
     .packet 0 {} (Clock.const 0) 10 (.subscribe 1 [(str "w", { maxQos := 1 })] none),
     .connect (exReq .v311 true 100 5) {} true, .lose 1, .close 1 {} []] w evs ∧ w.stillSends 1 :=
  ⟨_, _, rfl, _, _, rfl, .inl rfl, .inl (List.ne_nil_of_length_pos (by decide +kernel))⟩

/-- **C71, interval.**  The expiry interval in force on a connection is the one its CONNECT left, or
the one of a DISCONNECT that was received on it; a DISCONNECT does not replace 0 by another
interval. -/
theorem C71_interval {acts : List Act} (hrun : Reaches cfg ext acts w evs) {t : TaskId}
    {req : Request} {s : Session} (hreq : w.request t = some req) (h : w.connSession t = some s) :
    s.expiryInterval = req.params.expiryInterval ∨
    (req.level = .v500 ∧ 0 < req.params.expiryInterval ∧ s.clientDisconnected = true ∧
      ∃ a ∈ acts, a.setsExpiry t s.expiryInterval) := by
  have key := world_induction_acts (P := fun acts w _ => BrokerInv w ∧
    ∀ req k i, w.request t = some req → Tasks.life w.tasks t = .conn k i →
      i.expiry = req.params.expiryInterval ∨
      (req.level.proto = .v5 ∧ 0 < req.params.expiryInterval ∧ i.gone = true ∧
        ∃ a ∈ acts, a.setsExpiry t i.expiry))
    ⟨.init, fun req k i h => by cases h⟩ ?_ hrun
  · obtain ⟨k, hk⟩ := connSession_life h
    rcases key.2 req k _ hreq hk with h1 | ⟨h1, h2, h3, h4⟩
    · exact .inl h1
    · refine .inr ⟨?_, h2, h3, h4⟩
      cases hl : req.level <;> rw [hl] at h1 <;> first | rfl | cases h1
  · rintro acts w evs a w' e ⟨hi, ih⟩ hs
    refine ⟨hi.step hs, fun req k i hreq hl => ?_⟩
    have hseen := seen_step hi.own (step_cases hs) t
    have old : ∀ k' i', Tasks.life w.tasks t = .conn k' i' → w.request t = some req := by
      intro k' i' h
      cases hr : w.request t with
      | some req' =>
        have := hseen.keeps req' hr
        rw [hreq] at this
        cases this
        rfl
      | none => rw [life_absent hr] at h; cases h
    have grow : ∀ i' : Akasa.Ending, (i'.expiry = req.params.expiryInterval ∨
        (req.level.proto = .v5 ∧ 0 < req.params.expiryInterval ∧ i'.gone = true ∧
          ∃ a ∈ acts, a.setsExpiry t i'.expiry)) → ∀ j : Akasa.Ending, j.expiry = i'.expiry →
        (i'.gone = true → j.gone = true) →
        (j.expiry = req.params.expiryInterval ∨
        (req.level.proto = .v5 ∧ 0 < req.params.expiryInterval ∧ j.gone = true ∧
          ∃ b ∈ acts ++ [a], b.setsExpiry t j.expiry)) := by
      intro i' h j hj hg
      rw [hj]
      rcases h with h | ⟨h1, h2, h3, b, hb, h4⟩
      · exact .inl h
      · exact .inr ⟨h1, h2, hg h3, b, List.mem_append_left _ hb, h4⟩
    have hst := hseen.step req hreq
    rw [hl] at hst
    generalize hl0 : Tasks.life w.tasks t = l0 at hst
    generalize e.any (·.removes t) = b at hst
    generalize willsOf t e = ws at hst
    cases hst with
    | same => exact grow _ (ih req _ _ (old _ _ hl0) hl0) _ rfl id
    | starts => exact .inl rfl
    | granted => exact .inl rfl
    | packet pkt hp e1 _ _ hk he =>
      have h0 := ih req _ _ (old _ _ hl0) hl0
      rcases he with rfl | ⟨c, i0, rfl, h1, h2, _⟩
      · exact grow _ h0 _ rfl id
      · rcases h2 with h2 | ⟨v, rfl, h2, h3, h4⟩
        · exact grow _ h0 _ h2 fun _ => h1
        · right
          refine ⟨h3, ?_, h1, a, List.mem_append_right _ (List.mem_singleton_self _), ?_⟩
          · rcases h0 with h0 | h0
            · rw [← h0]; exact h4
            · exact h0.2.1
          · unfold Act.packetOf at hp
            split at hp
            · split at hp
              · rename_i ht
                cases hp
                exact ⟨ht, h2.symm⟩
              · cases hp
            · cases hp
    | lost => exact grow _ (ih req _ _ (old _ _ hl0) hl0) _ rfl id
    | quiet => exact grow _ (ih req _ _ (old _ _ hl0) hl0) _ rfl id
    | now e1 _ h hp he ms hm => subst he; exact grow _ (ih req _ _ (old _ _ hl0) hl0) _ rfl id
    | rests => exact grow _ (ih req _ _ (old _ _ hl0) hl0) _ rfl id
    | late e1 _ he ms hm => subst he; exact grow _ (ih req _ _ (old _ _ hl0) hl0) _ rfl id
    | expires e1 _ he ms hm => subst he; exact grow _ (ih req _ _ (old _ _ hl0) hl0) _ rfl id

/-- The interval of DISCONNECT replaces the one of CONNECT. -/
example : ∃ w evs s, Reaches {} exExt
    [.connect (exReq .v500 false 100 0) {} true,
     .packet 0 {} (Clock.const 0) 2 (.disconnect .success (some 7))] w evs ∧
    w.connSession 0 = some s ∧ s.expiryInterval = 7 :=
  ⟨_, _, _, rfl, rfl, rfl⟩

/-- **C71, only then.**  A session is removed only when its connection is over and it is not to
outlive it, or by the timer of its own expiry; when it expired it is removed a second time at the
end. -/
theorem C71_only {acts : List Act} (hrun : Reaches cfg ext acts w evs) {a : Act}
    (hs : w.step cfg ext a = some (w', e)) {t : TaskId} {id : ClientId}
    (h : Event.removed t id ∈ e) :
    (∃ s req, w.atEnd t s ∧ s.clientId = id ∧ w.request t = some req ∧ ¬ Outlives req s) ∨
    (∃ s τ, w.offlineSession t = some s ∧ s.clientId = id ∧ w.connectedAt t = some τ ∧
      w.nextControl id = some (.sessionExpired τ)) ∨
    evs.any (·.removes t) = true := by
  have hone : ∀ {u : TaskId} {i : ClientId}, Event.removed t id ∈ [Event.removed u i] →
      t = u ∧ id = i := by
    intro u i h
    simpa using h
  have hwill : ∀ {u : TaskId} {s s' : Session} {m : Option SendPub},
      Event.removed t id ∉ willEvents u s s' m := by
    intro u s s' m
    cases m <;> simp [willEvents]
  cases step_cases hs with
  | idle => cases h
  | fresh => simp at h
  | stillborn => cases h
  | wait => cases h
  | locked => cases h
  | accept u env y old level hy hst hw s0 present h0 s out hs => cases present <;> simp at h
  | refused => simp at h
  | packet => simp at h
  | normalOn => simp at h
  | normalOff => simp at h
  | handOn => simp at h
  | handOff => simp at h
  | deny => cases h
  | ignored => cases h
  | kicked => cases h
  | expire u env y s hy hst hd time q hq hpr ht s' g m hw r route hrem =>
    rw [List.mem_append] at h
    obtain ⟨rfl, rfl⟩ := hone (h.resolve_left hwill)
    exact .inr (.inl ⟨s, time, offline_of hy hst, rfl, by rw [connectedAt_of hy]; exact ht,
      nextControl_of hq⟩)
  | lateWill => exact (hwill h).elim
  | lose => cases h
  | closeQuiet => simp at h
  | closeWill => exact (hwill (by simpa using h)).elim
  | closeDelayed => simp at h
  | push => cases h
  | flush => cases h
  | giveUp => cases h
  | remove u y s hy hst hd r route hrem =>
    obtain ⟨rfl, rfl⟩ := hone h
    rcases hst with ⟨hst, hend⟩ | hst
    · left
      obtain ⟨h1, h2⟩ := atEnd_idle.mp hd
      refine ⟨s, y.req, ⟨y, hy, hst, h1, h2⟩, rfl, by unfold World.request; rw [hy]; rfl, ?_⟩
      rw [outlives_iff, hend]
      simp
    · right; right
      have key := world_induction (P := fun w evs => BrokerInv w ∧
        ∀ i, Tasks.life w.tasks t = .conn .expired i → evs.any (·.removes t) = true)
        ⟨.init, fun i h => by cases h⟩ ?_ hrun
      · exact key.2 s.ending (by rw [Tasks.life_eq hy, hst]; rfl)
      · rintro w evs a w' e ⟨hi, ih⟩ hs
        refine ⟨hi.step hs, fun i hl => ?_⟩
        rw [any_append_events]
        have hseen := seen_step hi.own (step_cases hs) t
        cases hr : w'.request t with
        | none => rw [life_absent hr] at hl; cases hl
        | some req =>
          have hst := hseen.step req hr
          rw [hl] at hst
          generalize hl0 : Tasks.life w.tasks t = l0 at hst
          generalize e.any (·.removes t) = b at hst ⊢
          generalize willsOf t e = ws at hst
          cases hst with
          | same => rw [ih i hl0]; rfl
          | packet pkt hp e1 _ _ hk he => rcases hk with hk | hk <;> cases hk
          | expires => simp
  | rest => cases h
  | fire => cases h
  | kick => cases h

/-- All three happen. -/
example : ∃ w evs w' e, Reaches {} exExt (exStale.take 5 ++ [.fire 1, .control 0 {}]) w evs ∧
    w.step {} exExt (.finish 0) = some (w', e) ∧ e.any (·.removes 0) = true :=
  ⟨_, _, _, _, rfl, rfl, rfl⟩

/-- A task appears only by a connection attempt. -/
theorem request_new {a : Act} (hc : WCase cfg ext w a w' e) (ho : OInv w) {u : TaskId}
    {req : Request} (h0 : w.request u = none) (h : w'.request u = some req) :
    ∃ env wr, a = .connect req env wr := by
  have old : ∀ {t : TaskId} {x x' : Task}, w.tasks.get t = some x → ∀ m : Tasks,
      (FMap.get m u = none) → FMap.get (FMap.insert m t x') u = none := by
    intro t x x' hx m hm
    rw [FMap.get_insert, if_neg, hm]
    rintro rfl
    unfold World.request at h0
    rw [hx] at h0
    cases h0
  have h0' : w.tasks.get u = none := by
    cases hu : w.tasks.get u with
    | none => rfl
    | some x => unfold World.request at h0; rw [hu] at h0; cases h0
  have bad : ∀ {w2 : World}, w' = w2 → w2.tasks.get u = none → False := by
    rintro _ rfl hn
    unfold World.request at h
    rw [hn] at h
    cases h
  have new : ∀ {x' : Task}, w'.tasks = w.tasks.insert w.nextTask x' → x'.req = req := by
    intro x' ht
    unfold World.request at h
    rw [ht, FMap.get_insert] at h
    split at h
    · simpa using h
    · rw [h0'] at h; cases h
  cases hc with
  | idle => exact (bad rfl h0').elim
  | fresh req' env r id hadd hw s out hs => exact ⟨env, true, by rw [← new rfl]⟩
  | stillborn req' env wr r id hadd => exact ⟨env, wr, by rw [← new rfl]⟩
  | wait req' env wr r id q hadd hq => exact ⟨env, wr, by rw [← new rfl]⟩
  | locked req' env wr r id hadd hq => exact ⟨env, wr, by rw [← new rfl]⟩
  | handOn t env x s hx hst b y q hq hy => exact (bad rfl (old hy _ (old hx _ h0'))).elim
  | handOff t env x s hx hst hd b y q hq hy msgs inbox hm =>
    exact (bad rfl (old hy _ (old hx _ h0'))).elim
  | deny t env x s hx hst pr b y q hq hpr hy => exact (bad rfl (old hy _ h0')).elim
  | ignored => exact (bad rfl h0').elim
  | fire i tm ht _ hw => rcases hw with ⟨rfl, _⟩ | ⟨q, _, _, rfl⟩ <;> exact (bad rfl h0').elim
  | kick => exact (bad rfl h0').elim
  | accept t env x old' level hx hst hw s0 present h0 s out hs =>
    exact (bad rfl (old hx _ h0')).elim
  | refused t env wr x old' level hx hst => exact (bad rfl (old hx _ h0')).elim
  | packet t env after size p x s hx => exact (bad rfl (old hx _ h0')).elim
  | normalOn t env x s hx => exact (bad rfl (old hx _ h0')).elim
  | normalOff t env x s hx => exact (bad rfl (old hx _ h0')).elim
  | kicked t env x s hx => exact (bad rfl (old hx _ h0')).elim
  | expire t env x s hx => exact (bad rfl (old hx _ h0')).elim
  | lateWill t env x s hx => exact (bad rfl (old hx _ h0')).elim
  | lose t x s hx => exact (bad rfl (old hx _ h0')).elim
  | closeQuiet t env lost x s hx => exact (bad rfl (old hx _ h0')).elim
  | closeWill t env lost x s hx => exact (bad rfl (old hx _ h0')).elim
  | closeDelayed t env lost x s hx => exact (bad rfl (old hx _ h0')).elim
  | push t d x s hx => exact (bad rfl (old hx _ h0')).elim
  | flush t d x hx => exact (bad rfl (old hx _ h0')).elim
  | giveUp t d x s hx => exact (bad rfl (old hx _ h0')).elim
  | remove t x s hx => exact (bad rfl (old hx _ h0')).elim
  | rest t x s hx => exact (bad rfl (old hx _ h0')).elim

/-- What a session keeps while it is offline. -/
def SameKept (s s' : Session) : Prop :=
  s'.identifier = s.identifier ∧ s'.clientId = s.clientId ∧ s'.subscribes = s.subscribes ∧
    s'.qos2 = s.qos2

theorem SameKept.of_core {s s' : Session} (h : s'.core = s.core) : SameKept s s' :=
  ⟨congrArg (fun s => s.identifier) h, congrArg (fun s => s.clientId) h,
    congrArg (fun s => s.subscribes) h, congrArg (fun s => s.qos2) h⟩

theorem SameKept.of_will {pr : Proto} {env : Env} {g g' : Global} {s s' : Session}
    {m : Option SendPub} (h : WillSent ext pr env g s s' g' m) : SameKept s s' := by
  cases hw : s.will with
  | none => rw [(h.kept hw).1]; exact ⟨rfl, rfl, rfl, rfl⟩
  | some wl =>
    obtain ⟨n, hn⟩ := h.sent wl hw
    exact SameKept.of_core (s := { s with will := none }) (core_sendOf hn)

theorem offline_same {a : Act} (hc : WCase cfg ext w a w' e) (ho : OInv w) {t : TaskId}
    {s s' : Session} (h : w.offlineSession t = some s) (h' : w'.offlineSession t = some s') :
    SameKept s s' := by
  obtain ⟨z, hz, hzs⟩ := offline_stage h
  obtain ⟨z', hz', hzs'⟩ := offline_stage h'
  have refl : SameKept s s := ⟨rfl, rfl, rfl, rfl⟩
  have same : ∀ {w2 : World}, w' = w2 → w2.tasks.get t = some z → SameKept s s' := by
    rintro _ rfl hg
    rw [hz'] at hg
    cases hg
    rw [hzs] at hzs'
    cases hzs'
    exact refl
  have one : ∀ {u : TaskId} {y y' : Task}, w.tasks.get u = some y →
      w'.tasks = w.tasks.insert u y' →
      (∀ s1 s2, y.stage = .offline s1 → y'.stage = .offline s2 → SameKept s1 s2) →
      SameKept s s' := by
    intro u y y' hy ht hk
    by_cases hu : u = t
    · subst hu
      rw [ht, FMap.get_insert_self] at hz'
      cases hz'
      rw [hz] at hy
      cases hy
      exact hk _ _ hzs hzs'
    · exact same rfl (by rw [ht, FMap.get_insert, if_neg hu]; exact hz)
  have new : ∀ {y' : Task}, w'.tasks = w.tasks.insert w.nextTask y' → SameKept s s' := by
    intro y' ht
    refine same rfl ?_
    rw [ht, FMap.get_insert, if_neg]
    · exact hz
    · intro e; rw [← e, (life_new ho).2] at hz; cases hz
  have set : ∀ {st : Stage} {s0 s1 : Session}, st.sending? = some s0 → s1.core = s0.core →
      ∀ sa sb, st = .offline sa → st.setSession s1 = .offline sb → SameKept sa sb := by
    rintro st s0 s1 h0 h1 sa sb rfl hb
    simp only [Stage.sending?, Option.some.injEq] at h0
    simp only [Stage.setSession, Stage.offline.injEq] at hb
    subst h0 hb
    exact .of_core h1
  cases hc with
  | idle => exact same rfl hz
  | fresh => exact new rfl
  | stillborn => exact new rfl
  | wait => exact new rfl
  | locked => exact new rfl
  | accept u env y old level hy hst => exact one hy rfl (by intro s1 s2 h1; rw [hst] at h1; cases h1)
  | refused u env wr y old level hy hst => exact one hy rfl (by intro s1 s2 h1; rw [hst] at h1; cases h1)
  | packet u env after size p y s hy hst => exact one hy rfl (by intro s1 s2 h1; rw [hst] at h1; cases h1)
  | normalOn u env y s hy hst => exact one hy rfl (by intro s1 s2 h1; rw [hst] at h1; cases h1)
  | normalOff u env y s hy hst =>
    refine one hy rfl ?_
    intro s1 s2 h1 h2
    rw [hst] at h1
    cases h1
    cases h2
    exact .of_core (core_normal ..)
  | handOn u env y s1 hy hst b x q hq hx =>
    have hb := (ho.requester hq hx).1
    refine same rfl ?_
    rw [FMap.get_insert, if_neg, FMap.get_insert, if_neg]
    · exact hz
    · rintro rfl; rw [hz] at hy; cases hy; rw [hst] at hzs; cases hzs
    · rintro rfl; rw [hz] at hx; cases hx; rw [hb] at hzs; cases hzs
  | handOff u env y s1 hy hst hd b x q hq hx msgs inbox hm =>
    have hb := (ho.requester hq hx).1
    have hbt : b ≠ t := by rintro rfl; rw [hz] at hx; cases hx; rw [hb] at hzs; cases hzs
    by_cases hu : u = t
    · subst hu
      simp only at hz'
      rw [FMap.get_insert, if_neg hbt, FMap.get_insert_self] at hz'
      cases hz'
      cases hzs'
    · refine same rfl ?_
      rw [FMap.get_insert, if_neg hbt, FMap.get_insert, if_neg hu]
      exact hz
  | deny u env y s1 hy hst pr b x q hq hpr hx =>
    refine one hx rfl ?_
    intro s1 s2 h1
    rw [(ho.requester hq hx).1] at h1
    cases h1
  | ignored => exact same rfl hz
  | kicked u env y s hy hst => exact one hy rfl (by intro s1 s2 h1; rw [hst] at h1; cases h1)
  | expire u env y s hy hst => exact one hy rfl (by intro s1 s2 h1 h2; cases h2)
  | lateWill u env y s hy hst hd time q hq hpr ht s' g m hw =>
    refine one hy rfl ?_
    intro s1 s2 h1 h2
    rw [hst] at h1
    cases h1
    cases h2
    exact .of_will hw
  | lose u y s hy hst => exact one hy rfl (by intro s1 s2 h1; rw [hst] at h1; cases h1)
  | closeQuiet u env lost y s hy hst => exact one hy rfl (by intro s1 s2 h1; rw [hst] at h1; cases h1)
  | closeWill u env lost y s hy hst => exact one hy rfl (by intro s1 s2 h1; rw [hst] at h1; cases h1)
  | closeDelayed u env lost y s hy hst => exact one hy rfl (by intro s1 s2 h1; rw [hst] at h1; cases h1)
  | push u d y s hy hst m rest hq hk => exact one hy rfl (set hst rfl)
  | flush u d y hy m q hk hi hl =>
    refine one (y' := { y with sinks := y.sinks.erase d }) hy rfl ?_
    intro s1 s2 h1 h2
    simp only at h2
    rw [h1] at h2
    cases h2
    exact ⟨rfl, rfl, rfl, rfl⟩
  | giveUp u d y s hy hst hi => exact one hy rfl (set hst rfl)
  | remove u y s hy hst => exact one hy rfl (by intro s1 s2 h1 h2; cases h2)
  | rest u y s hy hst => exact one hy rfl (by intro s1 s2 h1; rw [hst] at h1; cases h1)
  | fire i tm ht _ hw => rcases hw with ⟨rfl, _⟩ | ⟨q, _, _, rfl⟩ <;> exact same rfl hz
  | kick => exact same rfl hz

/-- **C71, stays.**  A session that is kept after its connection stays, with its subscriptions and
the QoS 2 messages it has received, until a new connection of the same client asks for it or its own
expiry timer removes it: whatever other clients do in between. -/
theorem C71_stays {acts acts' : List Act} (hrun : Reaches cfg ext acts w evs) {t : TaskId}
    {s : Session} (hoff : w.offlineSession t = some s) (hal : w.alone t s.identifier)
    (hask : ∀ a ∈ acts', ¬ a.asksFor s.identifier)
    (hrun' : World.run cfg ext w acts' = some (w', e)) (hrem : e.any (·.removes t) = false) :
    ∃ s', w'.offlineSession t = some s' ∧ s'.identifier = s.identifier ∧
      s'.clientId = s.clientId ∧ s'.subscribes = s.subscribes ∧ s'.qos2 = s.qos2 := by
  suffices h : w'.alone t s.identifier ∧ ∃ s', w'.offlineSession t = some s' ∧ SameKept s s' by
    obtain ⟨_, s', h1, h2, h3, h4, h5⟩ := h
    exact ⟨s', h1, h2, h3, h4, h5⟩
  induction acts' using snoc_induction generalizing w' e with
  | nil =>
    cases hrun'
    exact ⟨hal, s, hoff, rfl, rfl, rfl, rfl⟩
  | snoc as a ih =>
    obtain ⟨w1, e1, e2, h1, h2, rfl⟩ := run_snoc_world.mp hrun'
    rw [any_append_events, Bool.or_eq_false_iff] at hrem
    obtain ⟨hal1, s1, hs1, hk1⟩ := ih (fun b hb => hask b (List.mem_append_left _ hb)) h1 hrem.1
    have hreach : Reaches cfg ext (acts ++ as) w1 (evs ++ e1) := run_append_world hrun h1
    have hb := BrokerInv.run hreach
    have hc := step_cases h2
    have hal2 : w'.alone t s.identifier := by
      intro u req hu hn hne
      cases hr : w1.request u with
      | some req' =>
        have := (seen_step hb.own hc u).keeps req' hr
        rw [hu] at this
        cases this
        exact (C38_stopped hreach (hal1 u req hr hn hne) h2).1
      | none =>
        obtain ⟨env, wr, rfl⟩ := request_new hc hb.own hr hu
        exact absurd hn (hask _ (List.mem_append_right _ (List.mem_singleton_self _)))
    refine ⟨hal2, ?_⟩
    cases hoff' : w'.offlineSession t with
    | some s' =>
      have := offline_same hc hb.own hs1 hoff'
      exact ⟨s', rfl, this.1.trans hk1.1, this.2.1.trans hk1.2.1, this.2.2.1.trans hk1.2.2.1,
        this.2.2.2.trans hk1.2.2.2⟩
    | none =>
      exfalso
      obtain ⟨env, rfl, ⟨u, s', hu, hn, hst⟩ | ⟨τ, _, _, hr⟩⟩ := C40_offline_end hreach h2 hs1 hoff'
      · obtain ⟨x, hx, hxs⟩ := owned_stage hu
        have hreq : w'.request u = some x.req := by unfold World.request; rw [hx]; rfl
        have hid := (hb.step h2).own.session _ _ _ hx hxs
        obtain ⟨x1, hx1, hg1⟩ : w'.stopped u := by
          by_cases hut : u = t
          · rw [hut]; exact hst
          · exact hal2 u x.req hreq (by rw [← hid, hn]; exact hk1.1) hut
        rw [hx] at hx1
        cases hx1
        rw [hg1] at hxs
        cases hxs
      · have : e2.any (·.removes t) = true :=
          List.any_eq_true.mpr ⟨_, hr, by simp [Event.removes]⟩
        rw [hrem.2] at this
        cases this

/-- Another client connects and publishes to the session meanwhile. -/
example : ∃ w evs w' e s, Reaches {} exExt (exStale.take 5) w evs ∧ w.offlineSession 0 = some s ∧
    s.subscribes.keys = [str "a"] ∧ w.alone 0 s.identifier ∧
    World.run {} exExt w
      [.connect { level := .v311, identifier := str "d", clean := true } {} true,
       .packet 1 {} (Clock.const 0) 10 (.publish { dup := false, qosPid := .level1 1, retain := false,
                                                    topic := str "a", payload := [1] }),
       .push 1 0, .flush 1 0, .normal 0 {}] =
      some (w', e) ∧ e.any (·.removes 0) = false ∧ (tookFrom 1 0 e).length = 1 := by
  refine ⟨_, _, _, _, _, rfl, rfl, rfl, ?_, rfl, rfl, rfl⟩
  intro u req hu hn hne
  cases u with
  | zero => exact absurd rfl hne
  | succ u => cases hu

/-- **C42, kicked.**  When the keep-alive timer has kicked a client that is connected, the connection
is closed as soon as the message is handled, and nothing else is observed. -/
theorem C42_kicked {t : TaskId} {s : Session} (h : w.onlineSession t = some s)
    (hc : w.nextControl s.clientId = some .kick) (env : Env) :
    ∃ w', w.step cfg ext (.control t env) = some (w', []) ∧ w'.lost t := by
  obtain ⟨x, hx, hst⟩ := online_stage h
  obtain ⟨q, hq⟩ := nextControl_some hc
  refine ⟨({ w with control := w.control.insert s.clientId q } : World).setTask t
    { x with stage := .closed s }, ?_, ⟨_, s, FMap.get_insert_self _ _ _, rfl⟩⟩
  simp only [World.step, World.handleControl, hx, hst, World.onControl, hq]
  rfl

example : ∃ w evs s, Reaches {} exExt [.connect (exReq .v500 false 100 0) {} true, .kick 0] w evs ∧
    w.onlineSession 0 = some s ∧ w.nextControl s.clientId = some .kick :=
  ⟨_, _, _, rfl, rfl, rfl⟩

/-- **C54, the whole broker.**  A packet larger than the limit ends the connection: nothing is passed
on, the tables stay as they are, an MQTT 5 client is told so, and no further packet of this
connection is handled. -/
theorem C54_broker {t : TaskId} {s : Session} {req : Request} {env : Env} {after : Clock} {size : Nat}
    {p : InPkt} (hon : w.onlineSession t = some s)
    (hreq : w.request t = some req) (hsize : cfg.maxPacketSizeServer < size)
    (hs : w.step cfg ext (.packet t env after size p) = some (w', e)) (hrec : .received t p ∈ e) :
    w'.route = w.route ∧ w'.retain = w.retain ∧
      .sent t (if req.level = .v500 then [.disconnect .packetTooLarge] else []) ∈ e ∧
      (∀ ms, .routed t ms ∈ e → ms = []) ∧ (∀ ms, .queued t ms ∈ e → ∀ d, ms d = []) ∧
      ∀ env' after' size' p', w'.step cfg ext (.packet t env' after' size' p') = some (w', []) := by
  obtain ⟨x, hx, hst⟩ := online_stage hon
  unfold World.request at hreq
  rw [hx] at hreq
  cases hreq
  obtain ⟨hd, hroom⟩ := received_reads hx hst hs hrec
  have hroom' : ¬ bcastMax ≤ s.bcastCnt := by omega
  have hgt : size > cfg.maxPacketSizeServer := hsize
  have hcop : ∀ s1 : Session, s1.bcast = s.bcast → ∀ d, newCopies s s1 d = [] := by
    intro s1 h1 d
    unfold newCopies Session.queue
    rw [h1]
    simp
  cases hl : x.req.level with
  | v500 =>
    have hstep : w.step cfg ext (.packet t env after size p) = some
        (((w.setGlobal w.global).setTask t
          { x with stage := .online { s with serverDisconnected := true } }),
         [.received t p, .routed t [],
          .queued t (newCopies s { s with serverDisconnected := true }),
          .sent t [.disconnect .packetTooLarge]]) := by
      simp only [World.step, World.packet, hx, hst, hd, onPacket, hl, Level.proto, handlePacket,
        handlePacketV5, if_pos hgt, failV5, afterPacket]
      simp [Session.disconnected, hroom']
    rw [hstep] at hs
    cases hs
    refine ⟨ rfl, rfl, by simp, ?_, ?_, ?_⟩
    · intro ms hm; simpa using hm
    · intro ms hm d
      simp at hm
      subst hm
      exact hcop _ rfl d
    · intro env' after' size' p'
      simp only [World.step, World.packet, World.setTask, FMap.get_insert_self]
      simp [Session.disconnected]
  | _ =>
    have hstep : w.step cfg ext (.packet t env after size p) = some
        (((w.setGlobal w.global).setTask t { x with stage := .closed s }),
         [.received t p, .routed t [], .queued t (newCopies s s), .sent t []]) := by
      simp only [World.step, World.packet, hx, hst, hd, onPacket, hl, Level.proto, handlePacket,
        handlePacketV3, if_pos hgt, failV3]
      simp [hroom']
    rw [hstep] at hs
    cases hs
    refine ⟨ rfl, rfl, by simp, ?_, ?_, ?_⟩
    · intro ms hm; simpa using hm
    · intro ms hm d
      simp at hm
      subst hm
      exact hcop _ rfl d
    · intro env' after' size' p'
      simp only [World.step, World.packet, World.setTask, FMap.get_insert_self]

example (level : Level) : ∃ w evs s w' e, Reaches { maxPacketSizeServer := 9 } exExt
    [.connect (exReq level false 100 0) {} true] w evs ∧ w.onlineSession 0 = some s ∧
    w.request 0 = some (exReq level false 100 0) ∧
    w.step { maxPacketSizeServer := 9 } exExt (.packet 0 {} (Clock.const 0) 10 .pingreq) =
      some (w', e) ∧ .received 0 .pingreq ∈ e := by
  cases level <;> exact ⟨_, _, _, _, _, rfl, rfl, rfl, rfl, List.mem_cons_self⟩

end Akasa

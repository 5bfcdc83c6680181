import Verif.Props.Owner
import Verif.Proof.WorldPend
/-!
# C40: session expiry and will delay timers

The timers of a connection are marked with the time it was established.
-/
namespace Akasa

variable {cfg : Config} {ext : Ext} {w w' : World} {evs e : List Event}

theorem online_stage {t : TaskId} {s : Session} (h : w.onlineSession t = some s) :
    ∃ x, w.tasks.get t = some x ∧ x.stage = .online s := by
  unfold World.onlineSession at h
  split at h
  · cases h
  · rename_i x hx
    refine ⟨x, hx, ?_⟩
    cases hst : x.stage <;> rw [hst] at h <;> simp at h
    rw [h]

theorem offline_stage {t : TaskId} {s : Session} (h : w.offlineSession t = some s) :
    ∃ x, w.tasks.get t = some x ∧ x.stage = .offline s := by
  unfold World.offlineSession at h
  split at h
  · cases h
  · rename_i x hx
    refine ⟨x, hx, ?_⟩
    cases hst : x.stage <;> rw [hst] at h <;> simp at h
    rw [h]

theorem online_of {t : TaskId} {x : Task} {s : Session} (hx : w.tasks.get t = some x)
    (hst : x.stage = .online s) : w.onlineSession t = some s := by
  unfold World.onlineSession; rw [hx]; simp [hst]

theorem offline_of {t : TaskId} {x : Task} {s : Session} (hx : w.tasks.get t = some x)
    (hst : x.stage = .offline s) : w.offlineSession t = some s := by
  unfold World.offlineSession; rw [hx]; simp [hst]

theorem nextControl_some {id : ClientId} {c : Control} (h : w.nextControl id = some c) :
    ∃ q, w.control.get id = some (c :: q) := by
  unfold World.nextControl at h
  cases hq : w.control.get id with
  | none => rw [hq] at h; cases h
  | some q =>
    rw [hq] at h
    cases q with
    | nil => cases h
    | cons a q => simp only [Option.bind_some, List.head?_cons, Option.some.injEq] at h; subst h; exact ⟨q, rfl⟩

theorem nextControl_of {id : ClientId} {c : Control} {q : List Control}
    (h : w.control.get id = some (c :: q)) : w.nextControl id = some c := by
  unfold World.nextControl; rw [h]; rfl

theorem timer_time {c : Control} {τ : Nat} {b : Bool} (h : c.timer = some (τ, b)) :
    c.time? = some τ := by
  cases c <;> simp_all [Control.timer, Control.time?]

theorem connectedAt_of {t : TaskId} {x : Task} (hx : w.tasks.get t = some x) :
    w.connectedAt t = x.connectedAt := by
  unfold World.connectedAt; rw [hx]; rfl

/-- **C40, stale.**  When a connection is established, or when a task keeps the session of another
connection than the one the timer was started for, the message of a timer is taken from the queue
(or left there for the moment) and nothing else happens; nothing is observed, nothing panics. -/
theorem C40_stale {acts : List Act} (hrun : Reaches cfg ext acts w evs) {t : TaskId} {s : Session}
    {c : Control} {τ : Nat} {b : Bool} (env : Env)
    (hc : w.nextControl s.clientId = some c) (ht : c.timer = some (τ, b))
    (ho : w.onlineSession t = some s ∨ w.offlineSession t = some s ∧ w.connectedAt t ≠ some τ) :
    ∃ w', w.step cfg ext (.control t env) = some (w', []) ∧
      (w' = w ∨ w' = w.dropControl s.clientId) := by
  have hi := BrokerInv.run hrun
  obtain ⟨q, hq⟩ := nextControl_some hc
  have hdrop : w.dropControl s.clientId = { w with control := w.control.insert s.clientId q } := by
    unfold World.dropControl; rw [hq]; rfl
  have v5 : ∀ x, w.tasks.get t = some x → Tasks.client w.tasks t = some s.clientId →
      x.req.level.proto = .v5 := by
    intro x hx hcl
    have := hi.time.v5 _ _ _ t (.inl ⟨_, hq, List.mem_cons_self⟩) (timer_time ht) hcl
    rw [(Tasks.views hx).2.2.2.2] at this
    exact Option.some.inj this
  rcases ho with ho | ⟨ho, hne⟩
  · obtain ⟨x, hx, hst⟩ := online_stage ho
    have hpr := v5 x hx (by rw [(Tasks.views hx).1, hst]; rfl)
    refine ⟨_, ?_, .inr rfl⟩
    simp only [World.step, World.handleControl, hx, hst, World.onControl, hq]
    cases c <;> simp [Control.timer] at ht <;> simp [hpr, hdrop]
  · obtain ⟨x, hx, hst⟩ := offline_stage ho
    have hpr := v5 x hx (by rw [(Tasks.views hx).1, hst]; rfl)
    rw [connectedAt_of hx] at hne
    cases hid : x.idle s with
    | false =>
      refine ⟨w, ?_, .inl rfl⟩
      simp only [World.step, World.handleControl, hx, hst, hid]
      rfl
    | true =>
      refine ⟨_, ?_, .inr rfl⟩
      simp only [World.step, World.handleControl, hx, hst, World.onControl, hq, hid]
      cases c <;> simp [Control.timer] at ht <;> simp_all

/-- A client loses its connection, reconnects and resumes its session; then the expiry timer of the
first connection fires. -/
def exStale : List Act :=
  [.connect (exReq .v500 false 100 5) {} true,
   .packet 0 {} (Clock.const 0) 10 (.subscribe 1 [(str "a", { maxQos := 1 })] none),
   .lose 0, .close 0 {} [], .finish 0,
   .connect (exReq .v500 false 100 5) {} true, .control 0 {}, .accept 1 {} true]

example : ∃ w evs s, Reaches {} exExt (exStale ++ [.fire 1]) w evs ∧ w.onlineSession 1 = some s ∧
    s.subscribes.keys = [str "a"] ∧ w.nextControl s.clientId = some (.sessionExpired 0) :=
  ⟨_, _, _, rfl, rfl, rfl, rfl⟩

example : ∃ w evs s, Reaches {} exExt
    (exStale ++ [.fire 1, .lose 1, .close 1 {} [], .finish 1]) w evs ∧
    w.offlineSession 1 = some s ∧ w.nextControl s.clientId = some (.sessionExpired 0) ∧
    w.connectedAt 1 = some 1 :=
  ⟨_, _, _, rfl, rfl, rfl, rfl⟩

/-- **C40, origin.**  A timer that runs, or whose message waits, was started by exactly one
connection, which is over. -/
theorem C40_origin {acts : List Act} (hrun : Reaches cfg ext acts w evs) {id : ClientId}
    {c : Control} {τ : Nat} {b : Bool} (hc : w.timerPending id c) (ht : c.timer = some (τ, b)) :
    ∃ t, w.connectedAt t = some τ ∧ w.ended t ∧ ∀ t', w.connectedAt t' = some τ → t' = t := by
  have hi := (BrokerInv.run hrun).time
  have hp : Pend w id c := hc.symm
  obtain ⟨t, h1, h2⟩ := hi.ended _ _ _ hp (timer_time ht)
  refine ⟨t, h1, ?_, fun t' h' => hi.inj _ _ _ h' h1⟩
  unfold Tasks.past at h2
  cases hx : w.tasks.get t with
  | none => rw [hx] at h2; cases h2
  | some x =>
    rw [hx] at h2
    replace h2 : x.stage.past = true := h2
    refine ⟨x, hx, ?_⟩
    cases hst : x.stage <;> rw [hst] at h2 <;> first | trivial | cases h2

example : ∃ w evs, Reaches {} exExt exStale w evs ∧ w.timerPending 0 (.sessionExpired 0) ∧
    w.timerPending 0 (.willDelayReached 0) ∧ w.connectedAt 0 = some 0 :=
  ⟨_, _, rfl, .inl (.tail _ (.head _)), .inl (.head _), rfl⟩

/-- **C40, MQTT 3.**  The message of a timer never waits for an MQTT 3 session (its handler would
panic). -/
theorem C40_v5_only {acts : List Act} (hrun : Reaches cfg ext acts w evs) {t : TaskId}
    {s : Session} {c : Control} {τ : Nat} {b : Bool} (hc : w.timerPending s.clientId c)
    (ht : c.timer = some (τ, b)) (ho : w.owned t = some s) :
    ∃ req, w.request t = some req ∧ req.level = .v500 := by
  obtain ⟨x, hx, hs⟩ := owned_stage ho
  have hcl : Tasks.client w.tasks t = some s.clientId := by
    rw [(Tasks.views hx).1]
    cases hst : x.stage <;> rw [hst] at hs <;> simp [Stage.owner?] at hs <;> subst hs <;> rfl
  have := (BrokerInv.run hrun).time.v5 _ _ _ t hc.symm (timer_time ht) hcl
  rw [(Tasks.views hx).2.2.2.2] at this
  refine ⟨x.req, by unfold World.request; rw [hx]; rfl, ?_⟩
  have hp := Option.some.inj this
  cases hl : x.req.level <;> rw [hl] at hp <;> first | rfl | cases hp

example : ∃ w evs s, Reaches {} exExt exStale w evs ∧ w.owned 1 = some s ∧
    w.timerPending s.clientId (.sessionExpired 0) :=
  ⟨_, _, _, rfl, rfl, .inl (.tail _ (.head _))⟩

theorem idle_fire {i : Nat} (hs : w.step cfg ext (.fire i) = some (w, e)) :
    w.timers = w.timers.eraseIdx i := by
  simp only [World.step, World.fire, Option.some.injEq, Prod.mk.injEq] at hs
  split at hs
  · rename_i hn
    rw [List.eraseIdx_of_length_le (List.getElem?_eq_none_iff.mp hn)]
  · have h := congrArg World.timers hs.1
    unfold World.tell at h
    split at h
    · split at h <;> exact h.symm
    · exact h.symm

/-- **C40, firing.**  Firing only passes the message to the queue of the client, and the timer is
gone: nothing else changes and nothing is observed. -/
theorem C40_fire {i : Nat} (hs : w.step cfg ext (.fire i) = some (w', e)) :
    e = [] ∧ w'.registry = w.registry ∧ w'.route = w.route ∧ w'.retain = w.retain ∧
    w'.tasks = w.tasks ∧ w'.inbox = w.inbox ∧ w'.timers = w.timers.eraseIdx i ∧
    ∀ id q, w.control.get id = some q → w'.control.get id = some q ∨
      ∃ tm ∈ w.timers, tm.id = id ∧ w'.control.get id = some (q ++ [tm.msg]) := by
  cases step_cases hs with
  | idle => exact ⟨rfl, rfl, rfl, rfl, rfl, rfl, idle_fire hs, fun _ _ h => .inl h⟩
  | fire i tm ht _ hw =>
    rcases hw with ⟨rfl, _⟩ | ⟨q, hr, hq, rfl⟩
    · exact ⟨rfl, rfl, rfl, rfl, rfl, rfl, rfl, fun _ _ h => .inl h⟩
    · refine ⟨rfl, rfl, rfl, rfl, rfl, rfl, rfl, fun id q' h => ?_⟩
      by_cases hid : tm.id = id
      · subst hid
        rw [hq] at h; cases h
        exact .inr ⟨tm, List.mem_of_getElem? ht, rfl, FMap.get_insert_self _ _ _⟩
      · left
        simp only
        rw [FMap.get_insert, if_neg hid]; exact h

example : ∃ w evs w' e, Reaches {} exExt exStale w evs ∧
    w.step {} exExt (.fire 1) = some (w', e) ∧ w'.nextControl 0 = some (.sessionExpired 0) :=
  ⟨_, _, _, _, rfl, rfl, rfl⟩

theorem willEvents_mem {t u : TaskId} {s s' : Session} {m : Option SendPub} {p : SendPub}
    (h : Event.will t p ∈ willEvents u s s' m) : t = u ∧ m = some p := by
  cases m with
  | none => cases h
  | some m =>
    simp only [willEvents, List.mem_cons, Event.will.injEq, reduceCtorEq, List.not_mem_nil,
      or_false] at h
    exact ⟨h.1, by rw [h.2]⟩

/-- **C40, end of an offline session.**  A session that a task keeps after its connection leaves it
in two ways only: it is handed to a new connection of the same client identifier, or the expiry
timer of that very connection removes it. -/
theorem C40_offline_end {acts : List Act} (hrun : Reaches cfg ext acts w evs) {a : Act}
    (hs : w.step cfg ext a = some (w', e)) {t : TaskId} {s : Session}
    (h : w.offlineSession t = some s) (h' : w'.offlineSession t = none) :
    ∃ env, a = .control t env ∧
      ((∃ u s', w'.owned u = some s' ∧ s'.identifier = s.identifier ∧ w'.stopped t) ∨
       ∃ τ, w.nextControl s.clientId = some (.sessionExpired τ) ∧ w.connectedAt t = some τ ∧
         Event.removed t s.clientId ∈ e) := by
  have hi := (BrokerInv.run hrun).own
  obtain ⟨z, hz, hzs⟩ := offline_stage h
  have key : ∀ {u : TaskId} {y : Task}, w.tasks.get u = some y → y.stage ≠ .offline s → u ≠ t := by
    rintro u y hy hg rfl
    rw [hz] at hy
    cases hy
    exact hg hzs
  have absurdKeep : ∀ {m : Tasks}, FMap.get m t = some z → w'.tasks = m → False := by
    intro m hm ht
    rw [offline_of (x := z) (s := s) (by rw [ht]; exact hm) hzs] at h'
    cases h'
  -- a step of a task in another stage
  have other : ∀ {u : TaskId} {y y' : Task}, w.tasks.get u = some y → y.stage ≠ .offline s →
      w'.tasks = w.tasks.insert u y' → False := fun hy hg ht =>
    absurdKeep (by rw [FMap.get_insert, if_neg (key hy hg)]; exact hz) ht
  have new : ∀ {y' : Task}, w'.tasks = w.tasks.insert w.nextTask y' → False := by
    intro y' ht
    refine absurdKeep ?_ ht
    rw [FMap.get_insert, if_neg]
    · exact hz
    · intro e; rw [← e, (life_new hi).2] at hz; cases hz
  -- a step that keeps the stage
  have keep : ∀ {u : TaskId} {y y' : Task}, w.tasks.get u = some y → (∀ s, y.stage = .offline s →
      ∃ s', y'.stage = .offline s') → w'.tasks = w.tasks.insert u y' → False := by
    intro u y y' hy hk ht
    by_cases hu : u = t
    · subst hu
      rw [hz] at hy; cases hy
      obtain ⟨s', hs'⟩ := hk s hzs
      rw [offline_of (x := y') (s := s') (by rw [ht]; exact FMap.get_insert_self _ _ _) hs'] at h'
      cases h'
    · exact absurdKeep (by rw [FMap.get_insert, if_neg hu]; exact hz) ht
  have setOff : ∀ {st : Stage} (s' : Session), (∀ s, st = .offline s →
      ∃ s'', st.setSession s' = .offline s'') := by
    rintro st s' s rfl; exact ⟨s', rfl⟩
  cases step_cases hs with
  | idle => exact (absurdKeep hz rfl).elim
  | fresh req env r id hadd hw s out hs => exact (new rfl).elim
  | stillborn req env wr r id hadd => exact (new rfl).elim
  | wait req env wr r id q hadd hq => exact (new rfl).elim
  | locked req env wr r id hadd hq => exact (new rfl).elim
  | accept u env y old level hy hst hw s0 present h0 s out hs =>
    exact (other hy (by rw [hst]; simp) rfl).elim
  | refused u env wr y old level hy hst => exact (other hy (by rw [hst]; simp) rfl).elim
  | packet u env after size p y s hy hst hd r hr => exact (other hy (by rw [hst]; simp) rfl).elim
  | normalOn u env y s hy hst hd src m rest hi => exact (other hy (by rw [hst]; simp) rfl).elim
  | normalOff u env y s hy hst hd src m rest hi => exact (keep hy (fun _ _ => ⟨_, rfl⟩) rfl).elim
  | handOn u env y s1 hy hst b x q hq hx =>
    exfalso
    refine absurdKeep ?_ rfl
    have hb := (hi.requester hq hx).1
    rw [FMap.get_insert, if_neg (key hx (by rw [hb]; simp)), FMap.get_insert,
      if_neg (key hy (by rw [hst]; simp))]
    exact hz
  | handOff u env y s1 hy hst hd b x q hq hx msgs inbox hm =>
    have hb := (hi.requester hq hx).1
    by_cases hu : u = t
    · subst hu
      rw [hz] at hy; cases hy
      rw [hzs] at hst; cases hst
      have hne : b ≠ u := key hx (by rw [hb]; simp)
      refine ⟨env, rfl, .inl ⟨b, drainInbox cfg z.req.level.proto env s msgs, ?_, ?_, ⟨{ z with stage := .gone, sinks := [] }, ?_, rfl⟩⟩⟩
      · unfold World.owned
        simp only [FMap.get_insert_self]
      · exact (SameEnd.of_core (core_drain (cfg := cfg) (pr := z.req.level.proto) (env := env) s
          msgs)).name
      · simp only
        rw [FMap.get_insert, if_neg hne, FMap.get_insert_self]
    · exfalso
      refine absurdKeep ?_ rfl
      rw [FMap.get_insert, if_neg (key hx (by rw [hb]; simp)), FMap.get_insert, if_neg hu]
      exact hz
  | deny u env y s1 hy hst pr b x q hq hpr hx =>
    exact (other hx (by rw [(hi.requester hq hx).1]; simp) rfl).elim
  | ignored u env y s hy hst c q hq hc => exact (absurdKeep hz rfl).elim
  | kicked u env y s hy hst q hq => exact (other hy (by rw [hst]; simp) rfl).elim
  | expire u env y s1 hy hst hd time q hq hpr ht s' g m hw r route hrem =>
    by_cases hu : u = t
    · subst hu
      rw [hz] at hy; cases hy
      rw [hzs] at hst; cases hst
      exact ⟨env, rfl, .inr ⟨time, nextControl_of hq, by rw [connectedAt_of hz]; exact ht, by simp⟩⟩
    · exact (absurdKeep (by rw [FMap.get_insert, if_neg hu]; exact hz) rfl).elim
  | lateWill u env y s hy hst hd time q hq hpr ht s' g m hw =>
    exact (keep hy (fun _ _ => ⟨_, rfl⟩) rfl).elim
  | lose u y s hy hst => exact (other hy (by rw [hst]; simp) rfl).elim
  | closeQuiet u env lost y s hy hst hd => exact (other hy (by rw [hst]; simp) rfl).elim
  | closeWill u env lost y s hy hst hd hp s' g m hw => exact (other hy (by rw [hst]; simp) rfl).elim
  | closeDelayed u env lost y s hy hst hd hp => exact (other hy (by rw [hst]; simp) rfl).elim
  | push u d y s hy hst m rest hq hk => exact (keep hy (setOff _) rfl).elim
  | flush u d y hy m q hk hi hl => exact (keep (y' := { y with sinks := y.sinks.erase d }) hy (fun s h => ⟨s, h⟩) rfl).elim
  | giveUp u d y s hy hst hi => exact (keep hy (setOff _) rfl).elim
  | remove u y s hy hst hd r route hrem =>
    refine (other hy ?_ rfl).elim
    rcases hst with ⟨hst, _⟩ | hst <;> rw [hst] <;> simp
  | rest u y s hy hst hd he r hr timers htm => exact (other hy (by rw [hst]; simp) rfl).elim
  | fire i tm ht _ hw => rcases hw with ⟨rfl, _⟩ | ⟨q, _, _, rfl⟩ <;> exact (absurdKeep hz rfl).elim
  | kick id q hr hq => exact (absurdKeep hz rfl).elim

/-- The own expiry timer removes the session; the hand-over of `exStale` ends one too. -/
example : ∃ w evs w' e, Reaches {} exExt (exStale.take 5 ++ [.fire 1]) w evs ∧
    w.step {} exExt (.control 0 {}) = some (w', e) ∧
    (w.offlineSession 0).isSome = true ∧ w'.offlineSession 0 = none :=
  ⟨_, _, _, _, rfl, rfl, rfl, rfl⟩

/-- **C40, wills.**  A will published by a control message is published by a timer of the very
connection it belongs to, after that connection. -/
theorem C40_will {t u : TaskId} {env : Env} {m : SendPub}
    (hs : w.step cfg ext (.control u env) = some (w', e)) (h : Event.will t m ∈ e) :
    u = t ∧ ∃ s c τ b, w.offlineSession t = some s ∧ w.nextControl s.clientId = some c ∧
      c.timer = some (τ, b) ∧ w.connectedAt t = some τ := by
  cases step_cases hs with
  | idle => cases h
  | handOn _ _ y s hy hst b x q hq hx => simp at h
  | handOff _ _ y s1 hy hst hd b x q hq hx msgs inbox hm => simp at h
  | deny _ _ y s1 hy hst pr b x q hq hpr hx => cases h
  | ignored _ _ y s hy hst c q hq hc => cases h
  | kicked _ _ y s hy hst q hq => cases h
  | expire _ _ y s hy hst hd time q hq hpr ht s' g m hw r route hrem =>
    simp only [List.mem_append, List.mem_singleton, reduceCtorEq, or_false] at h
    obtain ⟨rfl, _⟩ := willEvents_mem h
    exact ⟨rfl, s, _, time, true, offline_of hy hst, nextControl_of hq, rfl,
      by rw [connectedAt_of hy]; exact ht⟩
  | lateWill _ _ y s hy hst hd time q hq hpr ht s' g m hw =>
    obtain ⟨rfl, _⟩ := willEvents_mem h
    exact ⟨rfl, s, _, time, false, offline_of hy hst, nextControl_of hq, rfl,
      by rw [connectedAt_of hy]; exact ht⟩

example : ∃ w evs w' e, Reaches {} exExt (exStale.take 5 ++ [.fire 0]) w evs ∧
    w.step {} exExt (.control 0 {}) = some (w', e) ∧
    (willsOf 0 e).map (fun m => (m.topic, m.payload)) = [(str "w", [7])] :=
  ⟨_, _, _, _, rfl, rfl, rfl⟩

/-- **C40, the own timer runs.**  As long as a task keeps an MQTT 5 session, the expiry timer of its
own connection runs or its message waits in the queue: an offline session cannot be forgotten. -/
theorem C40_expiry_runs {acts : List Act} (hrun : Reaches cfg ext acts w evs) {t : TaskId}
    {s : Session} {req : Request} (h : w.offlineSession t = some s) (hreq : w.request t = some req)
    (hv : req.level = .v500) :
    ∃ τ, w.connectedAt t = some τ ∧ w.timerPending s.clientId (.sessionExpired τ) := by
  obtain ⟨x, hx, hst⟩ := offline_stage h
  have hr : x.req = req := by unfold World.request at hreq; rw [hx] at hreq; exact Option.some.inj hreq
  have hp : x.req.level.proto = .v5 := by rw [hr, hv]; rfl
  have hlive := (BrokerInv.run hrun).time.live t (by rw [(Tasks.timeViews hx).2.2, hst]; rfl)
  rw [(Tasks.timeViews hx).1] at hlive
  cases hc : x.connectedAt with
  | none => exact absurd hc hlive
  | some τ =>
    refine ⟨τ, by rw [connectedAt_of hx, hc], ?_⟩
    have := runs_run hrun t x hx (s.clientId, .sessionExpired τ) (by
      unfold Task.due; rw [hst]; simp [hp, hc])
    exact this.symm

example : ∃ w evs s, Reaches {} exExt (exStale.take 5) w evs ∧ w.offlineSession 0 = some s ∧
    w.request 0 = some (exReq .v500 false 100 5) := ⟨_, _, _, rfl, rfl, rfl⟩

end Akasa

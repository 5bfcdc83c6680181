import Verif.Props.Timers
/-!
# C41: when the will is published

The whole broker with any number of connections; `willsOf t evs` are the wills published for the
connection `t` in everything observed so far.
-/
namespace Akasa

variable {cfg : Config} {ext : Ext} {w w' : World} {evs e : List Event}

theorem isWill_message (m : Will) : IsWill m (m.message ext) := ⟨rfl, rfl, rfl, rfl, rfl⟩

/-- **C41, at most once.**  Whatever happens, for a connection nothing is published as will, or
exactly one message: the will given in its CONNECT. -/
theorem C41_at_most_once {acts : List Act} (hrun : Reaches cfg ext acts w evs) (t : TaskId) :
    willsOf t evs = [] ∨
    ∃ req m p, w.request t = some req ∧ req.params.will = some m ∧ willsOf t evs = [p] ∧
      IsWill m p := by
  obtain ⟨h1, h2⟩ := mayWill_run hrun t
  cases hr : w.request t with
  | none => exact .inl (h1 hr).1
  | some req =>
    have h := h2 req hr
    have key : willsOf t evs = req.params.will.toList.map (Will.message ext) →
        willsOf t evs = [] ∨ ∃ req' m p, some req = some req' ∧ req'.params.will = some m ∧
          willsOf t evs = [p] ∧ IsWill m p := by
      intro hw
      cases hm : req.params.will with
      | none => rw [hw, hm]; exact .inl rfl
      | some m =>
        right
        refine ⟨req, m, m.message ext, rfl, hm, ?_, isWill_message m⟩
        rw [hw, hm]; rfl
    unfold MayWill at h
    split at h
    · exact .inl h.1
    · exact .inl h.1
    · rcases h.2.1 with h | h
      · exact .inl h
      · exact key h.1
    · rcases h with h | h
      · exact .inl h
      · exact key h

/-- The delayed will is published once and not again when the session expires. -/
example : ∃ w evs, Reaches {} exExt
    (exStale.take 5 ++ [.fire 0, .control 0 {}, .fire 0, .control 0 {}]) w evs ∧
    (willsOf 0 evs).map (·.payload) = [[7]] ∧ (w.offlineSession 0).isNone = true :=
  ⟨_, _, rfl, rfl, rfl⟩

theorem life_online {t : TaskId} {s : Session} (h : w.onlineSession t = some s) :
    Tasks.life w.tasks t = .conn .online s.ending := by
  obtain ⟨x, hx, hst⟩ := online_stage h
  rw [Tasks.life_eq hx, hst]; rfl

/-- **C41, never after a normal DISCONNECT.**  If an established connection reads a DISCONNECT that is within the maximum packet size and is normal (MQTT 3, or MQTT 5 with reason code
0 that does not try to set an expiry interval where CONNECT had 0), then its will was not published
before, and is not published then or ever after. -/
theorem C41_never_after_disconnect {acts acts' : List Act} (hrun : Reaches cfg ext acts w evs)
    {t : TaskId} {s : Session} {req : Request} {env : Env} {after : Clock} {size : Nat} {c : Reason}
    {i : Option Nat} (hon : w.onlineSession t = some s)
    (hreq : w.request t = some req) (hsize : size ≤ cfg.maxPacketSizeServer)
    (hc : req.level.proto = .v3 ∨
      c = .success ∧ ¬(s.expiryInterval = 0 ∧ ∃ v, i = some v ∧ 0 < v))
    (hs : w.step cfg ext (.packet t env after size (.disconnect c i)) = some (w', e))
    (hrec : .received t (.disconnect c i) ∈ e)
    {w2 : World} {e2 : List Event} (hlater : World.run cfg ext w' acts' = some (w2, e2)) :
    willsOf t (evs ++ e ++ e2) = [] := by
  have hi := BrokerInv.run hrun
  have hbefore : willsOf t evs = [] := by
    have h := (mayWill_run hrun t).2 req hreq
    rw [life_online hon] at h
    exact h.2.1.resolve_right fun h => h.2.2.1 rfl
  obtain ⟨x, hx, hst⟩ := online_stage hon
  have hr : x.req = req := by
    unfold World.request at hreq; rw [hx] at hreq; exact Option.some.inj hreq
  subst hr
  obtain ⟨hd, hroom⟩ := received_reads hx hst hs hrec
  have hroom' : ¬ bcastMax ≤ s.bcastCnt := by omega
  have hhush : Hushed (Tasks.life w'.tasks t) ∧ willsOf t e = [] := by
    have key : ∀ r, onPacket cfg ext x.req.level.proto env after w.global s size
        (.disconnect c i) = some r → r.session.will = none := by
      intro r hr
      obtain ⟨r0, h0, hcore, -⟩ := onPacket_handled hr
      have h2 := SameEnd.of_core hcore
      rw [h2.will]
      have hn : ¬ cfg.maxPacketSizeServer < size := by omega
      cases hp : x.req.level.proto with
      | v3 =>
        rw [hp] at h0
        simp only [handlePacket, handlePacketV3] at h0
        split at h0
        · exact absurd ‹cfg.maxPacketSizeServer < size› hn
        · cases h0; rfl
      | v5 =>
        rw [hp] at h0 hc
        obtain ⟨rfl, hne⟩ := hc.resolve_left (by simp)
        simp only [handlePacket, handlePacketV5] at h0
        split at h0
        · exact absurd ‹cfg.maxPacketSizeServer < size› hn
        · cases h0
          unfold handleDisconnectV5
          split
          · split
            · rename_i v hv
              exact absurd ⟨hv.1, v, rfl, hv.2⟩ hne
            · rfl
          · rfl
    cases hp : onPacket cfg ext x.req.level.proto env after w.global s size (.disconnect c i) with
    | none =>
      simp [World.step, World.packet, hx, hst, hd, hp, hroom'] at hs
    | some r =>
      simp only [World.step, World.packet, hx, hst, hd, hp] at hs
      simp only [Bool.false_or, decide_eq_true_eq, hroom', if_false, Option.some.injEq, Prod.mk.injEq] at hs
      obtain ⟨rfl, rfl⟩ := hs
      refine ⟨?_, rfl⟩
      simp only [World.setTask]
      rw [Tasks.life_insert, if_pos rfl]
      have := key r hp
      split <;> exact this
  rw [willsOf_append, willsOf_append, hbefore, hhush.2, hushed_run (hi.step hs) hhush.1 hlater]
  rfl

/-- The client disconnects normally. -/
example (level : Level) : ∃ w evs s w' e, Reaches {} exExt [.connect (exReq level false 100 5) {} true] w evs ∧
    w.onlineSession 0 = some s ∧ s.will.isSome = true ∧
    w.step {} exExt (.packet 0 {} (Clock.const 0) 2 (.disconnect .success none)) = some (w', e) ∧
    .received 0 (.disconnect .success none) ∈ e := by
  cases level <;> exact ⟨_, _, _, _, _, rfl, rfl, rfl, rfl, List.mem_cons_self⟩

/-- **C41, published.**  If no DISCONNECT was received on a connection (it ended by a network error,
a keep-alive timeout, a protocol error…) and its session is removed, at once or later, then its will
was published, exactly once. -/
theorem C41_published {acts : List Act} (hrun : Reaches cfg ext acts w evs) {t : TaskId}
    {req : Request} {m : Will} (hreq : w.request t = some req) (hm : req.params.will = some m)
    (hnd : ∀ a ∈ acts, a.disconnects t = false) (hrem : evs.any (·.removes t) = true) :
    ∃ p, willsOf t evs = [p] ∧ IsWill m p := by
  have hn : ∀ a ∈ acts, a.disconnectsNormally req.level.proto t = false := by
    intro a ha
    have := hnd a ha
    unfold Act.disconnects at this
    unfold Act.disconnectsNormally
    split <;> simp_all
  have h := mustWill_run (nd := true) hm hrun hreq hn (fun _ => hnd)
  rw [hrem] at h
  refine ⟨m.message ext, ?_, isWill_message m⟩
  unfold MustWill at h
  split at h
  · cases h.2
  · cases h.2
  · have h2 := h.2
    split at h2
    · cases h2.2.2
    · cases h2.2.2
    · cases h2.1
    · cases h2.1
    · exact h2
  · exact h rfl rfl

/-- The keep-alive timer kicks the client, later its session expires. -/
example : ∃ w evs, Reaches {} exExt
    [.connect (exReq .v500 false 100 200) {} true, .kick 0, .control 0 {}, .close 0 {} [], .finish 0,
     .fire 0, .control 0 {}] w evs ∧ evs.any (·.removes 0) = true :=
  ⟨_, _, rfl, rfl⟩

/-- **C41, at once.**  If no DISCONNECT was received on a connection that is lost, and it is an
MQTT 3 connection, or the will has no delay, or the session ends with the connection, then the will
is published in the very next step of the connection's task. -/
theorem C41_at_once {acts : List Act} (hrun : Reaches cfg ext acts w evs) {t : TaskId}
    {req : Request} {m : Will} (hreq : w.request t = some req) (hm : req.params.will = some m)
    (hnd : ∀ a ∈ acts, a.disconnects t = false) (hlost : w.lost t)
    (hp : req.level.proto = .v3 ∨ m.delay.getD 0 = 0 ∨ req.params.expiryInterval = 0)
    {env : Env} {lost : List ClientId} (hs : w.step cfg ext (.close t env lost) = some (w', e)) :
    ∃ p, willsOf t evs = [] ∧ willsOf t e = [p] ∧ IsWill m p := by
  have hn : ∀ a ∈ acts, a.disconnectsNormally req.level.proto t = false := by
    intro a ha
    have := hnd a ha
    unfold Act.disconnects at this
    unfold Act.disconnectsNormally
    split <;> simp_all
  have h := mustWill_run (nd := true) hm hrun hreq hn (fun _ => hnd)
  obtain ⟨x, s, hx, hst⟩ := hlost
  have hr : x.req = req := by
    unfold World.request at hreq; rw [hx] at hreq; exact Option.some.inj hreq
  subst hr
  rw [Tasks.life_eq hx, hst] at h
  simp only [Stage.life, MustWill] at h
  obtain ⟨h1, h2, h3, _⟩ := h
  obtain ⟨h1, h4⟩ := h1 trivial
  simp only [Session.ending] at h1 h2 h4
  refine ⟨m.message ext, h3, ?_, isWill_message m⟩
  have hplan : willPlan x.req.level.proto s = .now := by
    unfold willPlan
    split
    · rfl
    · rename_i hv
      rw [h2]
      simp only
      rw [if_pos]
      rw [hv] at hp
      rw [h4]
      exact hp.resolve_left (by simp)
  simp only [World.step, World.close, hx, hst, h1, hplan] at hs
  cases hsw : sendWill ext x.req.level.proto env w.global s with
  | none => rw [hsw] at hs; cases hs
  | some r =>
    obtain ⟨s', g, m'⟩ := r
    rw [hsw] at hs
    simp only [Bool.false_eq_true, if_false, Option.some.injEq, Prod.mk.injEq] at hs
    obtain ⟨_, rfl⟩ := hs
    have hw := (will_sent hsw).msg
    rw [h2] at hw
    subst hw
    simp [willsOf, willEvents]

example (level : Level) : ∃ w evs w' e, Reaches {} exExt
    [.connect (exReq level false 100 0) {} true, .lose 0] w evs ∧ w.lost 0 ∧
    w.step {} exExt (.close 0 {} []) = some (w', e) ∧ (willsOf 0 e).map (·.topic) = [str "w"] := by
  cases level <;> exact ⟨_, _, _, _, rfl, ⟨_, _, rfl, rfl⟩, rfl, rfl⟩

/-- **C41, later (MQTT 5).**  No normal DISCONNECT was received on a connection, it is over and its
session is kept.  Then its will was published exactly once, or it was not published yet and the next
message of the timers of this connection (expiry of the session or will delay) that is handled
publishes it. -/
theorem C41_later {acts : List Act} (hrun : Reaches cfg ext acts w evs) {t : TaskId}
    {req : Request} {m : Will} (hreq : w.request t = some req) (hm : req.params.will = some m)
    (hn : ∀ a ∈ acts, a.disconnectsNormally req.level.proto t = false) {s : Session}
    (hoff : w.offlineSession t = some s) :
    (∃ p, willsOf t evs = [p] ∧ IsWill m p) ∨
    (willsOf t evs = [] ∧ ∀ c τ b env w' e, w.nextControl s.clientId = some c →
      c.timer = some (τ, b) → w.connectedAt t = some τ →
      w.step cfg ext (.control t env) = some (w', e) →
      w' = w ∨ ∃ p, willsOf t e = [p] ∧ IsWill m p) := by
  have h := mustWill_run (nd := false) hm hrun hreq hn (by simp)
  obtain ⟨x, hx, hst⟩ := offline_stage hoff
  rw [Tasks.life_eq hx, hst] at h
  simp only [Stage.life, MustWill] at h
  obtain ⟨_, _, h | ⟨h1, h2⟩⟩ := h
  · exact .inl ⟨_, h.2, isWill_message m⟩
  · right
    refine ⟨h2, fun c τ b env w' e hc ht hat hs => ?_⟩
    simp only [Session.ending] at h1
    rw [connectedAt_of hx] at hat
    have hpr : x.req.level.proto = .v5 := by
      have := (BrokerInv.run hrun).time.v5 _ _ _ t (.inl ⟨_, (nextControl_some hc).choose_spec,
        List.mem_cons_self⟩) (timer_time ht) (by rw [(Tasks.views hx).1, hst]; rfl)
      rw [(Tasks.views hx).2.2.2.2] at this
      exact Option.some.inj this
    obtain ⟨q, hq⟩ := nextControl_some hc
    have wevs : ∀ (s' : Session) (m' : Option SendPub) (l : List Event),
        m' = s.will.map (Will.message ext) → willsOf t l = [] →
        willsOf t (willEvents t s s' m' ++ l) = [m.message ext] := by
      intro s' m' l hm' hl
      rw [h1] at hm'
      subst hm'
      rw [willsOf_append, hl]
      simp [willsOf, willEvents]
    simp only [World.step, World.handleControl, hx, hst] at hs
    cases hid : x.idle s with
    | false => rw [hid] at hs; cases hs; exact .inl rfl
    | true =>
      right
      refine ⟨m.message ext, ?_, isWill_message m⟩
      rw [hid, if_pos rfl] at hs
      simp only [World.onControl, hq, hpr] at hs
      cases c with
      | online pr b => cases ht
      | kick => cases ht
      | sessionExpired time =>
        simp only [Control.timer, Option.some.injEq, Prod.mk.injEq] at ht
        obtain ⟨rfl, _⟩ := ht
        simp only [hat, Bool.true_and, decide_true, if_true] at hs
        split at hs
        · cases hs
        · rename_i s' g m' hsw
          split at hs
          · cases hs
          · cases hs
            exact wevs _ _ _ (will_sent hsw).msg rfl
      | willDelayReached time =>
        simp only [Control.timer, Option.some.injEq, Prod.mk.injEq] at ht
        obtain ⟨rfl, _⟩ := ht
        simp only [hat, Bool.true_and, decide_true, if_true] at hs
        split at hs
        · cases hs
        · rename_i s' g m' hsw
          cases hs
          have := wevs s' m' [] (will_sent hsw).msg rfl
          rwa [List.append_nil] at this

/-- "Disconnect with will" and an expiry interval: the will is published when the session expires. -/
example : ∃ w evs w' e s, Reaches {} exExt
    [.connect (exReq .v500 false 100 5) {} true,
     .packet 0 {} (Clock.const 0) 2 (.disconnect (.other 4) none),
     .lose 0, .close 0 {} [], .finish 0, .fire 0] w evs ∧ w.offlineSession 0 = some s ∧
    w.nextControl s.clientId = some (.sessionExpired 0) ∧ w.connectedAt 0 = some 0 ∧
    w.step {} exExt (.control 0 {}) = some (w', e) ∧ (willsOf 0 e).map (·.topic) = [str "w"] :=
  ⟨_, _, _, _, _, rfl, rfl, rfl, rfl, rfl, rfl⟩

/-- **C41, the delay runs (MQTT 5).**  No DISCONNECT was received on a connection, it is over and its
session is kept; the will has a delay shorter than the expiry interval.  Then its will was published,
or its delay timer runs or waits in the queue. -/
theorem C41_delay_runs {acts : List Act} (hrun : Reaches cfg ext acts w evs) {t : TaskId}
    {req : Request} {m : Will} (hreq : w.request t = some req) (hm : req.params.will = some m)
    (hnd : ∀ a ∈ acts, a.disconnects t = false) (hv : req.level = .v500) {d : Nat}
    (hd : m.delay = some d) (h0 : 0 < d) (hlt : d < req.params.expiryInterval) {s : Session}
    (hoff : w.offlineSession t = some s) :
    (∃ p, willsOf t evs = [p] ∧ IsWill m p) ∨
    ∃ τ, w.connectedAt t = some τ ∧ w.timerPending s.clientId (.willDelayReached τ) := by
  have hn : ∀ a ∈ acts, a.disconnectsNormally req.level.proto t = false := by
    intro a ha
    have := hnd a ha
    unfold Act.disconnects at this
    unfold Act.disconnectsNormally
    split <;> simp_all
  have h := mustWill_run (nd := true) hm hrun hreq hn (fun _ => hnd)
  obtain ⟨x, hx, hst⟩ := offline_stage hoff
  rw [Tasks.life_eq hx, hst] at h
  simp only [Stage.life, MustWill] at h
  obtain ⟨h1, _, h | ⟨h2, h3⟩⟩ := h
  · exact .inl ⟨_, h.2, isWill_message m⟩
  · right
    obtain ⟨h4, h5⟩ := h1 trivial
    have hr : x.req = req := by
      unfold World.request at hreq; rw [hx] at hreq; exact Option.some.inj hreq
    subst hr
    have hp : x.req.level.proto = .v5 := by rw [hv]; rfl
    have hlive := (BrokerInv.run hrun).time.live t (by rw [(Tasks.timeViews hx).2.2, hst]; rfl)
    rw [(Tasks.timeViews hx).1] at hlive
    cases hc : x.connectedAt with
    | none => exact absurd hc hlive
    | some τ =>
      refine ⟨τ, by rw [connectedAt_of hx, hc], ?_⟩
      have := runs_run hrun t x hx (s.clientId, .willDelayReached τ) (by
        have hplan : planOf x.req.level.proto s.ending = .delayed := by
          unfold planOf
          rw [hp]
          simp only [h2, hd, h5, Option.getD_some]
          rw [if_neg (by omega), if_pos hlt]
        unfold Task.due Task.willDue
        rw [hst]
        have h4' : s.clientDisconnected = false := h4
        simp [if_pos (And.intro h4' hplan), hc, hplan, h4'])
      exact this.symm

example : ∃ w evs s, Reaches {} exExt (exStale.take 5) w evs ∧ w.offlineSession 0 = some s ∧
    willsOf 0 evs = [] := ⟨_, _, _, rfl, rfl, rfl⟩

/-- MQTT 5 asks for the will after a DISCONNECT with reason code 4; if the session ends with the
connection the code never publishes it. -/
theorem C41_with_will_false : ∃ w evs, Reaches {} exExt
    [.connect (exReq .v500 false 0 0) {} true,
     .packet 0 {} (Clock.const 0) 2 (.disconnect (.other 4) none),
     .lose 0, .close 0 {} [], .finish 0] w evs ∧
    evs.any (·.removes 0) = true ∧ w.stopped 0 ∧ willsOf 0 evs = [] :=
  ⟨_, _, rfl, rfl, ⟨_, rfl, rfl⟩, rfl⟩

/-- When a connection is taken over by a new one of the same client that asks for a clean session
(and so ends the old session), the will of the old connection is never published. -/
theorem C41_takeover_false (level : Level) : ∃ w evs, Reaches {} exExt
    [.connect (exReq level false 100 0) {} true, .connect (exReq level true 100 0) {} true,
     .control 0 {}, .accept 1 {} true] w evs ∧
    w.stopped 0 ∧ willsOf 0 evs = [] := by
  cases level <;> exact ⟨_, _, rfl, ⟨_, rfl, rfl⟩, rfl⟩

end Akasa

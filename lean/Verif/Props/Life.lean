import Verif.Proof.LifeUse
import Verif.Props.EndToEnd
/-!
# C68: every session of the broker lives as if it were alone

The properties of a session that is alone (C09, C10, C13, C19, C20, C21, C57 and others, over all
runs of `Model/Online.lean`) say something about the broker only if the sessions of the broker
behave like that, whatever the other clients do.  They do.
-/
namespace Akasa

variable {cfg : Config} {ext : Ext} {w w' : World} {evs e : List Event}

/-- **C68.**  In every reachable state of the broker: what was seen on all the connections with a
client identifier, since the last time one of them was accepted with a new session, is a run of that
session alone, and the session is now what that run makes it (but for the will of a connection that
is over). -/
theorem C68_alone {acts : List Act} (hrun : Reaches cfg ext acts w evs) {t : TaskId} {s : Session}
    {req : Request} (ho : w.owned t = some s) (hreq : w.request t = some req) :
    ∃ p, Lives cfg ext req.level.proto (lifeOf w req.identifier evs) p ∧
      { p.session with will := s.will } = s ∧
      (w.onlineSession t = some s → p = { session := s }) := by
  obtain ⟨x, hx, hs⟩ := owned_stage ho
  unfold World.request at hreq
  rw [hx] at hreq
  cases hreq
  obtain ⟨chain, p, h1, h2, h3, _, h4⟩ := (LifeInv.run hrun).life t x s hx hs
  refine ⟨p, by rw [lifeOf_chain h1.lives h4]; exact h1.lives, ?_, fun hon => ?_⟩
  · cases hst : x.stage <;> rw [hst] at h2 hs <;> cases hs
    · exact h2
    · subst h2; rfl
    · exact h2.2
    · exact h2.2
    · exact h2.2
  · unfold World.onlineSession at hon
    rw [hx] at hon
    simp only at hon
    cases hst : x.stage <;> rw [hst] at h2 hon <;> cases hon
    exact h2

/-- The session has been taken over: two connections, one life. -/
example : ∃ w evs s req, Reaches {} exExt (exTwice .v500 ++ [.control 0 {}, .accept 1 {} true]) w evs ∧
    w.owned 1 = some s ∧ w.request 1 = some req ∧ w.onlineSession 1 = some s ∧
    (lifeOf w req.identifier evs).length = 4 :=
  ⟨_, _, _, _, rfl, rfl, rfl, rfl, rfl⟩

/-- With clean start the life begins anew. -/
example : ∃ w evs s req, Reaches {} exExt ((exTwice .v500).dropLast ++
      [.connect (exReq .v500 true 100 5) {} true, .control 0 {}, .accept 1 {} true]) w evs ∧
    w.owned 1 = some s ∧ w.request 1 = some req ∧
    (lifeOf w req.identifier evs).length = 1 ∧
    (obsOf (w.under req.identifier) evs).length = 4 :=
  ⟨_, _, _, _, rfl, rfl, rfl, rfl, rfl⟩

/-- **C68** with C09: no session of the broker ever holds more messages for its client than
`max_in_mem_pending_messages`. -/
theorem C68_queue_bounded {acts : List Act} (hrun : Reaches cfg ext acts w evs) {t : TaskId}
    {s : Session} (ho : w.owned t = some s) :
    s.sender.pending.packets.length ≤ cfg.maxInMemPending := by
  obtain ⟨x, hx, hs⟩ := owned_stage ho
  obtain ⟨p, ⟨i, id, c, sevs, recs, h1, _, rfl⟩, h3, _⟩ :=
    C68_alone hrun ho (req := x.req) (by unfold World.request; rw [hx]; rfl)
  have : s.sender = (endOf { session := Session.start cfg x.req.level.proto i id c } recs).session.sender := by
    rw [← h3]
  rw [this]
  rcases List.eq_nil_or_concat recs with rfl | ⟨l, r, rfl⟩
  · show (Session.start cfg x.req.level.proto i id c).sender.pending.packets.length ≤ _
    rw [start_sender]
    exact Nat.zero_le _
  · rw [List.concat_eq_append] at h1 ⊢
    rw [endOf_snoc]
    exact C57_bounded h1 (by simp)

/-- **C68** with C19: no MQTT 5 session of the broker ever holds more unreleased QoS 2 packet
identifiers than the announced receive maximum. -/
theorem C68_qos2_bounded {acts : List Act} (hrun : Reaches cfg ext acts w evs) {t : TaskId}
    {s : Session} {req : Request} (ho : w.owned t = some s) (hreq : w.request t = some req)
    (hl : req.level.proto = .v5) : s.qos2.length ≤ cfg.maxInflightServer := by
  obtain ⟨p, ⟨i, id, c, sevs, recs, h1, _, rfl⟩, h3, _⟩ := C68_alone hrun ho hreq
  rw [hl] at h1 h3
  have : s.qos2 = (endOf { session := Session.start cfg .v5 i id c } recs).session.qos2 := by
    rw [← h3]
  rw [this]
  exact unreleased_le (start_qos2 ..) (isRun_of_run h1)

/-- A client that has sent a QoS 2 PUBLISH twice and has another for it in its inbox. -/
def exAgain : List Act :=
  exThird ++ [.packet 3 {} (Clock.const 0) 10 (.publish
      { dup := false, retain := false, qosPid := .level2 7, topic := str "a", payload := [1] }),
    .packet 3 {} (Clock.const 0) 10 (.publish
      { dup := true, retain := false, qosPid := .level2 7, topic := str "a", payload := [1] }),
    .push 3 0, .flush 3 0, .normal 0 {}]

example : ∃ w evs s req, Reaches {} exExt exAgain w evs ∧ w.owned 3 = some s ∧
    w.request 3 = some req ∧ req.level.proto = .v5 ∧ s.qos2.keys = [7] ∧
    sinceReleased 7 (lifeOf w req.identifier evs) ≠ [] ∧
    ∃ s', w.owned 0 = some s' ∧ s'.sender.pending.packets.length = 1 :=
  ⟨_, _, _, _, rfl, rfl, rfl, rfl, rfl, by decide, _, rfl, rfl⟩

/-- **C68** with C19: in the whole broker, whatever the other clients do, at most one message is
passed on for all PUBLISH packets with QoS 2 and one packet identifier that a client sends until it
sends PUBREL with that identifier, even if it reconnects in between. -/
theorem C68_qos2_once {acts : List Act} (hrun : Reaches cfg ext acts w evs) {t : TaskId}
    {s : Session} {req : Request} (ho : w.owned t = some s) (hreq : w.request t = some req) :
    ∀ pid, (sinceReleased pid (lifeOf w req.identifier evs)).length ≤ 1 := by
  obtain ⟨p, ⟨i, id, c, sevs, recs, h1, h2, _⟩, _⟩ := C68_alone hrun ho hreq
  intro pid
  rw [h2]
  unfold sinceReleased
  rw [List.foldl_cons]
  refine sinceReleased_run (isRun_of_run h1) pid ?_
  simp [Obs.qos2]

/-- **C68** with C10, MQTT 3: at every moment every client of the broker has at most
`max_inflight_client` PUBLISH packets of its present connection to acknowledge. -/
theorem C68_window_v3 {acts : List Act} (hrun : Reaches cfg ext acts w evs) {t : TaskId}
    {s : Session} {req : Request} (ho : w.owned t = some s) (hreq : w.request t = some req)
    (hl : req.level.proto = .v3) :
    (unansweredIn (lifeOf w req.identifier evs)).length ≤ cfg.maxInflightClient := by
  obtain ⟨p, ⟨i, id, c, sevs, recs, h1, h2, _⟩, _⟩ := C68_alone hrun ho hreq
  rw [hl] at h1
  rw [h2, unansweredIn_recs]
  exact C57_window_v3 h1 (B := []) (by simp)

/-- An MQTT 3 client with a message of another client that it has not acknowledged. -/
def exOld : List Act :=
  [.connect (exReq .v311 false 100 5) {} true,
   .packet 0 {} (Clock.const 0) 10 (.subscribe 1 [(str "a", { maxQos := 1 })] none),
   .connect { level := .v500, identifier := str "d", clean := true } {} true,
   .packet 1 {} (Clock.const 0) 10 (.publish
    { dup := false, retain := false, qosPid := .level2 7, topic := str "a", payload := [1] }),
   .push 1 0, .flush 1 0, .normal 0 { clk := fun _ => Clock.const 100 }]

example : ∃ w evs s req, Reaches {} exExt exOld w evs ∧ w.owned 0 = some s ∧
    w.request 0 = some req ∧ req.level.proto = .v3 ∧
    unansweredIn (lifeOf w req.identifier evs) = [1] ∧
    ((sentIn (lifeOf w req.identifier evs)).filter OutPkt.isFirst).length = 1 ∧
    (queuedFor 1 s.clientId evs).length = 1 :=
  ⟨_, _, _, _, rfl, rfl, rfl, rfl, by decide +kernel, by decide +kernel, rfl⟩

/-- **C68** with C13, C56 and C57, MQTT 3, end to end: the PUBLISH packets with QoS 1 and 2 and DUP 0
that a client gets during the life of its session, over all its connections, are retained messages
(marked as such) and messages of other tasks.  The latter have topic, payload and retain flag of a
copy that was queued for this client when the message was published, and the smaller of the
published and the granted QoS.  The messages of one sender come in the order in which they were
queued, and each copy at most once. -/
theorem C68_order_v3 {acts : List Act} (hrun : Reaches cfg ext acts w evs) {t : TaskId}
    {s : Session} {req : Request} (ho : w.owned t = some s) (hreq : w.request t = some req)
    (hl : req.level.proto = .v3) :
    ∃ src, Along ComesFrom src ((sentIn (lifeOf w req.identifier evs)).filter OutPkt.isFirst) ∧
      ∀ u, (copiesOf u src).Sublist (queuedFor u s.clientId evs) := by
  obtain ⟨x, hx, hs⟩ := owned_stage ho
  unfold World.request at hreq
  rw [hx] at hreq
  cases hreq
  obtain ⟨chain, p, h1, h2, h3, h4, h8⟩ := (LifeInv.run hrun).life t x s hx hs
  replace h1 := h1.lives
  have hl' : x.req.level.proto = .v3 := hl
  rw [hl'] at h1
  obtain ⟨src, h5, h6⟩ := lives_order h1 h4
  have hlife : lifeOf w x.req.identifier evs = obsOf chain evs := lifeOf_chain h1 h8
  refine ⟨src, by rw [hlife]; exact h5, fun u => ?_⟩
  have h7 := C56_order hrun u s.clientId
  rw [List.append_assoc] at h7
  exact (h6 u).trans ((List.sublist_append_left _ _).trans h7)

end Akasa

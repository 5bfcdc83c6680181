import Verif.Proof.OnceEnd
import Verif.Props.Talk
/-!
# Messages reach a client that follows the protocol in order and once (C101)
-/
namespace Akasa

variable {cfg : Config} {ext : Ext} {pr : Proto} {w : World} {evs : List Event}

/-- **C101**, partial: whatever the network delays or loses with a connection, a client that follows
the protocol passes messages with QoS 1 and 2 on (leaving out the repetitions of messages with QoS 1)
in the order in which they became due to it, none twice and none that was not due to it; a message
with QoS 2 is never passed on a second time.  As long as at most 65535 such messages have become due.
Missing: more messages, where the packet identifiers are used again, see `C101_false`. -/
theorem C101_at_most_once_partial {i : Str} {id : ClientId} {c : ConnParams}
    {sevs : List (Env × Global × SessEv)} {recs : List Rec}
    (hrun : ({ session := Session.start cfg pr i id c } : Peer).run cfg ext pr sevs = some recs)
    (hfew : ((recs.flatMap (Rec.messages cfg pr)).filter fun p => decide (p.qos ≠ 0)).length ≤ 65535)
    {r : Receiver} (hr : Receiver.Moves {} (seenOf c recs) r) :
    (∃ ms, ms.Sublist ((recs.flatMap (Rec.messages cfg pr)).filter fun p => decide (p.qos ≠ 0)) ∧
      Along (fun p w => Gives pr p (.publish w)) ms (firstsOf r.got)) ∧
    twosOf (firstsOf r.got) = twosOf r.got := by
  rw [← due_all] at hfew ⊢
  have h := once_run (isRun_of_run hrun) (keep := false) (by rw [start_sender]; rfl)
    (by rw [List.length_nil, Nat.zero_add]; exact hfew) (fun h => by cases h) (fun h => by cases h)
    (once_start cfg pr i id c false) (moves_start hr)
  obtain ⟨ms, k1, k2, k3, _⟩ := h.weak.result
  exact ⟨⟨ms, k1, k2⟩, k3⟩

/-- **C101**, partial: if in addition no message for the client expires, its queue has room for the
messages that become due in each step, and the client is connected and has nothing more to get or to
answer, then it has passed on all of them: each message with QoS 2 once, each with QoS 1 at least
once, in order.  Missing: more than 65535 messages. -/
theorem C101_exactly_once_partial {i : Str} {id : ClientId} {c : ConnParams}
    {sevs : List (Env × Global × SessEv)} {recs : List Rec}
    (hrun : ({ session := Session.start cfg pr i id c } : Peer).run cfg ext pr sevs = some recs)
    (hfew : ((recs.flatMap (Rec.messages cfg pr)).filter fun p => decide (p.qos ≠ 0)).length ≤ 65535)
    (hlate : ∀ e ∈ sevs, lateEv cfg.inflightTimeout e)
    (hexp : ∀ r ∈ recs, ∀ p ∈ r.messages cfg pr, expiryOf pr p = none)
    (hroom : ∀ r ∈ recs, r.pre.session.sender.pending.packets.length + (r.messages cfg pr).length ≤
      cfg.maxInMemPending)
    {p : Peer} (hp : p = endOf { session := Session.start cfg pr i id c } recs)
    (hon : p.online = true) (hd : p.session.disconnected = false)
    {c' : ConnParams} (hc : connIn (seenOf c recs) = some c') (hwin : 1 ≤ windowOf cfg pr c')
    {r : Receiver} (hr : Receiver.Moves {} (seenOf c recs) r) (hdown : r.down = []) (hup : r.up = []) :
    Along (fun p w => Gives pr p (.publish w))
      ((recs.flatMap (Rec.messages cfg pr)).filter fun p => decide (p.qos ≠ 0)) (firstsOf r.got) ∧
    twosOf (firstsOf r.got) = twosOf r.got := by
  have hir := isRun_of_run hrun
  have hl : ∀ r ∈ recs, lateEv cfg.inflightTimeout (r.env, r.before, r.ev) := fun r hr =>
    hlate _ (by rw [← rec_event hrun]; exact List.mem_map.2 ⟨r, hr, rfl⟩)
  obtain ⟨S, _, k2, _⟩ := keep_run hir hl hexp (by rw [start_sender]; rfl) hroom
    (rest_start cfg pr i id c)
  have hw := window_end hir
  rw [← hp] at k2 hw
  have ha := k2.held hon hd
  have hz : (recs.flatMap Rec.obs).foldl Obs.owed [] = [] := by
    have := moves_owed (moves_start hr) (l := []) (.refl _)
    unfold Receiver.owed at this
    rw [hdown, hup] at this
    exact this.eq_nil
  unfold seenOf at hc
  rw [connIn_recs] at hc
  cases hc
  rw [hz] at ha
  have hempty := ha.nil (by rw [hw]; exact hwin)
  rw [← due_all] at hfew ⊢
  have h := once_run hir (keep := true) (by rw [start_sender]; rfl)
    (by rw [List.length_nil, Nat.zero_add]; exact hfew) (fun _ => hexp) (fun _ => hroom)
    (once_start cfg pr i id c true) (moves_start hr)
  rw [← hp] at h
  obtain ⟨ms, _, j2, j3, j4⟩ := h.weak.result
  have he := j4 rfl hempty
  rw [List.nil_append] at he
  rw [← he]
  exact ⟨j2, j3⟩

/-! ## An example -/

/-- All packets that are on their way arrive. -/
def Receiver.drain (r : Receiver) : Receiver := r.down.foldl Receiver.arrive { r with down := [] }

/-- A client and a network where everything arrives before the broker reads an answer, and what the
broker has sent since then is lost with the connection. -/
def Receiver.follow (r : Receiver) : List Obs → Option Receiver
  | [] => some r.drain
  | .received p :: obs => (r.drain.sees (.received p)).bind fun r => r.follow obs
  | o :: obs => (r.sees o).bind fun r => r.follow obs

theorem drain_moves {r r' : Receiver} {obs : List Obs} (h : Receiver.Moves r.drain obs r') :
    Receiver.Moves r obs r' := by
  unfold Receiver.drain at h
  generalize hd : r.down = l at h
  induction l generalizing r with
  | nil =>
    have he : ({ r with down := [] } : Receiver) = r := by rw [← hd]
    rw [List.foldl_nil, he] at h
    exact h
  | cons o l ih =>
    refine .arrive hd ?_
    have h1 : (Receiver.arrive { r with down := l } o).down = l := by rw [arrive_down]
    refine ih h1 ?_
    rw [arrive_down]
    rw [List.foldl_cons, arrive_down] at h
    exact h

theorem follow_moves {r r' : Receiver} {obs : List Obs} (h : r.follow obs = some r') :
    Receiver.Moves r obs r' := by
  induction obs generalizing r with
  | nil => cases h; exact drain_moves (.done _)
  | cons o obs ih =>
    cases o with
    | received p =>
      simp only [Receiver.follow, Option.bind_eq_some_iff] at h
      obtain ⟨r1, h1, h2⟩ := h
      exact drain_moves (.see h1 (ih h2))
    | _ =>
      simp only [Receiver.follow, Option.bind_eq_some_iff] at h
      obtain ⟨r1, h1, h2⟩ := h
      exact .see h1 (ih h2)

/-- The events of `exDeliverEvs`, where the connection is lost with a PUBREC on its way, and then the
client answers the rest. -/
def exOnceEvs : List (Env × Global × SessEv) :=
  exDeliverEvs ++ [exAt (.packet (Clock.const 100) 4 (.pubrec 2)),
    exAt (.packet (Clock.const 100) 4 (.puback 3)), exAt (.packet (Clock.const 100) 4 (.pubcomp 2)),
    exAt (.packet (Clock.const 100) 4 (.puback 4))]

/-- Four messages with QoS 1 and 2 were due; the client got the one with QoS 2 on two connections, and
has passed it on once. -/
example : (∀ e ∈ exOnceEvs, lateEv exDeliverCfg.inflightTimeout e) ∧
    ∃ recs r, exDeliverPeer.run exDeliverCfg exExt .v3 exOnceEvs = some recs ∧
      Receiver.Moves {} (seenOf {} recs) r ∧ r.down = [] ∧ r.up = [] ∧
      ((recs.all fun r => (r.messages exDeliverCfg .v3).all (fun p => (expiryOf .v3 p).isNone) &&
        decide (r.pre.session.sender.pending.packets.length + (r.messages exDeliverCfg .v3).length ≤
          exDeliverCfg.maxInMemPending)) &&
      (endOf exDeliverPeer recs).online && !(endOf exDeliverPeer recs).session.disconnected &&
      decide ((connIn (seenOf {} recs)).isSome) &&
      ((firstsOf r.got).map (·.payload) == [[1], [2], [4], [6]]) &&
      ((recs.flatMap (·.res.out)).filter fun o => match o with
        | .publish w => w.payload == [2]
        | _ => false).length == 2) = true := by
  refine ⟨fun e he => ?_, ?_⟩
  · have h : ∀ i : Nat, ((exAt .lost).1.clk i).Late 15 :=
      fun _ _ => ⟨(by decide : 15 ≤ 100), Nat.succ_pos 99⟩
    have h' := const100_late 15 (by decide)
    simp only [exOnceEvs, exDeliverEvs, List.cons_append, List.nil_append, List.mem_cons,
      List.not_mem_nil, or_false] at he
    rcases he with rfl | rfl | rfl | rfl | rfl | rfl | rfl | rfl | rfl | rfl | rfl | rfl | rfl | rfl
    all_goals first | trivial | exact h | exact ⟨h, h'⟩
  · have hall : ((exDeliverPeer.run exDeliverCfg exExt .v3 exOnceEvs).any fun recs =>
        (({} : Receiver).follow (seenOf {} recs)).any fun r =>
        decide (r.down = []) && decide (r.up = []) &&
        ((recs.all fun r => (r.messages exDeliverCfg .v3).all (fun p => (expiryOf .v3 p).isNone) &&
          decide (r.pre.session.sender.pending.packets.length + (r.messages exDeliverCfg .v3).length ≤
            exDeliverCfg.maxInMemPending)) &&
        (endOf exDeliverPeer recs).online && !(endOf exDeliverPeer recs).session.disconnected &&
        decide ((connIn (seenOf {} recs)).isSome) &&
        ((firstsOf r.got).map (·.payload) == [[1], [2], [4], [6]]) &&
        ((recs.flatMap (·.res.out)).filter fun o => match o with
          | .publish w => w.payload == [2]
          | _ => false).length == 2)) = true := by decide +kernel
    rw [Option.any_eq_true] at hall
    obtain ⟨recs, h1, h2⟩ := hall
    rw [Option.any_eq_true] at h2
    obtain ⟨r, h3, h4⟩ := h2
    rw [Bool.and_eq_true, Bool.and_eq_true, decide_eq_true_eq, decide_eq_true_eq] at h4
    exact ⟨recs, r, h1, follow_moves h3, h4.1.1, h4.1.2, h4.2⟩

/-! ## In the whole broker -/

/-- **C101** in the whole broker, partial: what a client that follows the protocol has passed on of
everything that its session (which is connected or waits for its client) has sent.  The messages due
are those of the session alone (C68), from which `lifeOf` is seen. -/
theorem C101_broker_partial {acts : List Act} (hrun : Reaches cfg ext acts w evs) {t : TaskId}
    {s : Session} {req : Request} (ho : w.owned t = some s) (hreq : w.request t = some req)
    {r : Receiver} (hr : Receiver.Moves {} (lifeOf w req.identifier evs) r) :
    ∃ c recs, lifeOf w req.identifier evs = seenOf c recs ∧
      (((recs.flatMap (Rec.messages cfg req.level.proto)).filter
          fun p => decide (p.qos ≠ 0)).length ≤ 65535 →
        (∃ ms, ms.Sublist ((recs.flatMap (Rec.messages cfg req.level.proto)).filter
            fun p => decide (p.qos ≠ 0)) ∧
          Along (fun p w => Gives req.level.proto p (.publish w)) ms (firstsOf r.got)) ∧
        twosOf (firstsOf r.got) = twosOf r.got) := by
  obtain ⟨p, ⟨i, id, c, sevs, recs, h1, h2, _⟩, _⟩ := C68_alone hrun ho hreq
  exact ⟨c, recs, h2, fun h => C101_at_most_once_partial h1 h (by rw [h2] at hr; exact hr)⟩

/-- See `C101_broker_all_partial`; the steps are those of the session alone. -/
theorem broker_all {acts : List Act} (hrun : Reaches cfg ext acts w evs)
    (hlate : ∀ a ∈ acts, a.late cfg.inflightTimeout) {t : TaskId} {s : Session} {req : Request}
    (hexp : req.level.proto = .v5 → NoneExpires evs)
    (hs : w.onlineSession t = some s) (hd : s.disconnected = false) (hreq : w.request t = some req)
    (hwin : 1 ≤ windowOf cfg req.level.proto req.params)
    {r : Receiver} (hr : Receiver.Moves {} (lifeOf w req.identifier evs) r) (hdown : r.down = [])
    (hup : r.up = []) :
    ∃ c recs, lifeOf w req.identifier evs = seenOf c recs ∧
      (∃ i id sevs, ({ session := Session.start cfg req.level.proto i id c } : Peer).run cfg ext
        req.level.proto sevs = some recs) ∧
      (((recs.flatMap (Rec.messages cfg req.level.proto)).filter
          fun p => decide (p.qos ≠ 0)).length ≤ 65535 →
        (∀ r ∈ recs, ∀ p ∈ r.messages cfg req.level.proto, expiryOf req.level.proto p = none) →
        (∀ r ∈ recs, r.pre.session.sender.pending.packets.length +
          (r.messages cfg req.level.proto).length ≤ cfg.maxInMemPending) →
        Along (fun p w => Gives req.level.proto p (.publish w))
          ((recs.flatMap (Rec.messages cfg req.level.proto)).filter fun p => decide (p.qos ≠ 0))
          (firstsOf r.got) ∧
        twosOf (firstsOf r.got) = twosOf r.got) := by
  have ho : w.owned t = some s := by
    unfold World.onlineSession at hs
    unfold World.owned
    cases hx : w.tasks.get t with
    | none => rw [hx] at hs; cases hs
    | some y =>
      rw [hx] at hs
      simp only at hs ⊢
      cases hst : y.stage <;> rw [hst] at hs <;> cases hs
      rfl
  obtain ⟨p, ⟨i, id, c, sevs, recs, h1, h2, h3⟩, h4, h5⟩ := C68_alone hrun ho hreq
  refine ⟨c, recs, h2, ⟨i, id, sevs, h1⟩, fun k1 k2 k3 => ?_⟩
  have hnone : owedIn (lifeOf w req.identifier evs) = [] := by
    have := moves_owed hr (l := []) (.refl _)
    unfold Receiver.owed at this
    rw [hdown, hup] at this
    exact this.eq_nil
  have hempty := settled hrun hlate hexp hs hd hreq hwin hnone
  rw [h2] at hr
  rw [← due_all] at k1 ⊢
  have h := once_run (isRun_of_run h1) (keep := true) (by rw [start_sender]; rfl)
    (by rw [List.length_nil, Nat.zero_add]; exact k1) (fun _ => k2) (fun _ => k3)
    (once_start cfg req.level.proto i id c true) (moves_start hr)
  rw [← h3, h5 hs] at h
  obtain ⟨ms, _, j2, j3, j4⟩ := h.weak.result
  have he := j4 rfl hempty
  rw [List.nil_append] at he
  rw [← he]
  exact ⟨j2, j3⟩

/-- **C101** in the whole broker, partial: likewise nothing is missing once the client is connected
and has nothing more to get or to answer.  (The conditions are those of C98 and
`C101_exactly_once_partial`.) -/
theorem C101_broker_all_partial {acts : List Act} (hrun : Reaches cfg ext acts w evs)
    (hlate : ∀ a ∈ acts, a.late cfg.inflightTimeout) {t : TaskId} {s : Session} {req : Request}
    (hexp : req.level.proto = .v5 → NoneExpires evs)
    (hs : w.onlineSession t = some s) (hd : s.disconnected = false) (hreq : w.request t = some req)
    (hwin : 1 ≤ windowOf cfg req.level.proto req.params)
    {r : Receiver} (hr : Receiver.Moves {} (lifeOf w req.identifier evs) r) (hdown : r.down = [])
    (hup : r.up = []) :
    ∃ c recs, lifeOf w req.identifier evs = seenOf c recs ∧
      (((recs.flatMap (Rec.messages cfg req.level.proto)).filter
          fun p => decide (p.qos ≠ 0)).length ≤ 65535 →
        (∀ r ∈ recs, ∀ p ∈ r.messages cfg req.level.proto, expiryOf req.level.proto p = none) →
        (∀ r ∈ recs, r.pre.session.sender.pending.packets.length +
          (r.messages cfg req.level.proto).length ≤ cfg.maxInMemPending) →
        Along (fun p w => Gives req.level.proto p (.publish w))
          ((recs.flatMap (Rec.messages cfg req.level.proto)).filter fun p => decide (p.qos ≠ 0))
          (firstsOf r.got) ∧
        twosOf (firstsOf r.got) = twosOf r.got) := by
  obtain ⟨c, recs, h1, _, h2⟩ := broker_all hrun hlate hexp hs hd hreq hwin hr hdown hup
  exact ⟨c, recs, h1, h2⟩

/-- The client of `exRest` follows the protocol, and has nothing more to get or to answer. -/
example : ∃ w evs, Reaches {} exExt (exRest .v500 none) w evs ∧
    (match w.onlineSession 0, w.request 0 with
      | some s, some req => !s.disconnected && req.level.proto == .v5 &&
          (published evs).all (fun e => e.2.props.messageExpiry.isNone) &&
          (({} : Receiver).follow (lifeOf w req.identifier evs)).any fun r =>
            decide (r.down = []) && decide (r.up = []) && (r.got.map (·.payload) == [[1], [2]])
      | _, _ => false) = true :=
  reaches_of (cfg := {}) (acts := exRest .v500 none)
    (P := fun (r : World × List Event) => match r.1.onlineSession 0, r.1.request 0 with
      | some s, some req => !s.disconnected && req.level.proto == .v5 &&
          (published r.2).all (fun e => e.2.props.messageExpiry.isNone) &&
          (({} : Receiver).follow (lifeOf r.1 req.identifier r.2)).any fun r =>
            decide (r.down = []) && decide (r.up = []) && (r.got.map (·.payload) == [[1], [2]])
      | _, _ => false) (by decide +kernel)

/-! ## The identifiers wrap around -/

/-- Two messages are sent, then the connection is lost. -/
def exOnceA : List (Env × Global × SessEv) :=
  [exAt (.packet (Clock.const 100) 10 (.subscribe 1 [(str "a", { maxQos := 2 })] none)),
   exAt (.normal (exNormal [1] 1)), exAt (.normal (exNormal [2] 2)), exAt .lost]

/-- The client connects again, answers the first message and gets another one. -/
def exOnceB : List (Env × Global × SessEv) :=
  [exAt (.resume {}), exAt (.packet (Clock.const 100) 4 (.puback 1)), exAt (.normal (exNormal [3] 2)),
   exAt (.packet (Clock.const 100) 4 (.pubrec 2)), exAt (.packet (Clock.const 100) 4 (.pubrec 2)),
   exAt (.packet (Clock.const 100) 4 (.pubcomp 2)), exAt (.packet (Clock.const 100) 4 (.pubcomp 2))]

/-- The session with this next packet identifier, after the connection was lost. -/
def exOnceMid (n : Pid) : Peer :=
  match exTalkPeer.run exTalkCfg exExt .v3 exOnceA with
  | some recs =>
    let p := endOf exTalkPeer recs
    { p with session := { p.session with sender := { p.session.sender with nextPid := n } } }
  | none => exTalkPeer

/-- Nothing arrives and nothing is sent. -/
def Obs.still : Obs → Bool
  | .took _ => true
  | .routed _ => true
  | _ => false

theorem follow_skip {mid b : List Obs} (hm : ∀ o ∈ mid, o.still = true) (a : List Obs) (r : Receiver) :
    r.follow (a ++ (mid ++ b)) = r.follow (a ++ b) := by
  induction a generalizing r with
  | nil =>
    rw [List.nil_append, List.nil_append]
    induction mid with
    | nil => rfl
    | cons o mid ih =>
      have h := ih fun o ho => hm o (List.mem_cons_of_mem _ ho)
      have h1 := hm o (List.mem_cons_self ..)
      cases o with
      | took m => exact h
      | routed m => exact h
      | _ => cases h1
  | cons o a ih =>
    cases o <;> simp only [List.cons_append, Receiver.follow, ih]

theorem exOnce_off (n : Pid) : ∃ res, (exOnceMid n).step exTalkCfg exExt .v3 exTalkOff.1 exTalkOff.2.1
    exTalkOff.2.2 = some (exOnceMid n.next, res) ∧ res.out = [] ∧ res.routed = [] :=
  ⟨_, rfl, rfl, rfl⟩

theorem exOnce_away (n : Nat) (k : Nat) : ∃ recs,
    (exOnceMid (pidOf k)).run exTalkCfg exExt .v3 (List.replicate n exTalkOff) = some recs ∧
    endOf (exOnceMid (pidOf k)) recs = exOnceMid (pidOf (k + n)) ∧
    ∀ o ∈ recs.flatMap Rec.obs, o.still = true := by
  induction n generalizing k with
  | zero => exact ⟨[], rfl, rfl, (fun _ h => by cases h)⟩
  | succ n ih =>
    obtain ⟨res, h1, h2, h3⟩ := exOnce_off (pidOf k)
    rw [pidOf_next] at h1
    obtain ⟨recs, k1, k2, k3⟩ := ih (k + 1)
    refine ⟨{ ev := exTalkOff.2.2, env := exTalkOff.1, before := exTalkOff.2.1
              pre := exOnceMid (pidOf k), post := exOnceMid (pidOf (k + 1)), res := res } :: recs,
      ?_, ?_, fun o ho => ?_⟩
    · rw [List.replicate_succ, Peer.run.eq_2, h1]
      simp only [k1, Option.map_some]
    · rw [show k + (n + 1) = k + 1 + n by omega, ← k2]
      rfl
    · rw [List.flatMap_cons] at ho
      rcases List.mem_append.1 ho with ho | ho
      · simp only [Rec.obs, Rec.received, exTalkOff, exAt, h2, h3, Option.toList_none, List.map_nil,
          List.nil_append, List.append_nil, List.mem_map] at ho
        obtain ⟨m, _, rfl⟩ := ho
        rfl
      · exact k3 o ho

/-- **C101 is false** of the code in general: messages that are dropped because the queue is full use
up packet identifiers too.  When the counter has wrapped around, the client gets a message with QoS 2
whose packet identifier is that of an older message which is not released yet.  The client takes it
for a repetition and answers it, and so the message is lost, though it was sent, everything is
answered and the queue is empty. -/
theorem C101_false : ∃ (cfg : Config) (ext : Ext) (i : Str) (id : ClientId) (c : ConnParams)
    (sevs : List (Env × Global × SessEv)) (recs : List Rec) (r : Receiver) (m : PubPacket),
    ({ session := Session.start cfg .v3 i id c } : Peer).run cfg ext .v3 sevs = some recs ∧
    Receiver.Moves {} (seenOf c recs) r ∧ r.down = [] ∧ r.up = [] ∧
    (endOf { session := Session.start cfg .v3 i id c } recs).session.sender.pending.packets = [] ∧
    m ∈ recs.flatMap (Rec.messages cfg .v3) ∧ m.qos = 2 ∧
    (∃ o ∈ recs.flatMap (·.res.out), Gives .v3 m o) ∧ ¬ ∃ w ∈ r.got, Gives .v3 m (.publish w) := by
  have hall : (match exTalkPeer.run exTalkCfg exExt .v3 exOnceA,
        (exOnceMid 2).run exTalkCfg exExt .v3 exOnceB with
      | some ra, some rb =>
        decide ((endOf exTalkPeer ra).session.sender.nextPid = 3) &&
        ((({} : Receiver).follow (seenOf {} ra ++ rb.flatMap Rec.obs)).any fun r =>
          decide (r.down = []) && decide (r.up = []) && r.got.all (fun w => w.payload != [3])) &&
        decide ((endOf (exOnceMid 2) rb).session.sender.pending.packets.length = 0) &&
        ((rb.flatMap (Rec.messages exTalkCfg .v3)).any fun m =>
          decide (m.qos = 2) && (m.payload == [3]) &&
          ((rb.flatMap (·.res.out)).any fun o => match o with
            | .publish w => decide (w.dup = false ∧ w.qosPid = m.qosPid 2 ∧ w.retain = m.retain ∧
                w.payload = m.payload ∧ w.topic = m.topic ∧ w.props = {})
            | _ => false))
      | _, _ => false) = true := by decide +kernel
  cases ha : exTalkPeer.run exTalkCfg exExt .v3 exOnceA with
  | none => rw [ha] at hall; cases hall
  | some ra =>
    cases hb : (exOnceMid 2).run exTalkCfg exExt .v3 exOnceB with
    | none => rw [ha, hb] at hall; cases hall
    | some rb =>
      rw [ha, hb] at hall
      simp only [Bool.and_eq_true, decide_eq_true_eq, Option.any_eq_true, List.any_eq_true,
        List.all_eq_true, bne_iff_ne, beq_iff_eq] at hall
      obtain ⟨⟨⟨a1, r, a2, ⟨a3, a4⟩, a5⟩, a6⟩, m, a7, ⟨a8, a9⟩, o, a10, a11⟩ := hall
      have hmid : endOf exTalkPeer ra = exOnceMid (pidOf 2) := by
        unfold exOnceMid
        rw [ha]
        simp only
        rw [show pidOf 2 = (endOf exTalkPeer ra).session.sender.nextPid from a1.symm]
      obtain ⟨rm, k1, k2, k3⟩ := exOnce_away 65534 2
      have hend : ∀ (p : Peer) (x y : List Rec), endOf p (x ++ y) = endOf (endOf p x) y := by
        intro p x y
        induction x generalizing p with
        | nil => rfl
        | cons z x ih => exact ih _
      refine ⟨exTalkCfg, exExt, str "me", 7, {},
        exOnceA ++ (List.replicate 65534 exTalkOff ++ exOnceB), ra ++ (rm ++ rb), r, m, ?_, ?_, a3, a4,
        ?_, ?_, a8, ⟨o, ?_, ?_⟩, ?_⟩
      · refine peer_run_append ha (peer_run_append (ra := rm) ?_ ?_)
        · show (endOf exTalkPeer ra).run _ _ _ _ = _
          rw [hmid]; exact k1
        show (endOf (endOf exTalkPeer ra) rm).run _ _ _ _ = _
        rw [hmid, k2]
        exact hb
      · refine follow_moves ?_
        unfold seenOf
        rw [List.flatMap_append, List.flatMap_append, ← List.cons_append, follow_skip k3]
        exact a2
      · show (endOf exTalkPeer (ra ++ (rm ++ rb))).session.sender.pending.packets = []
        rw [hend, hend, hmid, k2]
        exact List.eq_nil_of_length_eq_zero a6
      · simp only [List.flatMap_append, List.mem_append]
        exact .inr (.inr a7)
      · simp only [List.flatMap_append, List.mem_append]
        exact .inr (.inr a10)
      · cases o with
        | publish w =>
          obtain ⟨b1, b2, b3, b4, b5, b6⟩ := of_decide_eq_true a11
          exact ⟨2, false, none, b1, b2, b3, b4, b5, b6⟩
        | _ => cases a11
      · rintro ⟨w, hw, pid, dup, e, hcar⟩
        exact a5 w hw (by rw [hcar.2.2.2.1]; exact a9)

end Akasa

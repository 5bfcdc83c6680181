import Verif.Proof.Rest
import Verif.Props.OrderV5
/-!
# A client that has answered everything has got everything (C98)
-/
namespace Akasa

variable {cfg : Config} {ext : Ext} {pr : Proto} {w : World} {evs : List Event}

/-- **C98**, MQTT 3: if the client has answered all PUBLISH and PUBREL packets that it got on its
present connection, no message waits for it in its session.  (The clock shows a time after
`inflightTimeout` seconds past 1970, and the window is not 0.) -/
theorem C98_settled_v3 {acts : List Act} (hrun : Reaches cfg ext acts w evs)
    (hlate : ∀ a ∈ acts, a.late cfg.inflightTimeout) {t : TaskId} {s : Session} {req : Request}
    (hs : w.onlineSession t = some s) (hd : s.disconnected = false) (hreq : w.request t = some req)
    (hv : req.level.proto = .v3) (hwin : 1 ≤ cfg.maxInflightClient)
    (hnone : owedIn (lifeOf w req.identifier evs) = []) : s.sender.pending.packets = [] :=
  settled hrun hlate (fun h => by rw [hv] at h; cases h) hs hd hreq (by rw [hv]; exact hwin) hnone

/-- The clock of this environment shows 100. -/
theorem exClk100_late (t : Nat) (h : t ≤ 100) : ∀ i, (exClk100.clk i).Late t :=
  fun _ _ => ⟨h, Nat.succ_pos 99⟩

theorem const100_late (t : Nat) (h : t ≤ 100) : (Clock.const 100).Late t := fun _ => ⟨h, Nat.succ_pos 99⟩

/-- A message with QoS 1. -/
def exRestPub (pid : Pid) (payload : Bytes) (expiry : Option Nat) : InPkt :=
  .publish { dup := false, retain := false, qosPid := .level1 pid, topic := str "a"
             payload := payload, props := { messageExpiry := expiry } }

/-- A client with a window of one message is sent two, the second one after it has answered the
first.  Then it answers the second one too. -/
def exRest (level : Level) (expiry : Option Nat) : List Act :=
  [.connect { level := level, identifier := str "c", clean := false
              params := { receiveMax := 1 } } exClk100 true,
   .packet 0 exClk100 (Clock.const 100) 10 (.subscribe 1 [(str "a", { maxQos := 1 })] none),
   .connect { level := .v500, identifier := str "d", clean := true } exClk100 true,
   .packet 1 exClk100 (Clock.const 100) 10 (exRestPub 7 [1] expiry),
   .packet 1 exClk100 (Clock.const 100) 10 (exRestPub 8 [2] none),
   .push 1 0, .flush 1 0, .push 1 0, .flush 1 0, .normal 0 exClk100, .normal 0 exClk100,
   .packet 0 exClk100 (Clock.const 100) 4 (.puback 1),
   .packet 0 exClk100 (Clock.const 100) 4 (.puback 2)]

theorem exRest_late (level : Level) (expiry : Option Nat) : ∀ a ∈ exRest level expiry, a.late 15 := by
  have h := exClk100_late 15 (by decide)
  have h' := const100_late 15 (by decide)
  simp only [exRest, List.mem_cons, List.not_mem_nil, or_false, forall_eq_or_imp, forall_eq, Act.late]
  exact ⟨trivial, ⟨h, h'⟩, trivial, ⟨h, h'⟩, ⟨h, h'⟩, trivial, trivial, trivial, trivial, h, h,
    ⟨h, h'⟩, h, h'⟩

example : ∃ w evs, Reaches { maxInflightClient := 1 } exExt (exRest .v311 none) w evs ∧
    (match w.onlineSession 0, w.request 0 with
      | some s, some req => !s.disconnected && req.level.proto == .v3 &&
          decide (owedIn (lifeOf w req.identifier evs) = []) &&
          (sentIn (lifeOf w req.identifier evs)).length == 3
      | _, _ => false) = true :=
  reaches_of (cfg := { maxInflightClient := 1 }) (acts := exRest .v311 none)
    (P := fun (r : World × List Event) => match r.1.onlineSession 0, r.1.request 0 with
      | some s, some req => !s.disconnected && req.level.proto == .v3 &&
          decide (owedIn (lifeOf r.1 req.identifier r.2) = []) &&
          (sentIn (lifeOf r.1 req.identifier r.2)).length == 3
      | _, _ => false) (by decide +kernel)

/-- **C98**, MQTT 5, partial: likewise if no message has an expiry interval.  Missing: messages that
expire, see `C98_false`. -/
theorem C98_settled_v5_partial {acts : List Act} (hrun : Reaches cfg ext acts w evs)
    (hlate : ∀ a ∈ acts, a.late cfg.inflightTimeout) (hexp : NoneExpires evs) {t : TaskId}
    {s : Session} {req : Request}
    (hs : w.onlineSession t = some s) (hd : s.disconnected = false) (hreq : w.request t = some req)
    (hv : req.level.proto = .v5) (hwin : 1 ≤ req.params.receiveMax)
    (hnone : owedIn (lifeOf w req.identifier evs) = []) : s.sender.pending.packets = [] :=
  settled hrun hlate (fun _ => hexp) hs hd hreq (by rw [hv]; exact hwin) hnone

example : ∃ w evs, Reaches {} exExt (exRest .v500 none) w evs ∧
    (match w.onlineSession 0, w.request 0 with
      | some s, some req => !s.disconnected && req.level.proto == .v5 &&
          decide (owedIn (lifeOf w req.identifier evs) = []) &&
          (published evs).all (fun e => e.2.props.messageExpiry.isNone) &&
          (sentIn (lifeOf w req.identifier evs)).length == 3
      | _, _ => false) = true :=
  reaches_of (cfg := {}) (acts := exRest .v500 none)
    (P := fun (r : World × List Event) => match r.1.onlineSession 0, r.1.request 0 with
      | some s, some req => !s.disconnected && req.level.proto == .v5 &&
          decide (owedIn (lifeOf r.1 req.identifier r.2) = []) &&
          (published r.2).all (fun e => e.2.props.messageExpiry.isNone) &&
          (sentIn (lifeOf r.1 req.identifier r.2)).length == 3
      | _, _ => false) (by decide +kernel)

/-- Two messages wait for the client, which does not answer the first one.  At time 200, when the
first message has expired, the client connects again. -/
def exRestStuck : List Act :=
  (exRest .v500 (some 5)).take 11 ++
    [.connect { level := .v500, identifier := str "c", clean := false
                params := { receiveMax := 1 } } exClk100 true,
     .control 0 { clk := fun _ => Clock.const 200 }, .accept 2 { clk := fun _ => Clock.const 200 } true]

/-- **C98 is false** of the code for MQTT 5 in general: the expired message is removed and the one
after it is not sent, though the client has nothing to answer. -/
theorem C98_false : ∃ (cfg : Config) (ext : Ext) (acts : List Act) (w : World) (evs : List Event)
    (t : TaskId) (s : Session) (req : Request), Reaches cfg ext acts w evs ∧
    (∀ a ∈ acts, a.late cfg.inflightTimeout) ∧ w.onlineSession t = some s ∧
    s.disconnected = false ∧ w.request t = some req ∧ req.level.proto = .v5 ∧
    1 ≤ req.params.receiveMax ∧ owedIn (lifeOf w req.identifier evs) = [] ∧
    s.sender.pending.packets ≠ [] := by
  obtain ⟨w, evs, h1, h2⟩ := reaches_of (cfg := {}) (acts := exRestStuck)
    (P := fun (r : World × List Event) => match r.1.onlineSession 2, r.1.request 2 with
      | some s, some req => !s.disconnected && (req.level.proto == .v5) &&
          decide (1 ≤ req.params.receiveMax) &&
          decide (owedIn (lifeOf r.1 req.identifier r.2) = []) &&
          !s.sender.pending.packets.isEmpty
      | _, _ => false) (by decide +kernel)
  simp only at h2
  split at h2
  · rename_i s req h3 h4
    simp only [Bool.and_eq_true, Bool.not_eq_true', decide_eq_true_eq, beq_iff_eq] at h2
    refine ⟨_, _, _, w, evs, 2, s, req, h1, ?_, h3, h2.1.1.1.1, h4, h2.1.1.1.2, h2.1.1.2, h2.1.2,
      fun h => ?_⟩
    · intro a ha
      rcases List.mem_append.1 ha with ha | ha
      · exact exRest_late _ _ a (List.mem_of_mem_take ha)
      · have h200 : (Clock.const 200).Late 15 :=
          fun _ => ⟨(by decide : 15 ≤ 200), Nat.succ_pos 199⟩
        simp only [List.mem_cons, List.not_mem_nil, or_false] at ha
        rcases ha with rfl | rfl | rfl
        · trivial
        · exact fun _ => h200
        · exact fun _ => h200
    · rw [h] at h2
      cases h2.2
  · cases h2

/-- **C98**, nothing is lost: let no message for the client expire, let the queue have room for the
messages that become due in each step, and let the client have answered everything at the end.  Then
every message with QoS 1 or 2 that became due to it, over all its connections, was sent to it. -/
theorem C98_all {i : Str} {id : ClientId} {c : ConnParams} {sevs : List (Env × Global × SessEv)}
    {recs : List Rec}
    (hrun : ({ session := Session.start cfg pr i id c } : Peer).run cfg ext pr sevs = some recs)
    (hlate : ∀ e ∈ sevs, lateEv cfg.inflightTimeout e)
    (hexp : ∀ r ∈ recs, ∀ p ∈ r.messages cfg pr, expiryOf pr p = none)
    (hroom : ∀ r ∈ recs, r.pre.session.sender.pending.packets.length + (r.messages cfg pr).length ≤
      cfg.maxInMemPending)
    {p : Peer} (hp : p = endOf { session := Session.start cfg pr i id c } recs)
    (hon : p.online = true) (hd : p.session.disconnected = false)
    {c' : ConnParams} (hc : connIn (seenOf c recs) = some c') (hwin : 1 ≤ windowOf cfg pr c')
    (hnone : owedIn (seenOf c recs) = []) {r : Rec} (hr : r ∈ recs) {m : PubPacket}
    (hm : m ∈ r.messages cfg pr) (hq : m.qos ≠ 0) :
    ∃ o ∈ recs.flatMap (·.res.out), Gives pr m o := by
  have hir := isRun_of_run hrun
  have hl : ∀ r ∈ recs, lateEv cfg.inflightTimeout (r.env, r.before, r.ev) := fun r hr =>
    hlate _ (by rw [← rec_event hrun]; exact List.mem_map.2 ⟨r, hr, rfl⟩)
  obtain ⟨S, k1, k2, k3⟩ := keep_run hir hl hexp (by rw [start_sender]; rfl) hroom
    (rest_start cfg pr i id c)
  have hw := window_end hir
  rw [← hp] at k2 k3 hw
  have ha := k2.held hon hd
  have hz : (recs.flatMap Rec.obs).foldl Obs.owed [] = [] := hnone
  unfold seenOf at hc
  rw [connIn_recs] at hc
  cases hc
  rw [hz] at ha
  have hempty := ha.nil (by rw [hw]; exact hwin)
  rcases k3 m (.inr ⟨⟨r, hr, hm⟩, hq⟩) with h | h
  · rw [Sender.msgs, hempty] at h
    cases h
  · obtain ⟨o, h1, h2⟩ := given_of_sent k1 h
    exact ⟨o, (List.mem_filter.1 h1).1, h2⟩

/-- The events of `exDeliverEvs`, and then the client answers the rest. -/
def exRestEvs : List (Env × Global × SessEv) :=
  exDeliverEvs ++ [exAt (.packet (Clock.const 100) 4 (.puback 3)),
    exAt (.packet (Clock.const 100) 4 (.pubrec 2)), exAt (.packet (Clock.const 100) 4 (.pubcomp 2)),
    exAt (.packet (Clock.const 100) 4 (.puback 4))]

/-- Four messages with QoS 1 and 2 were due; after the last PUBACK the client owes nothing, and one
answer before it does. -/
example : (∀ e ∈ exRestEvs, lateEv exDeliverCfg.inflightTimeout e) ∧
    ((exDeliverPeer.run exDeliverCfg exExt .v3 exRestEvs).any fun recs =>
      (recs.all fun r => (r.messages exDeliverCfg .v3).all (fun p => (expiryOf .v3 p).isNone) &&
        decide (r.pre.session.sender.pending.packets.length + (r.messages exDeliverCfg .v3).length ≤
          exDeliverCfg.maxInMemPending)) &&
      (endOf exDeliverPeer recs).online && !(endOf exDeliverPeer recs).session.disconnected &&
      decide (owedIn (seenOf {} recs) = []) &&
      decide (owedIn (seenOf {} (recs.take 13)) = [.publish 4]) &&
      decide ((connIn (seenOf {} recs)).isSome) &&
      (((recs.flatMap (Rec.messages exDeliverCfg .v3)).filter fun p => decide (p.qos ≠ 0)).map
        (·.payload)) == [[1], [2], [4], [6]]) = true := by
  refine ⟨fun e he => ?_, by decide +kernel⟩
  have h : ∀ i : Nat, ((exAt .lost).1.clk i).Late 15 :=
    fun _ _ => ⟨(by decide : 15 ≤ 100), Nat.succ_pos 99⟩
  have h' := const100_late 15 (by decide)
  simp only [exRestEvs, exDeliverEvs, List.cons_append, List.nil_append, List.mem_cons,
    List.not_mem_nil, or_false] at he
  rcases he with rfl | rfl | rfl | rfl | rfl | rfl | rfl | rfl | rfl | rfl | rfl | rfl | rfl | rfl
  all_goals first | trivial | exact h | exact ⟨h, h'⟩

end Akasa

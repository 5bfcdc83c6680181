import Verif.Model.Pending
/-!
# Vocabulary for the properties of the outgoing queue

Everything here speaks about the operations (messages handed to the session, acknowledgements,
reconnects) and about the packets sent.
-/
namespace Akasa

/-- The messages handed to the queue, in order. -/
def delivered : List (SendOp P) → List P
  | [] => []
  | .deliver _ p :: ops => p :: delivered ops
  | _ :: ops => delivered ops

/-- The messages transmitted for the first time (DUP 0), in order. -/
def firstSent : List (Sent P) → List P
  | [] => []
  | .publish _ p false _ :: l => p :: firstSent l
  | _ :: l => firstSent l

/-- All messages transmitted, in order. -/
def allSent : List (Sent P) → List P
  | [] => []
  | .publish _ p _ _ :: l => p :: allSent l
  | _ :: l => allSent l

/-- The packet identifier of an entry that is not complete. -/
def PStatus.pid? : PStatus P → Option Pid
  | .new _ _ pid _ _ => some pid
  | .pubrec _ pid => some pid
  | .complete => none

/-- The packet identifiers of the pending messages. -/
def Sender.pids (s : Sender P) : List Pid := s.pending.packets.filterMap PStatus.pid?

/-- The pending messages that have not been PUBRECed or completed. -/
def PStatus.msg? : PStatus P → Option P
  | .new _ _ _ p _ => some p
  | _ => none

/-- At every moment of the run, the pending messages have different packet identifiers. -/
def DistinctPids (exp : P → Option Nat) (s : Sender P) (ops : List (SendOp P)) : Prop :=
  ∀ pre, pre <+: ops → (s.exec exp pre).pids.Nodup

/-- The clock never shows 0 (1 January 1970, 00:00:00). -/
def ClockRunning (ops : List (SendOp P)) : Prop :=
  ∀ clk, SendOp.pass clk ∈ ops → ∀ i, 0 < clk.sent i

/-- Either no message can expire (MQTT 3), or pending messages have different packet identifiers
and the clock is running. -/
def Regular (exp : P → Option Nat) (s : Sender P) (ops : List (SendOp P)) : Prop :=
  (∀ p, exp p = none) ∨ (DistinctPids exp s ops ∧ ClockRunning ops)

/-- Packet identifiers of the PUBLISH packets sent on the present connection and not acknowledged
by PUBACK or PUBCOMP, given the sent packets and acknowledgements in order. -/
def outstandingSent (l : List Pid) : List (Sent P) → List Pid
  | [] => l
  | .publish pid _ _ _ :: r => outstandingSent (if pid ∈ l then l else pid :: l) r
  | .pubrel _ :: r => outstandingSent l r

/-- See `outstandingSent`. -/
def outstanding (l : List Pid) : List (SendOp P × List (Sent P)) → List Pid
  | [] => l
  | (.puback pid, sent) :: r => outstanding (outstandingSent (l.filter (· ≠ pid)) sent) r
  | (.pubcomp pid, sent) :: r => outstanding (outstandingSent (l.filter (· ≠ pid)) sent) r
  | (.reconnect _, sent) :: r => outstanding (outstandingSent [] sent) r
  | (.deliver _ _, sent) :: r => outstanding (outstandingSent l sent) r
  | (.pass _, sent) :: r => outstanding (outstandingSent l sent) r
  | (.pubrec _ _, sent) :: r => outstanding (outstandingSent l sent) r

/-- The receive maximum in force after `ops`: that of the last reconnect. -/
def receiveMax (m : Nat) : List (SendOp P) → Nat
  | [] => m
  | .reconnect (some m') :: ops => receiveMax m' ops
  | _ :: ops => receiveMax m ops

/-- The message `p`, with packet identifier `pid`, is in the queue and not acknowledged. -/
def Sender.Holds (s : Sender P) (pid : Pid) (p : P) : Prop :=
  ∃ addedAt lastSent dup, PStatus.new addedAt lastSent pid p dup ∈ s.pending.packets

/-- The packet identifier `pid` is in the queue, PUBRECed, and awaits PUBCOMP. -/
def Sender.Released (s : Sender P) (pid : Pid) : Prop :=
  ∃ lastSent, PStatus.pubrec lastSent pid ∈ s.pending.packets

/-- The queue has no room: an arriving message would be dropped (finished entries at the front of
the queue do not count). -/
def Sender.Full (s : Sender P) : Prop :=
  s.pending.maxPackets ≤ s.pending.cleanComplete.packets.length

/-- No message handed to the session in this run was dropped for want of room. -/
def NoDrops (exp : P → Option Nat) (s : Sender P) (ops : List (SendOp P)) : Prop :=
  ∀ pre now p, pre ++ [.deliver now p] <+: ops → ¬ (s.exec exp pre).Full

/-- How the client acknowledges a packet: PUBACK for QoS 1, PUBREC and PUBCOMP for QoS 2, PUBCOMP
for PUBREL. -/
def ackOf (qos : P → QoS) (now : Nat) : Sent P → List (SendOp P)
  | .publish pid p _ _ => if qos p = 1 then [.puback pid] else [.pubrec now pid, .pubcomp pid]
  | .pubrel pid => [.pubcomp pid]

/-- `n` rounds: in each the broker makes a sending pass (all clock readings that decide what is
due are at least `lo`, all readings stored are at most `hi`) and the client acknowledges everything
sent, in some order.  The list is everything the broker sent in the passes. -/
inductive AckRounds (exp : P → Option Nat) (qos : P → QoS) (lo hi : Nat) :
    Nat → Sender P → List (Sent P) → Sender P → Prop
  | done (s : Sender P) : AckRounds exp qos lo hi 0 s [] s
  | round {n : Nat} {s s' : Sender P} {sent acks rest : List (Sent P)} (clk : Clock) (now : Nat) :
      (∀ j, lo ≤ clk.ready j) → (∀ j, clk.sent j ≤ hi) →
      sent = (s.step exp (.pass clk)).2 → acks.Perm sent →
      AckRounds exp qos lo hi n (s.exec exp (.pass clk :: acks.flatMap (ackOf qos now))) rest s' →
      AckRounds exp qos lo hi (n + 1) s (sent ++ rest) s'

/-- All clock readings made during `ops` are at most `b`. -/
def ReadingsLe (b : Nat) (ops : List (SendOp P)) : Prop :=
  (∀ clk, SendOp.pass clk ∈ ops → ∀ k, clk.sent k ≤ b) ∧
  (∀ now pid, SendOp.pubrec now pid ∈ ops → now ≤ b)

/-- No reconnect reduces the receive maximum (which is `m` on the first connection). -/
def NeverReduced (m : Nat) (ops : List (SendOp P)) : Prop :=
  ∀ pre m', pre ++ [.reconnect (some m')] <+: ops → receiveMax m pre ≤ m'

/-- In `outs` the DUP flag of every packet says whether its message occurs earlier, and all packets
with the same message have the same identifier. -/
def DupOK (outs : List (Sent P)) : Prop :=
  ∀ l1 pid p d x l2, outs = l1 ++ .publish pid p d x :: l2 →
    (d = true ↔ p ∈ allSent l1) ∧ ∀ pid' d' x', Sent.publish pid' p d' x' ∈ l1 → pid' = pid

/-- The identifiers handed out during `ops`. -/
def assigned (exp : P → Option Nat) : Sender P → List (SendOp P) → List Pid
  | _, [] => []
  | s, .deliver now p :: ops => s.nextPid :: assigned exp (s.step exp (.deliver now p)).1 ops
  | s, op :: ops => assigned exp (s.step exp op).1 ops

/-- The clock never goes back: every reading of a sending pass is at least `lo` and at least every
reading of the earlier passes. -/
def ClockMono : Nat → List (SendOp P) → Prop
  | _, [] => True
  | lo, .pass clk :: ops => ∃ hi, (∀ k, lo ≤ clk.sent k ∧ clk.sent k ≤ hi) ∧ ClockMono hi ops
  | lo, .deliver _ _ :: ops => ClockMono lo ops
  | lo, .puback _ :: ops => ClockMono lo ops
  | lo, .pubrec _ _ :: ops => ClockMono lo ops
  | lo, .pubcomp _ :: ops => ClockMono lo ops
  | lo, .reconnect _ :: ops => ClockMono lo ops

/-- The packet identifier of a sent packet. -/
def Sent.pid : Sent P → Pid
  | .publish pid _ _ _ => pid
  | .pubrel pid => pid

/-- Apply a function to the message of a sent packet. -/
def Sent.map {P Q : Type} (f : P → Q) : Sent P → Sent Q
  | .publish pid p d x => .publish pid (f p) d x
  | .pubrel pid => .pubrel pid

end Akasa

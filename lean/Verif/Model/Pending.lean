import Verif.Model.Types
/-!
# Queue of outgoing QoS 1 / QoS 2 messages (`protocols/mqtt/pending.rs`)

Clock readings (`get_unix_ts`, `pending.rs:181-186`) are arguments.  All arithmetic is on `Nat`
(the code uses u64 seconds, which do not overflow before the year 584 942 417 355).
-/
namespace Akasa

/-- `pending.rs:161-178` `PendingPacketStatus<P>`. -/
inductive PStatus (P : Type) where
  | new (addedAt lastSent : Nat) (pid : Pid) (packet : P) (dup : Bool)
  | pubrec (lastSent : Nat) (pid : Pid)
  | complete
deriving DecidableEq, Repr

/-- `pending.rs:11-17` `PendingPackets<P>`. -/
structure Pending (P : Type) where
  maxInflight : Nat
  maxPackets : Nat
  timeout : Nat
  packets : List (PStatus P)
deriving DecidableEq, Repr

/-- `pending.rs:20-27` `PendingPackets::new`. -/
def Pending.empty (maxInflight maxPackets timeout : Nat) : Pending P :=
  { maxInflight, maxPackets, timeout, packets := [] }

/-- `pending.rs:50, 71, 115`: `current_inflight`, the number of entries in the window. -/
def Pending.window (q : Pending P) : Nat := min q.maxInflight q.packets.length

/-- `pending.rs:30-47` `push_back`; the flag says "queue full, message dropped". -/
def Pending.pushBack (q : Pending P) (now : Nat) (pid : Pid) (packet : P) : Pending P × Bool :=
  if q.packets.length ≥ q.maxPackets then (q, true)
  else ({ q with packets := q.packets ++ [.new now 0 pid packet false] }, false)

/-- The loops `for idx in 0..current_inflight` of `pending.rs:51-66` and `72-89`: replace the first
of the first `n` entries for which `f` gives a replacement. -/
def updFirst (f : PStatus P → Option (PStatus P)) : Nat → List (PStatus P) →
    Option (List (PStatus P))
  | 0, _ => none
  | _ + 1, [] => none
  | n + 1, s :: ss =>
    match f s with
    | some s' => some (s' :: ss)
    | none => (updFirst f n ss).map (s :: ·)

/-- `pending.rs:54-61`: the replacement made by `pubrec`. -/
def pubrecStatus (now : Nat) (target : Pid) : PStatus P → Option (PStatus P)
  | .new _ _ pid _ _ => if pid = target then some (.pubrec now target) else none
  | .pubrec _ _ => none
  | .complete => none

/-- `pending.rs:49-68` `pubrec`; the flag says "found". -/
def Pending.pubrec (q : Pending P) (now : Nat) (target : Pid) : Pending P × Bool :=
  match updFirst (pubrecStatus now target) q.window q.packets with
  | some ps => ({ q with packets := ps }, true)
  | none => (q, false)

/-- `pending.rs:74-88`: the replacement made by `complete`. -/
def completeStatus (target : Pid) (qos : QoS) : PStatus P → Option (PStatus P)
  | .new _ _ pid _ _ => if qos = 1 ∧ pid = target then some .complete else none
  | .pubrec _ pid => if qos = 2 ∧ pid = target then some .complete else none
  | .complete => none

/-- `pending.rs:70-91` `complete`; the flag says "found". -/
def Pending.complete (q : Pending P) (target : Pid) (qos : QoS) : Pending P × Bool :=
  match updFirst (completeStatus target qos) q.window q.packets with
  | some ps => ({ q with packets := ps }, true)
  | none => (q, false)

/-- `pending.rs:95`: the pattern `Some(PendingPacketStatus::Complete)`. -/
def PStatus.isComplete : PStatus P → Bool
  | .complete => true
  | _ => false

/-- `pending.rs:93-108` `clean_complete` (the capacity of the `VecDeque` is not modelled). -/
def Pending.cleanComplete (q : Pending P) : Pending P :=
  { q with packets := q.packets.dropWhile PStatus.isComplete }

/-- `pending.rs:119-132`: may this entry be sent at time `now`? -/
def PStatus.ready (timeout now : Nat) : PStatus P → Bool
  | .new _ lastSent _ _ _ => decide (now ≥ timeout + lastSent)
  | .pubrec lastSent _ => decide (now ≥ timeout + lastSent)
  | .complete => false

/-- `pending.rs:110-136` `get_ready_packet`: index of the first entry of the window, from `start`
on, that may be sent. -/
def Pending.getReady (q : Pending P) (now start : Nat) : Option Nat :=
  (List.range' start (q.window - start)).find? fun i =>
    match q.packets[i]? with
    | some s => s.ready q.timeout now
    | none => false

/-- `pending.rs:146-148` `set_max_inflight`. -/
def Pending.setMaxInflight (q : Pending P) (n : Nat) : Pending P := { q with maxInflight := n }

/-- `pending.rs:152-156`: the loop body of `reset_last_sent`. -/
def PStatus.reset : PStatus P → PStatus P
  | .new addedAt _ pid packet dup => .new addedAt 0 pid packet dup
  | .pubrec _ pid => .pubrec 0 pid
  | .complete => .complete

/-- `pending.rs:150-158` `reset_last_sent`. -/
def Pending.resetLastSent (q : Pending P) : Pending P :=
  { q with packets := q.packets.map PStatus.reset }

/-- A packet produced by `handle_pendings`, before it is put into the wire form of the protocol
version (`toWireV3`, `toWireV5` in `Model/Alias.lean`). `expiry` is the remaining message expiry
interval. -/
inductive Sent (P : Type) where
  | publish (pid : Pid) (packet : P) (dup : Bool) (expiry : Option Nat)
  | pubrel (pid : Pid)
deriving DecidableEq, Repr

/-- Readings of the clock during one call of `handle_pendings`: `ready start` is the reading in
`get_ready_packet(start)` (`pending.rs:114`), `sent idx` the reading made for the entry `idx`
(`v3/packet/common.rs:49, 53`, `v5/packet/common.rs:176, 227`).  They are arbitrary functions. -/
structure Clock where
  ready : Nat → Nat
  sent : Nat → Nat

/-- The clock that always shows `t`. -/
def Clock.const (t : Nat) : Clock := { ready := fun _ => t, sent := fun _ => t }

/-- The body of the `while let` loop: `v5/packet/common.rs:167-231`; with `exp = fun _ => none` it
is `v3/packet/common.rs:28-57`.  Result: the new entry, the packet to send, the packet identifier
if the message has expired.  `exp` is `packet.properties.message_expiry_interval`.
Simplification: `now_ts - added_at` is a u64 subtraction which would panic (debug) or wrap
(release) if the clock had been set back before `added_at`; here it is truncated. -/
def PStatus.attempt (exp : P → Option Nat) (now : Nat) :
    PStatus P → PStatus P × Option (Sent P) × Option Pid
  | .new addedAt lastSent pid packet dup =>
    match exp packet with
    | none => (.new addedAt now pid packet true, some (.publish pid packet dup none), none)
    | some value =>
      let passed := now - addedAt
      if lastSent = 0 ∧ passed ≥ value then (.new addedAt lastSent pid packet dup, none, some pid)
      else (.new addedAt now pid packet true,
        some (.publish pid packet dup (some (value - passed % 2 ^ 32))), none)
  | .pubrec _ pid => (.pubrec now pid, some (.pubrel pid), none)
  | .complete => (.complete, none, none)

/-- The `while let` loop of `handle_pendings` (`v5/packet/common.rs:162-232`,
`v3/packet/common.rs:24-58`): the queue, the packets pushed, the expired identifiers.  `start_idx`
grows in every iteration, so `fuel = window + 1` iterations suffice. -/
def Pending.sendLoop (exp : P → Option Nat) (clk : Clock) :
    Nat → Pending P → Nat → Pending P × List (Sent P) × List Pid
  | 0, q, _ => (q, [], [])
  | fuel + 1, q, start =>
    match q.getReady (clk.ready start) start with
    | none => (q, [], [])
    | some i =>
      match q.packets[i]? with
      | none => (q, [], [])
      | some s =>
        let r := s.attempt exp (clk.sent i)
        let rest := Pending.sendLoop exp clk fuel { q with packets := q.packets.set i r.1 } (i + 1)
        (rest.1, r.2.1.toList ++ rest.2.1, r.2.2.toList ++ rest.2.2)

/-- `v5/packet/common.rs:233-236`: complete the expired messages (as QoS 1). -/
def Pending.completeAll (q : Pending P) (pids : List Pid) : Pending P :=
  pids.foldl (fun q pid => (q.complete pid 1).1) q

/-- `handle_pendings`: `v5/packet/common.rs:152-241` with `exp` = expiry interval of the message,
`v3/packet/common.rs:22-60` with `exp = fun _ => none` (then nothing expires and lines 233-239 of
v5, absent in v3, do nothing).  Topic aliases, which do not influence the queue, are added
afterwards by `toWireV5`. -/
def Pending.handlePendings (exp : P → Option Nat) (clk : Clock) (q : Pending P) :
    Pending P × List (Sent P) :=
  let q := q.cleanComplete
  let r := q.sendLoop exp clk (q.window + 1) 0
  let q := r.1.completeAll r.2.2
  (if r.2.2.isEmpty then q else q.cleanComplete, r.2.1)

/-- The part of a session that concerns outgoing QoS 1/2 messages: `session.pending_packets` and
`session.server_packet_id` (`v3/session.rs:15-40`, `v5/session.rs:20-75`). -/
structure Sender (P : Type) where
  pending : Pending P
  nextPid : Pid
deriving DecidableEq, Repr

/-- `Session::new` (`v3/session.rs:56-89`, `v5/session.rs:92-139`). -/
def Sender.new (maxInflight maxPackets timeout : Nat) : Sender P :=
  { pending := .empty maxInflight maxPackets timeout, nextPid := Pid.first }

/-- What can happen to the queue of a session. -/
inductive SendOp (P : Type) where
  /-- `recv_publish` with final QoS 1 or 2: `v3/packet/publish.rs:247-259`,
  `v5/packet/publish.rs:459-471` (after the size check). -/
  | deliver (now : Nat) (packet : P)
  /-- `handle_pendings` (after every packet and every message handled). -/
  | pass (clk : Clock)
  /-- `handle_puback`: `v3/packet/publish.rs:96-103`, `v5/packet/publish.rs:214-221`. -/
  | puback (pid : Pid)
  /-- `handle_pubrec`: `v3/packet/publish.rs:106-115`, `v5/packet/publish.rs:224-241`; it always
  answers with a PUBREL (the reason code of MQTT 5 is not modelled here). -/
  | pubrec (now : Nat) (pid : Pid)
  /-- `handle_pubcomp`: `v3/packet/publish.rs:132-139`, `v5/packet/publish.rs:264-271`. -/
  | pubcomp (pid : Pid)
  /-- The session is taken up by a new connection: `v3/packet/connect.rs:121-126` (`none`),
  `v5/packet/connect.rs:235-241, 263-265` (`some receive_max`). -/
  | reconnect (receiveMax : Option Nat)

/-- One operation; the list is what the broker sends. -/
def Sender.step (exp : P → Option Nat) (s : Sender P) : SendOp P → Sender P × List (Sent P)
  | .deliver now packet =>
    -- `incr_server_packet_id` (`v3/session.rs:91-95`, `v5/session.rs:145-149`)
    ({ pending := (s.pending.cleanComplete.pushBack now s.nextPid packet).1
       nextPid := s.nextPid.next }, [])
  | .pass clk =>
    let r := s.pending.handlePendings exp clk
    ({ s with pending := r.1 }, r.2)
  | .puback pid => ({ s with pending := (s.pending.complete pid 1).1 }, [])
  | .pubrec now pid => ({ s with pending := (s.pending.pubrec now pid).1 }, [.pubrel pid])
  | .pubcomp pid => ({ s with pending := (s.pending.complete pid 2).1 }, [])
  | .reconnect m =>
    let q := s.pending.resetLastSent
    ({ s with pending := m.elim q q.setMaxInflight }, [])

/-- The state after a list of operations. -/
def Sender.exec (exp : P → Option Nat) (s : Sender P) (ops : List (SendOp P)) : Sender P :=
  ops.foldl (fun s op => (s.step exp op).1) s

/-- The operations together with what each of them sends. -/
def Sender.trace (exp : P → Option Nat) : Sender P → List (SendOp P) →
    List (SendOp P × List (Sent P))
  | _, [] => []
  | s, op :: ops => (op, (s.step exp op).2) :: Sender.trace exp (s.step exp op).1 ops

/-- Everything sent during a list of operations. -/
def Sender.outs (exp : P → Option Nat) (s : Sender P) (ops : List (SendOp P)) : List (Sent P) :=
  (s.trace exp ops).flatMap Prod.snd

end Akasa

import Verif.Spec.Session
import Verif.Spec.Pending
import Verif.Spec.Route
/-!
# What a session has to pass on to its client

A session gets messages from other sessions (`NormalMsg`, with the filters that led to it and the
granted QoS) and, when the client subscribes, retained messages.  This file says which of them are
due to the client and in which form, what else acts on the outgoing queue, and what it means that
packets on the wire carry given messages.
-/
namespace Akasa

/-! ## The parts of a message from another session -/

def NormalMsg.topic : NormalMsg → Str
  | .publishV3 _ _ topic _ _ _ _ => topic
  | .publishV5 _ _ topic _ _ _ _ _ => topic

def NormalMsg.payload : NormalMsg → Bytes
  | .publishV3 _ _ _ payload _ _ _ => payload
  | .publishV5 _ _ _ payload _ _ _ _ => payload

def NormalMsg.retain : NormalMsg → Bool
  | .publishV3 retain _ _ _ _ _ _ => retain
  | .publishV5 retain _ _ _ _ _ _ _ => retain

/-- The QoS it was published with. -/
def NormalMsg.qos : NormalMsg → QoS
  | .publishV3 _ qos _ _ _ _ _ => qos
  | .publishV5 _ qos _ _ _ _ _ _ => qos

/-- The QoS granted for the filters (their maximum) when it was routed. -/
def NormalMsg.granted : NormalMsg → QoS
  | .publishV3 _ _ _ _ _ q _ => q
  | .publishV5 _ _ _ _ _ q _ _ => q

/-- The filters because of which it was routed to this client. -/
def NormalMsg.filters : NormalMsg → List Str
  | .publishV3 _ _ _ _ filter _ _ => [filter]
  | .publishV5 _ _ _ _ filters _ _ _ => filters

/-- MQTT 3 messages have no properties. -/
def NormalMsg.props : NormalMsg → PubProps
  | .publishV3 _ _ _ _ _ _ _ => {}
  | .publishV5 _ _ _ _ _ _ props _ => props

/-- Its size as an MQTT 5 packet (an MQTT 3 packet grows by the length byte of the properties). -/
def NormalMsg.size : NormalMsg → Nat
  | .publishV3 _ _ _ _ _ _ n => n + 1
  | .publishV5 _ _ _ _ _ _ _ n => n

/-- The size when it is sent with QoS `final` instead of `qos` (a QoS 0 packet has no packet
identifier). -/
def sizeAt (size : Nat) (qos final : QoS) : Nat :=
  if final = 0 ∧ qos ≠ 0 then size - 2 else size

/-- The subscriptions of the session that led to the message and still exist. -/
def Session.held (s : Session) (m : NormalMsg) : List SubData :=
  m.filters.filterMap s.subscribes.get

/-! ## Messages due -/

/-- The message due to an MQTT 5 client for a message from another session: none if no subscription
is left or the packet is larger than the client accepts. -/
def dueV5 (cfg : Config) (s : Session) (m : NormalMsg) : Option PubPacket :=
  if s.held m = [] then none
  else if s.maxPacketSize < sizeAt m.size m.qos (min m.qos m.granted) then none
  else some {
    topic := m.topic
    payload := m.payload
    qos := min m.qos m.granted
    retain := m.retain && cfg.retainAvailable && (s.held m).any (·.opts.retainAsPublished)
    props := { m.props with subscriptionIds := ((s.held m).filterMap (·.id)).eraseDups } }

/-- The message due to an MQTT 3 client, as the code has it: only the first of the filters is
looked at (compare C31). -/
def dueV3 (s : Session) (m : NormalMsg) : Option PubPacket :=
  match m.filters with
  | [] => none
  | F :: _ =>
    if s.subscribes.get F = none then none
    else some {
      topic := m.topic
      payload := m.payload
      qos := min m.qos m.granted
      retain := m.retain }

/-- The message due for a message from another session. -/
def dueOf (cfg : Config) (pr : Proto) (s : Session) (m : NormalMsg) : Option PubPacket :=
  match pr with
  | .v3 => dueV3 s m
  | .v5 => dueV5 cfg s m

/-- Which filters of a SUBSCRIBE are accepted (MQTT 5). -/
def Accepts (cfg : Config) (F : Str) : Prop :=
  (cfg.sharedAvailable = true ∨ IsPlain F) ∧
  (cfg.wildcardAvailable = true ∨ ('+' ∉ F ∧ '#' ∉ F))

instance (cfg : Config) (F : Str) : Decidable (Accepts cfg F) := by
  unfold Accepts IsPlain; infer_instance

/-- Are the retained messages for an accepted filter to be sent?  `known` says that the client was
already subscribed to it (MQTT 5, retain handling). -/
def WantsRetained (cfg : Config) (F : Str) (o : SubOpts) (known : Prop) : Prop :=
  cfg.retainAvailable = true ∧ IsPlain F ∧
  (o.retainHandling = .sendAtSubscribe ∨ (o.retainHandling = .sendAtSubscribeIfNotExist ∧ ¬ known))

instance (cfg : Config) (F : Str) (o : SubOpts) (known : Prop) [Decidable known] :
    Decidable (WantsRetained cfg F o known) := by
  unfold WantsRetained IsPlain; infer_instance

/-- The size of a retained message as an MQTT 5 packet. -/
def RetainContent.size (c : RetainContent) : Nat :=
  if c.props = none then c.encodeLen + 1 else c.encodeLen

/-- The form in which a retained message is due to an MQTT 5 client: none if it is the client's own
message and the subscription is no-local, or it is larger than the client accepts. -/
def retainedCopyV5 (cfg : Config) (s : Session) (o : SubOpts) (id : Option Nat)
    (c : RetainContent) : Option PubPacket :=
  if o.noLocal = true ∧ c.publisher = s.identifier then none
  else if s.maxPacketSize < sizeAt c.size c.qos (min c.qos (min o.maxQos cfg.maxAllowedQos)) then
    none
  else some {
    topic := c.topic
    payload := c.payload
    qos := min c.qos (min o.maxQos cfg.maxAllowedQos)
    retain := o.retainAsPublished
    props := { c.props.getD {} with subscriptionIds := id.toList } }

/-- The form in which a retained message is due to an MQTT 3 client, as the code has it: none if
its QoS is larger than the granted one (compare C34). -/
def retainedCopyV3 (cfg : Config) (q : QoS) (c : RetainContent) : Option PubPacket :=
  if min q cfg.maxAllowedQos < c.qos then none
  else some { topic := c.topic, payload := c.payload, qos := c.qos, retain := true }

/-- The retained messages stored for a filter. -/
def Global.stored (g : Global) (F : Str) : List RetainContent := (g.retain.getMatches F).getD []

/-- The retained messages due for one filter of a SUBSCRIBE (MQTT 5). -/
def retainedV5 (cfg : Config) (g : Global) (s : Session) (id : Option Nat) (earlier : List Str)
    (F : Str) (o : SubOpts) : List PubPacket :=
  if Accepts cfg F ∧
      WantsRetained cfg F o (s.subscribes.get F ≠ none ∨ F ∈ earlier) then
    (g.stored F).filterMap (retainedCopyV5 cfg s o id)
  else []

/-- The retained messages due for the filters of a SUBSCRIBE, one after the other (MQTT 5).
`earlier` are the filters before them in the packet. -/
def retainedDueV5 (cfg : Config) (g : Global) (s : Session) (id : Option Nat) :
    List Str → List (Str × SubOpts) → List PubPacket
  | _, [] => []
  | earlier, (F, o) :: rest =>
    retainedV5 cfg g s id earlier F o ++ retainedDueV5 cfg g s id (F :: earlier) rest

/-- The retained messages due for the filters of a SUBSCRIBE (MQTT 3); a shared filter ends the
connection. -/
def retainedDueV3 (cfg : Config) (g : Global) : List (Str × SubOpts) → List PubPacket
  | [] => []
  | (F, o) :: rest =>
    if IsPlain F then
      (g.stored F).filterMap (retainedCopyV3 cfg o.maxQos) ++ retainedDueV3 cfg g rest
    else []

/-! ## Everything that acts on what is sent to the client -/

/-- A message for the client, an acknowledgement by the client, or a new connection. -/
inductive Input where
  | message (p : PubPacket)
  | puback (pid : Pid)
  | pubrec (pid : Pid)
  | pubcomp (pid : Pid)
  | reconnect (receiveMax : Option Nat)
deriving DecidableEq, Repr

/-- What a received packet contributes. -/
def InPkt.inputs (cfg : Config) (pr : Proto) (g : Global) (s : Session) : InPkt → List Input
  | .puback pid => [.puback pid]
  | .pubrec pid => [.pubrec pid]
  | .pubcomp pid => [.pubcomp pid]
  | .subscribe _ topics id =>
    match pr with
    | .v3 => (retainedDueV3 cfg g topics).map .message
    | .v5 =>
      if id = some 0 ∨ (cfg.subscriptionIdAvailable = false ∧ id ≠ none) then []
      else (retainedDueV5 cfg g s id [] topics).map .message
  | _ => []

/-- The inputs of a step of a session. -/
def Rec.inputs (cfg : Config) (pr : Proto) (r : Rec) : List Input :=
  match r.ev with
  | .packet _ size p =>
    if r.pre.online && !r.pre.session.disconnected && decide (size ≤ cfg.maxPacketSizeServer) then
      p.inputs cfg pr r.before r.pre.session
    else []
  | .normal m =>
    if r.pre.online && !r.pre.session.disconnected then
      ((dueOf cfg pr r.pre.session m).map Input.message).toList
    else []
  | .offline m =>
    if r.pre.online then []
    else
      (((dueOf cfg pr r.pre.session m).filter fun p => decide (p.qos ≠ 0)).map Input.message).toList
  | .passed _ _ => []
  | .lost => []
  | .resume c =>
    match pr with
    | .v3 => [.reconnect none]
    | .v5 => [.reconnect (some c.receiveMax)]

/-- What a session does about the messages for its client: a QoS 0 message is sent at once, all
else concerns the queue. -/
inductive OutOp where
  | direct (p : PubPacket)
  | queue (op : SendOp PubPacket)

/-- The operation carries out this input (a sending pass carries out none). -/
def OutOp.input : OutOp → Option Input
  | .direct p => some (.message p)
  | .queue (.deliver _ p) => some (.message p)
  | .queue (.pass _) => none
  | .queue (.puback pid) => some (.puback pid)
  | .queue (.pubrec _ pid) => some (.pubrec pid)
  | .queue (.pubcomp pid) => some (.pubcomp pid)
  | .queue (.reconnect m) => some (.reconnect m)

/-- The operations on the queue among them. -/
def queueOps : List OutOp → List (SendOp PubPacket)
  | [] => []
  | .direct _ :: ops => queueOps ops
  | .queue op :: ops => op :: queueOps ops

/-- The clocks read by the sending passes among them. -/
def passClocks : List OutOp → List Clock
  | [] => []
  | .queue (.pass clk) :: ops => clk :: passClocks ops
  | _ :: ops => passClocks ops

/-- Everything sent: QoS 0 messages at once (they have no packet identifier), the rest by the
queue. -/
def sends (exp : PubPacket → Option Nat) : Sender PubPacket → List OutOp → List (Sent PubPacket)
  | _, [] => []
  | s, .direct p :: ops => .publish 0 p false p.props.messageExpiry :: sends exp s ops
  | s, .queue op :: ops => (s.step exp op).2 ++ sends exp (s.step exp op).1 ops

/-- QoS 0 messages are sent at once, the others are queued. -/
def RightWay (ops : List OutOp) : Prop :=
  (∀ p, .direct p ∈ ops → p.qos = 0) ∧ (∀ now p, .queue (.deliver now p) ∈ ops → p.qos ≠ 0)

/-- Message expiry exists in MQTT 5 only. -/
def expiryOf : Proto → PubPacket → Option Nat
  | .v3 => expiryV3
  | .v5 => expiryV5

/-- The QoS and packet identifier fields of a PUBLISH with the message. -/
def PubPacket.qosPid (p : PubPacket) (pid : Pid) : QosPid :=
  if p.qos = 0 then .level0 else if p.qos = 1 then .level1 pid else .level2 pid

/-- The packet on the wire is that packet.  In MQTT 5 the topic may be replaced by an alias (that
it stands for the right topic is C24); in MQTT 3 there are no properties. -/
def Carries (pr : Proto) : Sent PubPacket → OutPkt → Prop
  | .publish pid p dup expiry, .publish w =>
    w.dup = dup ∧ w.qosPid = p.qosPid pid ∧ w.retain = p.retain ∧ w.payload = p.payload ∧
    match pr with
    | .v3 => w.topic = p.topic ∧ w.props = {}
    | .v5 =>
      (w.topic = p.topic ∨ (w.topic = [] ∧ w.props.topicAlias ≠ none)) ∧
      w.props = { p.props with messageExpiry := expiry, topicAlias := w.props.topicAlias }
  | .pubrel pid, .pubrel pid' _ => pid' = pid
  | _, _ => False

/-- The packets on the wire are those packets, in order. -/
inductive CarriesAll (pr : Proto) : List (Sent PubPacket) → List OutPkt → Prop
  | nil : CarriesAll pr [] []
  | cons {x : Sent PubPacket} {o : OutPkt} {xs : List (Sent PubPacket)} {os : List OutPkt} :
      Carries pr x o → CarriesAll pr xs os → CarriesAll pr (x :: xs) (o :: os)

/-- The steps that end with a sending pass: a packet was handled and the connection stays, a
message was queued, or a connection was made. -/
def Rec.flushes (cfg : Config) (pr : Proto) (r : Rec) : Prop :=
  match r.ev with
  | .packet _ _ _ =>
    r.received ≠ none ∧ r.res.closed = false ∧ r.post.session.disconnected = false
  | .normal _ => ∃ p, r.inputs cfg pr = [.message p] ∧ p.qos ≠ 0
  | .offline _ => False
  | .passed _ _ => False
  | .lost => False
  | .resume _ => True

/-- The clocks of a step for sending passes, in the order in which they are read: there can be one
pass for each of the first `n` filters of a SUBSCRIBE and one after the packet; one when a message
is taken from the inbox or a connection is made; otherwise there is none. -/
def Rec.clocks (r : Rec) (n : Nat) : List Clock :=
  match r.ev with
  | .packet after _ _ => (List.range n).map r.env.clk ++ [after]
  | .normal _ => [r.env.clk 0]
  | .resume _ => [r.env.clk 0]
  | _ => []

/-- The operations work off the inputs of a step, and account for all PUBLISH and PUBREL packets
sent in it and for the queue afterwards.  Acknowledgements and a new connection are acted on before
anything is sent.  If the connection is ended because of a packet that must
not be sent, packets produced in the step are lost. -/
structure WorksOff (cfg : Config) (pr : Proto) (r : Rec) (ops : List OutOp) : Prop where
  inputs : ops.filterMap OutOp.input = r.inputs cfg pr
  prompt : ∀ i ∈ r.inputs cfg pr, (∃ p, i = .message p) ∨ ∃ op rest, ops = op :: rest ∧ op.input = some i
  way : RightWay ops
  queue : r.post.session.sender = r.pre.session.sender.exec (expiryOf pr) (queueOps ops)
  wire : r.res.closed = false →
    CarriesAll pr (sends (expiryOf pr) r.pre.session.sender ops)
      (r.res.out.filter OutPkt.isDelivery)
  lost : r.res.closed = true → r.res.out = []
  flush : r.flushes cfg pr → ∃ ops' clk, ops = ops' ++ [.queue (.pass clk)]
  clocks : ∃ n, (passClocks ops).Sublist (r.clocks n)

/-- The message of an input. -/
def Input.message? : Input → Option PubPacket
  | .message p => some p
  | _ => none

/-- The messages due to the client in a step. -/
def Rec.messages (cfg : Config) (pr : Proto) (r : Rec) : List PubPacket :=
  (r.inputs cfg pr).filterMap Input.message?

/-- The message that is sent or queued by an operation. -/
def OutOp.message? : OutOp → Option PubPacket
  | .direct p => some p
  | .queue (.deliver _ p) => some p
  | _ => none

/-- The messages sent or queued. -/
def messagesOf (ops : List OutOp) : List PubPacket := ops.filterMap OutOp.message?

/-- In this step the session passes exactly the messages `ms` on to its client, in this order: with
QoS 0 they are sent at once, otherwise they are put into the queue; and this accounts for all
PUBLISH and PUBREL packets sent and for the queue afterwards. -/
def PassesOn (pr : Proto) (r : Rec) (ms : List PubPacket) : Prop :=
  ∃ ops, messagesOf ops = ms ∧ RightWay ops ∧
    r.post.session.sender = r.pre.session.sender.exec (expiryOf pr) (queueOps ops) ∧
    (r.res.closed = false →
      CarriesAll pr (sends (expiryOf pr) r.pre.session.sender ops)
        (r.res.out.filter OutPkt.isDelivery)) ∧
    (r.res.closed = true → r.res.out = [])

/-! ## Whole runs -/

/-- The operations of a run, step by step. -/
inductive Log (cfg : Config) (pr : Proto) : List Rec → List OutOp → Prop
  | nil : Log cfg pr [] []
  | cons {r : Rec} {recs : List Rec} {ops rest : List OutOp} :
      WorksOff cfg pr r ops → Log cfg pr recs rest → Log cfg pr (r :: recs) (ops ++ rest)

/-- A PUBLISH with QoS 1 or 2 that is not marked as a retransmission. -/
def OutPkt.isFirst : OutPkt → Bool
  | .publish w => !w.dup && decide (w.qosPid ≠ .level0)
  | _ => false

/-- The receive maximum of a connection: announced by the client (MQTT 5) or configured. -/
def windowOf (cfg : Config) (pr : Proto) (c : ConnParams) : Nat :=
  match pr with
  | .v3 => cfg.maxInflightClient
  | .v5 => c.receiveMax

/-- Add the packet identifiers of the PUBLISH packets sent. -/
def addSent (l : List Pid) : List OutPkt → List Pid
  | [] => l
  | .publish w :: out =>
    match w.qosPid with
    | .level0 => addSent l out
    | .level1 pid => addSent (if pid ∈ l then l else pid :: l) out
    | .level2 pid => addSent (if pid ∈ l then l else pid :: l) out
  | _ :: out => addSent l out

/-- The packet identifiers of the PUBLISH packets that the client has got on the present connection
and not acknowledged by PUBACK or PUBCOMP, before and after a step. -/
def Rec.unanswered (l : List Pid) (r : Rec) : List Pid :=
  addSent
    (match r.ev with
     | .resume _ => []
     | _ =>
       match r.received with
       | some (.puback pid) => l.filter (· ≠ pid)
       | some (.pubcomp pid) => l.filter (· ≠ pid)
       | _ => l)
    r.res.out

/-- See `Rec.unanswered`. -/
def unanswered (recs : List Rec) : List Pid := recs.foldl Rec.unanswered []

end Akasa

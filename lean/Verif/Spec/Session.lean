import Verif.Model.Online
/-!
# Vocabulary for what one session receives, sends and passes on

All notions are read off the recorded steps of a session: the packets it received, the packets it
sent, the messages it handed to routing.
-/
namespace Akasa

/-- The packet the broker read from the client in a step (none is read while there is no connection
or once the connection is being closed). -/
def Rec.received (r : Rec) : Option InPkt :=
  match r.ev with
  | .packet _ _ p => if r.pre.online && !r.pre.session.disconnected then some p else none
  | _ => none

/-- The state at the end of a list of records. -/
def endOf (p : Peer) : List Rec → Peer
  | [] => p
  | r :: rs => endOf r.post rs

/-- The PUBLISH received in a step. -/
def Rec.publish? (r : Rec) : Option Publish :=
  match r.received with
  | some (.publish p) => some p
  | _ => none

/-- The packet identifier of the QoS 2 PUBLISH received in a step. -/
def Rec.qos2Pid (r : Rec) : Option Pid :=
  match r.publish? with
  | some p =>
    match p.qosPid with
    | .level2 pid => some pid
    | _ => none
  | none => none

/-- The packet is a PUBREC for the identifier with a reason code that takes over responsibility for
the message. -/
def OutPkt.isPubrecOk (pid : Pid) : OutPkt → Bool
  | .pubrec pid' .success => decide (pid' = pid)
  | .pubrec pid' .noMatchingSubscribers => decide (pid' = pid)
  | _ => false

/-- The packet is a PUBCOMP for the identifier. -/
def OutPkt.isPubcomp (pid : Pid) : OutPkt → Bool
  | .pubcomp pid' _ => decide (pid' = pid)
  | _ => false

/-- The identifier of the QoS 2 PUBLISH received in a step and answered with a PUBREC without
error. -/
def Rec.accepted (r : Rec) : Option Pid :=
  match r.qos2Pid with
  | some pid => if r.res.out.any (·.isPubrecOk pid) then some pid else none
  | none => none

/-- The identifier of the PUBREL received in a step and answered with PUBCOMP. -/
def Rec.released (r : Rec) : Option Pid :=
  match r.received with
  | some (.pubrel pid) => if r.res.out.any (·.isPubcomp pid) then some pid else none
  | _ => none

/-- The messages handed to routing because of QoS 2 packets with the given identifier. -/
def routedFor (pid : Pid) (l : List Rec) : List SendPub :=
  (l.filter fun r => decide (r.qos2Pid = some pid)).flatMap fun r => r.res.routed

/-- The incoming QoS 2 identifiers accepted and not yet released after the given steps. -/
def unreleased (recs : List Rec) : List Pid :=
  recs.foldl (fun l r =>
    match r.accepted with
    | some pid => if pid ∈ l then l else pid :: l
    | none =>
      match r.released with
      | some pid => l.filter fun x => x ≠ pid
      | none => l) []

/-- The topic bound to an alias by the client on the current connection: the topic of the latest
PUBLISH received since the last reconnect that carried the alias together with a topic. -/
def boundTopic (recs : List Rec) (alias : Nat) : Option Str :=
  recs.foldl (fun b r =>
    match r.ev with
    | .resume _ => none
    | _ =>
      match r.publish? with
      | some p => if p.props.topicAlias = some alias ∧ p.topic ≠ [] then some p.topic else b
      | none => b) none

/-- A message as it is kept in the retained store (MQTT 3 messages have no properties). -/
def SendPub.toRetain (m : SendPub) (pr : Proto) (publisher : Str) : RetainContent :=
  { publisher, qos := m.qos, topic := m.topic, payload := m.payload, encodeLen := m.encodeLen
    props := match pr with
      | .v3 => none
      | .v5 => some m.props }

/-- The broker ended the connection in this step with a DISCONNECT and passed nothing on. -/
def Rec.rejects (r : Rec) : Prop :=
  r.res.routed = [] ∧ (∃ code, r.res.out = [.disconnect code]) ∧ r.post.session.disconnected = true

/-- PUBLISH and PUBREL packets (deliveries to the client, which may follow any answer). -/
def OutPkt.isDelivery : OutPkt → Bool
  | .publish _ => true
  | .pubrel _ _ => true
  | _ => false

/-- The answer that a PUBLISH demands: none for QoS 0, one PUBACK for QoS 1, one PUBREC for QoS 2,
with its packet identifier and the given reason. -/
def Publish.answer (p : Publish) (code : Reason) : List OutPkt :=
  match p.qosPid with
  | .level0 => []
  | .level1 pid => [.puback pid code]
  | .level2 pid => [.pubrec pid code]

/-- The packet identifiers of the messages in the sending window that the client has not
acknowledged in any way. -/
def Session.unacked (s : Session) : List Pid :=
  (s.sender.pending.packets.take s.sender.pending.maxInflight).filterMap fun e =>
    match e with
    | .new _ _ pid _ _ => some pid
    | _ => none

end Akasa

import Verif.Model.Fanout
/-!
# Delivering a message to the client of a session (`recv_publish`, `handle_normal`,
`handle_pendings`)
-/
namespace Akasa

/-- `v5/packet/publish.rs:277-281` `SubscriptionIds`. -/
inductive SubIds where
  | lookup (filter : Str)
  | precomputed (ids : List Nat)
deriving DecidableEq, Repr

/-- `v5/packet/publish.rs:283-295` `RecvPublish` (MQTT 5). -/
structure RecvPub where
  topic : Str
  qos : QoS
  retain : Bool
  payload : Bytes
  props : Option PubProps
  ids : SubIds
  subQos : QoS
  encodeLen : Nat
deriving DecidableEq, Repr

/-- The message expiry interval of a queued message. -/
def expiryV5 (p : PubPacket) : Option Nat := p.props.messageExpiry

/-- MQTT 3 has no message expiry. -/
def expiryV3 (_ : PubPacket) : Option Nat := none

/-- `incr_server_packet_id`, `clean_complete`, `push_back`: `v3/packet/publish.rs:247-259`,
`v5/packet/publish.rs:459-471`. -/
def Session.enqueue (s : Session) (now : Nat) (p : PubPacket) : Session :=
  { s with sender :=
      { pending := (s.sender.pending.cleanComplete.pushBack now s.sender.nextPid p).1
        nextPid := s.sender.nextPid.next } }

/-- `v5/packet/publish.rs:454-509`: the part of `recv_publish` after the subscription
identifiers. -/
def deliverV5 (now : Nat) (s : Session) (m : RecvPub) (props : PubProps) :
    Session × Option (QoS × Option OutPkt) :=
  let finalQos := min m.qos m.subQos
  if finalQos ≠ 0 then
    if m.encodeLen > s.maxPacketSize then (s, none)
    else
      (s.enqueue now { topic := m.topic, qos := finalQos, retain := m.retain,
                       payload := m.payload, props }, some (finalQos, none))
  else if !s.clientDisconnected && !s.serverDisconnected then
    let encodeLen := if m.qos > 0 then m.encodeLen - 2 else m.encodeLen
    if encodeLen > s.maxPacketSize then (s, none)
    else
      let r := s.outAliases.apply s.aliasMax m.topic props.topicAlias
      ({ s with outAliases := r.1 }, some (finalQos, some (.publish {
          dup := false, qosPid := .level0, retain := m.retain, topic := r.2.1,
          payload := m.payload, props := { props with topicAlias := r.2.2 } })))
  else (s, none)

/-- `v5/packet/publish.rs:436-510` `recv_publish`. -/
def recvPublishV5 (now : Nat) (s : Session) (m : RecvPub) :
    Session × Option (QoS × Option OutPkt) :=
  let props := m.props.getD {}
  match m.ids with
  | .precomputed ids => deliverV5 now s m { props with subscriptionIds := ids }
  | .lookup filter =>
    match s.subscribes.get filter with
    | none => (s, none)
    | some sub => deliverV5 now s m { props with subscriptionIds := sub.id.toList }

/-- `v5/message.rs:855-868`: the loop over the filters of a message: is one still subscribed, is
retain-as-published set for one of them, their distinct subscription identifiers. -/
def gatherSubs (s : Session) : List Str → Bool × Bool × List Nat → Bool × Bool × List Nat
  | [], acc => acc
  | f :: fs, (has, rap, ids) =>
    match s.subscribes.get f with
    | none => gatherSubs s fs (has, rap, ids)
    | some sub =>
      gatherSubs s fs (true, rap || sub.opts.retainAsPublished,
        match sub.id with
        | some id => if id ∈ ids then ids else ids ++ [id]
        | none => ids)

/-- `v5/message.rs:796-891` `handle_normal`. -/
def handleNormalV5 (cfg : Config) (now : Nat) (s : Session) :
    NormalMsg → Session × Option (QoS × Option OutPkt)
  | .publishV3 retain qos topic payload filter subQos encodeLen =>
    match s.subscribes.get filter with
    | none => (s, none)
    | some sub =>
      recvPublishV5 now s {
        topic, qos, payload, subQos, props := none, ids := .lookup filter
        retain := if !cfg.retainAvailable || !sub.opts.retainAsPublished then false else retain
        encodeLen := encodeLen + 1 }
  | .publishV5 retain qos topic payload filters subQos props encodeLen =>
    let r := gatherSubs s filters (false, false, [])
    if !r.1 then (s, none)
    else
      recvPublishV5 now s {
        topic, qos, payload, subQos, encodeLen, props := some props, ids := .precomputed r.2.2
        retain := if !cfg.retainAvailable || !r.2.1 then false else retain }

/-- `v3/packet/publish.rs:236-273` `recv_publish`. -/
def recvPublishV3 (now : Nat) (s : Session) (topic : Str) (qos : QoS) (retain : Bool)
    (payload : Bytes) (filter : Str) (subQos : QoS) : Session × Option (QoS × Option OutPkt) :=
  if !s.subscribes.contains filter then (s, none)
  else
    let finalQos := min qos subQos
    if finalQos ≠ 0 then
      (s.enqueue now { topic, qos := finalQos, retain, payload }, some (finalQos, none))
    else if !s.clientDisconnected then
      (s, some (finalQos, some (.publish {
        dup := false, qosPid := .level0, retain, topic, payload })))
    else (s, none)

/-- `v3/message.rs:583-643` `handle_normal`. -/
def handleNormalV3 (now : Nat) (s : Session) : NormalMsg → Session × Option (QoS × Option OutPkt)
  | .publishV3 retain qos topic payload filter subQos _ =>
    recvPublishV3 now s topic qos retain payload filter subQos
  | .publishV5 retain qos topic payload filters subQos _ _ =>
    match filters.head? with
    | none => (s, none)
    | some filter => recvPublishV3 now s topic qos retain payload filter subQos

/-- The packets of `handle_pendings` in the form of `OutPkt`. -/
def OutPkt.ofWire : Publish ⊕ Pid → OutPkt
  | .inl p => .publish p
  | .inr pid => .pubrel pid .success

/-- `v5/packet/common.rs:152-241` `handle_pendings`. -/
def handlePendingsV5 (clk : Clock) (s : Session) : Session × List OutPkt :=
  let r := s.sender.pending.handlePendings expiryV5 clk
  let w := toWireAllV5 s.aliasMax s.outAliases r.2
  ({ s with sender := { s.sender with pending := r.1 }, outAliases := w.1 }, w.2.map OutPkt.ofWire)

/-- `v3/packet/common.rs:22-60` `handle_pendings`. -/
def handlePendingsV3 (clk : Clock) (s : Session) : Session × List OutPkt :=
  let r := s.sender.pending.handlePendings expiryV3 clk
  ({ s with sender := { s.sender with pending := r.1 } },
    r.2.map fun x => OutPkt.ofWire (toWireV3 x))

end Akasa

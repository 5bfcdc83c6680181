import Verif.Model.Alias
import Verif.Model.Route
import Verif.Model.Retain
/-!
# Session, configuration and shared state as seen by the packet handlers

`Session` merges `v3/session.rs:15-40` and `v5/session.rs:20-75`; fields that only MQTT 5 has keep
their initial value in an MQTT 3 session.  Fields that only serve logging, statistics and hooks
(`peer`, `username`, `connected_time`, `user_properties`, ...) are left out.
-/
namespace Akasa

/-- `cmp::min` and `cmp::max` on `mqtt_proto::QoS`. -/
instance : Min QoS := minOfLe
instance : Max QoS := maxOfLe

/-- The fields of `config.rs` `Config` that the packet handlers read.  `maxAllowedQos` is the result
of `max_allowed_qos()` (`config.rs:299-306`). -/
structure Config where
  maxAllowedQos : QoS := 2
  inflightTimeout : Nat := 15
  maxInflightClient : Nat := 10
  maxInflightServer : Nat := 10
  maxInMemPending : Nat := 256
  maxPacketSizeClient : Nat := 65536
  maxPacketSizeServer : Nat := 65536
  topicAliasMax : Nat := 65535
  retainAvailable : Bool := true
  sharedAvailable : Bool := true
  subscriptionIdAvailable : Bool := true
  wildcardAvailable : Bool := true
deriving DecidableEq, Repr

/-- `mqtt_proto::v5::RetainHandling`. -/
inductive RetainHandling where
  | sendAtSubscribe
  | sendAtSubscribeIfNotExist
  | doNotSend
deriving DecidableEq, Repr

/-- `mqtt_proto::v5::SubscriptionOptions`. -/
structure SubOpts where
  maxQos : QoS
  noLocal : Bool := false
  retainAsPublished : Bool := false
  retainHandling : RetainHandling := .sendAtSubscribe
deriving DecidableEq, Repr

/-- `v5/session.rs:158-168` `SubscriptionData`.  In an MQTT 3 session (`subscribes:
HashMap<TopicFilter, QoS>`, `v3/session.rs`) only `opts.maxQos` is meaningful. -/
structure SubData where
  opts : SubOpts
  id : Option Nat := none
deriving DecidableEq, Repr

/-- `state.rs:242-265` `NormalMessage`. -/
inductive NormalMsg where
  | publishV3 (retain : Bool) (qos : QoS) (topic : Str) (payload : Bytes) (filter : Str)
      (subQos : QoS) (encodeLen : Nat)
  | publishV5 (retain : Bool) (qos : QoS) (topic : Str) (payload : Bytes) (filters : List Str)
      (subQos : QoS) (props : PubProps) (encodeLen : Nat)
deriving DecidableEq, Repr

/-- `mqtt_proto` `LastWill` (v3 and v5); `delay` is the will delay interval of MQTT 5. -/
structure Will where
  topic : Str
  payload : Bytes
  qos : QoS
  retain : Bool
  props : PubProps := {}
  delay : Option Nat := none
deriving DecidableEq, Repr

/-- Reason codes of MQTT 5 used by the handlers (`mqtt_proto::v5::*ReasonCode`). -/
inductive Reason where
  | success
  | grantedQos (q : QoS)
  | noMatchingSubscribers
  | noSubscriptionExisted
  | malformedPacket
  | protocolError
  | topicNameInvalid
  | topicAliasInvalid
  | packetIdentifierInUse
  | packetIdentifierNotFound
  | receiveMaximumExceeded
  | packetTooLarge
  | sharedSubscriptionNotSupported
  | wildcardSubscriptionsNotSupported
  | subscriptionIdentifiersNotSupported
  /-- any other code, as returned by a hook -/
  | other (code : Nat)
deriving DecidableEq, Repr

/-- Packets a client sends after CONNECT (`mqtt_proto::v3::Packet`, `mqtt_proto::v5::Packet`).
`invalid` stands for all packets a client must not send at that point (CONNECT, CONNACK, SUBACK,
...).  Reason codes and properties of acknowledgements are ignored by the handlers. -/
inductive InPkt where
  | publish (p : Publish)
  | puback (pid : Pid)
  | pubrec (pid : Pid)
  | pubrel (pid : Pid)
  | pubcomp (pid : Pid)
  | subscribe (pid : Pid) (topics : List (Str × SubOpts)) (subscriptionId : Option Nat)
  | unsubscribe (pid : Pid) (topics : List Str)
  | pingreq
  | disconnect (reason : Reason) (expiry : Option Nat)
  | invalid
deriving DecidableEq, Repr

/-- Packets the broker sends after CONNACK.  For MQTT 3 the reasons are `success` (the packets have
no reason code) and an UNSUBACK has no list. -/
inductive OutPkt where
  | publish (p : Publish)
  | puback (pid : Pid) (reason : Reason)
  | pubrec (pid : Pid) (reason : Reason)
  | pubrel (pid : Pid) (reason : Reason)
  | pubcomp (pid : Pid) (reason : Reason)
  | suback (pid : Pid) (codes : List Reason)
  | unsuback (pid : Pid) (codes : List Reason)
  | pingresp
  | disconnect (reason : Reason)
deriving DecidableEq, Repr

/-- `v3/session.rs:15-40`, `v5/session.rs:20-75`. `disconnected` of MQTT 3 is
`clientDisconnected`. -/
structure Session where
  clientId : ClientId
  identifier : Str
  /-- `pending_packets` and `server_packet_id` -/
  sender : Sender PubPacket
  /-- `qos2_pids` -/
  qos2 : FMap Pid Nat := []
  subscribes : FMap Str SubData := []
  /-- `topic_aliases` (incoming) -/
  aliases : FMap Nat Str := []
  /-- outgoing aliases -/
  outAliases : AliasTable := {}
  /-- `topic_alias_max`: the maximum announced by the client -/
  aliasMax : Nat := 0
  maxPacketSize : Nat := 65536
  clientDisconnected : Bool := false
  serverDisconnected : Bool := false
  /-- `broadcast_packets`: copies waiting to be passed to other sessions -/
  bcast : FMap ClientId (List NormalMsg) := []
  /-- `broadcast_packets_cnt` -/
  bcastCnt : Nat := 0
  will : Option Will := none
  expiryInterval : Nat := 0
deriving DecidableEq, Repr

/-- The shared tables used by the packet handlers (`state.rs:19-40`); `registered` says for which
clients `get_client_normal_sender` (`state.rs:125-132`) yields a sender. -/
structure Global where
  route : RouteTable
  retain : RetainTable
  registered : ClientId → Bool

/-- Functions outside the repository: the hash of a PUBLISH (`packet.hash(&mut AHasher)`) and its
encoded length (`total_len(packet.encode_len())`).  They are arbitrary in all theorems. -/
structure Ext where
  hash : Publish → Nat
  encLen : Publish → Nat

/-- Values read during one event: `now i j` is the clock reading when the `j`-th message of the
`i`-th filter is queued, `clk i` the readings of the `i`-th call of `handle_pendings`, and
`pick group filter` the number with which a member of a shared group is selected (a random number
or a hash, `v5/packet/publish.rs:376-384`).  They are arbitrary in all theorems. -/
structure Env where
  now : Nat → Nat → Nat := fun _ _ => 0
  clk : Nat → Clock := fun _ => Clock.const 0
  pick : Str → Str → Nat := fun _ _ => 0

/-- `v3/packet/publish.rs:145-151`, `v5/packet/publish.rs:297-305` `SendPublish`: a message handed
to routing. -/
structure SendPub where
  qos : QoS
  retain : Bool
  topic : Str
  payload : Bytes
  props : PubProps := {}
  encodeLen : Nat := 0
deriving DecidableEq, Repr

/-- Result of handling one event. -/
structure Res where
  session : Session
  global : Global
  /-- packets for the client of this session, in order -/
  out : List OutPkt := []
  /-- the calls of `send_publish` made, in order (recorded for the specification only) -/
  routed : List SendPub := []
  /-- the handler returned an error that ends the connection (MQTT 3, and invalid packets) -/
  closed : Bool := false

end Akasa

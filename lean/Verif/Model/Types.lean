import Verif.Model.Topic
/-!
# Packet and message types of `mqtt_proto` used by the handlers

The crate `mqtt_proto` is external; only the fields that `akasa-core` reads or writes are kept.
-/
namespace Akasa

/-- `bytes::Bytes`. -/
abbrev Bytes := List UInt8

/-- Packet identifiers (`mqtt_proto::Pid`, a non-zero u16). -/
abbrev Pid := Nat

/-- `Pid::default()` is 1. -/
def Pid.first : Pid := 1

/-- `Pid += 1` of `mqtt_proto`: wraps from 65535 to 1. -/
def Pid.next (p : Pid) : Pid := if p = 65535 then 1 else p + 1

/-- `mqtt_proto::QosPid`. -/
inductive QosPid where
  | level0
  | level1 (pid : Pid)
  | level2 (pid : Pid)
deriving DecidableEq, Repr

/-- `QosPid::qos`. -/
def QosPid.qos : QosPid → QoS
  | .level0 => 0
  | .level1 _ => 1
  | .level2 _ => 2

/-- `mqtt_proto::v5::PublishProperties`.  An MQTT 3 message has the default properties. -/
structure PubProps where
  payloadIsUtf8 : Option Bool := none
  messageExpiry : Option Nat := none
  topicAlias : Option Nat := none
  responseTopic : Option Str := none
  correlationData : Option Bytes := none
  userProperties : List (Str × Str) := []
  subscriptionIds : List Nat := []
  contentType : Option Str := none
deriving DecidableEq, Repr

/-- `mqtt_proto::v3::Publish` / `mqtt_proto::v5::Publish`. -/
structure Publish where
  dup : Bool
  qosPid : QosPid
  retain : Bool
  topic : Str
  payload : Bytes
  props : PubProps := {}
deriving DecidableEq, Repr

/-- `v5/session.rs:170-177` (and `v3/session.rs`) `PubPacket`: a message in the pending queue. -/
structure PubPacket where
  topic : Str
  qos : QoS
  retain : Bool
  payload : Bytes
  props : PubProps := {}
deriving DecidableEq, Repr

end Akasa

import Verif.Spec.Publish
import Verif.Spec.OnlineLoop
/-!
# Vocabulary for why a connection is closed (C95)
-/
namespace Akasa

/-- What a client of MQTT 5 can do wrong with one packet, and the reason code that tells it so (MQTT 5,
2.4 and 3.14.2.1).  `bound` is the topic bound to an alias on this connection, `held` the identifiers
of its QoS 2 messages it has not released, `interval` the session expiry interval it asked for when
it connected, `size` the size of the packet. -/
inductive Fault (cfg : Config) (bound : Nat → Option Str) (held : List Pid) (interval size : Nat) :
    InPkt → Reason → Prop
  /-- larger than the broker announced to accept -/
  | tooLarge {pkt : InPkt} : cfg.maxPacketSizeServer < size →
      Fault cfg bound held interval size pkt .packetTooLarge
  /-- a topic that only the broker may publish to -/
  | reserved {p : Publish} : p.topic.head? = some '$' →
      Fault cfg bound held interval size (.publish p) .topicNameInvalid
  /-- a QoS 0 message that claims to be sent again -/
  | dup {p : Publish} : p.qosPid = .level0 → p.dup = true →
      Fault cfg bound held interval size (.publish p) .protocolError
  /-- an alias that is not allowed -/
  | badAlias {p : Publish} {a : Nat} : p.props.topicAlias = some a →
      a = 0 ∨ cfg.topicAliasMax < a →
      Fault cfg bound held interval size (.publish p) .topicAliasInvalid
  /-- neither a topic nor an alias that stands for one -/
  | noTopic {p : Publish} : p.topic = [] →
      (∀ a, p.props.topicAlias = some a → bound a = none) →
      Fault cfg bound held interval size (.publish p) .protocolError
  /-- subscription identifiers, which only the broker may send -/
  | ids {p : Publish} : p.props.subscriptionIds ≠ [] →
      Fault cfg bound held interval size (.publish p) .protocolError
  /-- a new message under an identifier that is in use -/
  | again {p : Publish} {pid : Pid} : p.qosPid = .level2 pid → pid ∈ held → p.dup = false →
      Fault cfg bound held interval size (.publish p) .protocolError
  /-- more messages at once than the broker announced to accept -/
  | many {p : Publish} {pid : Pid} : p.qosPid = .level2 pid → pid ∉ held →
      cfg.maxInflightServer ≤ held.length →
      Fault cfg bound held interval size (.publish p) .receiveMaximumExceeded
  /-- the subscription identifier zero -/
  | zeroId {pid : Pid} {topics : List (Str × SubOpts)} :
      Fault cfg bound held interval size (.subscribe pid topics (some 0)) .protocolError
  /-- a session that was to end with the connection is to be kept after all -/
  | keep {reason : Reason} {n : Nat} : interval = 0 → 0 < n →
      Fault cfg bound held interval size (.disconnect reason (some n)) .protocolError

/-- The session expiry interval asked for by the latest connection; `first` is that of the
connection with which the session began. -/
def askedInterval (first : Nat) (recs : List Rec) : Nat :=
  recs.foldl (fun n r =>
    match r.ev with
    | .resume c => c.expiryInterval
    | _ => n) first

/-- A DISCONNECT packet of the broker. -/
def OutPkt.isDisconnect : OutPkt → Bool
  | .disconnect _ => true
  | _ => false

/-- The client said good-bye. -/
def Taken.isBye : Taken → Bool
  | .packet _ _ (.disconnect _ _) => true
  | _ => false

/-- The client sent a packet that has no place on an established connection (CONNECT, AUTH, or a
packet that only a broker sends). -/
def Taken.isForeign : Taken → Bool
  | .packet _ _ .invalid => true
  | _ => false

end Akasa

import Verif.Spec.Alias
import Verif.Spec.Fanout
import Verif.Spec.Life
/-!
# Vocabulary for where the messages that a client reads come from
-/
namespace Akasa

/-- The copy of a published message for another session, as a publisher of this protocol version
makes it. -/
def IsCopyFrom (pr : Proto) (m : SendPub) (c : NormalMsg) : Prop :=
  match pr with
  | .v3 => ∃ e, c = m.copyV3 e
  | .v5 => ∃ Fs q, c = m.copyV5 Fs q

/-- The properties that a publisher chooses, but for the message expiry interval. -/
def PubProps.chosen (p : PubProps) : PubProps :=
  { p with messageExpiry := none, topicAlias := none, subscriptionIds := [] }

/-- The properties of a PUBLISH to a client are those of the published message, if both use MQTT 5;
otherwise there are none.  The message expiry interval may be smaller. -/
def SamePropsAs (publisher receiver : Proto) (p : PubProps) (m : PubProps) : Prop :=
  if publisher = .v5 ∧ receiver = .v5 then
    p.chosen = m.chosen ∧ (p.messageExpiry = none ↔ m.messageExpiry = none) ∧
      ∀ v v', m.messageExpiry = some v → p.messageExpiry = some v' → v' ≤ v
  else p.chosen = {} ∧ p.messageExpiry = none

/-- A PUBLISH with the topic name spelled out carries the published message: topic, payload and
properties are the same, the QoS is not higher, and RETAIN is set only if it was. -/
structure Publish.carriesMessage (publisher receiver : Proto) (p : Publish) (m : SendPub) : Prop where
  topic : p.topic = m.topic
  payload : p.payload = m.payload
  qos : p.qosPid.qos ≤ m.qos
  retain : p.retain = true → m.retain = true
  props : SamePropsAs publisher receiver p.props m.props

/-- The wills that clients give when they connect have a topic.  (Others are refused, `C75_all`.) -/
def World.willsNamed (w : World) : Prop :=
  ∀ t req wl, w.request t = some req → req.params.will = some wl → wl.topic ≠ []

/-- One more thing seen by a client that remembers topic aliases: those bound, and the packets as
the client understands them.  A new connection begins with no aliases bound.  A packet that the
client cannot understand is a protocol error (`none`). -/
def Obs.read (st : Option (FMap Nat Str × List OutPkt)) (o : Obs) :
    Option (FMap Nat Str × List OutPkt) :=
  match st, o with
  | none, _ => none
  | some (_, out), .connected _ _ => some ([], out)
  | some (d, out), .sent p => (decodeOne d p).map fun r => (r.1, out ++ [r.2])
  | st, _ => st

/-- The packets sent to a client, as it understands them (MQTT 5). -/
def clientReads (obs : List Obs) : Option (List OutPkt) :=
  (obs.foldl Obs.read (some ([], []))).map (·.2)

end Akasa

import Verif.Spec.Deliver
/-!
# The size of an MQTT 5 PUBLISH on the wire (MQTT 5.0 sections 1.5, 2.1, 2.2 and 3.3)
-/
namespace Akasa

/-- The length of a variable byte integer. -/
def varintLen (n : Nat) : Nat := if n < 128 then 1 else if n < 16384 then 2 else if n < 2097152 then 3 else 4

/-- The length of a UTF-8 encoded string, without its two length bytes. -/
def textLen (s : Str) : Nat := (s.flatMap String.utf8EncodeChar).length

/-- The properties of a PUBLISH: each has an identifier byte. -/
def PubProps.wireSize (p : PubProps) : Nat :=
  (if p.payloadIsUtf8 = none then 0 else 2) +
  (if p.messageExpiry = none then 0 else 5) +
  (if p.topicAlias = none then 0 else 3) +
  (match p.responseTopic with | none => 0 | some t => 3 + textLen t) +
  (match p.correlationData with | none => 0 | some d => 3 + d.length) +
  (p.userProperties.map fun kv => 5 + textLen kv.1 + textLen kv.2).sum +
  (p.subscriptionIds.map fun i => 1 + varintLen i).sum +
  (match p.contentType with | none => 0 | some t => 3 + textLen t)

/-- Everything after the fixed header: topic name, packet identifier (QoS 1 and 2), properties,
payload. -/
def Publish.remaining (p : Publish) : Nat :=
  2 + textLen p.topic + (if p.qosPid = .level0 then 0 else 2) +
  (varintLen p.props.wireSize + p.props.wireSize) + p.payload.length

/-- The whole packet: one byte of flags, the remaining length, and the rest. -/
def Publish.wireSize (p : Publish) : Nat := 1 + varintLen p.remaining + p.remaining

/-- The same packet in MQTT 3.1.1 (no properties). -/
def Publish.remainingV3 (p : Publish) : Nat :=
  2 + textLen p.topic + (if p.qosPid = .level0 then 0 else 2) + p.payload.length

/-- See `Publish.remainingV3`. -/
def Publish.wireSizeV3 (p : Publish) : Nat := 1 + varintLen p.remainingV3 + p.remainingV3

/-- The same properties without those that the broker adds: topic alias and subscription
identifiers. -/
def PubProps.bare (p : PubProps) : PubProps := { p with topicAlias := none, subscriptionIds := [] }

/-- The same PUBLISH without topic alias and subscription identifiers. -/
def Publish.bare (p : Publish) : Publish := { p with props := p.props.bare }

/-- The size written down for a message is at least the size of an MQTT 5 PUBLISH with it and its
own QoS. -/
def SizeCovers (size : Nat) (topic : Str) (payload : Bytes) (qos : QoS) (props : PubProps) : Prop :=
  ∀ p : Publish, p.topic = topic → p.payload = payload → p.props = props.bare → p.qosPid.qos = qos →
    p.wireSize ≤ size

/-- ... for a message of another session. -/
def NormalMsg.sizeRight (m : NormalMsg) : Prop := SizeCovers m.size m.topic m.payload m.qos m.props

/-- ... for a retained message. -/
def RetainContent.sizeRight (c : RetainContent) : Prop :=
  SizeCovers c.size c.topic c.payload c.qos (c.props.getD {})

/-- ... for all messages that a step may bring in: the one in its event and the retained ones. -/
def Rec.sizesRight (r : Rec) : Prop :=
  (∀ f, ∀ c ∈ r.before.stored f, c.sizeRight) ∧
  ∀ m, (r.ev = .normal m ∨ r.ev = .offline m) → m.sizeRight

/-- The maximum packet size of the last connection, of the first one with `c` and those in the
records. -/
def announced (c : ConnParams) (recs : List Rec) : Nat :=
  recs.foldl (fun n r => match r.ev with | .resume c' => c'.maxPacketSize | _ => n) c.maxPacketSize

end Akasa

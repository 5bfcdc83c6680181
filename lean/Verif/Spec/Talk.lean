import Verif.Spec.Rest
/-!
# The rules of the conversation about messages with QoS 1 and 2

A client can check with what it sees alone that the broker keeps to the rules of MQTT: which packet
identifiers are in use, what was sent with them, and what it has answered.
-/
namespace Akasa

/-- The packet identifier of a PUBLISH. -/
def QosPid.pid? : QosPid → Option Pid
  | .level0 => none
  | .level1 pid => some pid
  | .level2 pid => some pid

/-- What a packet identifier is used for, as the client sees it. -/
inductive PidUse where
  /-- nothing -/
  | idle
  /-- a message sent on the present connection and not answered yet -/
  | sent (w : Publish)
  /-- a message sent on an earlier connection, not answered and not sent again yet -/
  | old (w : Publish)
  /-- a message that the client has answered by PUBREC; the PUBREL is missing -/
  | answered
  /-- a message for which the client got the PUBREL after its PUBREC -/
  | released
  /-- the client has answered a message of an earlier connection, or the connection has ended before
  the PUBREL: the broker may have got the answer or not -/
  | unclear
deriving DecidableEq, Repr

/-- What the client remembers. -/
structure Talk where
  /-- what the packet identifiers are used for -/
  use : Pid → PidUse := fun _ => .idle
  /-- the client has sent PUBREC with this packet identifier -/
  heard : Pid → Bool := fun _ => false
  /-- this is not the first connection -/
  again : Bool := false

def Talk.set (t : Talk) (pid : Pid) (u : PidUse) : Talk :=
  { t with use := fun x => if x = pid then u else t.use x }

/-- The two packets have the same message.  (In MQTT 5 an alias may replace the topic, and the
remaining lifetime of the message decreases.) -/
def Publish.sameMessage (v w : Publish) : Bool :=
  v.qosPid = w.qosPid ∧ v.retain = w.retain ∧ v.payload = w.payload ∧
    (v.topic = w.topic ∨ v.topic = [] ∨ w.topic = []) ∧
    { v.props with messageExpiry := none, topicAlias := none } =
      { w.props with messageExpiry := none, topicAlias := none }

/-- May the broker send this PUBLISH?
* A message with QoS 0 is not marked as repeated.
* The packet identifier is not 0.
* A packet identifier that is not in use may be used; the message is not marked as repeated on the
  first connection.
* For a message which is not answered yet, the same message may be sent, marked as repeated; no other
  message may be sent.
* Nothing may be sent with the identifier of a message answered by PUBREC. -/
def Talk.publish (t : Talk) (w : Publish) : Option Talk :=
  match w.qosPid.pid? with
  | none => if w.dup then none else some t
  | some pid =>
    if pid = 0 then none
    else
      match t.use pid with
      | .idle => if w.dup && !t.again then none else some (t.set pid (.sent w))
      | .unclear => some (t.set pid (.sent w))
      | .sent v => if w.dup && v.sameMessage w then some t else none
      | .old v => if w.dup && v.sameMessage w then some (t.set pid (.sent v)) else none
      | .answered => none
      | .released => none

/-- May the broker send this PUBREL?  Only for a PUBREC of the client, and not for a message that the
client has not answered yet. -/
def Talk.pubrel (t : Talk) (pid : Pid) : Option Talk :=
  if t.heard pid then
    match t.use pid with
    | .sent _ => none
    | .old _ => none
    | .answered => some (t.set pid .released)
    | _ => some t
  else none

/-- The client sends PUBACK. -/
def Talk.puback (t : Talk) (pid : Pid) : Talk :=
  match t.use pid with
  | .sent _ => t.set pid .idle
  | .old _ => t.set pid .unclear
  | _ => t

/-- The client sends PUBREC. -/
def Talk.pubrec (t : Talk) (pid : Pid) : Talk :=
  let t := { t with heard := fun x => x = pid || t.heard x }
  match t.use pid with
  | .sent _ => t.set pid .answered
  | .old _ => t.set pid .unclear
  | _ => t

/-- The client sends PUBCOMP. -/
def Talk.pubcomp (t : Talk) (pid : Pid) : Talk :=
  match t.use pid with
  | .released => t.set pid .idle
  | _ => t

/-- The client connects (`again`: with its old session). -/
def Talk.connect (t : Talk) (again : Bool) : Talk :=
  { t with
    use := fun pid =>
      match t.use pid with
      | .sent w => .old w
      | .answered => .unclear
      | u => u
    again := t.again || again }

/-- One more event, as the client sees it; `none`: the broker has broken the rules. -/
def Obs.talk (t : Talk) : Obs → Option Talk
  | .connected present _ => some (t.connect present)
  | .received (.puback pid) => some (t.puback pid)
  | .received (.pubrec pid) => some (t.pubrec pid)
  | .received (.pubcomp pid) => some (t.pubcomp pid)
  | .sent (.publish w) => t.publish w
  | .sent (.pubrel pid _) => t.pubrel pid
  | _ => some t

/-- The broker has kept to the rules in all that was seen. -/
def KeepsRules (obs : List Obs) : Prop := (obs.foldlM Obs.talk ({} : Talk)).isSome

end Akasa

import Verif.Spec.Once
/-!
# A client that publishes by the rules of the protocol, at the other end of a network connection
-/
namespace Akasa

/-- A client that publishes messages, and the connection between it and the broker. -/
structure Publisher where
  /-- the client's packets that the broker has not read yet, the oldest first -/
  up : List InPkt := []
  /-- packets the broker has sent that have not arrived yet, the oldest first -/
  down : List OutPkt := []
  /-- the messages with QoS 1 and 2 that are not completed yet, the oldest first; `true`: answered by
  PUBREC (the state of the session that the client has to keep, MQTT 3.1.1 and 5, 4.1) -/
  waiting : List (Publish × Bool) := []
  /-- all messages with QoS 1 and 2 that the client has published so far -/
  handed : List Publish := []
  /-- the messages with QoS 2 whose first transmission was lost with a connection -/
  missed : List Publish := []

/-- The packets by which a client publishes messages with QoS 1 and 2. -/
def InPkt.publishes : InPkt → Bool
  | .publish p => decide (p.qosPid ≠ .level0)
  | .pubrel _ => true
  | _ => false

/-- What the client sends again on a new connection: PUBREL for a message answered by PUBREC, and
otherwise the message, marked as repeated (MQTT 3.1.1 and 5, 4.4 and 3.3.1.1). -/
def sentAgain (e : Publish × Bool) : InPkt :=
  match e.1.qosPid, e.2 with
  | .level2 pid, true => .pubrel pid
  | _, _ => .publish { e.1 with dup := true }

/-- The messages with QoS 2 among these packets that are sent for the first time. -/
def firstTwos (up : List InPkt) : List Publish :=
  up.filterMap fun x =>
    match x with
    | .publish p => if p.qosPid.qos = 2 ∧ p.dup = false then some p else none
    | _ => none

/-- The broker has taken over the message. -/
def Reason.takes (code : Reason) : Bool := decide (code = .success ∨ code = .noMatchingSubscribers)

/-- A packet arrives: MQTT 3.1.1 and 5, 4.3.2 (QoS 1) and 4.3.3 (QoS 2).
* PUBACK and PUBCOMP complete the message with the packet identifier.
* PUBREC is answered by PUBREL; in MQTT 5 PUBREC with an error completes the message. -/
def Publisher.arrive (r : Publisher) : OutPkt → Publisher
  | .puback pid _ =>
    { r with waiting := r.waiting.filter fun e => decide (e.1.qosPid ≠ .level1 pid) }
  | .pubrec pid code =>
    if code.takes then
      { r with
        waiting := r.waiting.map fun e => if e.1.qosPid = .level2 pid then (e.1, true) else e
        up := r.up ++ [.pubrel pid] }
    else { r with waiting := r.waiting.filter fun e => decide (e.1.qosPid ≠ .level2 pid) }
  | .pubcomp pid _ =>
    { r with waiting := r.waiting.filter fun e => decide (e.1.qosPid ≠ .level2 pid) }
  | _ => r

/-- The client publishes a message. -/
def Publisher.hand (r : Publisher) (p : Publish) : Publisher :=
  { r with
    up := r.up ++ [.publish p]
    waiting := r.waiting ++ [(p, false)]
    handed := r.handed ++ [p] }

/-- The packet identifier is not used by a message that is not completed. -/
def Publisher.unused (r : Publisher) (pid : Pid) : Prop :=
  ∀ e ∈ r.waiting, e.1.qosPid.pid? ≠ some pid

/-- What is seen of the session at the broker, and what it means for the client (`none`: this client
does not do that).
* With a new connection, everything that was on its way is lost; if the session is present the client
  sends again what is not completed, otherwise it starts anew.
* The broker reads the packets by which the client publishes one by one, and no others of that
  kind. -/
def Publisher.sees (r : Publisher) : Obs → Option Publisher
  | .connected true _ =>
    some { r with down := [], up := r.waiting.map sentAgain, missed := r.missed ++ firstTwos r.up }
  | .connected false _ => some {}
  | .sent o => some { r with down := r.down ++ [o] }
  | .received x =>
    if x.publishes then
      match r.up with
      | [] => none
      | y :: rest => if y = x then some { r with up := rest } else none
    else some r
  | _ => some r

/-- While this is seen of the session at the broker, the client comes from one state to the other.
Packets arrive in order, but with any delay; the client publishes messages with packet identifiers
that are not in use. -/
inductive Publisher.Moves : Publisher → List Obs → Publisher → Prop
  | done (r : Publisher) : Moves r [] r
  | arrive {r r' : Publisher} {o : OutPkt} {rest : List OutPkt} {obs : List Obs} :
      r.down = o :: rest → Moves (Publisher.arrive { r with down := rest } o) obs r' → Moves r obs r'
  | hand {r r' : Publisher} {p : Publish} {pid : Pid} {obs : List Obs} :
      p.qosPid.pid? = some pid → p.dup = false → r.unused pid → Moves (r.hand p) obs r' →
      Moves r obs r'
  | see {r r1 r' : Publisher} {o : Obs} {obs : List Obs} :
      r.sees o = some r1 → Moves r1 obs r' → Moves r (o :: obs) r'

/-- The messages with QoS 1. -/
def onesOf (l : List Publish) : List Publish := l.filter fun p => decide (p.qosPid.qos = 1)

/-- The messages of this client that the broker has passed on, with this QoS. -/
def passedOn (q : QoS) (obs : List Obs) : List SendPub :=
  obs.filterMap fun o =>
    match o with
    | .routed m => if m.qos = q then some m else none
    | _ => none

/-- The broker passes on this message.  (In MQTT 5 the topic may be given by an alias.) -/
def IsPassed (pr : Proto) (p : Publish) (m : SendPub) : Prop :=
  m.qos = p.qosPid.qos ∧ m.payload = p.payload ∧ m.retain = p.retain ∧
    (p.topic ≠ [] → m.topic = p.topic) ∧
    m.props = match pr with
      | .v3 => {}
      | .v5 => { p.props with topicAlias := none }

/-- The hash of a message does not depend on the mark that it is repeated. -/
def HashIgnoresDup (ext : Ext) : Prop :=
  ∀ (p : Publish) (d : Bool), ext.hash { p with dup := d } = ext.hash p

end Akasa

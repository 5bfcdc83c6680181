import Verif.Spec.Talk
import Verif.Spec.Rest
/-!
# A client that follows the protocol, at the other end of a network connection
-/
namespace Akasa

/-- A client that receives messages, and the connection between it and the broker. -/
structure Receiver where
  /-- packets the broker has sent that have not arrived yet, the oldest first -/
  down : List OutPkt := []
  /-- the client's answers that the broker has not read yet, the oldest first -/
  up : List InPkt := []
  /-- messages with QoS 2 that have arrived and are not released yet (the state of the session that
  the client has to keep, MQTT 3.1.1 and 5, 4.1) -/
  begun : List Pid := []
  /-- the messages passed on to the application so far -/
  got : List Publish := []

/-- A packet arrives: MQTT 3.1.1 and 5, 4.3.2 (QoS 1) and 4.3.3 (QoS 2, the receiver stores the packet
identifier and passes the message on at once).
* A message with QoS 0 or 1 is passed on, and with QoS 1 it is answered by PUBACK.
* A message with QoS 2 is answered by PUBREC, and it is passed on unless its packet identifier waits
  for PUBREL.
* PUBREL is answered by PUBCOMP, and it releases the packet identifier. -/
def Receiver.arrive (r : Receiver) : OutPkt → Receiver
  | .publish w =>
    match w.qosPid with
    | .level0 => { r with got := r.got ++ [w] }
    | .level1 pid => { r with got := r.got ++ [w], up := r.up ++ [.puback pid] }
    | .level2 pid =>
      if pid ∈ r.begun then { r with up := r.up ++ [.pubrec pid] }
      else { r with got := r.got ++ [w], begun := pid :: r.begun, up := r.up ++ [.pubrec pid] }
  | .pubrel pid _ =>
    { r with begun := r.begun.filter fun k => decide (k ≠ pid), up := r.up ++ [.pubcomp pid] }
  | _ => r

/-- The packets by which a client answers. -/
def InPkt.isAnswer : InPkt → Bool
  | .puback _ => true
  | .pubrec _ => true
  | .pubcomp _ => true
  | _ => false

/-- What is seen of the session at the broker, and what it means for the client (`none`: this client
does not do that).
* With a new connection, everything that was on its way is lost; if the session is present the client
  goes on with its own state, otherwise it forgets it.
* The broker reads the answers of the client one by one, and no answers that the client has not
  given. -/
def Receiver.sees (r : Receiver) : Obs → Option Receiver
  | .connected true _ => some { r with down := [], up := [] }
  | .connected false _ => some { got := r.got }
  | .sent o => some { r with down := r.down ++ [o] }
  | .received p =>
    if p.isAnswer then
      match r.up with
      | [] => none
      | q :: rest => if q = p then some { r with up := rest } else none
    else some r
  | _ => some r

/-- While this is seen of the session at the broker, the client comes from one state to the other.
Packets arrive in order, but with any delay. -/
inductive Receiver.Moves : Receiver → List Obs → Receiver → Prop
  | done (r : Receiver) : Moves r [] r
  | arrive {r r' : Receiver} {o : OutPkt} {rest : List OutPkt} {obs : List Obs} :
      r.down = o :: rest → Moves (Receiver.arrive { r with down := rest } o) obs r' → Moves r obs r'
  | see {r r1 r' : Receiver} {o : Obs} {obs : List Obs} :
      r.sees o = some r1 → Moves r1 obs r' → Moves r (o :: obs) r'

/-- The messages with QoS 1 or 2 without the repetitions: of those with the same QoS and packet
identifier only the first one. -/
def firstsOf (got : List Publish) : List Publish :=
  got.foldl (fun seen w =>
    if w.qosPid = .level0 ∨ ∃ v ∈ seen, v.qosPid = w.qosPid then seen else seen ++ [w]) []

/-- The messages with QoS 2. -/
def twosOf (got : List Publish) : List Publish := got.filter fun w => decide (w.qosPid.qos = 2)

end Akasa

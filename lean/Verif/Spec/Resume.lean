import Verif.Spec.Life
/-!
# What is kept when a session is taken up again
-/
namespace Akasa

/-- The messages of the outgoing queue that are not completely acknowledged, with their packet
identifiers and in order; of a message for which PUBREC has come only the identifier is left. -/
def Pending.waiting {P : Type} (q : Pending P) : List (Pid × Option P) :=
  q.packets.filterMap fun e =>
    match e with
    | .new _ _ pid p _ => some (pid, some p)
    | .pubrec _ pid => some (pid, none)
    | .complete => none

/-- No message of the queue has passed its expiry interval (MQTT 5) when the clock shows this. -/
def Session.noneExpired (pr : Proto) (clk : Clock) (s : Session) : Prop :=
  ∀ added sent pid p dup, PStatus.new added sent pid p dup ∈ s.sender.pending.packets →
    ∀ v, expiryOf pr p = some v → ∀ k, clk.sent k - added < v

/-- The connection with this client identifier that was accepted last. -/
def lastConn (w : World) (i : Str) (evs : List Event) : Option TaskId :=
  (evs.filterMap fun e =>
    match e with
    | .accepted t _ => if ((w.under i).get t).isSome then some t else none
    | _ => none).getLast?

/-- A client identifier has a session. -/
def World.hasNamed (w : World) (i : Str) : Prop := ∃ t s, w.owned t = some s ∧ s.identifier = i

end Akasa

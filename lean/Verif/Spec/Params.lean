import Verif.Spec.Life
import Verif.Spec.Deliver
/-!
# Vocabulary for what a client announces when it connects
-/
namespace Akasa

/-- One more event: a new connection brings its own parameters. -/
def Obs.conn (c : Option ConnParams) : Obs → Option ConnParams
  | .connected _ c' => some c'
  | _ => c

/-- What the client announced for the connection opened last. -/
def connIn (obs : List Obs) : Option ConnParams := obs.foldl Obs.conn none

/-- No client publishes messages with a message expiry interval, directly or as will. -/
def NoneExpires (evs : List Event) : Prop := ∀ e ∈ published evs, e.2.props.messageExpiry = none

end Akasa

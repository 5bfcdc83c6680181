import Verif.Model.Registry
/-! # Vocabulary for the registry of clients -/
namespace Akasa

/-- The client registered under an MQTT client identifier. -/
def Registry.lookup (r : Registry) (name : Str) : Option ClientId := r.identMap.get name

/-- The MQTT client identifier of a client. -/
def Registry.nameOf (r : Registry) (id : ClientId) : Option Str := (r.idMap.get id).map (·.1)

/-- A registered client is marked online. -/
def Registry.isOnline (r : Registry) (id : ClientId) : Prop := ∃ name, r.idMap.get id = some (name, true)

/-- Messages can be sent to the client. -/
def Registry.hasQueue (r : Registry) (id : ClientId) : Prop := r.clients.contains id = true

instance (r : Registry) (id : ClientId) : Decidable (r.hasQueue id) := by
  unfold Registry.hasQueue; infer_instance

/-- The number of registered clients that are marked online. -/
def Registry.countOnline (r : Registry) : Nat := (r.idMap.filter fun e => e.2.2).length

/-- The id handed out to a new client. -/
def Added.new? : Added → Option ClientId
  | .new id => some id
  | .present _ => none

/-- A call as made when no online session is taken over: a client connects only while its
identifier is not registered or marked offline, and goes offline only while marked online. -/
def RegCall.Orderly (r : Registry) : RegCall → Prop
  | .add name => ∀ id, r.lookup name = some id → ¬ r.isOnline id
  | .remove _ => True
  | .offline id => r.isOnline id

/-- All calls of a sequence are orderly at the moment they are made. -/
def Orderly : Registry → List RegCall → Prop
  | _, [] => True
  | r, c :: cs => c.Orderly r ∧ ∀ r' out, r.call c = some (r', out) → Orderly r' cs

end Akasa

import Verif.Spec.World
import Verif.Spec.Registry
/-!
# Vocabulary for C104: what the broker keeps of a client
-/
namespace Akasa

/-- Some task has the session of the client: a connection, the task that keeps the session
afterwards, or the one that passes on its last copies after the session has expired. -/
def World.serves (w : World) (id : ClientId) : Prop :=
  ∃ t x s, w.tasks.get t = some x ∧ s.clientId = id ∧
    (x.stage = .online s ∨ x.stage = .closed s ∨ x.stage = .ending s ∨ x.stage = .offline s ∨
      x.stage = .expired s ∨ ∃ level, x.stage = .granted s level)

/-- The registry knows the client: under a client identifier, by its id, or as a receiver. -/
def World.knows (w : World) (id : ClientId) : Prop :=
  (∃ name, w.registry.lookup name = some id) ∨ (∃ name, w.registry.nameOf id = some name) ∨
    w.registry.hasQueue id

/-- There is a queue of messages or of control messages for the client. -/
def World.queues (w : World) (id : ClientId) : Prop :=
  (∃ q, w.inbox.get id = some q) ∨ ∃ q, w.control.get id = some q

/-- The client was given this id at some time. -/
def World.gaveOut (w : World) (id : ClientId) : Prop := id < w.registry.nextId

/-- Nothing is registered, queued or subscribed, for nobody. -/
structure World.Bare (w : World) : Prop where
  route : w.route = RouteTable.empty
  idMap : w.registry.idMap = []
  identMap : w.registry.identMap = []
  clients : w.registry.clients = []
  inbox : w.inbox = []
  control : w.control = []

end Akasa

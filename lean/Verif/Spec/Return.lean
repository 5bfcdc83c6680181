import Verif.Spec.World
import Verif.Spec.Registry
/-!
# Vocabulary of C81 and C82
-/
namespace Akasa

/-- No connection that presents this identifier is accepted any more, whatever happens. -/
def World.LockedOut (cfg : Config) (ext : Ext) (w : World) (name : Str) : Prop :=
  ∀ acts w' evs, World.run cfg ext w acts = some (w', evs) →
    ∀ t p, .accepted t p ∈ evs → ∀ req, w'.request t = some req → req.identifier ≠ name

/-- Sessions whose connections are over and which wait for each other: each has a copy to pass on to
one of them, and the inbox of each is full. -/
def World.Jammed (w : World) (ids : List ClientId) : Prop :=
  ∀ id ∈ ids, ∃ t x s d q, w.tasks.get t = some x ∧ (x.stage = .ending s ∨ x.stage = .offline s) ∧
    s.clientId = id ∧ d ∈ ids ∧ x.sinks.get d ≠ none ∧
    w.inbox.get id = some q ∧ inboxSize ≤ q.length

/-- No connection failed between the registration of its client and its CONNACK, neither because
CONNACK could not be written nor because its will was refused. -/
def NoneFailed (cfg : Config) (acts : List Act) : Prop :=
  (∀ req env written, .connect req env written ∈ acts → written = true ∧ req.willRefused cfg = false) ∧
  ∀ t env written, .accept t env written ∈ acts → written = true

/-- The connection sent CONNECT and waits for the session of this client; CONNACK is not sent. -/
def World.waitsFor (w : World) (b : TaskId) (id : ClientId) : Prop :=
  ∃ x, w.tasks.get b = some x ∧ x.stage = .waiting id

/-- The task attends to the session: it is online, or offline with nothing to pass on. -/
def World.attends (w : World) (t : TaskId) (s : Session) : Prop :=
  w.onlineSession t = some s ∨
  (w.offlineSession t = some s ∧ s.bcast = [] ∧ ∀ x, w.tasks.get t = some x → x.sinks = [])

/-- Nothing but requests for the session waits in the control queue of the client. -/
def World.onlyAsked (w : World) (id : ClientId) : Prop :=
  ∀ q, w.control.get id = some q → ∀ c ∈ q, ∃ pr b, c = .online pr b

/-- The act is one of a task that serves the control queue of its session, or CONNACK is sent. -/
def Act.serves : Act → Bool
  | .control _ _ => true
  | .accept _ _ true => true
  | _ => false

end Akasa

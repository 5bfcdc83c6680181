import Verif.Spec.World
import Verif.Spec.OnlineLoop
/-!
# Vocabulary of C94: clients that do not read
-/
namespace Akasa

/-- The task takes messages from the inbox of this client: its connection is established and not
being closed, or it keeps the session of an offline client and has nothing to pass on itself. -/
def World.takes (w : World) (u : TaskId) (d : ClientId) : Prop :=
  ∃ s, s.clientId = d ∧ ((w.onlineSession u = some s ∧ s.disconnected = false) ∨
    (w.offlineSession u = some s ∧ s.bcast = [] ∧ ∀ x, w.tasks.get u = some x → x.sinks = []))

/-- The act belongs to the passing on of the copies the task `t` holds in the state `w`: the task
itself passes them on (or finds that the receiver is gone), or one of the receivers takes a message
from its inbox. -/
def Act.delivers (w : World) (t : TaskId) : Act → Prop
  | .push t' _ => t' = t
  | .flush t' _ => t' = t
  | .giveUp t' _ => t' = t
  | .normal u _ => ∃ d, w.onTheWay t d ≠ [] ∧ w.takes u d
  | _ => False

/-- The inbox of the client `d` is full, and the established connection `t` holds so many copies for
it that it is not read any more. -/
def World.heldUp (w : World) (t : TaskId) (d : ClientId) : Prop :=
  (∃ s, w.onlineSession t = some s) ∧ 11 ≤ (w.onTheWay t d).length ∧
    ∃ q, w.inbox.get d = some q ∧ q.length = 8

/-- The transport takes nothing during this poll. -/
def PollIn.unread (i : PollIn) : Prop :=
  (∀ r ∈ i.writes, r = .pending) ∧ ∀ r ∈ i.drainWrites, r = .pending

/-- A full batch of bytes waits to be written. -/
def OnlineLoop.full (l : OnlineLoop) : Prop :=
  ∃ d i q, l.writer.queue = .data d i :: q ∧ 2048 ≤ d.length

end Akasa

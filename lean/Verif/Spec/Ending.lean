import Verif.Spec.World
/-!
# Vocabulary for the end of connections
-/
namespace Akasa

/-- The connection is over, its will is dealt with and all its copies are passed on; what remains is
to decide about the session. -/
def World.atEnd (w : World) (t : TaskId) (s : Session) : Prop :=
  ∃ x, w.tasks.get t = some x ∧ x.stage = .ending s ∧ s.bcast = [] ∧ x.sinks = []

/-- The connection is over, or its session is expired, and some of the copies that it made for other
sessions (of its will, or of messages before) are not yet in their inboxes. -/
def World.stillSends (w : World) (t : TaskId) : Prop :=
  ∃ x s, w.tasks.get t = some x ∧ (x.stage = .ending s ∨ x.stage = .expired s) ∧
    (s.bcast ≠ [] ∨ x.sinks ≠ [])

/-- The session is to outlive the connection: clean session 0 (MQTT 3), an expiry interval other than
0 in force (MQTT 5). -/
def Outlives (req : Request) (s : Session) : Prop :=
  (req.level ≠ .v500 ∧ req.clean = false) ∨ (req.level = .v500 ∧ s.expiryInterval ≠ 0)

/-- The session of an established connection, until it is handed over or removed. -/
def World.connSession (w : World) (t : TaskId) : Option Session :=
  match w.tasks.get t with
  | none => none
  | some x =>
    match x.stage with
    | .online s => some s
    | .closed s => some s
    | .ending s => some s
    | .offline s => some s
    | _ => none

/-- A DISCONNECT with this expiry interval received on the connection. -/
def Act.setsExpiry (t : TaskId) (v : Nat) : Act → Prop
  | .packet t' _ _ _ (.disconnect _ (some v')) => t' = t ∧ v' = v
  | _ => False

/-- A connection attempt with this client identifier. -/
def Act.asksFor (name : Str) : Act → Prop
  | .connect req _ _ => req.identifier = name
  | _ => False

/-- No other task has to do with this client identifier any more. -/
def World.alone (w : World) (t : TaskId) (name : Str) : Prop :=
  ∀ u req, w.request u = some req → req.identifier = name → u ≠ t → w.stopped u

end Akasa

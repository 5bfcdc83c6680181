import Verif.Spec.World
/-! # Vocabulary for the number of connected clients -/
namespace Akasa

/-- The connection is not over: its CONNECT was accepted and the broker has not yet dealt with its
end. -/
def World.isOpen (w : World) (t : TaskId) : Prop :=
  ∃ x, w.tasks.get t = some x ∧
    match x.stage with
    | .waiting _ => True
    | .granted _ _ => True
    | .online _ => True
    | .closed _ => True
    | .ending _ => True
    | _ => False

/-- The connection waits for the session of an earlier one. -/
def World.waits (w : World) (t : TaskId) : Prop :=
  ∃ x id, w.tasks.get t = some x ∧ x.stage = .waiting id

/-- CONNACK was sent on the connection. -/
def World.established (w : World) (t : TaskId) : Prop :=
  ∃ x, w.tasks.get t = some x ∧
    match x.stage with
    | .online _ => True
    | .closed _ => True
    | .ending _ => True
    | .offline _ => True
    | .expired _ => True
    | _ => False

/-- No client connects while it has a connection that is not over, and no client is turned away. -/
structure Undisturbed (cfg : Config) (ext : Ext) (acts : List Act) : Prop where
  alone : ∀ A req env wr B, acts = A ++ .connect req env wr :: B → ∀ w evs, Reaches cfg ext A w evs →
    ∀ t r, w.request t = some r → r.identifier = req.identifier → ¬ w.isOpen t
  served : ∀ A a B, acts = A ++ a :: B → ∀ w evs w' e, Reaches cfg ext A w evs →
    w.step cfg ext a = some (w', e) → ∀ t, ¬ w.stopped t → w'.stopped t → w.established t

end Akasa

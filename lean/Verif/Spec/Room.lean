import Verif.Spec.World
/-!
# Vocabulary for the amount of messages on their way
-/
namespace Akasa

/-- How many messages there are for these clients together. -/
def totalFor (ds : List ClientId) (ms : ClientId → List NormalMsg) : Nat :=
  (ds.map fun d => (ms d).length).sum

/-- There are fewer than `n` messages for all clients together. -/
def FewerThan (n : Nat) (ms : ClientId → List NormalMsg) : Prop :=
  ∀ ds : List ClientId, ds.Nodup → totalFor ds ms < n

/-- The copies queued by a connection and not yet passed on, by receiver. -/
def World.queued (w : World) (t : TaskId) (d : ClientId) : List NormalMsg :=
  match w.onlineSession t with
  | none => []
  | some s => s.queue d

end Akasa

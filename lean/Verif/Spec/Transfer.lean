import Verif.Model.Transfer
/-!
# Vocabulary of C44
-/
namespace Akasa

/-- The messages for one receiver in a list of addressed messages, in order. -/
def addressedTo (id : ClientId) (l : List (ClientId × NormalMsg)) : List NormalMsg :=
  (l.filter fun c => decide (c.1 = id)).map Prod.snd

/-- All copies queued for a receiver by a sequence of steps, in order. -/
def copiesFor (id : ClientId) : List TransferAct → List NormalMsg
  | [] => []
  | .push _ copies :: acts => addressedTo id copies ++ copiesFor id acts
  | .pass _ :: acts => copiesFor id acts

/-- The receiver is registered and its inbox is open during all steps. -/
def Present (id : ClientId) (acts : List TransferAct) : Prop :=
  (∀ reg copies, TransferAct.push reg copies ∈ acts → reg id = true) ∧
  (∀ o, TransferAct.pass o ∈ acts → ∀ k, o id k ≠ .gone)

/-- The copies for a receiver that are on their way: held by the sink, then queued. -/
def Outgoing.inTransit (w : Outgoing) (id : ClientId) : List NormalMsg :=
  match w.session.bcast.get id with
  | none => []
  | some msgs => (w.link (id, msgs)).slot.toList ++ msgs

end Akasa

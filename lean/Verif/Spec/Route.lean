import Verif.Model.Route
/-!
# Specification of subscriptions

The abstract state is simply "who is subscribed to which filter with which QoS", as determined by
the history of calls: the last `sub`/`unsub` of a client on a filter decides.
Filters are the full strings given by clients (a shared subscription is the string `$share/g/f`).
-/
namespace Akasa

/-- filter → client → granted QoS. -/
abbrev SubState := Str → ClientId → Option QoS

/-- Nobody subscribed. -/
def SubState.none : SubState := fun _ _ => .none

/-- The last call for a (filter, client) pair decides. -/
def SubState.step (σ : SubState) : RouteOp → SubState
  | .sub f id q => fun f' id' => if f' = f ∧ id' = id then some q else σ f' id'
  | .unsub f id => fun f' id' => if f' = f ∧ id' = id then Option.none else σ f' id'

/-- State after a history. -/
def subscribed (ops : List RouteOp) : SubState := ops.foldl SubState.step SubState.none

/-- A plain (non-shared) filter. -/
def IsPlain (f : Str) : Prop := sharedInfo f = none

instance (f : Str) : Decidable (IsPlain f) := by unfold IsPlain; infer_instance

/-- The filter an operation is about. -/
def RouteOp.filter : RouteOp → Str
  | .sub f _ _ => f
  | .unsub f _ => f

/-- The client an operation is about. -/
def RouteOp.client : RouteOp → ClientId
  | .sub _ id _ => id
  | .unsub _ id => id

/-- The full filter string of a shared subscription. -/
def shareFilter (group filter : Str) : Str :=
  ['$', 's', 'h', 'a', 'r', 'e', '/'] ++ group ++ ['/'] ++ filter

/-- The client left the shared subscription `F` while a member and the group has not been empty
since then. -/
def LeftLiveGroup (ops : List RouteOp) (F : Str) (id : ClientId) : Prop :=
  ∃ k q, subscribed (ops.take k) F id = some q ∧ ops[k]? = some (.unsub F id) ∧
    ∀ m, k < m → m ≤ ops.length → ∃ x q, subscribed (ops.take m) F x = some q

/-- No client subscribes to (or unsubscribes from) a shared subscription again after leaving it,
as long as the group has not become empty in between. -/
def NoRejoin (ops : List RouteOp) : Prop :=
  ∀ pre op post, ops = pre ++ op :: post → ¬ IsPlain op.filter →
    ¬ LeftLiveGroup pre op.filter op.client

/-- There is a tree node at a path of level names below the given children (memory held). -/
inductive NodeAt : List (Str × RouteNode) → List Str → Prop
  | here {ns : List (Str × RouteNode)} {l : Str} {n : RouteNode} :
      FMap.get ns l = some n → NodeAt ns [l]
  | down {ns : List (Str × RouteNode)} {l : Str} {n : RouteNode} {p : List Str} :
      FMap.get ns l = some n → NodeAt n.nodes p → NodeAt ns (l :: p)

end Akasa

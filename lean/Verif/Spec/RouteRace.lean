import Verif.Spec.Fanout
import Verif.Spec.Topic
/-!
# Vocabulary for a message published while other clients subscribe and unsubscribe
-/
namespace Akasa

/-- The calls made up to some moment of a publish: `ops` before the publish began, and the first
few of those that other clients make meanwhile (`gaps`: the calls before the first matching filter
is looked at, before the second, and so on). -/
def During (ops : List RouteOp) (gaps : List (List RouteOp)) (now : List RouteOp) : Prop :=
  ∃ pre, pre <+: gaps.flatten ∧ now = ops ++ pre

/-- Some client is subscribed to the filter, for itself or in a group. -/
def HasSubscriber (now : List RouteOp) (f : Str) : Prop :=
  (IsPlain f ∧ ∃ id q, subscribed now f id = some q) ∨
  ∃ g, '/' ∉ g ∧ ∃ id q, subscribed now (shareFilter g f) id = some q

end Akasa

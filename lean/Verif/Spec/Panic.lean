import Verif.Spec.World
import Verif.Spec.Route
/-!
# Vocabulary for the absence of panics
-/
namespace Akasa

/-- A SUBSCRIBE has valid filters only (checked when the packet is decoded). -/
def Act.validFilters : Act → Prop
  | .packet _ _ _ _ (.subscribe _ topics _) => ∀ e ∈ topics, ValidFilter e.1
  | _ => True

/-- The act does not ask for a shared subscription. -/
def Act.noShared : Act → Prop
  | .packet _ _ _ _ (.subscribe _ topics _) => ∀ e ∈ topics, IsPlain e.1
  | _ => True

instance (a : Act) : Decidable a.validFilters := by
  unfold Act.validFilters; split <;> infer_instance

instance (a : Act) : Decidable a.noShared := by
  unfold Act.noShared; split <;> infer_instance

end Akasa

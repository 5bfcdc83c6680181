/-!
# Finite maps

The model's stand-in for `hashbrown::HashMap` / `dashmap::DashMap`: an association list.
Iteration order of a Rust hash map is unspecified; the model iterates in list order and every
theorem about iteration results is stated up to order (membership / no duplicates), so that it
holds for whatever order the Rust map produces.
Trusted: `get`, `insert`, `remove` of the Rust maps behave as a finite map.
-/
namespace Akasa

/-- A finite map as an association list (models `HashMap<κ, α>`). -/
abbrev FMap (κ α : Type) := List (κ × α)

namespace FMap
variable {κ α : Type} [DecidableEq κ]

/-- `HashMap::get`. -/
def get (m : FMap κ α) (k : κ) : Option α :=
  match m with
  | [] => none
  | (k', v) :: rest => if k' = k then some v else get rest k

/-- `HashMap::remove` (the removed value is `get m k`). -/
def erase (m : FMap κ α) (k : κ) : FMap κ α :=
  m.filter (fun p => decide (p.1 ≠ k))

/-- `HashMap::insert` (the replaced value is `get m k`). -/
def insert (m : FMap κ α) (k : κ) (v : α) : FMap κ α :=
  (k, v) :: erase m k

/-- `HashMap::contains_key`. -/
def contains (m : FMap κ α) (k : κ) : Bool := (get m k).isSome

/-- The keys, in iteration order. -/
def keys (m : FMap κ α) : List κ := m.map (·.1)

/-- Representation invariant of a map: each key occurs once. -/
def WF (m : FMap κ α) : Prop := (keys m).Nodup

end FMap
end Akasa

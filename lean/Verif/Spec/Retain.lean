import Verif.Model.Retain
/-! Specification of the retained-message store. -/
namespace Akasa

/-- The retained message of a topic after a history: the last publish to it, unless its payload
was empty. -/
def retained (h : List RetainContent) (topic : Str) : Option RetainContent :=
  match (h.filter fun c => c.topic = topic).getLast? with
  | some c => if c.payload = [] then none else some c
  | none => none

/-- There is a tree node at a path of level names (memory held). -/
inductive RetainNodeAt : List (Str × RetainNode) → List Str → Prop
  | here {ns : List (Str × RetainNode)} {l : Str} {n : RetainNode} :
      FMap.get ns l = some n → RetainNodeAt ns [l]
  | down {ns : List (Str × RetainNode)} {l : Str} {n : RetainNode} {p : List Str} :
      FMap.get ns l = some n → RetainNodeAt n.nodes p → RetainNodeAt ns (l :: p)

end Akasa

import Verif.Model.TableRace
/-!
# Vocabulary of C80
-/
namespace Akasa

/-- The calls of a task take place in the common history, in this order, at the places `at`. -/
def TakePlace (prog history : List TableCall) (at' : Nat → Nat) : Prop :=
  (∀ i c, prog[i]? = some c → history[at' i]? = some c) ∧
  ∀ i j, i < j → j < prog.length → at' i < at' j

/-- What the history stored last for a topic before place `n`, and where. -/
def LastStored (history : List TableCall) (n : Nat) (topic : Str) (k : Nat) (d : RetainContent) : Prop :=
  k < n ∧ history[k]? = some (.store d) ∧ d.topic = topic ∧
  ∀ k' d', k < k' → k' < n → history[k']? = some (.store d') → d'.topic ≠ topic

end Akasa

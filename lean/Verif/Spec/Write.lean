import Verif.Model.Write
/-!
# Vocabulary of C43
-/
namespace Akasa

variable {P : Type}

/-- The packets queued by a sequence of steps, in order. -/
def queued : List (WriteAct P) → List P
  | [] => []
  | .push p :: acts => p :: queued acts
  | .write _ :: acts => queued acts

/-- The concatenation of the encodings of packets. -/
def encodings (enc : P → Option Bytes) (ps : List P) : Bytes := ps.flatMap fun p => (enc p).getD []

/-- The bytes a queue of packets stands for. -/
def packetBytes (enc : P → Option Bytes) : List (WItem P) → Bytes
  | [] => []
  | .packet p :: q => (enc p).getD [] ++ packetBytes enc q
  | .data d i :: q => d.drop i ++ packetBytes enc q

end Akasa

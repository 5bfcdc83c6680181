import Verif.Model.Types
/-!
# Writing packets to the connection (`protocols/mqtt/online_loop.rs:400-444` and `573-613`)

The two loops differ only in when they stop: the first also stops after a partial write.  A run is
any sequence of queueing packets and of single iterations, so it covers both.
-/
namespace Akasa

/-- `online_loop.rs:709-713` `WritePacket`; `data d i` are the bytes `d`, of which `i` have been
written. -/
inductive WItem (P : Type) where
  | packet (p : P)
  | data (d : Bytes) (i : Nat)
deriving DecidableEq, Repr

/-- `WRITE_BATCH_SIZE`, `online_loop.rs:23`. -/
def writeBatchSize : Nat := 2048

/-- `online_loop.rs:402-424`: take items from the queue until enough bytes are collected: the
bytes, how many of them have been written, the remaining queue.  `none` = the encoding of a packet
failed (the connection ends). -/
def gather (enc : P → Option Bytes) : Bytes → Nat → List (WItem P) →
    Option (Bytes × Nat × List (WItem P))
  | all, idx, [] => some (all, idx, [])
  | _, _, .data d i :: rest =>
    if d.length ≥ writeBatchSize then some (d, i, rest) else gather enc d i rest
  | all, idx, .packet p :: rest =>
    match enc p with
    | none => none
    | some e =>
      if (all ++ e).length ≥ writeBatchSize then some (all ++ e, idx, rest)
      else gather enc (all ++ e) idx rest

/-- The result of `poll_write` of the transport: `wrote n` accepted `n` bytes of the buffer (at most
all of them), `Pending`, or an error. -/
inductive WriteRes where
  | wrote (n : Nat)
  | pending
  | error
deriving DecidableEq, Repr

/-- The write queue of a connection, the bytes the transport has accepted so far, and whether the
connection is still in use. -/
structure Writer (P : Type) where
  queue : List (WItem P) := []
  wire : Bytes := []
  live : Bool := true

/-- What happens to the write queue: `push` is `write_packets.push_back`, `write` one iteration of
the loop. -/
inductive WriteAct (P : Type) where
  | push (p : P)
  | write (r : WriteRes)

/-- `online_loop.rs:425-443`, `592-612`: write what was collected. -/
def Writer.put (w : Writer P) (all : Bytes) (idx : Nat) (rest : List (WItem P)) :
    WriteRes → Writer P
  | .wrote n =>
    let n := min n (all.length - idx)
    { w with
      wire := w.wire ++ (all.drop idx).take n
      queue := if idx + n < all.length then .data all (idx + n) :: rest else rest }
  | .pending => { w with queue := .data all idx :: rest }
  | .error => { w with live := false }

/-- One step.  `while !write_packets.is_empty()`: an empty queue is left alone. -/
def Writer.step (enc : P → Option Bytes) (w : Writer P) : WriteAct P → Writer P
  | .push p => if w.live then { w with queue := w.queue ++ [.packet p] } else w
  | .write r =>
    if w.live && !w.queue.isEmpty then
      match gather enc [] 0 w.queue with
      | none => { w with live := false }
      | some (all, idx, rest) => w.put all idx rest r
    else w

/-- A sequence of steps. -/
def Writer.run (enc : P → Option Bytes) (w : Writer P) (acts : List (WriteAct P)) : Writer P :=
  acts.foldl (Writer.step enc) w

end Akasa

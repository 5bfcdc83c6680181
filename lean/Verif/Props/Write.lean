import Verif.Proof.Write
/-!
# C43: the bytes on the wire
-/
namespace Akasa

variable {P : Type} {enc : P → Option Bytes}

/-- **C43**: whatever the transport accepts per write, the bytes written are a prefix of the
encodings of the packets queued, in the order of queueing. -/
theorem C43_prefix (acts : List (WriteAct P)) :
    (Writer.run enc {} acts).wire <+: encodings enc (queued acts) := (winv_run acts).pre

/-- **C43**: when the queue of a live connection is empty, everything queued has been written. -/
theorem C43_complete (acts : List (WriteAct P)) (hl : (Writer.run enc {} acts).live = true)
    (he : (Writer.run enc {} acts).queue = []) :
    (Writer.run enc {} acts).wire = encodings enc (queued acts) := by
  have := (winv_run (enc := enc) acts).eq hl
  rw [he] at this
  simpa [packetBytes] using this

/-- **C43**: the connection is given up only if the transport reports an error or a packet cannot be
encoded. -/
theorem C43_live (acts : List (WriteAct P)) (henc : ∀ p ∈ queued acts, (enc p).isSome)
    (hok : WriteAct.write .error ∉ acts) : (Writer.run enc {} acts).live = true :=
  (live_run acts henc hok).1

/-- **C43**: as long as every write accepts at least one byte, the queue is emptied: after as many
writes as there are bytes and packets queued, everything has been written. -/
theorem C43_drains (acts : List (WriteAct P)) (henc : ∀ p ∈ queued acts, (enc p).isSome)
    (hok : WriteAct.write .error ∉ acts) (ns : List Nat) (hns : ∀ n ∈ ns, n ≥ 1)
    (hlen : ns.length ≥ (packetBytes enc (Writer.run enc {} acts).queue).length +
      (Writer.run enc {} acts).queue.length) :
    (Writer.run enc {} (acts ++ ns.map fun n => .write (.wrote n))).wire =
      encodings enc (queued acts) := by
  have key : (Writer.run enc {} (acts ++ ns.map fun n => .write (.wrote n))).queue = [] := by
    induction ns generalizing acts with
    | nil =>
      simp only [List.length_nil, ge_iff_le, Nat.le_zero_eq, Nat.add_eq_zero_iff,
        List.length_eq_zero_iff] at hlen
      simpa using hlen.2
    | cons n ns ih =>
      have hstep := ih (acts ++ [.write (.wrote n)])
        (by rw [queued_append]; simpa [queued] using henc)
        (by simpa using hok) (fun m hm => hns m (by simp [hm])) ?_
      · simpa using hstep
      · have hi := winv_run (enc := enc) acts
        obtain ⟨hl, hp⟩ := live_run acts henc hok
        have hd := drain_step (n := n) (hi.good hl) hl (fun p h => henc p (hp p h)) (hns n (by simp))
        simp only [Writer.run, List.foldl_append, List.foldl_cons, List.foldl_nil,
          List.length_cons] at hd hlen ⊢
        rcases hd with hd | hd
        · simp [Writer.step, hd, packetBytes]
        · omega
  have hok' : WriteAct.write .error ∉ acts ++ ns.map fun n => WriteAct.write (.wrote n) := by
    simpa using hok
  have hq : queued (acts ++ ns.map fun n => WriteAct.write (.wrote n)) = queued acts := by
    rw [queued_append, queued_writes, List.append_nil]
  have := C43_complete (enc := enc) (acts ++ ns.map fun n => .write (.wrote n))
    (C43_live _ (by rw [hq]; exact henc) hok') key
  rwa [hq] at this

/-- Two packets, a write that takes three bytes, another packet, a blocked write, and a write of the
rest. -/
example : (Writer.run (fun n : Nat => some (List.replicate n (UInt8.ofNat n))) {}
      [.push 2, .push 3, .write (.wrote 3), .push 1, .write .pending, .write (.wrote 10)]).wire =
    [2, 2, 3, 3, 3, 1] := by decide

/-- After the first write three of the bytes are on the wire, the others wait. -/
example : (fun w : Writer Nat => (w.wire, w.queue))
      (Writer.run (fun n : Nat => some (List.replicate n (UInt8.ofNat n))) {}
        [.push 2, .push 3, .write (.wrote 3), .push 1]) =
    ([2, 2, 3], [.data [2, 2, 3, 3, 3] 3, .packet 1]) := by decide

end Akasa

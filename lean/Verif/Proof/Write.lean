import Verif.Spec.Write
import Verif.Proof.Util
/-!
# Lemmas for C43
-/
namespace Akasa

variable {P : Type} {enc : P → Option Bytes}

/-- Only the first item may be partially written data. -/
def OnlyPackets (q : List (WItem P)) : Prop := ∀ d i, WItem.data d i ∉ q

def GoodQueue : List (WItem P) → Prop
  | [] => True
  | .packet _ :: q => OnlyPackets q
  | .data d i :: q => i ≤ d.length ∧ OnlyPackets q

theorem OnlyPackets.good {q : List (WItem P)} (h : OnlyPackets q) : GoodQueue q := by
  match q, h with
  | [], _ => trivial
  | .packet p :: q, h => exact fun d i hm => h d i (by simp [hm])
  | .data d i :: q, h => exact absurd (by simp) (h d i)

theorem gather_packets {q : List (WItem P)} (h : OnlyPackets q) :
    ∀ {all : Bytes} {idx : Nat} {all' : Bytes} {idx' : Nat} {rest : List (WItem P)},
      idx ≤ all.length → gather enc all idx q = some (all', idx', rest) →
      idx' ≤ all'.length ∧ OnlyPackets rest ∧
        all'.drop idx' ++ packetBytes enc rest = all.drop idx ++ packetBytes enc q := by
  induction q with
  | nil =>
    intro all idx all' idx' rest hi hg
    simp only [gather, Option.some.injEq, Prod.mk.injEq] at hg
    obtain ⟨rfl, rfl, rfl⟩ := hg
    exact ⟨hi, h, rfl⟩
  | cons x q ih =>
    intro all idx all' idx' rest hi hg
    have hq : OnlyPackets q := fun d i hm => h d i (by simp [hm])
    cases x with
    | data d i => exact absurd (by simp) (h d i)
    | packet p =>
      simp only [gather] at hg
      split at hg
      · cases hg
      · rename_i e he
        have hl : idx ≤ (all ++ e).length := by simp; omega
        have hdrop : (all ++ e).drop idx = all.drop idx ++ e := by
          rw [List.drop_append_of_le_length hi]
        have hp : packetBytes enc (.packet p :: q) = e ++ packetBytes enc q := by
          simp [packetBytes, he]
        split at hg
        · simp only [Option.some.injEq, Prod.mk.injEq] at hg
          obtain ⟨rfl, rfl, rfl⟩ := hg
          exact ⟨hl, hq, by rw [hdrop, hp, List.append_assoc]⟩
        · obtain ⟨h1, h2, h3⟩ := ih hq hl hg
          exact ⟨h1, h2, by rw [h3, hdrop, hp, List.append_assoc]⟩

theorem gather_good {q : List (WItem P)} (h : GoodQueue q) {all : Bytes} {idx : Nat}
    {rest : List (WItem P)} (hg : gather enc [] 0 q = some (all, idx, rest)) :
    idx ≤ all.length ∧ OnlyPackets rest ∧
      all.drop idx ++ packetBytes enc rest = packetBytes enc q := by
  match q, h with
  | [], _ =>
    have := gather_packets (enc := enc) (q := []) (by intro d i; simp) (Nat.zero_le _) hg
    simpa using this
  | .packet p :: q, h =>
    have := gather_packets (q := .packet p :: q) (by
      intro d i hm
      rcases List.mem_cons.mp hm with h1 | h1
      · cases h1
      · exact h d i h1) (Nat.zero_le _) hg
    simpa using this
  | .data d i :: q, h =>
    simp only [gather] at hg
    split at hg
    · simp only [Option.some.injEq, Prod.mk.injEq] at hg
      obtain ⟨rfl, rfl, rfl⟩ := hg
      exact ⟨h.1, h.2, rfl⟩
    · exact gather_packets h.2 h.1 hg

structure WInv (enc : P → Option Bytes) (w : Writer P) (ps : List P) : Prop where
  good : w.live = true → GoodQueue w.queue
  eq : w.live = true → w.wire ++ packetBytes enc w.queue = encodings enc ps
  pre : w.wire <+: encodings enc ps

theorem packetBytes_snoc (q : List (WItem P)) (p : P) :
    packetBytes enc (q ++ [.packet p]) = packetBytes enc q ++ (enc p).getD [] := by
  induction q with
  | nil => simp [packetBytes]
  | cons x q ih => cases x <;> simp [packetBytes, ih]

theorem encodings_append (ps qs : List P) :
    encodings enc (ps ++ qs) = encodings enc ps ++ encodings enc qs := by
  simp [encodings]

theorem good_snoc {q : List (WItem P)} (p : P) (h : GoodQueue q) :
    GoodQueue (q ++ [.packet p]) := by
  have key : ∀ {q : List (WItem P)}, OnlyPackets q → OnlyPackets (q ++ [.packet p]) := by
    intro q hq d i hm
    rcases List.mem_append.mp hm with h1 | h1
    · exact hq d i h1
    · simp at h1
  match q, h with
  | [], _ => exact fun d i hm => by simp at hm
  | .packet _ :: q, h => exact key h
  | .data d i :: q, h => exact ⟨h.1, key h.2⟩

theorem queued_append (a b : List (WriteAct P)) : queued (a ++ b) = queued a ++ queued b := by
  induction a with
  | nil => rfl
  | cons x a ih => cases x <;> simp [queued, ih]

theorem winv_step {w : Writer P} {ps : List P} (h : WInv enc w ps) (a : WriteAct P) :
    WInv enc (w.step enc a) (ps ++ queued [a]) := by
  have hdead : ∀ {w' : Writer P} (qs : List P), w'.live = false → w'.wire = w.wire →
      WInv enc w' (ps ++ qs) := by
    intro w' qs hl hw
    refine ⟨fun h => by simp [hl] at h, fun h => by simp [hl] at h, ?_⟩
    rw [hw, encodings_append]
    exact h.pre.trans (List.prefix_append _ _)
  cases a with
  | push p =>
    simp only [Writer.step]
    by_cases hl : w.live = true
    · rw [if_pos hl]
      refine ⟨fun _ => good_snoc p (h.good hl), fun _ => ?_, ?_⟩
      · simp only [packetBytes_snoc, encodings_append, ← h.eq hl]
        simp [encodings, queued]
      · rw [encodings_append]
        exact h.pre.trans (List.prefix_append _ _)
    · rw [if_neg hl]
      exact hdead _ (by simpa using hl) rfl
  | write r =>
    have hq : queued [WriteAct.write (P := P) r] = [] := rfl
    simp only [hq, List.append_nil]
    simp only [Writer.step]
    by_cases hc : (w.live && !w.queue.isEmpty) = true
    · rw [if_pos hc]
      simp only [Bool.and_eq_true] at hc
      cases hg : gather enc [] 0 w.queue with
      | none => simpa using hdead (w' := { w with live := false }) [] rfl rfl
      | some x =>
        obtain ⟨all, idx, rest⟩ := x
        obtain ⟨h1, h2, h3⟩ := gather_good (h.good hc.1) hg
        have heq := h.eq hc.1
        rw [← h3] at heq
        cases r with
        | error => simpa [Writer.put] using hdead (w' := { w with live := false }) [] rfl rfl
        | pending =>
          refine ⟨fun _ => ⟨h1, h2⟩, fun _ => ?_, h.pre⟩
          simpa [Writer.put, packetBytes] using heq
        | wrote n =>
          simp only [Writer.put]
          generalize hn : min n (all.length - idx) = k
          have hk : k ≤ all.length - idx := by omega
          have hkey : w.wire ++ (all.drop idx).take k ++ (all.drop (idx + k) ++ packetBytes enc rest) =
              encodings enc ps := by
            rw [← heq, ← List.drop_drop]
            simp only [List.append_assoc, List.append_cancel_left_eq]
            rw [← List.append_assoc, List.take_append_drop]
          refine ⟨fun _ => ?_, fun _ => ?_, ?_⟩
          · split
            · exact ⟨by omega, h2⟩
            · exact h2.good
          · simp only
            split
            · simpa [packetBytes] using hkey
            · rename_i hlt
              have : all.drop (idx + k) = [] := by
                rw [List.drop_eq_nil_iff]; omega
              simpa [this] using hkey
          · exact ⟨_, hkey⟩
    · rw [if_neg hc]
      exact h

theorem winv_run (acts : List (WriteAct P)) :
    WInv enc (Writer.run enc {} acts) (queued acts) := by
  induction acts using snoc_induction with
  | nil => exact ⟨fun _ => trivial, fun _ => rfl, by simp [Writer.run, queued]⟩
  | snoc acts a ih =>
    rw [queued_append]
    simp only [Writer.run, List.foldl_append, List.foldl_cons, List.foldl_nil] at ih ⊢
    exact winv_step ih a

theorem gather_isSome {q : List (WItem P)} (h : ∀ p, WItem.packet p ∈ q → (enc p).isSome) :
    ∀ (all : Bytes) (idx : Nat), ∃ all' idx' rest, gather enc all idx q = some (all', idx', rest) ∧
      rest.length ≤ q.length ∧ (q ≠ [] → rest.length < q.length) ∧
      ∀ p, WItem.packet p ∈ rest → WItem.packet p ∈ q := by
  induction q with
  | nil => exact fun all idx => ⟨all, idx, [], rfl, Nat.le_refl _, fun h => absurd rfl h, by simp⟩
  | cons x q ih =>
    intro all idx
    have hq : ∀ p, WItem.packet p ∈ q → (enc p).isSome := fun p hp => h p (by simp [hp])
    cases x with
    | data d i =>
      simp only [gather]
      split
      · exact ⟨_, _, _, rfl, by simp, by simp, fun p hp => by simp [hp]⟩
      · obtain ⟨a, b, c, h1, h2, h3, h4⟩ := ih hq d i
        exact ⟨a, b, c, h1, by simp; omega, by simp; omega, fun p hp => by simp [h4 p hp]⟩
    | packet p =>
      have hp := h p (by simp)
      obtain ⟨e, he⟩ := Option.isSome_iff_exists.mp hp
      simp only [gather, he]
      split
      · exact ⟨_, _, _, rfl, by simp, by simp, fun p hp => by simp [hp]⟩
      · obtain ⟨a, b, c, h1, h2, h3, h4⟩ := ih hq (all ++ e) idx
        exact ⟨a, b, c, h1, by simp; omega, by simp; omega, fun p hp => by simp [h4 p hp]⟩

theorem live_run (acts : List (WriteAct P)) (henc : ∀ p ∈ queued acts, (enc p).isSome)
    (hok : WriteAct.write .error ∉ acts) :
    (Writer.run enc {} acts).live = true ∧
      ∀ p, WItem.packet p ∈ (Writer.run enc {} acts).queue → p ∈ queued acts := by
  induction acts using snoc_induction with
  | nil => exact ⟨rfl, fun p h => by simp [Writer.run] at h⟩
  | snoc acts a ih =>
    rw [queued_append] at henc ⊢
    obtain ⟨h1, h2⟩ := ih (fun p hp => henc p (by simp [hp])) (fun h => hok (by simp [h]))
    simp only [Writer.run, List.foldl_append, List.foldl_cons, List.foldl_nil] at h1 h2 ⊢
    generalize List.foldl (Writer.step enc) {} acts = w at h1 h2 ⊢
    cases a with
    | push p =>
      simp only [Writer.step, h1, if_true, true_and]
      intro p' hp'
      rcases List.mem_append.mp hp' with h | h
      · simp [h2 p' h]
      · simp only [List.mem_singleton, WItem.packet.injEq] at h
        simp [h, queued]
    | write r =>
      have hr : r ≠ .error := fun h => hok (by simp [h])
      simp only [Writer.step]
      by_cases hc : (w.live && !w.queue.isEmpty) = true
      · rw [if_pos hc]
        obtain ⟨a, b, c, hg, _, _, h4⟩ := gather_isSome (enc := enc) (q := w.queue)
          (fun p hp => henc p (by simp [h2 p hp])) [] 0
        rw [hg]
        have h5 : ∀ p, WItem.packet p ∈ c → p ∈ queued acts := fun p hp => h2 p (h4 p hp)
        simp only [queued, List.append_nil]
        cases r with
        | error => exact absurd rfl hr
        | pending =>
          refine ⟨h1, fun p hp => ?_⟩
          simp only [Writer.put, List.mem_cons, reduceCtorEq, false_or] at hp
          exact h5 p hp
        | wrote n =>
          refine ⟨h1, fun p hp => ?_⟩
          simp only [Writer.put] at hp
          split at hp
          · simp only [List.mem_cons, reduceCtorEq, false_or] at hp
            exact h5 p hp
          · exact h5 p hp
      · rw [if_neg hc]
        exact ⟨h1, fun p hp => by simp [h2 p hp]⟩

theorem queued_writes (ns : List Nat) :
    queued (ns.map fun n => (WriteAct.write (.wrote n) : WriteAct P)) = [] := by
  induction ns with
  | nil => rfl
  | cons n ns ih => simp [queued, ih]

theorem drain_step {w : Writer P} (hg : GoodQueue w.queue) (hl : w.live = true)
    (henc : ∀ p, WItem.packet p ∈ w.queue → (enc p).isSome) {n : Nat} (hn : n ≥ 1) :
    w.queue = [] ∨
      (packetBytes enc (w.step enc (.write (.wrote n))).queue).length +
        (w.step enc (.write (.wrote n))).queue.length <
      (packetBytes enc w.queue).length + w.queue.length := by
  by_cases he : w.queue = []
  · exact .inl he
  · right
    obtain ⟨a, b, c, h1, h2, h3, h4⟩ := gather_isSome henc [] 0
    obtain ⟨h5, h6, h7⟩ := gather_good hg h1
    have hc : (w.live && !w.queue.isEmpty) = true := by simp [hl, he]
    have h8 := congrArg List.length h7
    have h9 := h3 he
    simp only [List.length_append, List.length_drop] at h8
    simp only [Writer.step, if_pos hc, h1, Writer.put]
    split
    · simp only [packetBytes, List.length_append, List.length_drop, List.length_cons]
      omega
    · omega

end Akasa

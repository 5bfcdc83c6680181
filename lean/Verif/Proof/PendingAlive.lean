import Verif.Proof.PendingOrder
/-!
# Order of first transmissions when the clock does not go back
-/
namespace Akasa

variable {P : Type}

/-- A message that has not been transmitted and has not expired at time `now`. -/
def PStatus.alive? (exp : P → Option Nat) (now : Nat) : PStatus P → Option P
  | .new a _ _ p false => (exp p).elim (some p) (fun v => if v ≤ now - a then none else some p)
  | _ => none

theorem alive_sublist (exp : P → Option Nat) {lo hi : Nat} (h : lo ≤ hi) (ps : List (PStatus P)) :
    (ps.filterMap (PStatus.alive? exp hi)).Sublist (ps.filterMap (PStatus.alive? exp lo)) := by
  induction ps with
  | nil => simp
  | cons s ss ih =>
    rw [List.filterMap_cons, List.filterMap_cons]
    cases s with
    | new a l pid p d =>
      cases d with
      | false =>
        cases hv : exp p with
        | none => simp only [PStatus.alive?, hv, Option.elim]; exact ih.cons_cons _
        | some v =>
          simp only [PStatus.alive?, hv, Option.elim]
          by_cases h1 : v ≤ lo - a
          · rw [if_pos h1, if_pos (by omega)]; exact ih
          · rw [if_neg h1]
            by_cases h2 : v ≤ hi - a
            · rw [if_pos h2]; exact ih.trans (List.sublist_cons_self _ _)
            · rw [if_neg h2]; exact ih.cons_cons _
      | true => exact ih
    | pubrec l pid => exact ih
    | complete => exact ih

theorem sweep_alive (exp : P → Option Nat) (t : Nat) (clk : Clock) {lo hi : Nat}
    (hclk : ∀ k, lo ≤ clk.sent k ∧ clk.sent k ≤ hi) (n cur i : Nat)
    (ps : List (PStatus P)) (hz : ∀ a l pid p, PStatus.new a l pid p false ∈ ps → l = 0) :
    (firstSent (sweep exp t clk n cur i ps).2.1 ++
      (sweep exp t clk n cur i ps).1.filterMap (PStatus.alive? exp hi)).Sublist
      (ps.filterMap (PStatus.alive? exp lo)) := by
  have hlh : lo ≤ hi := Nat.le_trans (hclk 0).1 (hclk 0).2
  induction ps generalizing n cur i with
  | nil => cases n <;> simp [sweep, firstSent]
  | cons s ss ih =>
    cases n with
    | zero => simp only [sweep, firstSent, List.nil_append]; exact alive_sublist _ hlh _
    | succ n =>
      have hz' : ∀ a l pid p, PStatus.new a l pid p false ∈ ss → l = 0 :=
        fun a l pid p h => hz a l pid p (by simp [h])
      by_cases hr : s.ready t (clk.ready cur) = true
      · rw [sweep, if_pos hr]
        have IH := ih n (i + 1) (i + 1) hz'
        simp only
        rw [firstSent_append, List.filterMap_cons, List.filterMap_cons]
        cases s with
        | new a l pid p d =>
          simp only [PStatus.attempt]
          cases hv : exp p with
          | none =>
            cases d with
            | false =>
              simp only [Option.toList_some, firstSent, PStatus.alive?, hv, Option.elim]
              exact IH.cons_cons _
            | true =>
              simp only [Option.toList_some, firstSent, PStatus.alive?]
              exact IH
          | some v =>
            have hc1 := hclk i
            cases d with
            | false =>
              have hl := hz a l pid p (by simp)
              subst hl
              simp only [true_and]
              by_cases hc : clk.sent i - a ≥ v
              · rw [if_pos hc]
                simp only [Option.toList_none, firstSent, PStatus.alive?, hv, Option.elim,
                  List.nil_append]
                rw [if_pos (by omega)]
                by_cases h2 : v ≤ lo - a
                · rw [if_pos h2]; exact IH
                · rw [if_neg h2]; exact IH.trans (List.sublist_cons_self _ _)
              · rw [if_neg hc]
                simp only [Option.toList_some, firstSent, PStatus.alive?, hv, Option.elim]
                rw [if_neg (by omega)]
                exact IH.cons_cons _
            | true =>
              simp only
              split <;> simp only [Option.toList_some, Option.toList_none, firstSent,
                PStatus.alive?, List.nil_append] <;> exact IH
        | pubrec l pid =>
          simp only [PStatus.attempt, Option.toList_some, firstSent, PStatus.alive?,
            List.nil_append]
          exact IH
        | complete =>
          simp only [PStatus.attempt, Option.toList_none, firstSent, PStatus.alive?,
            List.nil_append]
          exact IH
      · by_cases hf : ∃ a l pid p, s = .new a l pid p false
        · obtain ⟨a, l, pid, p, rfl⟩ := hf
          have hl := hz a l pid p (by simp)
          subst hl
          have hlt : clk.ready cur < t := by
            simp [PStatus.ready] at hr; omega
          rw [sweep_not_ready hlt]
          simp only [firstSent, List.nil_append]
          exact alive_sublist _ hlh _
        · rw [sweep, if_neg hr]
          have IH := ih n cur (i + 1) hz'
          simp only
          rw [List.filterMap_cons, List.filterMap_cons]
          have h1 : ∀ now, PStatus.alive? exp now s = none := by
            intro now
            cases s with
            | new a l pid p d =>
              cases d with
              | false => exact absurd ⟨a, l, pid, p, rfl⟩ hf
              | true => rfl
            | pubrec l pid => rfl
            | complete => rfl
          rw [h1, h1]
          exact IH

theorem handlePendings_alive {exp : P → Option Nat} {clk : Clock} {q : Pending P} {lo hi : Nat}
    (hclk : ∀ k, lo ≤ clk.sent k ∧ clk.sent k ≤ hi)
    (hz : ∀ a l pid p, PStatus.new a l pid p false ∈ q.packets → l = 0) :
    (firstSent (q.handlePendings exp clk).2 ++
      (q.handlePendings exp clk).1.packets.filterMap (PStatus.alive? exp hi)).Sublist
      (q.packets.filterMap (PStatus.alive? exp lo)) := by
  have hs := sweep_alive exp q.timeout clk hclk q.cleanComplete.window 0 0 q.cleanComplete.packets
    (fun a l pid p h => hz a l pid p ((List.dropWhile_sublist _).subset h))
  have hf : q.cleanComplete.packets.filterMap (PStatus.alive? exp lo) =
      q.packets.filterMap (PStatus.alive? exp lo) := filterMap_dropWhile _ rfl _
  rw [hf] at hs
  rw [handlePendings_sent]
  exact (List.Sublist.append (List.Sublist.refl _)
    (handlePendings_filterMap_sublist _ rfl exp clk q)).trans hs

theorem step_fresh_zero {exp : P → Option Nat} {s : Sender P} (op : SendOp P)
    (hz : ∀ a l pid p, PStatus.new a l pid p false ∈ s.pending.packets → l = 0) :
    ∀ a l pid p, PStatus.new a l pid p false ∈ (s.step exp op).1.pending.packets → l = 0 := by
  intro a l pid p he
  rcases step_entries exp _ _ _ he with h | h | ⟨clk, k, rfl, e0, h0, h⟩ | ⟨now, pid, rfl, h⟩ |
    ⟨now, p, rfl, h⟩ | ⟨m, rfl, e0, h0, h⟩
  · cases h
  · exact hz _ _ _ _ h
  · obtain ⟨l0, d0, rfl, ⟨rfl, rfl⟩ | ⟨_, h⟩⟩ := attempt_new h.symm
    · exact hz _ _ _ _ h0
    · cases h
  · cases h
  · cases h; rfl
  · exact (reset_new h.symm).1

theorem outs_firstSent_mono {exp : P → Option Nat} (s : Sender P) (lo : Nat) (ops : List (SendOp P))
    (hz : ∀ a l pid p, PStatus.new a l pid p false ∈ s.pending.packets → l = 0)
    (hc : ClockMono lo ops) :
    (firstSent (s.outs exp ops)).Sublist
      (s.pending.packets.filterMap (PStatus.alive? exp lo) ++ delivered ops) := by
  induction ops generalizing s lo with
  | nil => simp [outs_nil, firstSent]
  | cons op ops ih =>
    have hz' := step_fresh_zero (exp := exp) op hz
    have key : ∀ hi, ClockMono hi ops → firstSent (s.step exp op).2 = [] →
        ((s.step exp op).1.pending.packets.filterMap (PStatus.alive? exp hi)).Sublist
          (s.pending.packets.filterMap (PStatus.alive? exp lo) ++ delivered [op]) →
        (firstSent (s.outs exp (op :: ops))).Sublist
          (s.pending.packets.filterMap (PStatus.alive? exp lo) ++ delivered (op :: ops)) := by
      intro hi h1 h2 h3
      rw [outs_cons, firstSent_append, h2, List.nil_append]
      refine (ih _ hi hz' h1).trans ?_
      have : delivered (op :: ops) = delivered [op] ++ delivered ops := delivered_append [op] ops
      rw [this, ← List.append_assoc]
      exact h3.append (List.Sublist.refl _)
    cases op with
    | deliver now p =>
      refine key lo hc rfl ?_
      show (((_ : Pending P).pushBack now _ p).1.packets.filterMap (PStatus.alive? exp lo)).Sublist _
      unfold Pending.pushBack
      split
      · simp only [Pending.cleanComplete]
        rw [filterMap_dropWhile _ rfl]
        exact List.sublist_append_left _ _
      · simp only [Pending.cleanComplete]
        rw [List.filterMap_append, filterMap_dropWhile _ rfl]
        refine List.Sublist.append (List.Sublist.refl _) ?_
        cases hv : exp p with
        | none => simp [PStatus.alive?, hv, delivered]
        | some v =>
          by_cases h1 : v ≤ lo - now
          · simp [PStatus.alive?, hv, delivered, h1]
          · simp [PStatus.alive?, hv, delivered, h1]
    | pass clk =>
      obtain ⟨hi, h1, h2⟩ := hc
      rw [outs_cons, firstSent_append]
      have h3 := ih _ hi hz' h2
      have h4 := handlePendings_alive (exp := exp) h1 hz
      refine (List.Sublist.append (List.Sublist.refl _) h3).trans ?_
      rw [← List.append_assoc]
      exact h4.append (List.Sublist.refl _)
    | puback pid =>
      refine key lo hc rfl ?_
      exact (complete_filterMap_sublist _ rfl _ _ _).trans (List.sublist_append_left _ _)
    | pubcomp pid =>
      refine key lo hc rfl ?_
      exact (complete_filterMap_sublist _ rfl _ _ _).trans (List.sublist_append_left _ _)
    | pubrec now pid =>
      refine key lo hc rfl ?_
      refine List.Sublist.trans ?_ (List.sublist_append_left _ _)
      show ((_ : Pending P).pubrec now pid).1.packets.filterMap _ |>.Sublist _
      unfold Pending.pubrec
      split
      · next h =>
        exact updFirst_filterMap_sublist _ (fun s s' hs => by rw [(pubrecStatus_some hs).1]; rfl) h
      · exact List.Sublist.refl _
    | reconnect m' =>
      refine key lo hc rfl ?_
      rw [reconnect_packets, filterMap_map_eq _ _ (by
        intro s
        cases s with
        | new a l pid p d => cases d <;> rfl
        | _ => rfl)]
      exact List.sublist_append_left _ _

end Akasa

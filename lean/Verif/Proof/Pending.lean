import Verif.Spec.Pending
import Verif.Proof.Util
/-!
# Lemmas about the outgoing queue
-/
namespace Akasa

variable {P : Type}

/-! ## The loop of `handle_pendings` as one sweep over the window -/

/-- One sweep over the first `n` entries; `cur` is the `start` of the current search. -/
def sweep (exp : P → Option Nat) (timeout : Nat) (clk : Clock) :
    Nat → Nat → Nat → List (PStatus P) → List (PStatus P) × List (Sent P) × List Pid
  | 0, _, _, ps => (ps, [], [])
  | _ + 1, _, _, [] => ([], [], [])
  | n + 1, cur, i, s :: ss =>
    if s.ready timeout (clk.ready cur) then
      ((s.attempt exp (clk.sent i)).1 :: (sweep exp timeout clk n (i + 1) (i + 1) ss).1,
        (s.attempt exp (clk.sent i)).2.1.toList ++ (sweep exp timeout clk n (i + 1) (i + 1) ss).2.1,
        (s.attempt exp (clk.sent i)).2.2.toList ++ (sweep exp timeout clk n (i + 1) (i + 1) ss).2.2)
    else
      (s :: (sweep exp timeout clk n cur (i + 1) ss).1, (sweep exp timeout clk n cur (i + 1) ss).2.1,
        (sweep exp timeout clk n cur (i + 1) ss).2.2)

/-- The predicate of the search in `getReady`. -/
def Pending.readyAt (q : Pending P) (now i : Nat) : Bool :=
  match q.packets[i]? with
  | some s => s.ready q.timeout now
  | none => false

theorem Pending.getReady_eq (q : Pending P) (now start : Nat) :
    q.getReady now start = (List.range' start (q.window - start)).find? (q.readyAt now) := rfl

theorem find_range'_some {p : Nat → Bool} {start n i : Nat} (h1 : start ≤ i) (h2 : i < start + n)
    (hp : p i = true) (hn : ∀ j, start ≤ j → j < i → p j = false) :
    (List.range' start n).find? p = some i := by
  induction n generalizing start with
  | zero => omega
  | succ n ih =>
    rw [List.range'_succ, List.find?_cons]
    by_cases hs : start = i
    · subst hs; simp [hp]
    · rw [hn start (Nat.le_refl _) (by omega)]
      exact ih (by omega) (by omega) (fun j hj => hn j (by omega))

theorem find_range'_none {p : Nat → Bool} {start n : Nat}
    (hn : ∀ j, start ≤ j → j < start + n → p j = false) :
    (List.range' start n).find? p = none := by
  rw [List.find?_eq_none]
  intro x hx
  rw [List.mem_range'_1] at hx
  rw [hn x hx.1 hx.2]; simp

theorem Pending.sendLoop_eq (exp : P → Option Nat) (clk : Clock) :
    ∀ (n fuel cur i : Nat) (q : Pending P) (pre rest : List (PStatus P)),
      q.packets = pre ++ rest → pre.length = i → n + i = q.window → cur ≤ i → n < fuel →
      (∀ j, cur ≤ j → j < i → q.readyAt (clk.ready cur) j = false) →
      q.sendLoop exp clk fuel cur =
        ({ q with packets := pre ++ (sweep exp q.timeout clk n cur i rest).1 },
          (sweep exp q.timeout clk n cur i rest).2) := by
  intro n
  induction n with
  | zero =>
    intro fuel cur i q pre rest hq hi hw hc hf hno
    obtain ⟨fuel, rfl⟩ : ∃ f, fuel = f + 1 := ⟨fuel - 1, by omega⟩
    have : q.getReady (clk.ready cur) cur = none := by
      rw [Pending.getReady_eq]
      apply find_range'_none
      intro j h1 h2
      exact hno j h1 (by omega)
    rw [Pending.sendLoop, this, sweep]
    simp [← hq]
  | succ n ih =>
    intro fuel cur i q pre rest hq hi hw hc hf hno
    obtain ⟨fuel, rfl⟩ : ∃ f, fuel = f + 1 := ⟨fuel - 1, by omega⟩
    cases rest with
    | nil =>
      exfalso
      have : q.packets.length = i := by rw [hq]; simpa using hi
      have h2 : q.window ≤ q.packets.length := Nat.min_le_right _ _
      omega
    | cons s ss =>
      have hs : q.packets[i]? = some s := by
        rw [hq, List.getElem?_append_right (by omega), hi]; simp
      have hra : q.readyAt (clk.ready cur) i = s.ready q.timeout (clk.ready cur) := by
        simp [Pending.readyAt, hs]
      by_cases hr : s.ready q.timeout (clk.ready cur) = true
      · have hg : q.getReady (clk.ready cur) cur = some i := by
          rw [Pending.getReady_eq]
          exact find_range'_some hc (by omega) (by rw [hra, hr]) hno
        rw [Pending.sendLoop, hg]
        simp only [hs]
        rw [sweep, if_pos hr]
        have hset : q.packets.set i (s.attempt exp (clk.sent i)).1 =
            (pre ++ [(s.attempt exp (clk.sent i)).1]) ++ ss := by
          rw [hq, List.set_append_right _ _ (by omega), hi]; simp
        rw [ih fuel (i + 1) (i + 1) { q with packets := q.packets.set i _ }
          (pre ++ [(s.attempt exp (clk.sent i)).1]) ss hset (by simp [hi])
          (by simp [Pending.window] at hw ⊢; omega) (Nat.le_refl _) (by omega)
          (fun j h1 h2 => by omega)]
        simp
      · simp only [Bool.not_eq_true] at hr
        rw [sweep]
        simp only [hr, Bool.false_eq_true, if_false]
        have := ih (fuel + 1) cur (i + 1) q (pre ++ [s]) ss (by simp [hq]) (by simp [hi])
          (by omega) (by omega) (by omega)
          (fun j h1 h2 => by
            by_cases hj : j = i
            · subst hj; rw [hra, hr]
            · exact hno j h1 (by omega))
        rw [this]
        simp

/-- The packets, sent packets and expired identifiers of one pass. -/
def Pending.swept (exp : P → Option Nat) (clk : Clock) (q : Pending P) :
    List (PStatus P) × List (Sent P) × List Pid :=
  sweep exp q.timeout clk q.cleanComplete.window 0 0 q.cleanComplete.packets

/-- The queue after the loop and the completion of the expired messages. -/
def Pending.afterSweep (exp : P → Option Nat) (clk : Clock) (q : Pending P) : Pending P :=
  ({ q with packets := (q.swept exp clk).1 } : Pending P).completeAll (q.swept exp clk).2.2

theorem Pending.handlePendings_eq (exp : P → Option Nat) (clk : Clock) (q : Pending P) :
    q.handlePendings exp clk =
      (if (q.swept exp clk).2.2.isEmpty then q.afterSweep exp clk
        else (q.afterSweep exp clk).cleanComplete, (q.swept exp clk).2.1) := by
  have h := Pending.sendLoop_eq exp clk q.cleanComplete.window (q.cleanComplete.window + 1) 0 0
    q.cleanComplete [] _ rfl rfl rfl (Nat.le_refl _) (Nat.lt_succ_self _)
    (fun j h1 h2 => by omega)
  simp only [Pending.handlePendings, h]
  rfl

/-! ## Basic facts about the sweep -/

theorem attempt_pid (exp : P → Option Nat) (now : Nat) (s : PStatus P) :
    (s.attempt exp now).1.pid? = s.pid? := by
  cases s with
  | new a l pid p d =>
    simp only [PStatus.attempt]
    cases exp p with
    | none => rfl
    | some v => simp only; split <;> rfl
  | _ => rfl

theorem attempt_msg (exp : P → Option Nat) (now : Nat) (s : PStatus P) :
    (s.attempt exp now).1.msg? = s.msg? := by
  cases s with
  | new a l pid p d =>
    simp only [PStatus.attempt]
    cases exp p with
    | none => rfl
    | some v => simp only; split <;> rfl
  | _ => rfl

theorem sweep_length (exp : P → Option Nat) (t : Nat) (clk : Clock) (n cur i : Nat)
    (ps : List (PStatus P)) : (sweep exp t clk n cur i ps).1.length = ps.length := by
  induction ps generalizing n cur i with
  | nil => cases n <;> rfl
  | cons s ss ih =>
    cases n with
    | zero => rfl
    | succ n => rw [sweep]; split <;> simp [ih]

theorem sweep_pids (exp : P → Option Nat) (t : Nat) (clk : Clock) (n cur i : Nat)
    (ps : List (PStatus P)) :
    (sweep exp t clk n cur i ps).1.map PStatus.pid? = ps.map PStatus.pid? := by
  induction ps generalizing n cur i with
  | nil => cases n <;> rfl
  | cons s ss ih =>
    cases n with
    | zero => rfl
    | succ n => rw [sweep]; split <;> simp [ih, attempt_pid]

theorem sweep_msgs (exp : P → Option Nat) (t : Nat) (clk : Clock) (n cur i : Nat)
    (ps : List (PStatus P)) :
    (sweep exp t clk n cur i ps).1.map PStatus.msg? = ps.map PStatus.msg? := by
  induction ps generalizing n cur i with
  | nil => cases n <;> rfl
  | cons s ss ih =>
    cases n with
    | zero => rfl
    | succ n => rw [sweep]; split <;> simp [ih, attempt_msg]

/-- Entry-wise description of the sweep: every entry is unchanged or the result of an attempt. -/
theorem sweep_mem (exp : P → Option Nat) (t : Nat) (clk : Clock) (n cur i : Nat)
    (ps : List (PStatus P)) :
    ∀ e' ∈ (sweep exp t clk n cur i ps).1,
      ∃ e ∈ ps, e' = e ∨ ∃ k, e' = (e.attempt exp (clk.sent k)).1 := by
  induction ps generalizing n cur i with
  | nil => cases n <;> simp [sweep]
  | cons s ss ih =>
    cases n with
    | zero => intro e' he; exact ⟨e', he, .inl rfl⟩
    | succ n =>
      intro e' he
      rw [sweep] at he
      split at he
      · simp only [List.mem_cons] at he
        rcases he with rfl | he
        · exact ⟨s, by simp, .inr ⟨i, rfl⟩⟩
        · obtain ⟨e, h1, h2⟩ := ih _ _ _ e' he
          exact ⟨e, by simp [h1], h2⟩
      · simp only [List.mem_cons] at he
        rcases he with rfl | he
        · exact ⟨e', by simp, .inl rfl⟩
        · obtain ⟨e, h1, h2⟩ := ih _ _ _ e' he
          exact ⟨e, by simp [h1], h2⟩

/-- Conversely every entry survives, unchanged or attempted. -/
theorem sweep_keeps (exp : P → Option Nat) (t : Nat) (clk : Clock) (n cur i : Nat)
    (ps : List (PStatus P)) :
    ∀ e ∈ ps, ∃ e' ∈ (sweep exp t clk n cur i ps).1,
      e' = e ∨ ∃ k, e' = (e.attempt exp (clk.sent k)).1 := by
  induction ps generalizing n cur i with
  | nil => simp
  | cons s ss ih =>
    cases n with
    | zero => intro e he; exact ⟨e, he, .inl rfl⟩
    | succ n =>
      intro e he
      rw [sweep]
      simp only [List.mem_cons] at he
      split
      · rcases he with rfl | he
        · exact ⟨_, by simp, .inr ⟨i, rfl⟩⟩
        · obtain ⟨e', h1, h2⟩ := ih n (i+1) (i+1) e he
          exact ⟨e', by simp [h1], h2⟩
      · rcases he with rfl | he
        · exact ⟨e, by simp, .inl rfl⟩
        · obtain ⟨e', h1, h2⟩ := ih n cur (i+1) e he
          exact ⟨e', by simp [h1], h2⟩

/-- What is sent comes from an entry of the window that was ready. -/
theorem sweep_sent (exp : P → Option Nat) (t : Nat) (clk : Clock) (n cur i : Nat)
    (ps : List (PStatus P)) :
    ∀ x ∈ (sweep exp t clk n cur i ps).2.1,
      ∃ e ∈ ps.take n, ∃ j k, e.ready t (clk.ready j) = true ∧
        (e.attempt exp (clk.sent k)).2.1 = some x ∧
        (e.attempt exp (clk.sent k)).1 ∈ (sweep exp t clk n cur i ps).1.take n := by
  induction ps generalizing n cur i with
  | nil => cases n <;> simp [sweep]
  | cons s ss ih =>
    cases n with
    | zero => simp [sweep]
    | succ n =>
      intro x hx
      rw [sweep] at hx ⊢
      split at hx
      · next hr =>
        rw [if_pos hr]
        simp only [List.mem_append, Option.mem_toList] at hx
        rcases hx with hx | hx
        · exact ⟨s, by simp, cur, i, hr, hx, by simp⟩
        · obtain ⟨e, h1, j, k, h2, h3, h4⟩ := ih _ _ _ x hx
          exact ⟨e, by simp [h1], j, k, h2, h3, by simp [h4]⟩
      · next hr =>
        rw [if_neg hr]
        obtain ⟨e, h1, j, k, h2, h3, h4⟩ := ih _ _ _ x hx
        exact ⟨e, by simp [h1], j, k, h2, h3, by simp [h4]⟩

/-- What expires comes from an entry of the window, which is left as it was. -/
theorem sweep_expired (exp : P → Option Nat) (t : Nat) (clk : Clock) (n cur i : Nat)
    (ps : List (PStatus P)) :
    ∀ pid ∈ (sweep exp t clk n cur i ps).2.2,
      ∃ a p d v k, PStatus.new a 0 pid p d ∈ ps.take n ∧ exp p = some v ∧ v ≤ clk.sent k - a ∧
        PStatus.new a 0 pid p d ∈ (sweep exp t clk n cur i ps).1.take n := by
  induction ps generalizing n cur i with
  | nil => cases n <;> simp [sweep]
  | cons s ss ih =>
    cases n with
    | zero => simp [sweep]
    | succ n =>
      intro x hx
      rw [sweep] at hx ⊢
      split at hx
      · next hr =>
        rw [if_pos hr]
        simp only [List.mem_append, Option.mem_toList] at hx
        rcases hx with hx | hx
        · cases s with
          | new a l pid p d =>
            simp only [PStatus.attempt] at hx ⊢
            cases hv : exp p with
            | none => simp [hv] at hx
            | some v =>
              simp only [hv] at hx ⊢
              split at hx
              · next hc =>
                rw [if_pos hc]
                simp only [Option.some.injEq] at hx
                obtain ⟨rfl, hc⟩ := hc
                subst hx
                exact ⟨a, p, d, v, i, by simp, hv, hc, by simp⟩
              · simp at hx
          | pubrec l pid => simp [PStatus.attempt] at hx
          | complete => simp [PStatus.attempt] at hx
        · obtain ⟨a, p, d, v, k, h1, h2, h3, h4⟩ := ih _ _ _ x hx
          exact ⟨a, p, d, v, k, by simp [h1], h2, h3, by simp [h4]⟩
      · next hr =>
        rw [if_neg hr]
        obtain ⟨a, p, d, v, k, h1, h2, h3, h4⟩ := ih _ _ _ x hx
        exact ⟨a, p, d, v, k, by simp [h1], h2, h3, by simp [h4]⟩

theorem sweep_expired_v3 {exp : P → Option Nat} (h : ∀ p, exp p = none) (t : Nat) (clk : Clock)
    (n cur i : Nat) (ps : List (PStatus P)) : (sweep exp t clk n cur i ps).2.2 = [] := by
  rw [List.eq_nil_iff_forall_not_mem]
  intro x hx
  obtain ⟨a, p, d, v, k, _, h2, _⟩ := sweep_expired exp t clk n cur i ps x hx
  rw [h] at h2; cases h2

/-! ## `updFirst`, acknowledgements -/

/-- What an acknowledgement does to an entry it is for. -/
def PStatus.kill (target : Pid) : PStatus P → PStatus P
  | .new a l pid p d => if pid = target then .complete else .new a l pid p d
  | s => s

theorem updFirst_length {f : PStatus P → Option (PStatus P)} {n : Nat} {ps ps' : List (PStatus P)}
    (h : updFirst f n ps = some ps') : ps'.length = ps.length := by
  induction ps generalizing n ps' with
  | nil => cases n <;> simp [updFirst] at h
  | cons s ss ih =>
    cases n with
    | zero => simp [updFirst] at h
    | succ n =>
      rw [updFirst] at h
      split at h
      · simp at h; subst h; simp
      · simp only [Option.map_eq_some_iff] at h
        obtain ⟨r, hr, rfl⟩ := h
        simp [ih hr]

/-- The result of `updFirst`: one entry is replaced. -/
theorem updFirst_some {f : PStatus P → Option (PStatus P)} {n : Nat} {ps ps' : List (PStatus P)}
    (h : updFirst f n ps = some ps') :
    ∃ pre s s' post, ps = pre ++ s :: post ∧ ps' = pre ++ s' :: post ∧ f s = some s' ∧
      pre.length < n ∧ ∀ e ∈ pre, f e = none := by
  induction ps generalizing n ps' with
  | nil => cases n <;> simp [updFirst] at h
  | cons s ss ih =>
    cases n with
    | zero => simp [updFirst] at h
    | succ n =>
      rw [updFirst] at h
      split at h
      · next s' hs =>
        simp at h; subst h
        exact ⟨[], s, s', ss, rfl, rfl, hs, by simp, by simp⟩
      · next hs =>
        simp only [Option.map_eq_some_iff] at h
        obtain ⟨r, hr, rfl⟩ := h
        obtain ⟨pre, e, e', post, h1, h2, h3, h4, h5⟩ := ih hr
        refine ⟨s :: pre, e, e', post, by simp [h1], by simp [h2], h3, by simp; omega, ?_⟩
        intro x hx
        simp only [List.mem_cons] at hx
        rcases hx with rfl | hx
        · exact hs
        · exact h5 x hx

theorem updFirst_none {f : PStatus P → Option (PStatus P)} {n : Nat} {ps : List (PStatus P)}
    (h : updFirst f n ps = none) : ∀ e ∈ ps.take n, f e = none := by
  induction ps generalizing n with
  | nil => simp
  | cons s ss ih =>
    cases n with
    | zero => simp
    | succ n =>
      rw [updFirst] at h
      split at h
      · simp at h
      · next hs =>
        simp only [Option.map_eq_none_iff] at h
        intro e he
        simp only [List.take_succ_cons, List.mem_cons] at he
        rcases he with rfl | he
        · exact hs
        · exact ih h e he

theorem completeStatus_some {target : Pid} {qos : QoS} {s s' : PStatus P}
    (h : completeStatus target qos s = some s') : s' = .complete ∧ s.pid? = some target := by
  cases s with
  | new a l pid p d =>
    simp only [completeStatus] at h
    split at h <;> simp at h
    next hc => exact ⟨h.symm, by simp [PStatus.pid?, hc.2]⟩
  | pubrec l pid =>
    simp only [completeStatus] at h
    split at h <;> simp at h
    next hc => exact ⟨h.symm, by simp [PStatus.pid?, hc.2]⟩
  | complete => simp [completeStatus] at h

theorem pubrecStatus_some {now : Nat} {target : Pid} {s s' : PStatus P}
    (h : pubrecStatus now target s = some s') :
    s' = .pubrec now target ∧ ∃ a l p d, s = .new a l target p d := by
  cases s with
  | new a l pid p d =>
    simp only [pubrecStatus] at h
    split at h <;> simp at h
    next hc => subst hc; exact ⟨h.symm, a, l, p, d, rfl⟩
  | pubrec l pid => simp [pubrecStatus] at h
  | complete => simp [pubrecStatus] at h

theorem take_append_cons_mem {pre post : List α} {e : α} {n : Nat} (h : pre.length < n) :
    e ∈ (pre ++ e :: post).take n := by
  have : n - pre.length = (n - pre.length - 1) + 1 := by omega
  rw [List.take_append, this, List.take_succ_cons]
  simp

end Akasa

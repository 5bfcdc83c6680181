import Verif.Proof.PendingKeep
/-!
# Packet identifiers of the outgoing queue
-/
namespace Akasa

variable {P : Type}

/-- The identifier of the `k`-th message handed to a session. -/
def pidOf (k : Nat) : Nat := k % 65535 + 1

theorem pidOf_range (k : Nat) : 1 ≤ pidOf k ∧ pidOf k ≤ 65535 := by
  unfold pidOf; omega

theorem pidOf_next (k : Nat) : Pid.next (pidOf k) = pidOf (k + 1) := by
  show (if k % 65535 + 1 = 65535 then 1 else k % 65535 + 1 + 1 : Nat) = (k + 1) % 65535 + 1
  split <;> omega

theorem pidOf_inj {a b : Nat} (h : pidOf a = pidOf b) (h1 : a < b + 65535) (h2 : b < a + 65535) :
    a = b := by
  unfold pidOf at h; omega

theorem step_nextPid (exp : P → Option Nat) (s : Sender P) (op : SendOp P) {k : Nat}
    (h : s.nextPid = pidOf k) : (s.step exp op).1.nextPid = pidOf (k + (delivered [op]).length) := by
  cases op with
  | deliver now p => simp only [Sender.step, h, pidOf_next]; rfl
  | _ => exact h

theorem exec_nextPid (exp : P → Option Nat) (m n t : Nat) (ops : List (SendOp P)) :
    ((Sender.new m n t).exec exp ops).nextPid = pidOf (delivered ops).length := by
  induction ops using snoc_induction with
  | nil => rfl
  | snoc ops op ih =>
    rw [exec_snoc, step_nextPid exp _ op ih, delivered_append, List.length_append]

theorem exec_pids_sublist (exp : P → Option Nat) (m n t : Nat) (ops : List (SendOp P)) :
    ((Sender.new m n t).exec exp ops).pids.Sublist
      ((List.range (delivered ops).length).map pidOf) := by
  induction ops using snoc_induction with
  | nil => simp [Sender.new, Pending.empty, exec_nil, Sender.pids]
  | snoc ops op ih =>
    rw [exec_snoc]
    refine (step_pids_sublist exp _ op).trans ?_
    rw [exec_nextPid, delivered_append, List.length_append]
    cases op with
    | deliver now p =>
      simp only [delivered, List.length_cons, List.length_nil, Nat.zero_add, List.map_cons,
        List.map_nil]
      rw [List.range_succ, List.map_append]
      exact ih.append (List.Sublist.refl _)
    | _ => simpa [delivered] using ih

theorem nodup_map_pidOf {l : List Nat} (hl : l.Nodup)
    (h : ∀ a ∈ l, ∀ b ∈ l, a < b + 65535) : (l.map pidOf).Nodup := by
  induction l with
  | nil => simp
  | cons x l ih =>
    rw [List.nodup_cons] at hl
    rw [List.map_cons, List.nodup_cons]
    refine ⟨?_, ih hl.2 (fun a ha b hb => h a (by simp [ha]) b (by simp [hb]))⟩
    intro hc
    obtain ⟨y, hy, he⟩ := List.mem_map.mp hc
    have := pidOf_inj he (h y (by simp [hy]) x (by simp)) (h x (by simp) y (by simp [hy]))
    subst this
    exact hl.1 hy

/-! ## Without drops the identifiers are consecutive -/

/-- Entry `i` was the message number `b + i`. -/
def Contig (b : Nat) (ps : List (PStatus P)) : Prop :=
  ∀ (i : Nat) (pid : Pid), (ps[i]?).bind PStatus.pid? = some pid → pid = pidOf (b + i)

theorem Contig.drop {b : Nat} {ps : List (PStatus P)} (h : Contig b ps) (k : Nat) :
    Contig (b + k) (ps.drop k) := by
  intro i pid hi
  rw [List.getElem?_drop] at hi
  have := h _ _ hi
  rw [this, Nat.add_assoc]

theorem Contig.of_pids {b : Nat} {ps ps' : List (PStatus P)} (h : Contig b ps)
    (he : ps'.map PStatus.pid? = ps.map PStatus.pid?) : Contig b ps' := by
  intro i pid hi
  apply h
  have h1 : (ps'.map PStatus.pid?)[i]? = (ps.map PStatus.pid?)[i]? := by rw [he]
  rw [List.getElem?_map, List.getElem?_map] at h1
  cases h2 : ps'[i]? with
  | none => rw [h2] at hi; cases hi
  | some e' =>
    cases h3 : ps[i]? with
    | none => rw [h2, h3] at h1; cases h1
    | some e =>
      rw [h2, h3] at h1
      rw [h2] at hi
      simp only [Option.map_some, Option.some.injEq] at h1
      simp only [Option.bind_some] at hi ⊢
      rw [← h1]; exact hi

theorem Contig.upd {b : Nat} {f : PStatus P → Option (PStatus P)} {n : Nat}
    {ps ps' : List (PStatus P)} (h : Contig b ps) (hu : updFirst f n ps = some ps')
    (hf : ∀ e e', f e = some e' → e'.pid? = none ∨ e'.pid? = e.pid?) : Contig b ps' := by
  obtain ⟨pre, e, e', post, rfl, rfl, h3, _⟩ := updFirst_some hu
  rcases hf _ _ h3 with hp | hp
  · intro i pid hi
    apply h
    by_cases h1 : i < pre.length
    · rw [List.getElem?_append_left h1] at hi ⊢; exact hi
    · rw [List.getElem?_append_right (by omega)] at hi ⊢
      cases h2 : i - pre.length with
      | zero => rw [h2] at hi; simp [hp] at hi
      | succ k => rw [h2] at hi; simpa using hi
  · exact h.of_pids (by simp [hp])

theorem Contig.complete {b : Nat} {q : Pending P} (h : Contig b q.packets) (pid : Pid) (qos : QoS) :
    Contig b (q.complete pid qos).1.packets := by
  unfold Pending.complete
  split
  · next hu =>
    exact h.upd hu (fun e e' he => .inl (by rw [(completeStatus_some he).1]; rfl))
  · exact h

theorem Contig.completeAll {b : Nat} (pids : List Pid) {q : Pending P} (h : Contig b q.packets) :
    Contig b (q.completeAll pids).packets := by
  induction pids generalizing q with
  | nil => exact h
  | cons pid pids ih => exact ih (q := (q.complete pid 1).1) (h.complete pid 1)

theorem dropWhile_eq_drop (p : α → Bool) (l : List α) :
    ∃ k, l.dropWhile p = l.drop k ∧ k ≤ l.length := by
  obtain ⟨t, ht⟩ := List.dropWhile_suffix (l := l) p
  have hl : t.length ≤ l.length := by
    have := congrArg List.length ht
    rw [List.length_append] at this
    omega
  refine ⟨t.length, ?_, hl⟩
  have : (t ++ List.dropWhile p l).drop t.length = l.drop t.length := by rw [ht]
  rw [List.drop_left] at this
  exact this

theorem Contig.clean {b : Nat} {ps : List (PStatus P)} (h : Contig b ps) :
    Contig (b + (ps.length - (ps.dropWhile PStatus.isComplete).length))
      (ps.dropWhile PStatus.isComplete) := by
  obtain ⟨k, hk, hl⟩ := dropWhile_eq_drop PStatus.isComplete ps
  rw [hk, List.length_drop]
  have : ps.length - (ps.length - k) = k := by omega
  rw [this]
  exact h.drop k

/-- The invariant of a run without drops. -/
def PidInv (s : Sender P) (k : Nat) : Prop :=
  ∃ b, b + s.pending.packets.length = k ∧ Contig b s.pending.packets

theorem PidInv.step {exp : P → Option Nat} {s : Sender P} {k : Nat} (h : PidInv s k)
    (hk : s.nextPid = pidOf k) (op : SendOp P)
    (hd : ∀ now p, op = .deliver now p → ¬ s.Full) :
    PidInv (s.step exp op).1 (k + (delivered [op]).length) := by
  obtain ⟨b, hb, hc⟩ := h
  have hclen := length_dropWhile_le PStatus.isComplete s.pending.packets
  cases op with
  | deliver now p =>
    have hf := hd now p rfl
    unfold Sender.Full at hf
    show ∃ b, b + (s.pending.cleanComplete.pushBack now s.nextPid p).1.packets.length = _ ∧
      Contig b (s.pending.cleanComplete.pushBack now s.nextPid p).1.packets
    unfold Pending.pushBack
    rw [if_neg (by exact hf)]
    have hcc := hc.clean
    refine ⟨b + (s.pending.packets.length - s.pending.cleanComplete.packets.length), ?_, ?_⟩
    rotate_left
    · intro i pid hi
      by_cases h1 : i < s.pending.cleanComplete.packets.length
      · simp only at hi
        rw [List.getElem?_append_left h1] at hi
        exact hcc i pid hi
      · simp only at hi
        rw [List.getElem?_append_right (by omega)] at hi
        cases h2 : i - s.pending.cleanComplete.packets.length with
        | zero =>
          rw [h2] at hi
          simp only [List.getElem?_cons_zero, Option.bind_some, PStatus.pid?, Option.some.injEq] at hi
          rw [← hi, hk]
          congr 1
          have : s.pending.cleanComplete.packets.length =
            (s.pending.packets.dropWhile PStatus.isComplete).length := rfl
          omega
        | succ j => rw [h2] at hi; simp at hi
    · simp only [List.length_append, List.length_cons, List.length_nil, delivered]
      have : s.pending.cleanComplete.packets.length =
            (s.pending.packets.dropWhile PStatus.isComplete).length := rfl
      omega
  | pass clk =>
    show ∃ b, b + (s.pending.handlePendings exp clk).1.packets.length = k + 0 ∧
      Contig b (s.pending.handlePendings exp clk).1.packets
    rw [Pending.handlePendings_eq]
    have hcc := hc.clean
    have hsw : Contig _ (s.pending.swept exp clk).1 := hcc.of_pids (sweep_pids _ _ _ _ _ _ _)
    have hlen : (s.pending.swept exp clk).1.length =
        (s.pending.packets.dropWhile PStatus.isComplete).length := sweep_length _ _ _ _ _ _ _
    have hall : Contig _ (s.pending.afterSweep exp clk).packets :=
      Contig.completeAll (s.pending.swept exp clk).2.2
        (q := { s.pending with packets := (s.pending.swept exp clk).1 }) hsw
    have hlen2 : (s.pending.afterSweep exp clk).packets.length =
        (s.pending.packets.dropWhile PStatus.isComplete).length := by
      rw [← hlen]
      exact (completeAll_params _ _).2.2.2
    simp only
    split
    · exact ⟨_, by omega, hall⟩
    · have hcl := hall.clean
      have := length_dropWhile_le PStatus.isComplete (s.pending.afterSweep exp clk).packets
      exact ⟨_, by
        show _ + ((s.pending.afterSweep exp clk).packets.dropWhile PStatus.isComplete).length = _
        omega, hcl⟩
  | puback pid =>
    exact ⟨b, by rw [show delivered [SendOp.puback pid (P := P)] = [] from rfl]
                 rw [← hb]; exact congrArg (b + ·) (complete_params _ _ _).2.2.2,
      hc.complete pid 1⟩
  | pubrec now pid =>
    refine ⟨b, by rw [show delivered [SendOp.pubrec now pid (P := P)] = [] from rfl]
                  rw [← hb]; exact congrArg (b + ·) (pubrec_params _ _ _).2.2.2, ?_⟩
    show Contig b (s.pending.pubrec now pid).1.packets
    unfold Pending.pubrec
    split
    · next hu =>
      refine hc.upd hu (fun e e' he => .inr ?_)
      obtain ⟨rfl, a, l, p, d, rfl⟩ := pubrecStatus_some he
      rfl
    · exact hc
  | pubcomp pid =>
    exact ⟨b, by rw [show delivered [SendOp.pubcomp pid (P := P)] = [] from rfl]
                 rw [← hb]; exact congrArg (b + ·) (complete_params _ _ _).2.2.2,
      hc.complete pid 2⟩
  | reconnect m =>
    refine ⟨b, ?_, ?_⟩
    · rw [reconnect_packets, List.length_map]; exact hb
    · rw [reconnect_packets]
      exact hc.of_pids (by simp [reset_pid, Function.comp_def])

theorem exec_pidInv (exp : P → Option Nat) (m n t : Nat) (ops : List (SendOp P))
    (hd : NoDrops exp (Sender.new m n t) ops) :
    PidInv ((Sender.new m n t).exec exp ops) (delivered ops).length := by
  induction ops using snoc_induction with
  | nil => exact ⟨0, rfl, fun i pid h => by simp [Sender.new, Pending.empty, exec_nil] at h⟩
  | snoc ops op ih =>
    have ih := ih (fun pre now p h => hd pre now p (h.trans (List.prefix_append _ _)))
    rw [exec_snoc, delivered_append, List.length_append]
    apply ih.step (exec_nextPid _ _ _ _ _)
    intro now p h
    exact hd ops now p (by rw [h]; exact List.prefix_refl _)

theorem Contig.sublist {b : Nat} {ps : List (PStatus P)} (h : Contig b ps) :
    (ps.filterMap PStatus.pid?).Sublist ((List.range' b ps.length).map pidOf) := by
  induction ps generalizing b with
  | nil => simp
  | cons e ps ih =>
    have ih := ih (b := b + 1) (by
      intro i pid hi
      have := h (i + 1) pid (by simpa using hi)
      rw [this]; congr 1; omega)
    rw [List.length_cons, List.range'_succ, List.map_cons, List.filterMap_cons]
    cases hp : e.pid? with
    | none => exact ih.trans (List.sublist_cons_self _ _)
    | some pid =>
      have := h 0 pid (by simpa using hp)
      rw [this]
      exact ih.cons_cons _

theorem exec_pids_nodup (exp : P → Option Nat) (m n t : Nat) (ops : List (SendOp P))
    (hn : n ≤ 65535) (hd : NoDrops exp (Sender.new m n t) ops) :
    ((Sender.new m n t).exec exp ops).pids.Nodup := by
  obtain ⟨b, hb, hc⟩ := exec_pidInv exp m n t ops hd
  refine hc.sublist.nodup (nodup_map_pidOf List.nodup_range' ?_)
  have hl := exec_length exp (Sender.new m n t) ops (by simp [Sender.new, Pending.empty])
  have : (Sender.new m n t : Sender P).pending.maxPackets = n := rfl
  intro a ha c hc
  rw [List.mem_range'_1] at ha hc
  omega

end Akasa

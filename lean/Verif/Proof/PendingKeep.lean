import Verif.Proof.PendingOrder
/-!
# Messages are kept, retransmitted and drained; packet identifiers
-/
namespace Akasa

variable {P : Type}

/-! ## Keeping -/

theorem updFirst_mem {f : PStatus P → Option (PStatus P)} {n : Nat}
    {ps ps' : List (PStatus P)} (h : updFirst f n ps = some ps') {e : PStatus P}
    (he : e ∈ ps) (hf : f e = none) : e ∈ ps' := by
  have hl := updFirst_length h
  rcases updFirst_mem_take (m := ps.length) h (by rw [List.take_length]; exact he) with h1 | ⟨_, h1, _⟩
  · exact List.mem_of_mem_take h1
  · rw [hf] at h1; cases h1

theorem complete_mem {q : Pending P} {target : Pid} {qos : QoS} {e : PStatus P}
    (he : e ∈ q.packets) (h : completeStatus target qos e = none) :
    e ∈ (q.complete target qos).1.packets := by
  unfold Pending.complete
  split
  · next hu => exact updFirst_mem hu he h
  · exact he

theorem completeAll_mem {pids : List Pid} {q : Pending P} {e : PStatus P}
    (he : e ∈ q.packets) (h : ∀ pid ∈ pids, completeStatus pid 1 e = none) :
    e ∈ (q.completeAll pids).packets := by
  induction pids generalizing q with
  | nil => exact he
  | cons pid pids ih =>
    exact ih (q := (q.complete pid 1).1) (complete_mem he (h pid (by simp)))
      (fun x hx => h x (by simp [hx]))

theorem pubrec_mem {q : Pending P} {now : Nat} {target : Pid} {e : PStatus P}
    (he : e ∈ q.packets) (h : pubrecStatus now target e = none) :
    e ∈ (q.pubrec now target).1.packets := by
  unfold Pending.pubrec
  split
  · next hu => exact updFirst_mem hu he h
  · exact he

theorem handlePendings_mem {exp : P → Option Nat} {clk : Clock} {q : Pending P} {e : PStatus P}
    (he : e ∈ (q.swept exp clk).1) (hne : e ≠ .complete)
    (h : ∀ pid ∈ (q.swept exp clk).2.2, completeStatus pid 1 e = none) :
    e ∈ (q.handlePendings exp clk).1.packets := by
  have h1 : e ∈ (q.afterSweep exp clk).packets :=
    completeAll_mem (q := { q with packets := (q.swept exp clk).1 }) he h
  rw [Pending.handlePendings_eq]
  simp only
  split
  · exact h1
  · exact (mem_dropWhile hne _).mpr h1

theorem cleanPush_mem {q : Pending P} {now : Nat} {pid : Pid} {p : P} {e : PStatus P}
    (he : e ∈ q.packets) (hne : e ≠ .complete) :
    e ∈ (q.cleanComplete.pushBack now pid p).1.packets := by
  have h1 : e ∈ q.cleanComplete.packets := (mem_dropWhile hne _).mpr he
  unfold Pending.pushBack
  split
  · exact h1
  · exact List.mem_append.mpr (.inl h1)

/-- A waiting message stays, unless it is acknowledged or expires. -/
theorem step_keeps {exp : P → Option Nat} {s : Sender P} {op : SendOp P} {a l pid p d}
    (h : PStatus.new a l pid p d ∈ s.pending.packets) (h1 : op ≠ .puback pid)
    (h2 : ∀ now, op ≠ .pubrec now pid)
    (h3 : ∀ clk, op = .pass clk → pid ∉ (s.pending.swept exp clk).2.2) :
    ∃ l' d', PStatus.new a l' pid p d' ∈ (s.step exp op).1.pending.packets ∧
      (l' = l ∨ (∃ clk k, op = .pass clk ∧ l' = clk.sent k) ∨ (∃ m, op = .reconnect m)) ∧
      (d = true → d' = true) := by
  cases op with
  | deliver now p' =>
    exact ⟨l, d, cleanPush_mem h (by intro hc; cases hc), .inl rfl, id⟩
  | pass clk =>
    have hn := h3 clk rfl
    obtain ⟨e', he', h4⟩ := sweep_keeps exp s.pending.timeout clk s.pending.cleanComplete.window
      0 0 s.pending.cleanComplete.packets _ ((mem_dropWhile (by intro hc; cases hc) _).mpr h)
    have hshape : ∃ l' d', e' = .new a l' pid p d' ∧ (l' = l ∨ ∃ k, l' = clk.sent k) ∧
        (d = true → d' = true) := by
      rcases h4 with rfl | ⟨k, rfl⟩
      · exact ⟨l, d, rfl, .inl rfl, id⟩
      · simp only [PStatus.attempt]
        cases exp p with
        | none => exact ⟨_, _, rfl, .inr ⟨k, rfl⟩, fun _ => rfl⟩
        | some v =>
          simp only
          split
          · exact ⟨_, _, rfl, .inl rfl, id⟩
          · exact ⟨_, _, rfl, .inr ⟨k, rfl⟩, fun _ => rfl⟩
    obtain ⟨l', d', rfl, h5, h6⟩ := hshape
    refine ⟨l', d', handlePendings_mem he' (by intro hc; cases hc) ?_, ?_, h6⟩
    · intro pid' hp
      have : pid ≠ pid' := fun hc => hn (hc ▸ hp)
      simp [completeStatus, this]
    · rcases h5 with h5 | ⟨k, h5⟩
      · exact .inl h5
      · exact .inr (.inl ⟨clk, k, rfl, h5⟩)
  | puback pid' =>
    have : pid ≠ pid' := fun hc => h1 (by rw [hc])
    exact ⟨l, d, complete_mem h (by simp [completeStatus, this]), .inl rfl, id⟩
  | pubrec now pid' =>
    have : pid ≠ pid' := fun hc => h2 now (by rw [hc])
    exact ⟨l, d, pubrec_mem h (by simp [pubrecStatus, this]), .inl rfl, id⟩
  | pubcomp pid' =>
    exact ⟨l, d, complete_mem h (by simp [completeStatus]), .inl rfl, id⟩
  | reconnect m =>
    refine ⟨0, d, ?_, .inr (.inr ⟨m, rfl⟩), id⟩
    rw [reconnect_packets]
    exact List.mem_map.mpr ⟨_, h, rfl⟩

/-- When identifiers are distinct, only the message itself can make its identifier expire. -/
theorem expired_self {exp : P → Option Nat} {clk : Clock} {q : Pending P} {a l pid p d}
    (hnd : (q.packets.filterMap PStatus.pid?).Nodup) (h : PStatus.new a l pid p d ∈ q.packets)
    (hx : pid ∈ (q.swept exp clk).2.2) :
    l = 0 ∧ ∃ v k, exp p = some v ∧ v ≤ clk.sent k - a := by
  obtain ⟨a', p', d', v, k, h1, h2, h3, _⟩ := sweep_expired _ _ _ _ _ _ _ pid hx
  have h1 := (List.dropWhile_sublist _).subset (List.mem_of_mem_take h1)
  have := pid_unique hnd h h1 rfl rfl
  cases this
  exact ⟨rfl, v, k, h2, h3⟩

theorem step_keeps_released {exp : P → Option Nat} {s : Sender P} {op : SendOp P} {pid : Pid}
    (h : s.Released pid) (h1 : op ≠ .pubcomp pid) : (s.step exp op).1.Released pid := by
  obtain ⟨l, h⟩ := h
  cases op with
  | deliver now p' => exact ⟨l, cleanPush_mem h (by intro hc; cases hc)⟩
  | pass clk =>
    obtain ⟨e', he', h4⟩ := sweep_keeps exp s.pending.timeout clk s.pending.cleanComplete.window
      0 0 s.pending.cleanComplete.packets _ ((mem_dropWhile (by intro hc; cases hc) _).mpr h)
    have hshape : ∃ l', e' = .pubrec l' pid := by
      rcases h4 with rfl | ⟨k, rfl⟩
      · exact ⟨l, rfl⟩
      · exact ⟨_, rfl⟩
    obtain ⟨l', rfl⟩ := hshape
    exact ⟨l', handlePendings_mem he' (by intro hc; cases hc)
      (fun pid' _ => by simp [completeStatus])⟩
  | puback pid' => exact ⟨l, complete_mem h (by simp [completeStatus])⟩
  | pubrec now pid' => exact ⟨l, pubrec_mem h rfl⟩
  | pubcomp pid' =>
    have : pid ≠ pid' := fun hc => h1 (by rw [hc])
    exact ⟨l, complete_mem h (by simp [completeStatus, this])⟩
  | reconnect m =>
    refine ⟨0, ?_⟩
    rw [reconnect_packets]
    exact List.mem_map.mpr ⟨_, h, rfl⟩

theorem exec_keeps_v3 {exp : P → Option Nat} (hexp : ∀ p, exp p = none) {s : Sender P} {pid : Pid}
    {p : P} (h : s.Holds pid p) (ops : List (SendOp P)) (h1 : SendOp.puback pid ∉ ops)
    (h2 : ∀ now, SendOp.pubrec now pid ∉ ops) : (s.exec exp ops).Holds pid p := by
  induction ops using snoc_induction with
  | nil => exact h
  | snoc ops op ih =>
    simp only [List.mem_append, List.mem_singleton, not_or] at h1 h2
    obtain ⟨a, l, d, hm⟩ := ih h1.1 (fun now => (h2 now).1)
    rw [exec_snoc]
    obtain ⟨l', d', h3, _⟩ := step_keeps (exp := exp) hm (Ne.symm h1.2)
      (fun now => Ne.symm (h2 now).2) (fun clk _ => by
        have : (((s.exec exp ops).pending.swept exp clk)).2.2 = [] := sweep_expired_v3 hexp _ _ _ _ _ _
        rw [this]; simp)
    exact ⟨a, l', d', h3⟩

/-- General form: with distinct identifiers the message stays while it has not expired, or, if
`sent` holds, as long as there is no reconnect. -/
theorem exec_keeps_v5 {exp : P → Option Nat} {s : Sender P} {pid : Pid} {p : P} {a l : Nat}
    {d : Bool} (h : PStatus.new a l pid p d ∈ s.pending.packets) (ops : List (SendOp P))
    (hd : DistinctPids exp s ops) (h1 : SendOp.puback pid ∉ ops)
    (h2 : ∀ now, SendOp.pubrec now pid ∉ ops)
    (h3 : (∀ v clk k, exp p = some v → SendOp.pass clk ∈ ops → clk.sent k - a < v) ∨
      (0 < l ∧ (∀ m, SendOp.reconnect m ∉ ops) ∧ ClockRunning ops)) :
    ∃ l' d', PStatus.new a l' pid p d' ∈ (s.exec exp ops).pending.packets ∧
      ((∀ m, SendOp.reconnect m ∉ ops) → ClockRunning ops → 0 < l → 0 < l') := by
  induction ops using snoc_induction with
  | nil => exact ⟨l, d, h, fun _ _ h => h⟩
  | snoc ops op ih =>
    simp only [List.mem_append, List.mem_singleton, not_or] at h1 h2
    obtain ⟨l0, d0, hm, hl0⟩ := ih (fun pre hp => hd pre (hp.trans (List.prefix_append _ _))) h1.1
      (fun now => (h2 now).1) (by
        rcases h3 with h3 | ⟨hl, hr, hc⟩
        · exact .inl fun v clk k hv hm => h3 v clk k hv (by simp [hm])
        · exact .inr ⟨hl, fun m hm => hr m (by simp [hm]), fun clk hm => hc clk (by simp [hm])⟩)
    rw [exec_snoc]
    obtain ⟨l', d', h4, h5, _⟩ := step_keeps (exp := exp) hm (Ne.symm h1.2)
      (fun now => Ne.symm (h2 now).2) (fun clk hop hx => by
        obtain ⟨h6, v, k, h7, h8⟩ := expired_self (hd ops (List.prefix_append _ _)) hm hx
        rcases h3 with h3 | ⟨hl, hr, hc⟩
        · have := h3 v clk k h7 (by simp [hop]); omega
        · have := hl0 (fun m hm => hr m (by simp [hm])) (fun clk hm => hc clk (by simp [hm])) hl
          omega)
    refine ⟨l', d', h4, fun hr hc hl => ?_⟩
    rcases h5 with rfl | ⟨clk, k, rfl, rfl⟩ | ⟨m, rfl⟩
    · exact hl0 (fun m hm => hr m (by simp [hm])) (fun clk hm => hc clk (by simp [hm])) hl
    · exact hc clk (by simp) k
    · exact absurd (by simp) (hr m)

theorem exec_keeps_released {exp : P → Option Nat} {s : Sender P} {pid : Pid}
    (h : s.Released pid) (ops : List (SendOp P)) (h1 : SendOp.pubcomp pid ∉ ops) :
    (s.exec exp ops).Released pid := by
  induction ops using snoc_induction with
  | nil => exact h
  | snoc ops op ih =>
    simp only [List.mem_append, List.mem_singleton, not_or] at h1
    rw [exec_snoc]
    exact step_keeps_released (ih h1.1) (Ne.symm h1.2)

/-! ## After PUBREC and after completion -/

theorem step_pids_sublist (exp : P → Option Nat) (s : Sender P) (op : SendOp P) :
    (s.step exp op).1.pids.Sublist (s.pids ++ (delivered [op]).map (fun _ => s.nextPid)) := by
  cases op with
  | deliver now p =>
    show ((s.pending.cleanComplete.pushBack now s.nextPid p).1.packets.filterMap
      PStatus.pid?).Sublist (s.pids ++ [s.nextPid])
    unfold Pending.pushBack
    split
    · simp only [Pending.cleanComplete]
      rw [filterMap_dropWhile _ rfl]
      exact List.sublist_append_left _ _
    · simp only [Pending.cleanComplete]
      rw [List.filterMap_append, filterMap_dropWhile _ rfl]
      exact List.Sublist.refl _
  | pass clk =>
    simp only [delivered, List.map_nil, List.append_nil]
    have := handlePendings_filterMap_sublist PStatus.pid? rfl exp clk s.pending
    rw [swept_pids] at this
    exact this
  | puback pid =>
    simp only [delivered, List.map_nil, List.append_nil]
    exact complete_filterMap_sublist _ rfl _ _ _
  | pubrec now pid =>
    simp only [delivered, List.map_nil, List.append_nil]
    show ((s.pending.pubrec now pid).1.packets.filterMap PStatus.pid?).Sublist _
    unfold Pending.pubrec
    split
    · next h =>
      obtain ⟨pre, e, e', post, h1, h2, h3, _, _⟩ := updFirst_some h
      obtain ⟨rfl, a, l, p, d, rfl⟩ := pubrecStatus_some h3
      unfold Sender.pids
      rw [h1]
      simp only [h2, List.filterMap_append, List.filterMap_cons, PStatus.pid?]
      exact List.Sublist.refl _
    · exact List.Sublist.refl _
  | pubcomp pid =>
    simp only [delivered, List.map_nil, List.append_nil]
    exact complete_filterMap_sublist _ rfl _ _ _
  | reconnect m =>
    simp only [delivered, List.map_nil, List.append_nil]
    rw [Sender.pids, reconnect_packets, filterMap_map_eq _ _ reset_pid]
    exact List.Sublist.refl _

theorem step_sent_pid {exp : P → Option Nat} {s : Sender P} {op : SendOp P} {x : Sent P}
    (h : x ∈ (s.step exp op).2) : x.pid ∈ s.pids ∨ ∃ now, op = .pubrec now x.pid := by
  cases op with
  | pass clk =>
    left
    cases x with
    | publish pid p d y =>
      obtain ⟨a, l, k, h1, _⟩ := pass_sent h
      exact List.mem_filterMap.mpr ⟨_, h1, rfl⟩
    | pubrel pid =>
      obtain ⟨l, h1⟩ := pass_pubrel h
      exact List.mem_filterMap.mpr ⟨_, h1, rfl⟩
  | pubrec now pid =>
    simp only [Sender.step, List.mem_singleton] at h
    subst h
    exact .inr ⟨now, rfl⟩
  | _ => simp [Sender.step] at h

theorem no_pid_sent {exp : P → Option Nat} {s : Sender P} {pid : Pid} (ops : List (SendOp P))
    (h : pid ∉ s.pids) (h1 : pid ∉ assigned exp s ops) (h2 : ∀ now, SendOp.pubrec now pid ∉ ops) :
    ∀ x ∈ s.outs exp ops, x.pid ≠ pid := by
  induction ops generalizing s with
  | nil => intro x hx; simp [outs_nil] at hx
  | cons op ops ih =>
    have hstep : pid ∉ (s.step exp op).1.pids := by
      intro hc
      have := (step_pids_sublist exp s op).subset hc
      rw [List.mem_append] at this
      rcases this with h3 | h3
      · exact h h3
      · cases op with
        | deliver now p =>
          simp only [delivered, List.map_cons, List.map_nil, List.mem_singleton] at h3
          subst h3
          simp [assigned] at h1
        | _ => simp [delivered] at h3
    have hass : pid ∉ assigned exp (s.step exp op).1 ops := by
      cases op with
      | deliver now p => simp only [assigned, List.mem_cons, not_or] at h1; exact h1.2
      | _ => simpa only [assigned] using h1
    intro x hx
    rw [outs_cons, List.mem_append] at hx
    rcases hx with hx | hx
    · intro hc
      rcases step_sent_pid hx with h3 | ⟨now, h3⟩
      · rw [hc] at h3; exact h h3
      · rw [hc] at h3; exact h2 now (by simp [h3])
    · exact ih hstep hass (fun now hm => h2 now (by simp [hm])) x hx

theorem pubrec_removes {s : Sender P} {exp : P → Option Nat} {now pid p} {a l : Nat} {d : Bool}
    (hp : s.pids.Nodup) (hm : s.msgs.Nodup)
    (hw : PStatus.new a l pid p d ∈ s.pending.packets.take s.pending.maxInflight) :
    p ∉ (s.step exp (.pubrec now pid)).1.msgs ∧
      (s.step exp (.pubrec now pid)).1.Released pid := by
  have hin := List.mem_of_mem_take hw
  show p ∉ (s.pending.pubrec now pid).1.packets.filterMap PStatus.msg? ∧
    ∃ l, _ ∈ (s.pending.pubrec now pid).1.packets
  unfold Pending.pubrec
  split
  · next hu =>
    obtain ⟨pre, e, e', post, h1, h2, h3, _, _⟩ := updFirst_some hu
    obtain ⟨rfl, a', l', p', d', rfl⟩ := pubrecStatus_some h3
    have hin' : PStatus.new a' l' pid p' d' ∈ s.pending.packets := by rw [h1]; simp
    have heq := pid_unique hp hin hin' rfl rfl
    cases heq
    refine ⟨?_, now, by simp [h2]⟩
    unfold Sender.msgs at hm
    rw [h1] at hm
    simp only [List.filterMap_append, List.filterMap_cons, PStatus.msg?] at hm
    simp only [h2, List.filterMap_append, List.filterMap_cons, PStatus.msg?, List.mem_append]
    rw [List.nodup_append] at hm
    rintro (hc | hc)
    · exact hm.2.2 p hc p (by simp) rfl
    · exact (List.nodup_cons.mp hm.2.1).1 hc
  · next hu =>
    have := updFirst_none hu _ (by rw [take_window]; exact hw)
    simp [pubrecStatus] at this

theorem complete_removes {s : Sender P} {qos : QoS} {pid : Pid} {e : PStatus P}
    (hp : s.pids.Nodup) (he : e ∈ s.pending.packets.take s.pending.maxInflight)
    (hc : completeStatus pid qos e = some .complete) :
    pid ∉ ({ s with pending := (s.pending.complete pid qos).1 } : Sender P).pids := by
  have hin := List.mem_of_mem_take he
  show pid ∉ (s.pending.complete pid qos).1.packets.filterMap PStatus.pid?
  unfold Pending.complete
  split
  · next hu =>
    obtain ⟨pre, x, x', post, h1, h2, h3, _, _⟩ := updFirst_some hu
    obtain ⟨rfl, h4⟩ := completeStatus_some h3
    unfold Sender.pids at hp
    rw [h1] at hp
    rw [List.filterMap_append, List.filterMap_cons, h4, List.nodup_append] at hp
    simp only [h2, List.filterMap_append, List.filterMap_cons, PStatus.pid?, List.mem_append]
    rintro (hc | hc)
    · exact hp.2.2 pid hc pid (by simp) rfl
    · exact (List.nodup_cons.mp hp.2.1).1 hc
  · next hu =>
    have := updFirst_none hu _ (by rw [take_window]; exact he)
    rw [hc] at this; cases this

/-! ## Retransmission -/

theorem sweep_all_ready (exp : P → Option Nat) (t : Nat) (clk : Clock) (n cur i : Nat)
    (ps : List (PStatus P))
    (h : ∀ e ∈ ps.take n, e ≠ .complete → ∀ j, e.ready t (clk.ready j) = true) :
    (sweep exp t clk n cur i ps).2.1 =
      ((ps.take n).zipIdx i).filterMap (fun x => (x.1.attempt exp (clk.sent x.2)).2.1) ∧
    (sweep exp t clk n cur i ps).1 =
      ((ps.take n).zipIdx i).map (fun x => (x.1.attempt exp (clk.sent x.2)).1) ++ ps.drop n ∧
    (sweep exp t clk n cur i ps).2.2 =
      ((ps.take n).zipIdx i).filterMap (fun x => (x.1.attempt exp (clk.sent x.2)).2.2) := by
  induction ps generalizing n cur i with
  | nil => cases n <;> simp [sweep]
  | cons s ss ih =>
    cases n with
    | zero => simp [sweep]
    | succ n =>
      have h' : ∀ e ∈ ss.take n, e ≠ .complete → ∀ j, e.ready t (clk.ready j) = true :=
        fun e he => h e (by simp [he])
      rw [sweep]
      by_cases hs : s = .complete
      · subst hs
        obtain ⟨h1, h2, h3⟩ := ih n cur (i + 1) h'
        have hr : (PStatus.complete : PStatus P).ready t (clk.ready cur) = false := rfl
        rw [hr]
        simp [h1, h2, h3, PStatus.attempt]
      · obtain ⟨h1, h2, h3⟩ := ih n (i + 1) (i + 1) h'
        have hr := h s (by simp) hs cur
        rw [if_pos hr]
        simp only [h1, h2, h3, List.take_succ_cons, List.zipIdx_cons, List.filterMap_cons,
          List.map_cons, List.drop_succ_cons, List.cons_append]
        refine ⟨?_, trivial, ?_⟩
        · cases (s.attempt exp (clk.sent i)).2.1 <;> simp
        · cases (s.attempt exp (clk.sent i)).2.2 <;> simp

end Akasa

import Verif.Proof.Pending
/-!
# Invariants of runs of the outgoing queue
-/
namespace Akasa

variable {P : Type}

/-! ## Lists of entries -/

theorem filterMap_dropWhile {β : Type} (g : PStatus P → Option β) (hg : g .complete = none)
    (ps : List (PStatus P)) :
    (ps.dropWhile PStatus.isComplete).filterMap g = ps.filterMap g := by
  induction ps with
  | nil => rfl
  | cons s ss ih =>
    cases s with
    | complete => simp [PStatus.isComplete, List.dropWhile_cons, hg, ih]
    | _ => simp [PStatus.isComplete]

theorem mem_dropWhile {e : PStatus P} (he : e ≠ .complete) (ps : List (PStatus P)) :
    e ∈ ps.dropWhile PStatus.isComplete ↔ e ∈ ps := by
  induction ps with
  | nil => simp
  | cons s ss ih =>
    cases s with
    | complete => simp [PStatus.isComplete, List.dropWhile_cons, he, ih]
    | _ => simp [PStatus.isComplete]

theorem mem_take_dropWhile {e : PStatus P} (he : e ≠ .complete) {n : Nat} {ps : List (PStatus P)}
    (h : e ∈ ps.take n) : e ∈ (ps.dropWhile PStatus.isComplete).take n := by
  induction ps generalizing n with
  | nil => simp at h
  | cons s ss ih =>
    cases s with
    | complete =>
      simp only [List.dropWhile_cons, PStatus.isComplete, if_true]
      cases n with
      | zero => simp at h
      | succ n =>
        simp only [List.take_succ_cons, List.mem_cons, he, false_or] at h
        have := ih h
        exact (List.take_sublist_take_left (by omega : n ≤ n + 1)).subset this
    | _ => simpa [PStatus.isComplete, List.dropWhile_cons] using h

theorem updFirst_filterMap_sublist {β : Type} (g : PStatus P → Option β)
    {f : PStatus P → Option (PStatus P)} (hg : ∀ s s', f s = some s' → g s' = none)
    {n : Nat} {ps ps' : List (PStatus P)} (h : updFirst f n ps = some ps') :
    (ps'.filterMap g).Sublist (ps.filterMap g) := by
  obtain ⟨pre, s, s', post, rfl, rfl, hs, _, _⟩ := updFirst_some h
  rw [List.filterMap_append, List.filterMap_append, List.filterMap_cons_none (hg s s' hs)]
  refine List.Sublist.append (List.Sublist.refl _) ?_
  rw [List.filterMap_cons]
  split
  · exact List.Sublist.refl _
  · exact List.sublist_cons_self _ _

theorem complete_filterMap_sublist {β : Type} (g : PStatus P → Option β) (hg : g .complete = none)
    (q : Pending P) (pid : Pid) (qos : QoS) :
    ((q.complete pid qos).1.packets.filterMap g).Sublist (q.packets.filterMap g) := by
  unfold Pending.complete
  split
  · next h =>
    exact updFirst_filterMap_sublist g
      (fun s s' hs => by rw [(completeStatus_some hs).1]; exact hg) h
  · exact List.Sublist.refl _

theorem completeAll_filterMap_sublist {β : Type} (g : PStatus P → Option β)
    (hg : g .complete = none) (pids : List Pid) (q : Pending P) :
    ((q.completeAll pids).packets.filterMap g).Sublist (q.packets.filterMap g) := by
  induction pids generalizing q with
  | nil => exact List.Sublist.refl _
  | cons pid pids ih =>
    exact (ih (q.complete pid 1).1).trans (complete_filterMap_sublist g hg q pid 1)

theorem handlePendings_filterMap_sublist {β : Type} (g : PStatus P → Option β)
    (hg : g .complete = none) (exp : P → Option Nat) (clk : Clock) (q : Pending P) :
    ((q.handlePendings exp clk).1.packets.filterMap g).Sublist
      ((q.swept exp clk).1.filterMap g) := by
  have h := completeAll_filterMap_sublist g hg (q.swept exp clk).2.2
    ({ q with packets := (q.swept exp clk).1 } : Pending P)
  rw [Pending.handlePendings_eq]
  simp only
  split
  · exact h
  · simp only [Pending.cleanComplete]
    rw [filterMap_dropWhile g hg]
    exact h

theorem filterMap_eq_of_map {α β γ : Type} (g : α → Option γ) (f : β → Option γ)
    (l : List α) (l' : List β) (h : l.map g = l'.map f) : l.filterMap g = l'.filterMap f := by
  induction l generalizing l' with
  | nil => cases l' with
    | nil => rfl
    | cons b l' => simp at h
  | cons a l ih =>
    cases l' with
    | nil => simp at h
    | cons b l' =>
      simp only [List.map_cons, List.cons.injEq] at h
      rw [List.filterMap_cons, List.filterMap_cons, h.1, ih l' h.2]

theorem swept_pids (exp : P → Option Nat) (clk : Clock) (q : Pending P) :
    (q.swept exp clk).1.filterMap PStatus.pid? = q.packets.filterMap PStatus.pid? := by
  rw [Pending.swept, filterMap_eq_of_map _ _ _ _ (sweep_pids exp q.timeout clk _ 0 0 q.cleanComplete.packets)]
  exact filterMap_dropWhile _ rfl _

theorem swept_msgs (exp : P → Option Nat) (clk : Clock) (q : Pending P) :
    (q.swept exp clk).1.filterMap PStatus.msg? = q.packets.filterMap PStatus.msg? := by
  rw [Pending.swept, filterMap_eq_of_map _ _ _ _ (sweep_msgs exp q.timeout clk _ 0 0 q.cleanComplete.packets)]
  exact filterMap_dropWhile _ rfl _

/-! ## Runs -/

theorem exec_nil (exp : P → Option Nat) (s : Sender P) : s.exec exp [] = s := rfl

theorem exec_cons (exp : P → Option Nat) (s : Sender P) (op : SendOp P) (ops : List (SendOp P)) :
    s.exec exp (op :: ops) = (s.step exp op).1.exec exp ops := rfl

theorem exec_append (exp : P → Option Nat) (s : Sender P) (a b : List (SendOp P)) :
    s.exec exp (a ++ b) = (s.exec exp a).exec exp b := by
  simp [Sender.exec]

theorem exec_snoc (exp : P → Option Nat) (s : Sender P) (a : List (SendOp P)) (op : SendOp P) :
    s.exec exp (a ++ [op]) = ((s.exec exp a).step exp op).1 := by
  rw [exec_append]; rfl

theorem trace_append (exp : P → Option Nat) (s : Sender P) (a b : List (SendOp P)) :
    s.trace exp (a ++ b) = s.trace exp a ++ (s.exec exp a).trace exp b := by
  induction a generalizing s with
  | nil => rfl
  | cons op a ih =>
    simp only [List.cons_append, Sender.trace, exec_cons]
    rw [ih]

theorem outs_append (exp : P → Option Nat) (s : Sender P) (a b : List (SendOp P)) :
    s.outs exp (a ++ b) = s.outs exp a ++ (s.exec exp a).outs exp b := by
  simp [Sender.outs, trace_append]

theorem outs_nil (exp : P → Option Nat) (s : Sender P) : s.outs exp [] = [] := rfl

theorem outs_cons (exp : P → Option Nat) (s : Sender P) (op : SendOp P) (ops : List (SendOp P)) :
    s.outs exp (op :: ops) = (s.step exp op).2 ++ (s.step exp op).1.outs exp ops := by
  simp [Sender.outs, Sender.trace]

theorem outs_snoc (exp : P → Option Nat) (s : Sender P) (a : List (SendOp P)) (op : SendOp P) :
    s.outs exp (a ++ [op]) = s.outs exp a ++ ((s.exec exp a).step exp op).2 := by
  rw [outs_append, outs_cons, outs_nil]; simp

theorem delivered_append (a b : List (SendOp P)) : delivered (a ++ b) = delivered a ++ delivered b := by
  induction a with
  | nil => rfl
  | cons op a ih => cases op <;> simp [delivered, ih]

theorem firstSent_append (a b : List (Sent P)) : firstSent (a ++ b) = firstSent a ++ firstSent b := by
  induction a with
  | nil => rfl
  | cons op a ih =>
    cases op with
    | publish pid p d e => cases d <;> simp [firstSent, ih]
    | pubrel pid => simp [firstSent, ih]

theorem allSent_append (a b : List (Sent P)) : allSent (a ++ b) = allSent a ++ allSent b := by
  induction a with
  | nil => rfl
  | cons op a ih => cases op <;> simp [allSent, ih]

/-! ## The queue parameters and its length -/

theorem complete_params (q : Pending P) (pid : Pid) (qos : QoS) :
    (q.complete pid qos).1.maxInflight = q.maxInflight ∧
    (q.complete pid qos).1.maxPackets = q.maxPackets ∧
    (q.complete pid qos).1.timeout = q.timeout ∧
    (q.complete pid qos).1.packets.length = q.packets.length := by
  unfold Pending.complete
  split
  · next h => exact ⟨rfl, rfl, rfl, updFirst_length h⟩
  · exact ⟨rfl, rfl, rfl, rfl⟩

theorem pubrec_params (q : Pending P) (now : Nat) (pid : Pid) :
    (q.pubrec now pid).1.maxInflight = q.maxInflight ∧
    (q.pubrec now pid).1.maxPackets = q.maxPackets ∧
    (q.pubrec now pid).1.timeout = q.timeout ∧
    (q.pubrec now pid).1.packets.length = q.packets.length := by
  unfold Pending.pubrec
  split
  · next h => exact ⟨rfl, rfl, rfl, updFirst_length h⟩
  · exact ⟨rfl, rfl, rfl, rfl⟩

theorem completeAll_params (pids : List Pid) (q : Pending P) :
    (q.completeAll pids).maxInflight = q.maxInflight ∧
    (q.completeAll pids).maxPackets = q.maxPackets ∧
    (q.completeAll pids).timeout = q.timeout ∧
    (q.completeAll pids).packets.length = q.packets.length := by
  induction pids generalizing q with
  | nil => exact ⟨rfl, rfl, rfl, rfl⟩
  | cons pid pids ih =>
    obtain ⟨h1, h2, h3, h4⟩ := ih (q.complete pid 1).1
    obtain ⟨g1, g2, g3, g4⟩ := complete_params q pid 1
    simp only [Pending.completeAll, List.foldl_cons] at *
    exact ⟨h1.trans g1, h2.trans g2, h3.trans g3, h4.trans g4⟩

theorem length_dropWhile_le (p : α → Bool) (l : List α) : (l.dropWhile p).length ≤ l.length :=
  (List.dropWhile_sublist p).length_le

theorem afterSweep_params (exp : P → Option Nat) (clk : Clock) (q : Pending P) :
    (q.afterSweep exp clk).maxInflight = q.maxInflight ∧
    (q.afterSweep exp clk).maxPackets = q.maxPackets ∧
    (q.afterSweep exp clk).timeout = q.timeout ∧
    (q.afterSweep exp clk).packets.length ≤ q.packets.length := by
  obtain ⟨h1, h2, h3, h4⟩ := completeAll_params (q.swept exp clk).2.2
    ({ q with packets := (q.swept exp clk).1 } : Pending P)
  refine ⟨h1, h2, h3, ?_⟩
  rw [Pending.afterSweep, h4]
  simp only [Pending.swept]
  rw [sweep_length]
  exact length_dropWhile_le _ _

theorem handlePendings_params (exp : P → Option Nat) (clk : Clock) (q : Pending P) :
    (q.handlePendings exp clk).1.maxInflight = q.maxInflight ∧
    (q.handlePendings exp clk).1.maxPackets = q.maxPackets ∧
    (q.handlePendings exp clk).1.timeout = q.timeout ∧
    (q.handlePendings exp clk).1.packets.length ≤ q.packets.length := by
  obtain ⟨h1, h2, h3, h4⟩ := afterSweep_params exp clk q
  rw [Pending.handlePendings_eq]
  simp only
  split
  · exact ⟨h1, h2, h3, h4⟩
  · exact ⟨h1, h2, h3, Nat.le_trans (length_dropWhile_le _ _) h4⟩

theorem pushBack_params (q : Pending P) (now : Nat) (pid : Pid) (p : P) :
    (q.pushBack now pid p).1.maxInflight = q.maxInflight ∧
    (q.pushBack now pid p).1.maxPackets = q.maxPackets ∧
    (q.pushBack now pid p).1.timeout = q.timeout := by
  unfold Pending.pushBack; split <;> exact ⟨rfl, rfl, rfl⟩

theorem step_params (exp : P → Option Nat) (s : Sender P) (op : SendOp P) :
    (s.step exp op).1.pending.maxInflight = receiveMax s.pending.maxInflight [op] ∧
    (s.step exp op).1.pending.maxPackets = s.pending.maxPackets ∧
    (s.step exp op).1.pending.timeout = s.pending.timeout := by
  cases op with
  | deliver now p =>
    obtain ⟨h1, h2, h3⟩ := pushBack_params s.pending.cleanComplete now s.nextPid p
    exact ⟨h1, h2, h3⟩
  | pass clk =>
    obtain ⟨h1, h2, h3, _⟩ := handlePendings_params exp clk s.pending
    exact ⟨h1, h2, h3⟩
  | puback pid =>
    obtain ⟨h1, h2, h3, _⟩ := complete_params s.pending pid 1
    exact ⟨h1, h2, h3⟩
  | pubrec now pid =>
    obtain ⟨h1, h2, h3, _⟩ := pubrec_params s.pending now pid
    exact ⟨h1, h2, h3⟩
  | pubcomp pid =>
    obtain ⟨h1, h2, h3, _⟩ := complete_params s.pending pid 2
    exact ⟨h1, h2, h3⟩
  | reconnect m => cases m <;> exact ⟨rfl, rfl, rfl⟩

theorem receiveMax_append (m : Nat) (a b : List (SendOp P)) :
    receiveMax m (a ++ b) = receiveMax (receiveMax m a) b := by
  induction a generalizing m with
  | nil => rfl
  | cons op a ih =>
    cases op with
    | reconnect m' => cases m' <;> simp [receiveMax, ih]
    | _ => simp [receiveMax, ih]

theorem exec_params (exp : P → Option Nat) (s : Sender P) (ops : List (SendOp P)) :
    (s.exec exp ops).pending.maxInflight = receiveMax s.pending.maxInflight ops ∧
    (s.exec exp ops).pending.maxPackets = s.pending.maxPackets ∧
    (s.exec exp ops).pending.timeout = s.pending.timeout := by
  induction ops using snoc_induction with
  | nil => exact ⟨rfl, rfl, rfl⟩
  | snoc ops op ih =>
    obtain ⟨h1, h2, h3⟩ := step_params exp (s.exec exp ops) op
    rw [exec_snoc, receiveMax_append, ← ih.1]
    exact ⟨h1, h2.trans ih.2.1, h3.trans ih.2.2⟩

theorem step_length (exp : P → Option Nat) (s : Sender P) (op : SendOp P)
    (h : s.pending.packets.length ≤ s.pending.maxPackets) :
    (s.step exp op).1.pending.packets.length ≤ s.pending.maxPackets := by
  cases op with
  | deliver now p =>
    have hl := length_dropWhile_le PStatus.isComplete s.pending.packets
    show (s.pending.cleanComplete.pushBack now s.nextPid p).1.packets.length ≤ _
    unfold Pending.pushBack
    split
    · exact Nat.le_trans hl h
    · next hc => simp [Pending.cleanComplete] at hc ⊢; omega
  | pass clk => exact Nat.le_trans (handlePendings_params exp clk s.pending).2.2.2 h
  | puback pid => rw [← (complete_params s.pending pid 1).2.2.2] at h; exact h
  | pubrec now pid => rw [← (pubrec_params s.pending now pid).2.2.2] at h; exact h
  | pubcomp pid => rw [← (complete_params s.pending pid 2).2.2.2] at h; exact h
  | reconnect m => cases m <;> simpa [Sender.step, Pending.resetLastSent, Pending.setMaxInflight] using h

theorem exec_length (exp : P → Option Nat) (s : Sender P) (ops : List (SendOp P))
    (h : s.pending.packets.length ≤ s.pending.maxPackets) :
    (s.exec exp ops).pending.packets.length ≤ s.pending.maxPackets := by
  induction ops using snoc_induction with
  | nil => exact h
  | snoc ops op ih =>
    rw [exec_snoc]
    have h2 := (exec_params exp s ops).2.1
    rw [← h2] at ih ⊢
    exact step_length exp _ op ih

/-! ## Messages in the queue -/

theorem reset_msg (s : PStatus P) : s.reset.msg? = s.msg? := by cases s <;> rfl
theorem reset_pid (s : PStatus P) : s.reset.pid? = s.pid? := by cases s <;> rfl

theorem reconnect_packets (s : Sender P) (exp : P → Option Nat) (m : Option Nat) :
    (s.step exp (.reconnect m)).1.pending.packets = s.pending.packets.map PStatus.reset := by
  cases m <;> rfl

theorem filterMap_map_eq {β : Type} (g : PStatus P → Option β) (f : PStatus P → PStatus P)
    (h : ∀ s, g (f s) = g s) (ps : List (PStatus P)) : (ps.map f).filterMap g = ps.filterMap g := by
  rw [List.filterMap_map]
  congr 1
  funext s
  exact h s

/-- Messages waiting in the queue. -/
def Sender.msgs (s : Sender P) : List P := s.pending.packets.filterMap PStatus.msg?

theorem step_msgs (exp : P → Option Nat) (s : Sender P) (op : SendOp P) :
    (s.step exp op).1.msgs.Sublist (s.msgs ++ delivered [op]) := by
  cases op with
  | deliver now p =>
    show ((s.pending.cleanComplete.pushBack now s.nextPid p).1.packets.filterMap
      PStatus.msg?).Sublist (s.msgs ++ [p])
    unfold Pending.pushBack
    split
    · simp only [Pending.cleanComplete]
      rw [filterMap_dropWhile _ rfl]
      exact List.sublist_append_left _ _
    · simp only [Pending.cleanComplete]
      rw [List.filterMap_append, filterMap_dropWhile _ rfl]
      exact List.Sublist.refl _
  | pass clk =>
    simp only [delivered, List.append_nil]
    have := handlePendings_filterMap_sublist PStatus.msg? rfl exp clk s.pending
    rw [swept_msgs] at this
    exact this
  | puback pid =>
    simp only [delivered, List.append_nil]
    exact complete_filterMap_sublist _ rfl _ _ _
  | pubrec now pid =>
    simp only [delivered, List.append_nil]
    show ((s.pending.pubrec now pid).1.packets.filterMap PStatus.msg?).Sublist _
    unfold Pending.pubrec
    split
    · next h =>
      exact updFirst_filterMap_sublist _ (fun s s' hs => by rw [(pubrecStatus_some hs).1]; rfl) h
    · exact List.Sublist.refl _
  | pubcomp pid =>
    simp only [delivered, List.append_nil]
    exact complete_filterMap_sublist _ rfl _ _ _
  | reconnect m =>
    simp only [delivered, List.append_nil]
    rw [Sender.msgs, reconnect_packets, filterMap_map_eq _ _ reset_msg]
    exact List.Sublist.refl _

theorem exec_msgs (exp : P → Option Nat) (s : Sender P) (ops : List (SendOp P)) :
    (s.exec exp ops).msgs.Sublist (s.msgs ++ delivered ops) := by
  induction ops using snoc_induction with
  | nil => simp [delivered, exec_nil]
  | snoc ops op ih =>
    rw [exec_snoc, delivered_append, ← List.append_assoc]
    exact (step_msgs exp _ op).trans (List.Sublist.append ih (List.Sublist.refl _))

/-! ## Acknowledging when packet identifiers are distinct -/

theorem kill_eq_self {target : Pid} {ps : List (PStatus P)}
    (h : target ∉ ps.filterMap PStatus.pid?) : ps.map (PStatus.kill target) = ps := by
  induction ps with
  | nil => rfl
  | cons s ss ih =>
    rw [List.filterMap_cons] at h
    cases s with
    | new a l pid p d =>
      simp only [PStatus.pid?, List.mem_cons, not_or] at h
      have hne : pid ≠ target := fun hh => h.1 hh.symm
      simp [PStatus.kill, ih h.2, hne]
    | pubrec l pid =>
      simp only [PStatus.pid?, List.mem_cons, not_or] at h
      simp [PStatus.kill, ih h.2]
    | complete =>
      simp only [PStatus.pid?] at h
      simp [PStatus.kill, ih h]

theorem updFirst_kill {target : Pid} {n : Nat} {ps : List (PStatus P)}
    (hnd : (ps.filterMap PStatus.pid?).Nodup)
    (hout : target ∉ (ps.drop n).filterMap PStatus.pid?) :
    (updFirst (completeStatus target 1) n ps).getD ps = ps.map (PStatus.kill target) := by
  induction ps generalizing n with
  | nil => cases n <;> rfl
  | cons s ss ih =>
    cases n with
    | zero =>
      simp only [updFirst, Option.getD_none]
      exact (kill_eq_self (by simpa using hout)).symm
    | succ n =>
      simp only [List.drop_succ_cons] at hout
      rw [updFirst]
      cases s with
      | new a l pid p d =>
        simp only [List.filterMap_cons, PStatus.pid?, List.nodup_cons] at hnd
        by_cases hp : pid = target
        · subst hp
          simp [completeStatus, PStatus.kill, kill_eq_self hnd.1]
        · simp only [completeStatus, hp, and_false, if_false, List.map_cons, PStatus.kill]
          rw [← ih hnd.2 hout]
          cases updFirst (completeStatus target 1) n ss <;> simp
      | pubrec l pid =>
        simp only [List.filterMap_cons, PStatus.pid?, List.nodup_cons] at hnd
        have h12 : ¬ ((1 : QoS) = 2) := by decide
        simp only [completeStatus, h12, false_and, if_false, List.map_cons, PStatus.kill]
        rw [← ih hnd.2 hout]
        cases updFirst (completeStatus target 1) n ss <;> simp
      | complete =>
        simp only [List.filterMap_cons, PStatus.pid?] at hnd
        simp only [completeStatus, List.map_cons, PStatus.kill]
        rw [← ih hnd hout]
        cases updFirst (completeStatus target 1) n ss <;> simp

theorem drop_window (q : Pending P) : q.packets.drop q.window = q.packets.drop q.maxInflight := by
  unfold Pending.window
  by_cases h : q.maxInflight ≤ q.packets.length
  · rw [Nat.min_eq_left h]
  · rw [Nat.min_eq_right (by omega), List.drop_length, List.drop_of_length_le (by omega)]

theorem take_window (q : Pending P) : q.packets.take q.window = q.packets.take q.maxInflight := by
  unfold Pending.window
  by_cases h : q.maxInflight ≤ q.packets.length
  · rw [Nat.min_eq_left h]
  · rw [Nat.min_eq_right (by omega), List.take_length, List.take_of_length_le (by omega)]

theorem complete_kill {q : Pending P} {target : Pid}
    (hnd : (q.packets.filterMap PStatus.pid?).Nodup)
    (hout : target ∉ (q.packets.drop q.maxInflight).filterMap PStatus.pid?) :
    (q.complete target 1).1.packets = q.packets.map (PStatus.kill target) := by
  rw [← updFirst_kill (n := q.window) hnd (by rwa [drop_window])]
  unfold Pending.complete
  cases updFirst (completeStatus target 1) q.window q.packets <;> rfl

theorem kill_pid_sublist (target : Pid) (ps : List (PStatus P)) :
    ((ps.map (PStatus.kill target)).filterMap PStatus.pid?).Sublist (ps.filterMap PStatus.pid?) := by
  induction ps with
  | nil => exact List.Sublist.refl _
  | cons s ss ih =>
    rw [List.map_cons, List.filterMap_cons, List.filterMap_cons]
    cases s with
    | new a l pid p d =>
      by_cases h : pid = target
      · simp only [PStatus.kill, h, if_true, PStatus.pid?]
        exact ih.trans (List.sublist_cons_self _ _)
      · simp only [PStatus.kill, h, if_false, PStatus.pid?]
        exact ih.cons_cons _
    | pubrec l pid => simp only [PStatus.kill, PStatus.pid?]; exact ih.cons_cons _
    | complete => simp only [PStatus.kill, PStatus.pid?]; exact ih

theorem completeAll_kill {q : Pending P} {pids : List Pid}
    (hnd : (q.packets.filterMap PStatus.pid?).Nodup)
    (hout : ∀ pid ∈ pids, pid ∉ (q.packets.drop q.maxInflight).filterMap PStatus.pid?) :
    (q.completeAll pids).packets = pids.foldl (fun ps pid => ps.map (PStatus.kill pid)) q.packets := by
  induction pids generalizing q with
  | nil => rfl
  | cons pid pids ih =>
    have h := complete_kill hnd (hout pid (by simp))
    have hm := (complete_params q pid 1).1
    simp only [Pending.completeAll, List.foldl_cons] at ih ⊢
    rw [ih, h]
    · rw [h]; exact (kill_pid_sublist pid _).nodup hnd
    · intro x hx
      rw [h, hm, ← List.map_drop]
      intro hc
      exact hout x (by simp [hx]) ((kill_pid_sublist pid _).subset hc)

/-- Entry after killing all of `pids`. -/
theorem mem_killAll {pids : List Pid} {ps : List (PStatus P)} {a l : Nat} {pid : Pid} {p : P}
    {d : Bool} :
    PStatus.new a l pid p d ∈ pids.foldl (fun ps pid => ps.map (PStatus.kill pid)) ps ↔
      PStatus.new a l pid p d ∈ ps ∧ pid ∉ pids := by
  induction pids generalizing ps with
  | nil => simp
  | cons x pids ih =>
    rw [List.foldl_cons, ih]
    simp only [List.mem_cons, not_or, List.mem_map]
    constructor
    · rintro ⟨⟨e, he, hk⟩, hn⟩
      cases e with
      | new a' l' pid' p' d' =>
        simp only [PStatus.kill] at hk
        split at hk
        · cases hk
        · next hne =>
          cases hk
          exact ⟨he, hne, hn⟩
      | pubrec l' pid' => cases hk
      | complete => cases hk
    · rintro ⟨he, hne, hn⟩
      exact ⟨⟨_, he, by simp [PStatus.kill, hne]⟩, hn⟩

/-- Expired identifiers belong to the window only, if identifiers are distinct. -/
theorem expired_window {exp : P → Option Nat} {clk : Clock} {q : Pending P}
    (hnd : (q.packets.filterMap PStatus.pid?).Nodup) :
    ∀ pid ∈ (q.swept exp clk).2.2,
      pid ∉ ((q.swept exp clk).1.drop q.maxInflight).filterMap PStatus.pid? := by
  intro pid hp hc
  obtain ⟨a, p, d, v, k, _, _, _, h4⟩ := sweep_expired _ _ _ _ _ _ _ pid hp
  have hnd' : ((q.swept exp clk).1.filterMap PStatus.pid?).Nodup := by rw [swept_pids]; exact hnd
  have h5 : PStatus.new a 0 pid p d ∈ (q.swept exp clk).1.take q.maxInflight :=
    (List.take_sublist_take_left (Nat.min_le_left _ _)).subset h4
  rw [← List.take_append_drop q.maxInflight (q.swept exp clk).1, List.filterMap_append,
    List.nodup_append] at hnd'
  exact hnd'.2.2 pid (List.mem_filterMap.mpr ⟨_, h5, rfl⟩) pid hc rfl

theorem afterSweep_kill {exp : P → Option Nat} {clk : Clock} {q : Pending P}
    (hnd : (q.packets.filterMap PStatus.pid?).Nodup) :
    (q.afterSweep exp clk).packets = (q.swept exp clk).2.2.foldl
      (fun ps pid => ps.map (PStatus.kill pid)) (q.swept exp clk).1 := by
  unfold Pending.afterSweep
  exact completeAll_kill (q := { q with packets := (q.swept exp clk).1 })
    (by simp only; rw [swept_pids]; exact hnd) (expired_window hnd)

theorem afterSweep_v3 {exp : P → Option Nat} (h : ∀ p, exp p = none) (clk : Clock) (q : Pending P) :
    (q.afterSweep exp clk).packets = (q.swept exp clk).1 := by
  unfold Pending.afterSweep
  have : (q.swept exp clk).2.2 = [] := sweep_expired_v3 h _ _ _ _ _ _
  rw [this]; rfl

end Akasa

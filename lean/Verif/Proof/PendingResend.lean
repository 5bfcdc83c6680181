import Verif.Proof.PendingPid
import Verif.Proof.PendingDrain
/-!
# Retransmission and draining of the outgoing queue
-/
namespace Akasa

variable {P : Type}

/-! ## Time of the last transmission -/

/-- The time of the last transmission is at most `b`. -/
def PStatus.LastLe (b : Nat) : PStatus P → Prop
  | .new _ l _ _ _ => l ≤ b
  | .pubrec l _ => l ≤ b
  | .complete => True

theorem LastLe.ready {b t now : Nat} {e : PStatus P} (h : e.LastLe b) (hne : e ≠ .complete)
    (hn : t + b ≤ now) : e.ready t now = true := by
  cases e with
  | new a l pid p d => simp only [PStatus.LastLe] at h; simp [PStatus.ready]; omega
  | pubrec l pid => simp only [PStatus.LastLe] at h; simp [PStatus.ready]; omega
  | complete => exact absurd rfl hne

theorem LastLe.attempt {exp : P → Option Nat} {b now : Nat} {e : PStatus P} (h : e.LastLe b)
    (hn : now ≤ b) : (e.attempt exp now).1.LastLe b := by
  cases e with
  | new a l pid p d =>
    simp only [PStatus.attempt]
    cases exp p with
    | none => exact hn
    | some v =>
      simp only
      split
      · exact h
      · exact hn
  | pubrec l pid => exact hn
  | complete => trivial

theorem exec_lastLe {exp : P → Option Nat} {b : Nat} (s : Sender P) (ops : List (SendOp P))
    (hr : ReadingsLe b ops) (h : ∀ e ∈ s.pending.packets, e.LastLe b) :
    ∀ e ∈ (s.exec exp ops).pending.packets, e.LastLe b := by
  induction ops using snoc_induction with
  | nil => exact h
  | snoc ops op ih =>
    have ih := ih ⟨fun clk hc => hr.1 clk (by simp [hc]), fun now pid hc => hr.2 now pid (by simp [hc])⟩
    intro e he
    rw [exec_snoc] at he
    rcases step_entries exp _ _ _ he with h | h | ⟨clk, k, rfl, e0, h0, rfl⟩ | ⟨now, pid, rfl, rfl⟩ |
      ⟨now, p, rfl, rfl⟩ | ⟨m, rfl, e0, h0, rfl⟩
    · subst h; trivial
    · exact ih e h
    · exact LastLe.attempt (ih e0 h0) (hr.1 clk (by simp) k)
    · exact hr.2 now pid (by simp)
    · exact Nat.zero_le _
    · cases e0 with
      | new a l pid p d => exact Nat.zero_le _
      | pubrec l pid => exact Nat.zero_le _
      | complete => trivial

/-! ## Behind the window nothing has been sent -/

theorem sweep_drop (exp : P → Option Nat) (t : Nat) (clk : Clock) (n cur i : Nat)
    (ps : List (PStatus P)) : (sweep exp t clk n cur i ps).1.drop n = ps.drop n := by
  induction ps generalizing n cur i with
  | nil => cases n <;> rfl
  | cons s ss ih =>
    cases n with
    | zero => rfl
    | succ n => rw [sweep]; split <;> simp [ih]

theorem updFirst_drop {f : PStatus P → Option (PStatus P)} {n : Nat} {ps ps' : List (PStatus P)}
    (h : updFirst f n ps = some ps') : ps'.drop n = ps.drop n := by
  obtain ⟨pre, e, e', post, rfl, rfl, _, h4, _⟩ := updFirst_some h
  have : n - pre.length = (n - pre.length - 1) + 1 := by omega
  rw [List.drop_append, List.drop_append, this, List.drop_succ_cons, List.drop_succ_cons]

theorem complete_drop (q : Pending P) (pid : Pid) (qos : QoS) :
    (q.complete pid qos).1.packets.drop q.maxInflight = q.packets.drop q.maxInflight := by
  unfold Pending.complete
  split
  · next ps' h =>
    have h1 := updFirst_drop h
    have h2 := updFirst_length h
    rw [drop_window] at h1
    rw [← h1]
    have := drop_window ({ q with packets := ps' } : Pending P)
    simp only [Pending.window, h2] at this ⊢
    exact this.symm
  · rfl

theorem pubrec_drop (q : Pending P) (now : Nat) (pid : Pid) :
    (q.pubrec now pid).1.packets.drop q.maxInflight = q.packets.drop q.maxInflight := by
  unfold Pending.pubrec
  split
  · next ps' h =>
    have h1 := updFirst_drop h
    have h2 := updFirst_length h
    rw [drop_window] at h1
    rw [← h1]
    have := drop_window ({ q with packets := ps' } : Pending P)
    simp only [Pending.window, h2] at this ⊢
    exact this.symm
  · rfl

theorem completeAll_drop (pids : List Pid) (q : Pending P) :
    (q.completeAll pids).packets.drop q.maxInflight = q.packets.drop q.maxInflight := by
  induction pids generalizing q with
  | nil => rfl
  | cons pid pids ih =>
    have h := ih (q.complete pid 1).1
    rw [(complete_params q pid 1).1] at h
    exact h.trans (complete_drop q pid 1)

theorem drop_dropWhile_subset {n : Nat} {p : α → Bool} {l : List α} {e : α}
    (h : e ∈ (l.dropWhile p).drop n) : e ∈ l.drop n := by
  obtain ⟨k, hk, _⟩ := dropWhile_eq_drop p l
  rw [hk, List.drop_drop, Nat.add_comm, ← List.drop_drop] at h
  exact List.mem_of_mem_drop h

/-- The entry has never been sent. -/
def PStatus.Fresh (e : PStatus P) : Prop := ∃ a pid p, e = .new a 0 pid p false

theorem swept_drop (exp : P → Option Nat) (clk : Clock) (q : Pending P) :
    (q.swept exp clk).1.drop q.maxInflight = q.cleanComplete.packets.drop q.maxInflight := by
  have h := sweep_drop exp q.timeout clk q.cleanComplete.window 0 0 q.cleanComplete.packets
  have h2 := sweep_length exp q.timeout clk q.cleanComplete.window 0 0 q.cleanComplete.packets
  rw [drop_window] at h
  have h3 := drop_window ({ q.cleanComplete with packets := (q.swept exp clk).1 } : Pending P)
  have h4 : ({ q.cleanComplete with packets := (q.swept exp clk).1 } : Pending P).window =
      q.cleanComplete.window := by
    show min _ (q.swept exp clk).1.length = min _ _
    rw [show (q.swept exp clk).1.length = q.cleanComplete.packets.length from h2]
  rw [h4] at h3
  exact h3.symm.trans h

theorem step_tail {exp : P → Option Nat} {s : Sender P} (op : SendOp P)
    (h : ∀ e ∈ s.pending.packets.drop s.pending.maxInflight, e.Fresh)
    (hm : ∀ m', op = .reconnect (some m') → s.pending.maxInflight ≤ m') :
    ∀ e ∈ (s.step exp op).1.pending.packets.drop (s.step exp op).1.pending.maxInflight, e.Fresh := by
  intro e he
  cases op with
  | deliver now p =>
    have hp := (pushBack_params s.pending.cleanComplete now s.nextPid p).1
    have he : e ∈ (s.pending.cleanComplete.pushBack now s.nextPid p).1.packets.drop
      (s.pending.cleanComplete.pushBack now s.nextPid p).1.maxInflight := he
    rw [hp] at he
    unfold Pending.pushBack at he
    split at he
    · exact h e (drop_dropWhile_subset he)
    · simp only [List.drop_append, List.mem_append] at he
      rcases he with he | he
      · exact h e (drop_dropWhile_subset he)
      · have := List.mem_of_mem_drop he
        simp only [List.mem_singleton] at this
        exact ⟨now, s.nextPid, p, this⟩
  | pass clk =>
    have hp := (handlePendings_params exp clk s.pending).1
    have he : e ∈ (s.pending.handlePendings exp clk).1.packets.drop
      (s.pending.handlePendings exp clk).1.maxInflight := he
    rw [hp, Pending.handlePendings_eq] at he
    have ha : (s.pending.afterSweep exp clk).packets.drop s.pending.maxInflight =
        s.pending.cleanComplete.packets.drop s.pending.maxInflight := by
      rw [← swept_drop exp clk]
      exact completeAll_drop _ { s.pending with packets := (s.pending.swept exp clk).1 }
    have : e ∈ (s.pending.afterSweep exp clk).packets.drop s.pending.maxInflight := by
      simp only at he
      split at he
      · exact he
      · exact drop_dropWhile_subset he
    rw [ha] at this
    exact h e (drop_dropWhile_subset this)
  | puback pid =>
    have he : e ∈ (s.pending.complete pid 1).1.packets.drop
      (s.pending.complete pid 1).1.maxInflight := he
    rw [(complete_params _ _ _).1, complete_drop] at he
    exact h e he
  | pubcomp pid =>
    have he : e ∈ (s.pending.complete pid 2).1.packets.drop
      (s.pending.complete pid 2).1.maxInflight := he
    rw [(complete_params _ _ _).1, complete_drop] at he
    exact h e he
  | pubrec now pid =>
    have he : e ∈ (s.pending.pubrec now pid).1.packets.drop
      (s.pending.pubrec now pid).1.maxInflight := he
    rw [(pubrec_params _ _ _).1, pubrec_drop] at he
    exact h e he
  | reconnect m =>
    rw [reconnect_packets, (step_params exp s _).1, ← List.map_drop] at he
    obtain ⟨e0, h0, rfl⟩ := List.mem_map.mp he
    have h1 : e0 ∈ s.pending.packets.drop s.pending.maxInflight := by
      cases m with
      | none => exact h0
      | some m' =>
        have hle := hm m' rfl
        have : receiveMax s.pending.maxInflight [SendOp.reconnect (some m') (P := P)] = m' := rfl
        rw [this] at h0
        have he : m' = s.pending.maxInflight + (m' - s.pending.maxInflight) := by omega
        rw [he, ← List.drop_drop] at h0
        exact List.mem_of_mem_drop h0
    obtain ⟨a, pid, p, rfl⟩ := h _ h1
    exact ⟨a, pid, p, rfl⟩

theorem exec_tail (exp : P → Option Nat) (m n t : Nat) (ops : List (SendOp P))
    (hm : NeverReduced m ops) :
    ∀ e ∈ ((Sender.new m n t).exec exp ops).pending.packets.drop
      ((Sender.new m n t).exec exp ops).pending.maxInflight, e.Fresh := by
  induction ops using snoc_induction with
  | nil => intro e he; simp [Sender.new, Pending.empty, exec_nil] at he
  | snoc ops op ih =>
    rw [exec_snoc]
    apply step_tail op
      (ih (fun pre m' h => hm pre m' (h.trans (List.prefix_append _ _))))
    intro m' hop
    rw [(exec_params exp _ _).1]
    exact hm ops m' (by rw [hop]; exact List.prefix_refl _)

/-! ## The first pass after a reconnect -/

theorem resume_sent (exp : P → Option Nat) (s : Sender P) (m : Option Nat) (clk : Clock)
    (hclk : ∀ j, s.pending.timeout ≤ clk.ready j) :
    s.outs exp [.reconnect m, .pass clk] =
      (((s.pending.cleanComplete.packets.take (m.getD s.pending.maxInflight)).map
        PStatus.reset).zipIdx).filterMap (fun x => (x.1.attempt exp (clk.sent x.2)).2.1) := by
  have h0 : s.outs exp [.reconnect m, .pass clk] =
      ((s.step exp (.reconnect m)).1.step exp (.pass clk)).2 := by
    rw [outs_cons, outs_cons, outs_nil]
    simp [Sender.step]
  rw [h0]
  generalize hs : (s.step exp (.reconnect m)).1 = s'
  have hpk : s'.pending.packets = s.pending.packets.map PStatus.reset := by
    rw [← hs, reconnect_packets]
  have hto : s'.pending.timeout = s.pending.timeout := by rw [← hs]; exact (step_params exp s _).2.2
  have hmx : s'.pending.maxInflight = m.getD s.pending.maxInflight := by
    rw [← hs, (step_params exp s _).1]; cases m <;> rfl
  have hcl : s'.pending.cleanComplete.packets = s.pending.cleanComplete.packets.map PStatus.reset := by
    show s'.pending.packets.dropWhile _ = (s.pending.packets.dropWhile _).map _
    rw [hpk]
    induction s.pending.packets with
    | nil => rfl
    | cons e l ih =>
      cases e with
      | complete => exact ih
      | new a l0 pid p d => rfl
      | pubrec l0 pid => rfl
  have h1 : (s'.step exp (.pass clk)).2 = (s'.pending.swept exp clk).2.1 := handlePendings_sent _ _ _
  rw [h1]
  have h2 := (sweep_all_ready exp s'.pending.timeout clk s'.pending.cleanComplete.window 0 0
    s'.pending.cleanComplete.packets (by
      intro e he hne j
      have he := List.mem_of_mem_take he
      rw [hcl] at he
      obtain ⟨e0, _, rfl⟩ := List.mem_map.mp he
      apply LastLe.ready (b := 0) _ hne
      · rw [hto]; exact hclk j
      · cases e0 <;> simp [PStatus.reset, PStatus.LastLe])).1
  have h3 : (s'.pending.swept exp clk).2.1 = _ := h2
  have hmx' : s'.pending.cleanComplete.maxInflight = m.getD s.pending.maxInflight := hmx
  rw [h3, take_window, hcl, hmx', List.map_take]

theorem mem_zipIdx_of_mem {l : List α} {e : α} (h : e ∈ l) : ∃ i, (e, i) ∈ l.zipIdx := by
  obtain ⟨i, hi, rfl⟩ := List.getElem_of_mem h
  exact ⟨i, by rw [List.mem_zipIdx_iff_getElem?]; simp [hi]⟩

theorem sent_of_mem_reset {exp : P → Option Nat} {clk : Clock} {l : List (PStatus P)}
    {a l0 : Nat} {pid : Pid} {p : P} {d : Bool} (h : PStatus.new a l0 pid p d ∈ l)
    (hx : ∀ v k, exp p = some v → clk.sent k - a < v) :
    ∃ x, Sent.publish pid p d x ∈ ((l.map PStatus.reset).zipIdx).filterMap
      (fun x => (x.1.attempt exp (clk.sent x.2)).2.1) := by
  have h1 : (PStatus.new a l0 pid p d).reset ∈ l.map PStatus.reset := List.mem_map_of_mem h
  obtain ⟨i, hi⟩ := mem_zipIdx_of_mem h1
  cases hv : exp p with
  | none =>
    refine ⟨none, List.mem_filterMap.mpr ⟨_, hi, ?_⟩⟩
    simp [PStatus.reset, PStatus.attempt, hv]
  | some v =>
    refine ⟨some (v - (clk.sent i - a) % 2 ^ 32), List.mem_filterMap.mpr ⟨_, hi, ?_⟩⟩
    have := hx v i hv
    simp only [PStatus.reset, PStatus.attempt, hv]
    rw [if_neg (by omega)]

theorem pubrel_of_mem_reset {exp : P → Option Nat} {clk : Clock} {l : List (PStatus P)}
    {l0 : Nat} {pid : Pid} (h : PStatus.pubrec l0 pid ∈ l) :
    Sent.pubrel pid ∈ ((l.map PStatus.reset).zipIdx).filterMap
      (fun x => (x.1.attempt exp (clk.sent x.2)).2.1) := by
  have h1 : (PStatus.pubrec l0 pid : PStatus P).reset ∈ l.map PStatus.reset := List.mem_map_of_mem h
  obtain ⟨i, hi⟩ := mem_zipIdx_of_mem h1
  exact List.mem_filterMap.mpr ⟨_, hi, rfl⟩

/-- An entry that is not fresh is in the window after a reconnect which does not reduce the receive
maximum. -/
theorem mem_window_of_tail {ps : List (PStatus P)} {M M' : Nat} (hle : M ≤ M')
    (h : ∀ e ∈ ps.drop M, e.Fresh) {e : PStatus P} (he : e ∈ ps) (hne : e ≠ .complete)
    (hf : ¬ e.Fresh) : e ∈ (ps.dropWhile PStatus.isComplete).take M' := by
  apply mem_take_dropWhile hne
  rw [← List.take_append_drop M' ps, List.mem_append] at he
  rcases he with he | he
  · exact he
  · exfalso
    have : M' = M + (M' - M) := by omega
    rw [this, ← List.drop_drop] at he
    exact hf (h e (List.mem_of_mem_drop he))

/-! ## No retransmission before the timeout -/

/-- Every pending entry with message `p` was last sent at `T` or later. -/
def LastGe (T : Nat) (p : P) (s : Sender P) : Prop :=
  ∀ a l pid d, PStatus.new a l pid p d ∈ s.pending.packets → T ≤ l

theorem LastGe.step {exp : P → Option Nat} {T : Nat} {p : P} {s : Sender P} (h : LastGe T p s)
    (op : SendOp P) (h1 : ∀ m, op ≠ .reconnect m) (h2 : p ∉ delivered [op])
    (h3 : ∀ clk, op = .pass clk → ∀ k, T ≤ clk.sent k) : LastGe T p (s.step exp op).1 := by
  intro a l pid d he
  rcases step_entries exp _ _ _ he with h' | h' | ⟨clk, k, rfl, e0, h0, he0⟩ | ⟨now, pid, rfl, h'⟩ |
    ⟨now, p', rfl, h'⟩ | ⟨m, rfl, _⟩
  · cases h'
  · exact h _ _ _ _ h'
  · obtain ⟨l0, d0, rfl, ⟨rfl, rfl⟩ | ⟨rfl, rfl⟩⟩ := attempt_new he0.symm
    · exact h _ _ _ _ h0
    · exact h3 clk rfl k
  · cases h'
  · cases h'; simp [delivered] at h2
  · exact absurd rfl (h1 m)

theorem LastGe.exec {exp : P → Option Nat} {T : Nat} {p : P} {s : Sender P} (h : LastGe T p s)
    (ops : List (SendOp P)) (h1 : ∀ m, SendOp.reconnect m ∉ ops) (h2 : p ∉ delivered ops)
    (h3 : ∀ clk, SendOp.pass clk ∈ ops → ∀ k, T ≤ clk.sent k) : LastGe T p (s.exec exp ops) := by
  induction ops using snoc_induction with
  | nil => exact h
  | snoc ops op ih =>
    rw [delivered_append, List.mem_append, not_or] at h2
    rw [exec_snoc]
    apply LastGe.step (ih (fun m hm => h1 m (by simp [hm])) h2.1
      (fun clk hc => h3 clk (by simp [hc]))) op
    · intro m hm; exact h1 m (by simp [hm])
    · exact h2.2
    · intro clk hc; exact h3 clk (by simp [hc])

/-- After the pass that sends `p`, its entry carries the time of that pass. -/
theorem LastGe.of_sent {exp : P → Option Nat} {T : Nat} {p : P} {s : Sender P} {clk : Clock}
    (hn : s.msgs.Nodup) (hs : p ∈ allSent (s.step exp (.pass clk)).2) (hT : ∀ k, T ≤ clk.sent k) :
    LastGe T p (s.step exp (.pass clk)).1 := by
  intro a l pid d he
  have he : PStatus.new a l pid p d ∈ (s.pending.handlePendings exp clk).1.packets := he
  have hs : p ∈ allSent (s.pending.handlePendings exp clk).2 := hs
  rw [handlePendings_sent] at hs
  obtain ⟨pid', d', x, hx⟩ := mem_allSent hs
  obtain ⟨e, h1, j, k, h2, h3, h4⟩ := sweep_sent _ _ _ _ _ _ _ _ hx
  obtain ⟨a', l', rfl, h5, _⟩ := attempt_sent h3
  rw [h5] at h4
  rcases mem_handlePendings he with he | he
  · cases he
  · have hn' : ((s.pending.swept exp clk).1.filterMap PStatus.msg?).Nodup := by
      rw [swept_msgs]; exact hn
    have := (msg_unique hn' he (List.mem_of_mem_take h4)).2.1
    rw [this]; exact hT k

theorem LastGe.not_sent {exp : P → Option Nat} {T : Nat} {p : P} {s : Sender P} (h : LastGe T p s)
    {clk : Clock} (hc : ∀ j, clk.ready j < s.pending.timeout + T) :
    p ∉ allSent (s.step exp (.pass clk)).2 := by
  intro hs
  obtain ⟨pid, d, x, hx⟩ := mem_allSent hs
  obtain ⟨a, l, k, h1, _, _, j, h2⟩ := pass_sent hx
  have := h _ _ _ _ h1
  have := hc j
  omega

/-! ## Draining -/

theorem receiveMax_acks {qos : P → QoS} {now : Nat} (m : Nat) (acks : List (Sent P)) :
    receiveMax m (acks.flatMap (ackOf qos now)) = m := by
  induction acks with
  | nil => rfl
  | cons x l ih =>
    rw [List.flatMap_cons, receiveMax_append]
    have : receiveMax m (ackOf qos now x) = m := by
      cases x with
      | publish pid p d y => simp only [ackOf]; split <;> rfl
      | pubrel pid => rfl
    rw [this, ih]

theorem round_params {exp : P → Option Nat} {qos : P → QoS} {now : Nat} {clk : Clock}
    (s : Sender P) (acks : List (Sent P)) :
    (s.exec exp (.pass clk :: acks.flatMap (ackOf qos now))).pending.maxInflight =
      s.pending.maxInflight ∧
    (s.exec exp (.pass clk :: acks.flatMap (ackOf qos now))).pending.timeout = s.pending.timeout := by
  have h := exec_params exp s (.pass clk :: acks.flatMap (ackOf qos now))
  refine ⟨?_, h.2.2⟩
  rw [h.1]
  exact receiveMax_acks _ acks

theorem round_pids {exp : P → Option Nat} {qos : P → QoS} {now : Nat} {clk : Clock}
    {s : Sender P} {acks : List (Sent P)} (hnd : s.pids.Nodup)
    (hready : ∀ e ∈ s.pending.packets, e ≠ .complete →
      ∀ j, e.ready s.pending.timeout (clk.ready j) = true)
    (hacks : acks.Perm (s.step exp (.pass clk)).2) :
    (s.exec exp (.pass clk :: acks.flatMap (ackOf qos now))).pids.Nodup ∧
    ∀ e ∈ (s.exec exp (.pass clk :: acks.flatMap (ackOf qos now))).pending.packets,
      e ≠ .complete → e ∈ s.pending.packets := by
  have h := round_packets (qos := qos) (now := now) hnd hready hacks
  generalize s.exec exp (.pass clk :: acks.flatMap (ackOf qos now)) = s' at *
  have hsub : (s'.pending.cleanComplete.packets).Sublist s.pending.packets := by
    rw [h]
    exact (List.dropWhile_sublist _).trans ((List.drop_sublist _ _).trans (List.dropWhile_sublist _))
  constructor
  · have h1 : s'.pids = s'.pending.cleanComplete.packets.filterMap PStatus.pid? := by
      simp only [Pending.cleanComplete]; rw [filterMap_dropWhile _ rfl]; rfl
    rw [h1]
    exact (hsub.filterMap _).nodup hnd
  · intro e he hne
    exact hsub.subset ((mem_dropWhile hne _).mpr he)

/-- A message of the window is sent by a pass for which everything is due, unless it has expired. -/
theorem pass_sends {exp : P → Option Nat} {clk : Clock} {s : Sender P} {a l pid p d}
    (hready : ∀ e ∈ s.pending.packets, e ≠ .complete →
      ∀ j, e.ready s.pending.timeout (clk.ready j) = true)
    (hx : ∀ v k, exp p = some v → clk.sent k - a < v)
    (hw : PStatus.new a l pid p d ∈ s.pending.cleanComplete.packets.take s.pending.maxInflight) :
    p ∈ allSent (s.step exp (.pass clk)).2 := by
  have h1 : (s.step exp (.pass clk)).2 = (s.pending.swept exp clk).2.1 := handlePendings_sent _ _ _
  have h2 := (sweep_all_ready exp s.pending.timeout clk s.pending.cleanComplete.window 0 0
    s.pending.cleanComplete.packets
    (fun e he hne => hready e ((List.dropWhile_sublist _).subset (List.mem_of_mem_take he)) hne)).1
  have h3 : (s.pending.swept exp clk).2.1 = _ := h2
  rw [h1, h3, take_window]
  obtain ⟨i, hi⟩ := mem_zipIdx_of_mem hw
  cases hv : exp p with
  | none =>
    exact sent_mem_allSent (pid := pid) (d := d) (x := none)
      (List.mem_filterMap.mpr ⟨_, hi, by simp [PStatus.attempt, hv]⟩)
  | some v =>
    have := hx v i hv
    refine sent_mem_allSent (pid := pid) (d := d) (x := some (v - (clk.sent i - a) % 2 ^ 32))
      (List.mem_filterMap.mpr ⟨_, hi, ?_⟩)
    simp only [PStatus.attempt, hv]
    rw [if_neg (by omega)]

theorem rounds_drain {exp : P → Option Nat} {qos : P → QoS} {lo hi n : Nat} {s s' : Sender P}
    {outs : List (Sent P)} (h : AckRounds exp qos lo hi n s outs s') {b : Nat}
    (hb : ∀ e ∈ s.pending.packets, e.LastLe b) (hlo : s.pending.timeout + b ≤ lo)
    (hnd : s.pids.Nodup) :
    s'.pending.cleanComplete.packets.length ≤
      s.pending.cleanComplete.packets.length - n * s.pending.maxInflight ∧
    (s.pending.cleanComplete.packets.length ≤ n * s.pending.maxInflight →
      ∀ a l pid p d, PStatus.new a l pid p d ∈ s.pending.packets →
        (∀ v, exp p = some v → hi - a < v) → p ∈ allSent outs) := by
  induction h with
  | done s =>
    refine ⟨by simp, ?_⟩
    intro hl a l pid p d he
    simp only [Nat.zero_mul, Nat.le_zero, List.length_eq_zero_iff] at hl
    have := (mem_dropWhile (by simp) s.pending.packets).mpr he
    have hl : s.pending.packets.dropWhile PStatus.isComplete = [] := hl
    rw [hl] at this; cases this
  | @round n s s' sent acks rest clk now h1 h2 h3 h4 h5 ih =>
    have hready : ∀ e ∈ s.pending.packets, e ≠ .complete →
        ∀ j, e.ready s.pending.timeout (clk.ready j) = true :=
      fun e he hne j => LastLe.ready (hb e he) hne (Nat.le_trans hlo (h1 j))
    rw [h3] at h4
    have hpk := round_packets (qos := qos) (now := now) hnd hready h4
    obtain ⟨hnd', hmem⟩ := round_pids (qos := qos) (now := now) hnd hready h4
    obtain ⟨hmx, hto⟩ := round_params (exp := exp) (qos := qos) (now := now) (clk := clk) s acks
    generalize s.exec exp (.pass clk :: acks.flatMap (ackOf qos now)) = s1 at *
    obtain ⟨ih1, ih2⟩ := ih (by
        intro e he
        cases e with
        | complete => trivial
        | _ => exact hb _ (hmem _ he (by simp)))
      (by rw [hto]; exact hlo) hnd'
    have hlen : s1.pending.cleanComplete.packets.length ≤
        s.pending.cleanComplete.packets.length - s.pending.maxInflight := by
      rw [hpk]
      exact Nat.le_trans (length_dropWhile_le _ _) (by rw [List.length_drop]; omega)
    rw [hmx] at ih1 ih2
    have hmul : (n + 1) * s.pending.maxInflight =
      n * s.pending.maxInflight + s.pending.maxInflight := Nat.succ_mul _ _
    refine ⟨by omega, ?_⟩
    intro hl a l pid p d he hx
    rw [allSent_append, List.mem_append]
    have hcl := (mem_dropWhile (by simp) s.pending.packets).mpr he
    have hcl : PStatus.new a l pid p d ∈ s.pending.cleanComplete.packets := hcl
    rw [← List.take_append_drop s.pending.maxInflight s.pending.cleanComplete.packets,
      List.mem_append] at hcl
    rcases hcl with hcl | hcl
    · left
      rw [h3]
      refine pass_sends hready ?_ hcl
      intro v k hv
      have := hx v hv
      have := h2 k
      omega
    · right
      apply ih2 (by omega) a l pid p d _ hx
      have h6 := (mem_dropWhile (by simp : PStatus.new a l pid p d ≠ .complete) _).mpr hcl
      rw [← hpk] at h6
      exact (List.dropWhile_sublist _).subset h6

end Akasa

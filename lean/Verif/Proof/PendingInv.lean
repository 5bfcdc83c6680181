import Verif.Proof.PendingRun
/-!
# Invariants behind the properties of the outgoing queue
-/
namespace Akasa

variable {P : Type}

/-! ## Where entries come from -/

theorem mem_complete_new {q : Pending P} {pid : Pid} {qos : QoS} {e : PStatus P}
    (h : e ∈ (q.complete pid qos).1.packets) : e = .complete ∨ e ∈ q.packets := by
  unfold Pending.complete at h
  split at h
  · next hu =>
    obtain ⟨pre, s, s', post, h1, h2, h3, _⟩ := updFirst_some hu
    simp only [h2, List.mem_append, List.mem_cons] at h
    rcases h with h | h | h
    · right; rw [h1]; simp [h]
    · left; rw [h]; exact (completeStatus_some h3).1
    · right; rw [h1]; simp [h]
  · exact .inr h

theorem mem_completeAll_new {pids : List Pid} {q : Pending P} {e : PStatus P}
    (h : e ∈ (q.completeAll pids).packets) : e = .complete ∨ e ∈ q.packets := by
  induction pids generalizing q with
  | nil => exact .inr h
  | cons pid pids ih =>
    rcases ih (q := (q.complete pid 1).1) h with h | h
    · exact .inl h
    · exact mem_complete_new h

theorem mem_handlePendings {exp : P → Option Nat} {clk : Clock} {q : Pending P} {e : PStatus P}
    (h : e ∈ (q.handlePendings exp clk).1.packets) :
    e = .complete ∨ e ∈ (q.swept exp clk).1 := by
  rw [Pending.handlePendings_eq] at h
  simp only at h
  split at h
  · exact mem_completeAll_new h
  · have := (List.dropWhile_sublist _).subset h
    exact mem_completeAll_new this

theorem mem_swept {exp : P → Option Nat} {clk : Clock} {q : Pending P} {e' : PStatus P}
    (h : e' ∈ (q.swept exp clk).1) :
    ∃ e ∈ q.packets, e' = e ∨ ∃ k, e' = (e.attempt exp (clk.sent k)).1 := by
  obtain ⟨e, he, hh⟩ := sweep_mem _ _ _ _ _ _ _ e' h
  exact ⟨e, (List.dropWhile_sublist _).subset he, hh⟩

theorem step_entries (exp : P → Option Nat) (s : Sender P) (op : SendOp P) (e' : PStatus P)
    (h : e' ∈ (s.step exp op).1.pending.packets) :
    e' = .complete ∨ e' ∈ s.pending.packets ∨
    (∃ clk k, op = .pass clk ∧ ∃ e ∈ s.pending.packets, e' = (e.attempt exp (clk.sent k)).1) ∨
    (∃ now pid, op = .pubrec now pid ∧ e' = .pubrec now pid) ∨
    (∃ now p, op = .deliver now p ∧ e' = .new now 0 s.nextPid p false) ∨
    (∃ m, op = .reconnect m ∧ ∃ e ∈ s.pending.packets, e' = e.reset) := by
  cases op with
  | deliver now p =>
    have h : e' ∈ (s.pending.cleanComplete.pushBack now s.nextPid p).1.packets := h
    unfold Pending.pushBack at h
    split at h
    · exact .inr (.inl ((List.dropWhile_sublist _).subset h))
    · simp only [List.mem_append, List.mem_singleton] at h
      rcases h with h | h
      · exact .inr (.inl ((List.dropWhile_sublist _).subset h))
      · exact .inr (.inr (.inr (.inr (.inl ⟨now, p, rfl, h⟩))))
  | pass clk =>
    have h : e' ∈ (s.pending.handlePendings exp clk).1.packets := h
    rcases mem_handlePendings h with h | h
    · exact .inl h
    · obtain ⟨e, he, h | ⟨k, h⟩⟩ := mem_swept h
      · subst h; exact .inr (.inl he)
      · exact .inr (.inr (.inl ⟨clk, k, rfl, e, he, h⟩))
  | puback pid =>
    rcases mem_complete_new (qos := 1) h with h | h
    · exact .inl h
    · exact .inr (.inl h)
  | pubrec now pid =>
    have h : e' ∈ (s.pending.pubrec now pid).1.packets := h
    unfold Pending.pubrec at h
    split at h
    · next hu =>
      obtain ⟨pre, x, x', post, h1, h2, h3, _⟩ := updFirst_some hu
      simp only [h2, List.mem_append, List.mem_cons] at h
      rcases h with h | h | h
      · right; left; rw [h1]; simp [h]
      · right; right; right; left; exact ⟨now, pid, rfl, by rw [h]; exact (pubrecStatus_some h3).1⟩
      · right; left; rw [h1]; simp [h]
    · exact .inr (.inl h)
  | pubcomp pid =>
    rcases mem_complete_new (qos := 2) h with h | h
    · exact .inl h
    · exact .inr (.inl h)
  | reconnect m =>
    rw [reconnect_packets] at h
    obtain ⟨e, he, h⟩ := List.mem_map.mp h
    exact .inr (.inr (.inr (.inr (.inr ⟨m, rfl, e, he, h.symm⟩))))

/-- The result of an attempt on a `new` entry. -/
theorem attempt_new {exp : P → Option Nat} {now : Nat} {e : PStatus P} {a l pid p d}
    (h : (e.attempt exp now).1 = .new a l pid p d) :
    ∃ l0 d0, e = .new a l0 pid p d0 ∧ ((l = l0 ∧ d = d0) ∨ (l = now ∧ d = true)) := by
  cases e with
  | new a' l' pid' p' d' =>
    simp only [PStatus.attempt] at h
    cases hv : exp p' with
    | none =>
      simp only [hv] at h
      cases h
      exact ⟨l', d', rfl, .inr ⟨rfl, rfl⟩⟩
    | some v =>
      simp only [hv] at h
      split at h <;> cases h
      · exact ⟨_, _, rfl, .inl ⟨rfl, rfl⟩⟩
      · exact ⟨_, _, rfl, .inr ⟨rfl, rfl⟩⟩
  | pubrec l' pid' => simp [PStatus.attempt] at h
  | complete => simp [PStatus.attempt] at h

theorem reset_new {e : PStatus P} {a l pid p d} (h : e.reset = .new a l pid p d) :
    l = 0 ∧ ∃ l0, e = .new a l0 pid p d := by
  cases e with
  | new a' l' pid' p' d' => cases h; exact ⟨rfl, l', rfl⟩
  | pubrec l' pid' => cases h
  | complete => cases h

/-- Every waiting message was handed over at its `addedAt`, and has `lastSent = 0` until its first
transmission. -/
theorem exec_new (exp : P → Option Nat) (m n t : Nat) (ops : List (SendOp P)) :
    ∀ a l pid p d, PStatus.new a l pid p d ∈ ((Sender.new m n t).exec exp ops).pending.packets →
      SendOp.deliver a p ∈ ops ∧ (d = false → l = 0) := by
  induction ops using snoc_induction with
  | nil => intro a l pid p d h; simp [Sender.new, Pending.empty, exec_nil] at h
  | snoc ops op ih =>
    intro a l pid p d h
    rw [exec_snoc] at h
    rcases step_entries exp _ op _ h with h | h | ⟨clk, k, _, e, he, h⟩ | ⟨now, pid', _, h⟩ |
      ⟨now, p', h1, h⟩ | ⟨m, _, e, he, h⟩
    · cases h
    · have := ih _ _ _ _ _ h
      exact ⟨by simp [this.1], this.2⟩
    · obtain ⟨l0, d0, rfl, h2⟩ := attempt_new h.symm
      have := ih _ _ _ _ _ he
      refine ⟨by simp [this.1], fun hd => ?_⟩
      rcases h2 with ⟨rfl, rfl⟩ | ⟨_, h3⟩
      · exact this.2 hd
      · rw [h3] at hd; cases hd
    · cases h
    · cases h; exact ⟨by simp [h1], fun _ => rfl⟩
    · obtain ⟨rfl, l0, rfl⟩ := reset_new h.symm
      have := ih _ _ _ _ _ he
      exact ⟨by simp [this.1], fun _ => rfl⟩

/-! ## What is sent -/

theorem attempt_sent {exp : P → Option Nat} {now : Nat} {e : PStatus P} {pid p d x}
    (h : (e.attempt exp now).2.1 = some (.publish pid p d x)) :
    ∃ a l, e = .new a l pid p d ∧ (e.attempt exp now).1 = .new a now pid p true ∧
      (exp p = none → x = none) ∧
      (∀ v, exp p = some v → x = some (v - (now - a) % 2 ^ 32) ∧ (l = 0 → now - a < v)) := by
  cases e with
  | new a' l' pid' p' d' =>
    simp only [PStatus.attempt] at h ⊢
    cases hv : exp p' with
    | none =>
      simp only [hv] at h ⊢
      cases h
      refine ⟨a', l', rfl, rfl, fun _ => rfl, fun v hv' => ?_⟩
      rw [hv] at hv'; cases hv'
    | some v =>
      simp only [hv] at h ⊢
      split at h
      · cases h
      · next hc =>
        rw [if_neg hc]
        cases h
        refine ⟨a', l', rfl, rfl, fun hv' => ?_, fun v' hv' => ?_⟩
        · rw [hv] at hv'; cases hv'
        · rw [hv] at hv'; cases hv'
          exact ⟨rfl, fun hl => by
            rcases Nat.lt_or_ge (now - a') v with h | h
            · exact h
            · exact absurd ⟨hl, h⟩ hc⟩
  | pubrec l' pid' => simp [PStatus.attempt] at h
  | complete => simp [PStatus.attempt] at h

theorem attempt_pubrel {exp : P → Option Nat} {now : Nat} {e : PStatus P} {pid}
    (h : (e.attempt exp now).2.1 = some (.pubrel pid)) : ∃ l, e = .pubrec l pid := by
  cases e with
  | new a' l' pid' p' d' =>
    simp only [PStatus.attempt] at h
    cases hv : exp p' with
    | none => simp [hv] at h
    | some v => simp only [hv] at h; split at h <;> simp at h
  | pubrec l' pid' => simp [PStatus.attempt] at h; subst h; exact ⟨l', rfl⟩
  | complete => simp [PStatus.attempt] at h

theorem handlePendings_sent (exp : P → Option Nat) (clk : Clock) (q : Pending P) :
    (q.handlePendings exp clk).2 = (q.swept exp clk).2.1 := by
  rw [Pending.handlePendings_eq]

theorem sweep_allSent (exp : P → Option Nat) (t : Nat) (clk : Clock) (n cur i : Nat)
    (ps : List (PStatus P)) :
    (allSent (sweep exp t clk n cur i ps).2.1).Sublist (ps.filterMap PStatus.msg?) := by
  induction ps generalizing n cur i with
  | nil => cases n <;> simp [sweep, allSent]
  | cons s ss ih =>
    cases n with
    | zero => simp [sweep, allSent]
    | succ n =>
      rw [sweep]
      split
      · simp only
        rw [allSent_append, List.filterMap_cons]
        cases s with
        | new a l pid p d =>
          simp only [PStatus.msg?, PStatus.attempt]
          cases exp p with
          | none => simp only [Option.toList_some, allSent]; exact (ih _ _ _).cons_cons _
          | some v =>
            simp only
            split
            · simp only [Option.toList_none, allSent, List.nil_append]
              exact (ih _ _ _).trans (List.sublist_cons_self _ _)
            · simp only [Option.toList_some, allSent]; exact (ih _ _ _).cons_cons _
        | pubrec l pid =>
          simp only [PStatus.msg?, PStatus.attempt, Option.toList_some, allSent, List.nil_append]
          exact ih _ _ _
        | complete =>
          simp only [PStatus.msg?, PStatus.attempt, Option.toList_none, allSent, List.nil_append]
          exact ih _ _ _
      · simp only
        rw [List.filterMap_cons]
        split
        · exact ih _ _ _
        · exact (ih _ _ _).trans (List.sublist_cons_self _ _)

theorem pass_allSent (exp : P → Option Nat) (clk : Clock) (s : Sender P) :
    (allSent (s.step exp (.pass clk)).2).Sublist s.msgs := by
  show (allSent (s.pending.handlePendings exp clk).2).Sublist _
  rw [handlePendings_sent]
  have := sweep_allSent exp s.pending.timeout clk s.pending.cleanComplete.window 0 0
    s.pending.cleanComplete.packets
  simp only [Pending.cleanComplete] at this
  rw [filterMap_dropWhile _ rfl] at this
  exact this

theorem step_allSent (exp : P → Option Nat) (s : Sender P) (op : SendOp P) :
    (allSent (s.step exp op).2).Sublist s.msgs := by
  cases op with
  | pass clk => exact pass_allSent exp clk s
  | _ => exact List.nil_sublist _

/-- A message that is not in the queue and is not handed over is not sent. -/
theorem not_sent_of_not_msgs {exp : P → Option Nat} {s : Sender P} {ops : List (SendOp P)} {p : P}
    (h1 : p ∉ s.msgs) (h2 : p ∉ delivered ops) : p ∉ allSent (s.outs exp ops) := by
  induction ops using snoc_induction with
  | nil => simp [outs_nil, allSent]
  | snoc ops op ih =>
    rw [delivered_append, List.mem_append, not_or] at h2
    rw [outs_snoc, allSent_append, List.mem_append, not_or]
    refine ⟨ih h2.1, fun hc => ?_⟩
    have h3 := (step_allSent exp _ op).subset hc
    have h4 := (exec_msgs exp s ops).subset h3
    rw [List.mem_append] at h4
    rcases h4 with h4 | h4
    · exact h1 h4
    · exact h2.1 h4

theorem sent_mem_allSent {pid p d x} {l : List (Sent P)} (h : Sent.publish pid p d x ∈ l) :
    p ∈ allSent l := by
  induction l with
  | nil => cases h
  | cons y l ih =>
    simp only [List.mem_cons] at h
    rcases h with rfl | h
    · simp [allSent]
    · cases y <;> simp [allSent, ih h]

theorem mem_allSent {p} {l : List (Sent P)} (h : p ∈ allSent l) :
    ∃ pid d x, Sent.publish pid p d x ∈ l := by
  induction l with
  | nil => simp [allSent] at h
  | cons y l ih =>
    cases y with
    | publish pid p' d x =>
      simp only [allSent, List.mem_cons] at h
      rcases h with rfl | h
      · exact ⟨pid, d, x, by simp⟩
      · obtain ⟨pid, d, x, h⟩ := ih h; exact ⟨pid, d, x, by simp [h]⟩
    | pubrel pid =>
      simp only [allSent] at h
      obtain ⟨pid, d, x, h⟩ := ih h; exact ⟨pid, d, x, by simp [h]⟩

/-- What a pass sends, seen from the queue before it. -/
theorem pass_sent {exp : P → Option Nat} {clk : Clock} {s : Sender P} {pid p d x}
    (h : Sent.publish pid p d x ∈ (s.step exp (.pass clk)).2) :
    ∃ a l k, PStatus.new a l pid p d ∈ s.pending.packets ∧
      (exp p = none → x = none) ∧
      (∀ v, exp p = some v → x = some (v - (clk.sent k - a) % 2 ^ 32) ∧
        (l = 0 → clk.sent k - a < v)) ∧
      ∃ j, s.pending.timeout + l ≤ clk.ready j := by
  have h : Sent.publish pid p d x ∈ (s.pending.handlePendings exp clk).2 := h
  rw [handlePendings_sent] at h
  obtain ⟨e, he, j, k, hr, ha, _⟩ := sweep_sent _ _ _ _ _ _ _ _ h
  obtain ⟨a, l, rfl, _, h1, h2⟩ := attempt_sent ha
  refine ⟨a, l, k, (List.dropWhile_sublist _).subset (List.mem_of_mem_take he), h1, h2, j, ?_⟩
  simpa [PStatus.ready] using hr

theorem pass_pubrel {exp : P → Option Nat} {clk : Clock} {s : Sender P} {pid}
    (h : Sent.pubrel pid ∈ (s.step exp (.pass clk)).2) :
    ∃ l, PStatus.pubrec l pid ∈ s.pending.packets := by
  have h : Sent.pubrel pid ∈ (s.pending.handlePendings exp clk).2 := h
  rw [handlePendings_sent] at h
  obtain ⟨e, he, j, k, hr, ha, _⟩ := sweep_sent _ _ _ _ _ _ _ _ h
  obtain ⟨l, rfl⟩ := attempt_pubrel ha
  exact ⟨l, (List.dropWhile_sublist _).subset (List.mem_of_mem_take he)⟩

/-! ## DUP -/

theorem msg_unique {ps : List (PStatus P)} (h : (ps.filterMap PStatus.msg?).Nodup)
    {a l pid p d a' l' pid' d'} (h1 : PStatus.new a l pid p d ∈ ps)
    (h2 : PStatus.new a' l' pid' p d' ∈ ps) :
    a = a' ∧ l = l' ∧ pid = pid' ∧ d = d' := by
  induction ps with
  | nil => cases h1
  | cons s ss ih =>
    have key : ∀ {a l pid p d}, PStatus.new a l pid p d ∈ ss → p ∈ ss.filterMap PStatus.msg? :=
      fun h => List.mem_filterMap.mpr ⟨_, h, rfl⟩
    simp only [List.mem_cons] at h1 h2
    rcases h1 with h1 | h1
    · subst h1
      simp only [List.filterMap_cons, PStatus.msg?, List.nodup_cons] at h
      rcases h2 with h2 | h2
      · cases h2; exact ⟨rfl, rfl, rfl, rfl⟩
      · exact absurd (key h2) h.1
    · rcases h2 with h2 | h2
      · subst h2
        simp only [List.filterMap_cons, PStatus.msg?, List.nodup_cons] at h
        exact absurd (key h1) h.1
      · refine ih ?_ h1 h2
        rw [List.filterMap_cons] at h
        split at h
        · exact h
        · exact (List.nodup_cons.mp h).2

theorem sweep_dup (exp : P → Option Nat) (t : Nat) (clk : Clock) (n cur i : Nat)
    (ps : List (PStatus P)) (hnd : (ps.filterMap PStatus.msg?).Nodup) :
    ∀ a l pid p d', PStatus.new a l pid p d' ∈ (sweep exp t clk n cur i ps).1 →
      ∃ l0 d, PStatus.new a l0 pid p d ∈ ps ∧
        ((p ∈ allSent (sweep exp t clk n cur i ps).2.1 ∧ d' = true) ∨
         (p ∉ allSent (sweep exp t clk n cur i ps).2.1 ∧ d' = d)) := by
  induction ps generalizing n cur i with
  | nil => cases n <;> simp [sweep]
  | cons s ss ih =>
    cases n with
    | zero =>
      intro a l pid p d' h
      exact ⟨l, d', h, .inr ⟨by simp [sweep, allSent], rfl⟩⟩
    | succ n =>
      have hnd' : (ss.filterMap PStatus.msg?).Nodup := by
        rw [List.filterMap_cons] at hnd
        split at hnd
        · exact hnd
        · exact (List.nodup_cons.mp hnd).2
      have hhead : ∀ a l pid p d, s = .new a l pid p d → p ∉ ss.filterMap PStatus.msg? := by
        intro a l pid p d hs
        subst hs
        simp only [List.filterMap_cons, PStatus.msg?, List.nodup_cons] at hnd
        exact hnd.1
      intro a l pid p d' h
      rw [sweep] at h ⊢
      split at h
      · next hr =>
        rw [if_pos hr]
        simp only [List.mem_cons] at h
        simp only [allSent_append, List.mem_append]
        rcases h with h | h
        · obtain ⟨l0, d0, rfl, h2⟩ := attempt_new h.symm
          refine ⟨l0, d0, by simp, ?_⟩
          have hno : p ∉ allSent (sweep exp t clk n (i + 1) (i + 1) ss).2.1 := fun hc =>
            hhead _ _ _ _ _ rfl ((sweep_allSent _ _ _ _ _ _ _).subset hc)
          simp only [PStatus.attempt] at h ⊢
          cases hv : exp p with
          | none =>
            simp only [hv] at h ⊢
            cases h
            exact .inl ⟨.inl (by simp [allSent]), rfl⟩
          | some v =>
            simp only [hv] at h ⊢
            split at h
            · next hc =>
              rw [if_pos hc]
              cases h
              exact .inr ⟨by simp [allSent, hno], rfl⟩
            · next hc =>
              rw [if_neg hc]
              cases h
              exact .inl ⟨.inl (by simp [allSent]), rfl⟩
        · obtain ⟨l0, d, h1, h2⟩ := ih _ _ _ hnd' a l pid p d' h
          refine ⟨l0, d, by simp [h1], ?_⟩
          have hno : p ∉ allSent (s.attempt exp (clk.sent i)).2.1.toList := by
            intro hc
            obtain ⟨pid', d', x, hc⟩ := mem_allSent hc
            rw [Option.mem_toList] at hc
            obtain ⟨a', l', hs, _⟩ := attempt_sent hc
            exact hhead _ _ _ _ _ hs (List.mem_filterMap.mpr ⟨_, h1, rfl⟩)
          rcases h2 with ⟨h2, h3⟩ | ⟨h2, h3⟩
          · exact .inl ⟨.inr h2, h3⟩
          · exact .inr ⟨by simp [hno, h2], h3⟩
      · next hr =>
        rw [if_neg hr]
        simp only [List.mem_cons] at h ⊢
        rcases h with rfl | h
        · refine ⟨l, d', .inl rfl, .inr ⟨fun hc => ?_, rfl⟩⟩
          exact hhead _ _ _ _ _ rfl ((sweep_allSent _ _ _ _ _ _ _).subset hc)
        · obtain ⟨l0, d, h1, h2⟩ := ih _ _ _ hnd' a l pid p d' h
          exact ⟨l0, d, .inr h1, h2⟩

/-- The invariant behind C11. -/
structure DupInv (s : Sender P) (outs : List (Sent P)) : Prop where
  ok : DupOK outs
  queue : ∀ a l pid p d, PStatus.new a l pid p d ∈ s.pending.packets →
    (d = true ↔ p ∈ allSent outs) ∧ ∀ pid' d' x', Sent.publish pid' p d' x' ∈ outs → pid' = pid

theorem DupOK.append {l o : List (Sent P)} (h : DupOK l) (hn : (allSent o).Nodup)
    (ho : ∀ pid p d x, Sent.publish pid p d x ∈ o →
      (d = true ↔ p ∈ allSent l) ∧ ∀ pid' d' x', Sent.publish pid' p d' x' ∈ l → pid' = pid) :
    DupOK (l ++ o) := by
  intro l1 pid p d x l2 hs
  rw [List.append_eq_append_iff] at hs
  rcases hs with ⟨a, h1, h2⟩ | ⟨c, h1, h2⟩
  · -- the packet is in `o`
    have hm : Sent.publish pid p d x ∈ o := by rw [h2]; simp
    have hno : p ∉ allSent a := by
      rw [h2, allSent_append] at hn
      simp only [allSent] at hn
      rw [List.nodup_append] at hn
      exact fun hc => hn.2.2 p hc p (by simp) rfl
    subst h1
    refine ⟨?_, ?_⟩
    · rw [allSent_append, List.mem_append]
      simp [hno, (ho _ _ _ _ hm).1]
    · intro pid' d' x' hx
      rw [List.mem_append] at hx
      rcases hx with hx | hx
      · exact (ho _ _ _ _ hm).2 _ _ _ hx
      · exact absurd (sent_mem_allSent hx) hno
  · cases c with
    | nil =>
      simp only [List.nil_append, List.append_nil] at h1 h2
      subst h1
      have hm : Sent.publish pid p d x ∈ o := by rw [← h2]; simp
      exact ho _ _ _ _ hm
    | cons y c =>
      simp only [List.cons_append, List.cons.injEq] at h2
      obtain ⟨rfl, rfl⟩ := h2
      exact h _ _ _ _ _ _ h1

theorem exec_dupInv (exp : P → Option Nat) (m n t : Nat) (ops : List (SendOp P))
    (hnd : (delivered ops).Nodup) :
    DupInv ((Sender.new m n t).exec exp ops) ((Sender.new m n t).outs exp ops) := by
  induction ops using snoc_induction with
  | nil =>
    refine ⟨?_, ?_⟩
    · intro l1 pid p d x l2 h
      cases l1 <;> simp [outs_nil] at h
    · intro a l pid p d h; simp [Sender.new, Pending.empty, exec_nil] at h
  | snoc ops op ih =>
    rw [delivered_append] at hnd
    have hnd0 := (List.nodup_append.mp hnd).1
    have ih := ih hnd0
    have hmsgs : ((Sender.new m n t : Sender P).exec exp ops).msgs.Sublist (delivered ops) := by
      have := exec_msgs exp (Sender.new m n t : Sender P) ops
      simpa [Sender.new, Pending.empty, Sender.msgs] using this
    have hmn := hmsgs.nodup hnd0
    rw [exec_snoc, outs_snoc]
    cases op with
    | deliver now p =>
      refine ⟨by simpa [Sender.step] using ih.ok, ?_⟩
      intro a l pid p' d h
      simp only [Sender.step, List.append_nil]
      rcases step_entries exp _ _ _ h with h | h | ⟨clk, k, h', _⟩ | ⟨now, pid', h', _⟩ |
        ⟨now, p', h1, h⟩ | ⟨m, h', _⟩
      · cases h
      · exact ih.queue _ _ _ _ _ h
      · cases h'
      · cases h'
      · cases h1; cases h
        have hno : p ∉ allSent ((Sender.new m n t).outs exp ops) := by
          apply not_sent_of_not_msgs
          · simp [Sender.new, Pending.empty, Sender.msgs]
          · intro hc
            exact (List.nodup_append.mp hnd).2.2 p hc p (by simp [delivered]) rfl
        refine ⟨by simp [hno], ?_⟩
        intro pid' d' x' hx
        exact absurd (sent_mem_allSent hx) hno
      · cases h'
    | pass clk =>
      refine ⟨?_, ?_⟩
      · apply ih.ok.append ((pass_allSent exp clk _).nodup hmn)
        intro pid p d x hx
        obtain ⟨a, l, k, h1, _⟩ := pass_sent hx
        exact ih.queue _ _ _ _ _ h1
      · intro a l pid p d' h
        have h : PStatus.new a l pid p d' ∈
          (((Sender.new m n t).exec exp ops).pending.handlePendings exp clk).1.packets := h
        rcases mem_handlePendings h with h | h
        · cases h
        · obtain ⟨l0, d, h1, h2⟩ := sweep_dup _ _ _ _ _ _ _
            (by simp only [Pending.cleanComplete]; rw [filterMap_dropWhile _ rfl]; exact hmn)
            a l pid p d' h
          have h1 := (List.dropWhile_sublist _).subset h1
          have hq := ih.queue _ _ _ _ _ h1
          have hsent : (((Sender.new m n t).exec exp ops).step exp (.pass clk)).2 =
              (((Sender.new m n t).exec exp ops).pending.swept exp clk).2.1 :=
            handlePendings_sent _ _ _
          rw [hsent]
          refine ⟨?_, ?_⟩
          · rw [allSent_append, List.mem_append]
            rcases h2 with ⟨h2, rfl⟩ | ⟨h2, rfl⟩
            · simp only [true_iff]; exact .inr h2
            · rw [hq.1]
              constructor
              · exact .inl
              · rintro (h3 | h3)
                · exact h3
                · exact absurd h3 h2
          · intro pid' d' x' hx
            rw [List.mem_append] at hx
            rcases hx with hx | hx
            · exact hq.2 _ _ _ hx
            · rw [← hsent] at hx
              obtain ⟨a', l', k, h3, _⟩ := pass_sent hx
              exact (msg_unique hmn h3 h1).2.2.1
    | puback pid =>
      refine ⟨by simpa [Sender.step] using ih.ok, ?_⟩
      intro a l pid p' d h
      simp only [Sender.step, List.append_nil]
      rcases mem_complete_new (qos := 1) h with h | h
      · cases h
      · exact ih.queue _ _ _ _ _ h
    | pubcomp pid =>
      refine ⟨by simpa [Sender.step] using ih.ok, ?_⟩
      intro a l pid p' d h
      simp only [Sender.step, List.append_nil]
      rcases mem_complete_new (qos := 2) h with h | h
      · cases h
      · exact ih.queue _ _ _ _ _ h
    | pubrec now pid =>
      have ha : allSent ((Sender.new m n t).outs exp ops ++ [Sent.pubrel pid]) =
          allSent ((Sender.new m n t).outs exp ops) := by simp [allSent_append, allSent]
      refine ⟨?_, ?_⟩
      · apply ih.ok.append
        · simp [Sender.step, allSent]
        · intro pid' p d x hx; simp [Sender.step] at hx
      · intro a l pid' p' d h
        simp only [Sender.step]
        rw [ha]
        rcases step_entries exp _ _ _ h with h | h | ⟨clk, k, h', _⟩ | ⟨now, pid', h', h⟩ |
          ⟨now, p', h', _⟩ | ⟨m, h', _⟩
        · cases h
        · refine ⟨(ih.queue _ _ _ _ _ h).1, ?_⟩
          intro pid' d' x' hx
          simp only [List.mem_append, List.mem_singleton] at hx
          rcases hx with hx | hx
          · exact (ih.queue _ _ _ _ _ h).2 _ _ _ hx
          · cases hx
        · cases h'
        · cases h
        · cases h'
        · cases h'
    | reconnect m' =>
      refine ⟨by simpa [Sender.step] using ih.ok, ?_⟩
      intro a l pid p' d h
      simp only [Sender.step, List.append_nil]
      rw [reconnect_packets] at h
      obtain ⟨e, he, h⟩ := List.mem_map.mp h
      obtain ⟨rfl, l0, rfl⟩ := reset_new h
      exact ih.queue _ _ _ _ _ he

end Akasa

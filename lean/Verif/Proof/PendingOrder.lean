import Verif.Proof.PendingInv
/-!
# Order of first transmissions and the receive maximum
-/
namespace Akasa

variable {P : Type}

/-! ## Order -/

/-- A message that has not been transmitted. -/
def PStatus.fresh? : PStatus P → Option P
  | .new _ _ _ p false => some p
  | _ => none

/-- The same, without the messages whose identifier is in `E`. -/
def PStatus.freshNot? (E : List Pid) : PStatus P → Option P
  | .new _ _ pid p false => if pid ∈ E then none else some p
  | _ => none

theorem sweep_not_ready {exp : P → Option Nat} {t : Nat} {clk : Clock} {cur : Nat}
    (h : clk.ready cur < t) (n i : Nat) (ps : List (PStatus P)) :
    sweep exp t clk n cur i ps = (ps, [], []) := by
  induction ps generalizing n i with
  | nil => cases n <;> rfl
  | cons s ss ih =>
    cases n with
    | zero => rfl
    | succ n =>
      have hr : s.ready t (clk.ready cur) = false := by
        cases s with
        | new a l pid p d => simp [PStatus.ready]; omega
        | pubrec l pid => simp [PStatus.ready]; omega
        | complete => rfl
      rw [sweep, hr, ih]
      simp

theorem freshNot_sublist (E : List Pid) (ps : List (PStatus P)) :
    (ps.filterMap (PStatus.freshNot? E)).Sublist (ps.filterMap PStatus.fresh?) := by
  induction ps with
  | nil => simp
  | cons s ss ih =>
    rw [List.filterMap_cons, List.filterMap_cons]
    cases s with
    | new a l pid p d =>
      cases d with
      | false =>
        simp only [PStatus.freshNot?, PStatus.fresh?]
        split
        · next h => exact ih.trans (List.sublist_cons_self _ _)
        · next h =>
          split at h
          · cases h
          · cases h; exact ih.cons_cons _
      | true => exact ih
    | pubrec l pid => exact ih
    | complete => exact ih

theorem sweep_fresh (exp : P → Option Nat) (t : Nat) (clk : Clock) (E : List Pid) (n cur i : Nat)
    (ps : List (PStatus P)) (hz : ∀ a l pid p, PStatus.new a l pid p false ∈ ps → l = 0)
    (hE : ∀ pid ∈ (sweep exp t clk n cur i ps).2.2, pid ∈ E) :
    (firstSent (sweep exp t clk n cur i ps).2.1 ++
      (sweep exp t clk n cur i ps).1.filterMap (PStatus.freshNot? E)).Sublist
      (ps.filterMap PStatus.fresh?) := by
  induction ps generalizing n cur i with
  | nil => cases n <;> simp [sweep, firstSent]
  | cons s ss ih =>
    cases n with
    | zero => simp only [sweep, firstSent, List.nil_append]; exact freshNot_sublist _ _
    | succ n =>
      have hz' : ∀ a l pid p, PStatus.new a l pid p false ∈ ss → l = 0 :=
        fun a l pid p h => hz a l pid p (by simp [h])
      by_cases hr : s.ready t (clk.ready cur) = true
      · rw [sweep, if_pos hr] at hE ⊢
        have hE' : ∀ pid ∈ (sweep exp t clk n (i + 1) (i + 1) ss).2.2, pid ∈ E :=
          fun pid hp => hE pid (List.mem_append.mpr (.inr hp))
        have hE0 : ∀ pid, (s.attempt exp (clk.sent i)).2.2 = some pid → pid ∈ E :=
          fun pid hp => hE pid (List.mem_append.mpr (.inl (by simp [hp])))
        have IH := ih n (i + 1) (i + 1) hz' hE'
        simp only
        rw [firstSent_append, List.filterMap_cons, List.filterMap_cons]
        cases s with
        | new a l pid p d =>
          simp only [PStatus.attempt] at hE0 ⊢
          cases hv : exp p with
          | none =>
            cases d with
            | false =>
              simp only [Option.toList_some, firstSent, PStatus.freshNot?, PStatus.fresh?]
              exact IH.cons_cons _
            | true =>
              simp only [Option.toList_some, firstSent, PStatus.freshNot?, PStatus.fresh?]
              exact IH
          | some v =>
            simp only [hv] at hE0 ⊢
            split
            · next hc =>
              simp only [hc, and_self, if_true, Option.some.injEq, forall_eq'] at hE0
              have hE0 := hE0
              cases d with
              | false =>
                simp only [Option.toList_none, firstSent, PStatus.freshNot?, PStatus.fresh?, hE0,
                  if_true, List.nil_append]
                exact IH.trans (List.sublist_cons_self _ _)
              | true =>
                simp only [Option.toList_none, firstSent, PStatus.freshNot?, PStatus.fresh?,
                  List.nil_append]
                exact IH
            · next hc =>
              cases d with
              | false =>
                simp only [Option.toList_some, firstSent, PStatus.freshNot?, PStatus.fresh?]
                exact IH.cons_cons _
              | true =>
                simp only [Option.toList_some, firstSent, PStatus.freshNot?, PStatus.fresh?]
                exact IH
        | pubrec l pid =>
          simp only [PStatus.attempt, Option.toList_some, firstSent, PStatus.freshNot?,
            PStatus.fresh?, List.nil_append]
          exact IH
        | complete =>
          simp only [PStatus.attempt, Option.toList_none, firstSent, PStatus.freshNot?,
            PStatus.fresh?, List.nil_append]
          exact IH
      · by_cases hf : ∃ a l pid p, s = .new a l pid p false
        · obtain ⟨a, l, pid, p, rfl⟩ := hf
          have hl := hz a l pid p (by simp)
          subst hl
          have hlt : clk.ready cur < t := by
            simp [PStatus.ready] at hr; omega
          rw [sweep_not_ready hlt]
          simp only [firstSent, List.nil_append]
          exact freshNot_sublist _ _
        · rw [sweep, if_neg hr] at hE ⊢
          have IH := ih n cur (i + 1) hz' hE
          simp only
          rw [List.filterMap_cons, List.filterMap_cons]
          have h1 : PStatus.freshNot? E s = none := by
            cases s with
            | new a l pid p d =>
              cases d with
              | false => exact absurd ⟨a, l, pid, p, rfl⟩ hf
              | true => rfl
            | pubrec l pid => rfl
            | complete => rfl
          have h2 : PStatus.fresh? s = none := by
            cases s with
            | new a l pid p d =>
              cases d with
              | false => exact absurd ⟨a, l, pid, p, rfl⟩ hf
              | true => rfl
            | pubrec l pid => rfl
            | complete => rfl
          rw [h1, h2]
          exact IH

theorem freshNot_kill (E : List Pid) (pid : Pid) (ps : List (PStatus P)) :
    (ps.map (PStatus.kill pid)).filterMap (PStatus.freshNot? E) =
      ps.filterMap (PStatus.freshNot? (pid :: E)) := by
  rw [List.filterMap_map]
  congr 1
  funext s
  cases s with
  | new a l pid' p d =>
    by_cases h : pid' = pid
    · cases d <;> simp [PStatus.kill, PStatus.freshNot?, h]
    · cases d <;> simp [PStatus.kill, PStatus.freshNot?, h]
  | pubrec l pid' => rfl
  | complete => rfl

theorem fresh_killAll (pids E : List Pid) (ps : List (PStatus P)) :
    (pids.foldl (fun ps pid => ps.map (PStatus.kill pid)) ps).filterMap (PStatus.freshNot? E) =
      ps.filterMap (PStatus.freshNot? (pids ++ E)) := by
  induction pids generalizing ps with
  | nil => rfl
  | cons pid pids ih =>
    rw [List.foldl_cons, ih, freshNot_kill, List.cons_append]

theorem freshNot_nil (ps : List (PStatus P)) :
    ps.filterMap (PStatus.freshNot? []) = ps.filterMap PStatus.fresh? := by
  have : (PStatus.freshNot? [] : PStatus P → Option P) = PStatus.fresh? := by
    funext s
    cases s with
    | new a l pid' p d => cases d <;> simp [PStatus.freshNot?, PStatus.fresh?]
    | _ => rfl
  rw [this]

theorem handlePendings_fresh {exp : P → Option Nat} {clk : Clock} {q : Pending P}
    (hz : ∀ a l pid p, PStatus.new a l pid p false ∈ q.packets → l = 0)
    (hx : (∀ p, exp p = none) ∨ (q.packets.filterMap PStatus.pid?).Nodup) :
    (firstSent (q.handlePendings exp clk).2 ++
      (q.handlePendings exp clk).1.packets.filterMap PStatus.fresh?).Sublist
      (q.packets.filterMap PStatus.fresh?) := by
  have hs := sweep_fresh exp q.timeout clk (q.swept exp clk).2.2 q.cleanComplete.window 0 0
    q.cleanComplete.packets
    (fun a l pid p h => hz a l pid p ((List.dropWhile_sublist _).subset h)) (fun _ h => h)
  have hf : q.cleanComplete.packets.filterMap PStatus.fresh? = q.packets.filterMap PStatus.fresh? :=
    filterMap_dropWhile _ rfl _
  rw [hf] at hs
  have ha : (q.afterSweep exp clk).packets.filterMap PStatus.fresh? =
      (q.swept exp clk).1.filterMap (PStatus.freshNot? (q.swept exp clk).2.2) := by
    rcases hx with hx | hx
    · rw [afterSweep_v3 hx]
      have : (q.swept exp clk).2.2 = [] := sweep_expired_v3 hx _ _ _ _ _ _
      rw [this, freshNot_nil]
    · rw [afterSweep_kill hx, ← freshNot_nil, fresh_killAll, List.append_nil]
  have hb : (q.handlePendings exp clk).1.packets.filterMap PStatus.fresh? =
      (q.afterSweep exp clk).packets.filterMap PStatus.fresh? := by
    rw [Pending.handlePendings_eq]
    simp only
    split
    · rfl
    · exact filterMap_dropWhile _ rfl _
  rw [hb, ha, handlePendings_sent]
  exact hs

theorem exec_firstSent (exp : P → Option Nat) (m n t : Nat) (ops : List (SendOp P))
    (hx : (∀ p, exp p = none) ∨ DistinctPids exp (Sender.new m n t) ops) :
    (firstSent ((Sender.new m n t).outs exp ops) ++
      ((Sender.new m n t).exec exp ops).pending.packets.filterMap PStatus.fresh?).Sublist
      (delivered ops) := by
  induction ops using snoc_induction with
  | nil => simp [outs_nil, firstSent, exec_nil, Sender.new, Pending.empty]
  | snoc ops op ih =>
    have hx0 : (∀ p, exp p = none) ∨ DistinctPids exp (Sender.new m n t) ops := by
      rcases hx with hx | hx
      · exact .inl hx
      · exact .inr fun pre hp => hx pre (hp.trans (List.prefix_append _ _))
    have ih := ih hx0
    have hz := exec_new exp m n t ops
    have hpid : (∀ p, exp p = none) ∨ ((Sender.new m n t : Sender P).exec exp ops).pids.Nodup := by
      rcases hx with hx | hx
      · exact .inl hx
      · exact .inr (hx ops (List.prefix_append _ _))
    rw [exec_snoc, outs_snoc, delivered_append, firstSent_append]
    cases op with
    | deliver now p =>
      simp only [delivered]
      show (firstSent _ ++ firstSent [] ++ ((_ : Pending P).pushBack now _ p).1.packets.filterMap
        PStatus.fresh?).Sublist _
      simp only [firstSent, List.append_nil]
      unfold Pending.pushBack
      split
      · simp only [Pending.cleanComplete]
        rw [filterMap_dropWhile _ rfl]
        exact ih.trans (List.sublist_append_left _ _)
      · simp only [Pending.cleanComplete]
        rw [List.filterMap_append, filterMap_dropWhile _ rfl, ← List.append_assoc]
        exact List.Sublist.append ih (List.Sublist.refl _)
    | pass clk =>
      simp only [delivered, List.append_nil]
      rw [List.append_assoc]
      refine List.Sublist.trans (List.Sublist.append (List.Sublist.refl _) ?_) ih
      exact handlePendings_fresh (fun a l pid p h => (hz a l pid p false h).2 rfl) hpid
    | puback pid =>
      have h0 : firstSent (((Sender.new m n t).exec exp ops).step exp (.puback pid)).2 = [] := rfl
      simp only [delivered, List.append_nil, h0]
      refine List.Sublist.trans (List.Sublist.append (List.Sublist.refl _) ?_) ih
      exact complete_filterMap_sublist _ rfl _ _ _
    | pubcomp pid =>
      have h0 : firstSent (((Sender.new m n t).exec exp ops).step exp (.pubcomp pid)).2 = [] := rfl
      simp only [delivered, List.append_nil, h0]
      refine List.Sublist.trans (List.Sublist.append (List.Sublist.refl _) ?_) ih
      exact complete_filterMap_sublist _ rfl _ _ _
    | pubrec now pid =>
      have h0 : firstSent (((Sender.new m n t).exec exp ops).step exp (.pubrec now pid)).2 = [] := rfl
      simp only [delivered, List.append_nil, h0]
      refine List.Sublist.trans (List.Sublist.append (List.Sublist.refl _) ?_) ih
      show ((_ : Pending P).pubrec now pid).1.packets.filterMap _ |>.Sublist _
      unfold Pending.pubrec
      split
      · next h =>
        exact updFirst_filterMap_sublist _ (fun s s' hs => by rw [(pubrecStatus_some hs).1]; rfl) h
      · exact List.Sublist.refl _
    | reconnect m' =>
      have h0 : firstSent (((Sender.new m n t).exec exp ops).step exp (.reconnect m')).2 = [] := rfl
      simp only [delivered, List.append_nil, h0]
      rw [reconnect_packets, filterMap_map_eq _ _ (by
        intro s
        cases s with
        | new a l pid p d => cases d <;> rfl
        | _ => rfl)]
      exact ih

/-! ## Receive maximum -/

/-- The entry holds identifier `pid`; with `z`, it has been sent on this connection. -/
def Flying (z : Bool) (pid : Pid) (e : PStatus P) : Prop :=
  e.pid? = some pid ∧ (z = true → ∀ a p d, e ≠ .new a 0 pid p d)

theorem updFirst_mem_take {f : PStatus P → Option (PStatus P)} {n m : Nat}
    {ps ps' : List (PStatus P)} (h : updFirst f n ps = some ps') {e : PStatus P}
    (he : e ∈ ps.take m) : e ∈ ps'.take m ∨ ∃ e', f e = some e' ∧ e' ∈ ps'.take m := by
  induction ps generalizing n m ps' with
  | nil => simp at he
  | cons s ss ih =>
    cases n with
    | zero => simp [updFirst] at h
    | succ n =>
      cases m with
      | zero => simp at he
      | succ m =>
        rw [updFirst] at h
        simp only [List.take_succ_cons, List.mem_cons] at he
        split at h
        · next s' hs =>
          cases h
          rcases he with rfl | he
          · exact .inr ⟨s', hs, by simp⟩
          · exact .inl (by simp [he])
        · next hs =>
          simp only [Option.map_eq_some_iff] at h
          obtain ⟨r, hr, rfl⟩ := h
          rcases he with rfl | he
          · exact .inl (by simp)
          · rcases ih hr he with h | ⟨e', h1, h2⟩
            · exact .inl (by simp [h])
            · exact .inr ⟨e', h1, by simp [h2]⟩

theorem complete_mem_take {q : Pending P} {target : Pid} {qos : QoS} {m : Nat} {e : PStatus P}
    (he : e ∈ q.packets.take m) (h : completeStatus target qos e = none) :
    e ∈ (q.complete target qos).1.packets.take m := by
  unfold Pending.complete
  split
  · next hu =>
    rcases updFirst_mem_take hu he with h' | ⟨e', h1, _⟩
    · exact h'
    · rw [h] at h1; cases h1
  · exact he

theorem completeAll_mem_take {pids : List Pid} {q : Pending P} {m : Nat} {e : PStatus P}
    (he : e ∈ q.packets.take m) (h : ∀ pid ∈ pids, completeStatus pid 1 e = none) :
    e ∈ (q.completeAll pids).packets.take m := by
  induction pids generalizing q with
  | nil => exact he
  | cons pid pids ih =>
    exact ih (q := (q.complete pid 1).1) (complete_mem_take he (h pid (by simp)))
      (fun x hx => h x (by simp [hx]))

theorem pid_unique {ps : List (PStatus P)} (h : (ps.filterMap PStatus.pid?).Nodup)
    {e e' : PStatus P} {pid : Pid} (h1 : e ∈ ps) (h2 : e' ∈ ps) (p1 : e.pid? = some pid)
    (p2 : e'.pid? = some pid) : e = e' := by
  induction ps with
  | nil => cases h1
  | cons s ss ih =>
    have key : ∀ {x : PStatus P}, x ∈ ss → x.pid? = some pid → pid ∈ ss.filterMap PStatus.pid? :=
      fun h hp => List.mem_filterMap.mpr ⟨_, h, hp⟩
    simp only [List.mem_cons] at h1 h2
    rcases h1 with rfl | h1
    · rcases h2 with rfl | h2
      · rfl
      · rw [List.filterMap_cons, p1] at h
        exact absurd (key h2 p2) (List.nodup_cons.mp h).1
    · rcases h2 with rfl | h2
      · rw [List.filterMap_cons, p2] at h
        exact absurd (key h1 p1) (List.nodup_cons.mp h).1
      · refine ih ?_ h1 h2
        rw [List.filterMap_cons] at h
        split at h
        · exact h
        · exact (List.nodup_cons.mp h).2

theorem sweep_keeps_take (exp : P → Option Nat) (t : Nat) (clk : Clock) (n cur i m : Nat)
    (ps : List (PStatus P)) :
    ∀ e ∈ ps.take m, ∃ e' ∈ (sweep exp t clk n cur i ps).1.take m,
      e' = e ∨ ∃ k, e' = (e.attempt exp (clk.sent k)).1 := by
  induction ps generalizing n cur i m with
  | nil => simp
  | cons s ss ih =>
    cases n with
    | zero => intro e he; exact ⟨e, he, .inl rfl⟩
    | succ n =>
      cases m with
      | zero => simp
      | succ m =>
        intro e he
        rw [sweep]
        simp only [List.take_succ_cons, List.mem_cons] at he
        split
        · simp only [List.take_succ_cons, List.mem_cons]
          rcases he with rfl | he
          · exact ⟨_, .inl rfl, .inr ⟨i, rfl⟩⟩
          · obtain ⟨e', h1, h2⟩ := ih n (i+1) (i+1) m e he
            exact ⟨e', .inr h1, h2⟩
        · simp only [List.take_succ_cons, List.mem_cons]
          rcases he with rfl | he
          · exact ⟨e, .inl rfl, .inl rfl⟩
          · obtain ⟨e', h1, h2⟩ := ih n cur (i+1) m e he
            exact ⟨e', .inr h1, h2⟩

theorem Flying.attempt {exp : P → Option Nat} {z : Bool} {pid : Pid} {e : PStatus P} {now : Nat}
    (h : Flying z pid e) (hn : z = true → 0 < now) : Flying z pid (e.attempt exp now).1 := by
  refine ⟨by rw [attempt_pid]; exact h.1, fun hz a p d hc => ?_⟩
  obtain ⟨l0, d0, rfl, h2⟩ := attempt_new hc
  rcases h2 with ⟨rfl, rfl⟩ | ⟨h2, _⟩
  · exact h.2 hz _ _ _ rfl
  · have := hn hz; omega

/-- A flying entry survives the completion of the expired ones. -/
theorem flying_pass {exp : P → Option Nat} {clk : Clock} {q : Pending P} {z : Bool} {pid : Pid}
    {e : PStatus P} (he : e ∈ (q.swept exp clk).1.take q.maxInflight) (hf : Flying z pid e)
    (hx : (∀ p, exp p = none) ∨ (z = true ∧ (q.packets.filterMap PStatus.pid?).Nodup)) :
    e ∈ (q.handlePendings exp clk).1.packets.take q.maxInflight := by
  have hne : e ≠ .complete := by intro hc; rw [hc] at hf; cases hf.1
  have h1 : e ∈ (q.afterSweep exp clk).packets.take q.maxInflight := by
    rcases hx with hx | ⟨hz, hnd⟩
    · rw [afterSweep_v3 hx]; exact he
    · apply completeAll_mem_take (q := { q with packets := (q.swept exp clk).1 }) he
      intro pid' hp
      cases hcs : completeStatus pid' 1 e with
      | none => rfl
      | some e' =>
        exfalso
        have h2 := (completeStatus_some hcs).2
        obtain ⟨a, p, d, v, k, _, _, _, h4⟩ := sweep_expired _ _ _ _ _ _ _ pid' hp
        have h3 := pid_unique (by rw [swept_pids]; exact hnd) (List.mem_of_mem_take he)
          (List.mem_of_mem_take h4) h2 rfl
        have h5 : pid' = pid := by have := hf.1; rw [h2] at this; cases this; rfl
        subst h5
        exact hf.2 hz a p d h3
  rw [Pending.handlePendings_eq]
  simp only
  split
  · exact h1
  · exact mem_take_dropWhile hne h1

theorem mem_outstandingSent {l : List Pid} {o : List (Sent P)} {pid : Pid}
    (h : pid ∈ outstandingSent l o) : pid ∈ l ∨ ∃ p d x, Sent.publish pid p d x ∈ o := by
  induction o generalizing l with
  | nil => exact .inl h
  | cons y o ih =>
    cases y with
    | publish pid' p d x =>
      rw [outstandingSent] at h
      rcases ih h with h | ⟨p, d, x, h⟩
      · split at h
        · exact .inl h
        · simp only [List.mem_cons] at h
          rcases h with rfl | h
          · exact .inr ⟨p, d, x, by simp⟩
          · exact .inl h
      · exact .inr ⟨p, d, x, by simp [h]⟩
    | pubrel pid' =>
      rw [outstandingSent] at h
      rcases ih h with h | ⟨p, d, x, h⟩
      · exact .inl h
      · exact .inr ⟨p, d, x, by simp [h]⟩

theorem outstandingSent_nodup {l : List Pid} (o : List (Sent P)) (h : l.Nodup) :
    (outstandingSent l o).Nodup := by
  induction o generalizing l with
  | nil => exact h
  | cons y o ih =>
    cases y with
    | publish pid' p d x =>
      rw [outstandingSent]
      apply ih
      split
      · exact h
      · next hn => exact List.nodup_cons.mpr ⟨hn, h⟩
    | pubrel pid' => rw [outstandingSent]; exact ih h

theorem outstanding_append (l : List Pid) (a b : List (SendOp P × List (Sent P))) :
    outstanding l (a ++ b) = outstanding (outstanding l a) b := by
  induction a generalizing l with
  | nil => rfl
  | cons x a ih =>
    obtain ⟨op, o⟩ := x
    cases op <;> simp only [List.cons_append, outstanding, ih]

theorem exec_outstanding (exp : P → Option Nat) (m n t : Nat) (ops : List (SendOp P)) (z : Bool)
    (hx : (∀ p, exp p = none) ∨ (z = true ∧ DistinctPids exp (Sender.new m n t) ops))
    (hclk : z = true → ClockRunning ops) :
    (outstanding [] ((Sender.new m n t).trace exp ops)).Nodup ∧
    ∀ pid ∈ outstanding [] ((Sender.new m n t).trace exp ops),
      ∃ e ∈ ((Sender.new m n t).exec exp ops).pending.packets.take
          ((Sender.new m n t).exec exp ops).pending.maxInflight, Flying z pid e := by
  induction ops using snoc_induction with
  | nil => simp [Sender.trace, outstanding]
  | snoc ops op ih =>
    have ih := ih (by
      rcases hx with hx | ⟨hz, hx⟩
      · exact .inl hx
      · exact .inr ⟨hz, fun pre hp => hx pre (hp.trans (List.prefix_append _ _))⟩)
      (fun hz clk hc => hclk hz clk (by simp [hc]))
    have hpid : (∀ p, exp p = none) ∨
        (z = true ∧ ((Sender.new m n t : Sender P).exec exp ops).pids.Nodup) := by
      rcases hx with hx | ⟨hz, hx⟩
      · exact .inl hx
      · exact .inr ⟨hz, hx ops (List.prefix_append _ _)⟩
    have hmax := (step_params exp ((Sender.new m n t).exec exp ops) op).1
    rw [trace_append, outstanding_append, exec_snoc, hmax]
    generalize (Sender.new m n t).exec exp ops = s at *
    generalize outstanding [] ((Sender.new m n t).trace exp ops) = L at *
    obtain ⟨hnd, ih⟩ := ih
    cases op with
    | deliver now p =>
      simp only [Sender.trace, outstanding, receiveMax]
      refine ⟨outstandingSent_nodup _ hnd, ?_⟩
      intro pid hp
      obtain ⟨e, he, hf⟩ := ih pid hp
      refine ⟨e, ?_, hf⟩
      have hne : e ≠ .complete := by intro hc; rw [hc] at hf; cases hf.1
      have h1 := mem_take_dropWhile hne he
      show e ∈ (s.pending.cleanComplete.pushBack now s.nextPid p).1.packets.take _
      unfold Pending.pushBack
      split
      · exact h1
      · simp only [Pending.cleanComplete]
        rw [List.take_append]
        exact List.mem_append.mpr (.inl h1)
    | pass clk =>
      simp only [Sender.trace, outstanding, receiveMax]
      refine ⟨outstandingSent_nodup _ hnd, ?_⟩
      intro pid hp
      have hpos : z = true → ∀ k, 0 < clk.sent k := fun hz => hclk hz clk (by simp)
      have hsend : (s.step exp (.pass clk)).2 = (s.pending.swept exp clk).2.1 :=
        handlePendings_sent _ _ _
      rcases mem_outstandingSent hp with hp | ⟨p, d, x, hp⟩
      · obtain ⟨e, he, hf⟩ := ih pid hp
        have hne : e ≠ .complete := by intro hc; rw [hc] at hf; cases hf.1
        have h1 := mem_take_dropWhile hne he
        obtain ⟨e', h2, h3⟩ := sweep_keeps_take exp s.pending.timeout clk
          s.pending.cleanComplete.window 0 0 _ _ e h1
        have hf' : Flying z pid e' := by
          rcases h3 with rfl | ⟨k, rfl⟩
          · exact hf
          · exact hf.attempt (fun hz => hpos hz k)
        exact ⟨e', flying_pass h2 hf' hpid, hf'⟩
      · rw [hsend] at hp
        obtain ⟨e, he, j, k, hr, ha, h4⟩ := sweep_sent _ _ _ _ _ _ _ _ hp
        obtain ⟨a, l, rfl, h5, _⟩ := attempt_sent ha
        rw [h5] at h4
        have hf : Flying z pid (PStatus.new a (clk.sent k) pid p true) := by
          refine ⟨rfl, fun hz a' p' d' hc => ?_⟩
          have := hpos hz k
          simp only [PStatus.new.injEq] at hc
          omega
        refine ⟨_, flying_pass ?_ hf hpid, hf⟩
        exact (List.take_sublist_take_left (Nat.min_le_left _ _)).subset h4
    | puback pid' =>
      simp only [Sender.trace, outstanding, receiveMax]
      refine ⟨outstandingSent_nodup _ (hnd.filter _), ?_⟩
      intro pid hp
      rcases mem_outstandingSent hp with hp | ⟨_, _, _, hp⟩
      · simp only [List.mem_filter, decide_eq_true_eq] at hp
        obtain ⟨e, he, hf⟩ := ih pid hp.1
        refine ⟨e, complete_mem_take he ?_, hf⟩
        cases hcs : completeStatus pid' 1 e with
        | none => rfl
        | some e' =>
          have := (completeStatus_some hcs).2
          rw [hf.1] at this
          exact absurd (Option.some.inj this) hp.2
      · simp [Sender.step] at hp
    | pubcomp pid' =>
      simp only [Sender.trace, outstanding, receiveMax]
      refine ⟨outstandingSent_nodup _ (hnd.filter _), ?_⟩
      intro pid hp
      rcases mem_outstandingSent hp with hp | ⟨_, _, _, hp⟩
      · simp only [List.mem_filter, decide_eq_true_eq] at hp
        obtain ⟨e, he, hf⟩ := ih pid hp.1
        refine ⟨e, complete_mem_take he ?_, hf⟩
        cases hcs : completeStatus pid' 2 e with
        | none => rfl
        | some e' =>
          have := (completeStatus_some hcs).2
          rw [hf.1] at this
          exact absurd (Option.some.inj this) hp.2
      · simp [Sender.step] at hp
    | pubrec now pid' =>
      simp only [Sender.trace, outstanding, receiveMax]
      refine ⟨outstandingSent_nodup _ hnd, ?_⟩
      intro pid hp
      rcases mem_outstandingSent hp with hp | ⟨_, _, _, hp⟩
      · obtain ⟨e, he, hf⟩ := ih pid hp
        show ∃ e ∈ (s.pending.pubrec now pid').1.packets.take _, _
        unfold Pending.pubrec
        split
        · next hu =>
          rcases updFirst_mem_take hu he with h' | ⟨e', h1, h2⟩
          · exact ⟨e, h', hf⟩
          · refine ⟨e', h2, ?_⟩
            obtain ⟨rfl, a, l, p, d, rfl⟩ := pubrecStatus_some h1
            refine ⟨?_, fun _ a p d hc => by cases hc⟩
            have := hf.1
            simpa [PStatus.pid?] using this
        · exact ⟨e, he, hf⟩
      · simp [Sender.step] at hp
    | reconnect m' =>
      simp only [Sender.trace, outstanding]
      refine ⟨outstandingSent_nodup _ List.nodup_nil, ?_⟩
      intro pid hp
      rcases mem_outstandingSent hp with hp | ⟨_, _, _, hp⟩
      · cases hp
      · simp [Sender.step] at hp

theorem nodup_subset_length {l l' : List Nat} (hn : l.Nodup) (h : ∀ x ∈ l, x ∈ l') :
    l.length ≤ l'.length := by
  induction l generalizing l' with
  | nil => simp
  | cons x l ih =>
    rw [List.nodup_cons] at hn
    have hx := h x (by simp)
    have : l.length ≤ (l'.erase x).length := ih hn.2 (fun y hy => by
      have hne : y ≠ x := fun hc => hn.1 (hc ▸ hy)
      exact (List.mem_erase_of_ne hne).mpr (h y (by simp [hy])))
    rw [List.length_erase_of_mem hx] at this
    have := List.length_pos_of_mem hx
    simp only [List.length_cons]
    omega

theorem exec_outstanding_le (exp : P → Option Nat) (m n t : Nat) (ops : List (SendOp P))
    (hx : Regular exp (Sender.new m n t) ops) :
    (outstanding [] ((Sender.new m n t).trace exp ops)).length ≤ receiveMax m ops := by
  have key : ∀ z, (∀ pid ∈ outstanding [] ((Sender.new m n t).trace exp ops),
      ∃ e ∈ ((Sender.new m n t).exec exp ops).pending.packets.take
          ((Sender.new m n t).exec exp ops).pending.maxInflight, Flying z pid e) →
      (outstanding [] ((Sender.new m n t).trace exp ops)).Nodup →
      (outstanding [] ((Sender.new m n t).trace exp ops)).length ≤ receiveMax m ops := by
    intro z h hn
    have h1 := (exec_params exp (Sender.new m n t) ops).1
    have h2 : (outstanding [] ((Sender.new m n t).trace exp ops)).length ≤
        ((((Sender.new m n t).exec exp ops).pending.packets.take
          ((Sender.new m n t).exec exp ops).pending.maxInflight).filterMap
            PStatus.pid?).length := by
      apply nodup_subset_length hn
      intro pid hp
      obtain ⟨e, he, hf⟩ := h pid hp
      exact List.mem_filterMap.mpr ⟨e, he, hf.1⟩
    have h3 := List.length_filterMap_le PStatus.pid?
      (((Sender.new m n t).exec exp ops).pending.packets.take
          ((Sender.new m n t).exec exp ops).pending.maxInflight)
    have h4 := List.length_take_le ((Sender.new m n t).exec exp ops).pending.maxInflight
      ((Sender.new m n t).exec exp ops).pending.packets
    have h5 : ((Sender.new m n t : Sender P)).pending.maxInflight = m := rfl
    rw [h5] at h1
    omega
  rcases hx with hx | ⟨hx, hc⟩
  · obtain ⟨h1, h2⟩ := exec_outstanding exp m n t ops false (.inl hx) (fun h => by cases h)
    exact key false h2 h1
  · obtain ⟨h1, h2⟩ := exec_outstanding exp m n t ops true (.inr ⟨rfl, hx⟩) (fun _ => hc)
    exact key true h2 h1

end Akasa

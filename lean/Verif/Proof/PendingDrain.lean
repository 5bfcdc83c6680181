import Verif.Proof.PendingKeep
/-!
# Draining the queue, and packet identifiers
-/
namespace Akasa

variable {P : Type}

/-- What an acknowledgement does to a single entry. -/
def ackMap : SendOp P → PStatus P → PStatus P
  | .puback pid, e => (completeStatus pid 1 e).getD e
  | .pubcomp pid, e => (completeStatus pid 2 e).getD e
  | .pubrec now pid, e => (pubrecStatus now pid e).getD e
  | _, e => e

/-- The packet identifier of an acknowledgement. -/
def ackPid : SendOp P → Option Pid
  | .puback pid => some pid
  | .pubcomp pid => some pid
  | .pubrec _ pid => some pid
  | _ => none

theorem updFirst_map {f : PStatus P → Option (PStatus P)} {target : Pid}
    (hf : ∀ e e', f e = some e' → e.pid? = some target) {n : Nat} {ps : List (PStatus P)}
    (hnd : (ps.filterMap PStatus.pid?).Nodup)
    (hout : target ∉ (ps.drop n).filterMap PStatus.pid?) :
    (updFirst f n ps).getD ps = ps.map (fun e => (f e).getD e) := by
  have hself : ∀ qs : List (PStatus P), target ∉ qs.filterMap PStatus.pid? →
      qs.map (fun e => (f e).getD e) = qs := by
    intro qs hq
    induction qs with
    | nil => rfl
    | cons e qs ih =>
      have h1 : f e = none := by
        cases hfe : f e with
        | none => rfl
        | some e' =>
          exact absurd (List.mem_filterMap.mpr ⟨e, by simp, hf e e' hfe⟩) hq
      have h2 : target ∉ qs.filterMap PStatus.pid? := by
        intro hc
        obtain ⟨x, hx, hp⟩ := List.mem_filterMap.mp hc
        exact hq (List.mem_filterMap.mpr ⟨x, by simp [hx], hp⟩)
      simp [h1, ih h2]
  induction ps generalizing n with
  | nil => cases n <;> rfl
  | cons s ss ih =>
    cases n with
    | zero =>
      simp only [updFirst, Option.getD_none]
      exact (hself _ (by simpa using hout)).symm
    | succ n =>
      simp only [List.drop_succ_cons] at hout
      rw [updFirst]
      cases hs : f s with
      | some s' =>
        have hp := hf s s' hs
        rw [List.filterMap_cons, hp, List.nodup_cons] at hnd
        simp [hs, hself _ hnd.1]
      | none =>
        have hnd' : (ss.filterMap PStatus.pid?).Nodup := by
          rw [List.filterMap_cons] at hnd
          split at hnd
          · exact hnd
          · exact (List.nodup_cons.mp hnd).2
        simp only [List.map_cons, hs, Option.getD_none]
        rw [← ih hnd' hout]
        cases updFirst f n ss <;> simp

/-- An acknowledgement whose identifier does not occur behind the window. -/
theorem ack_step {exp : P → Option Nat} {s : Sender P} {op : SendOp P} {pid : Pid}
    (hop : ackPid op = some pid) (hnd : s.pids.Nodup)
    (hout : pid ∉ (s.pending.packets.drop s.pending.maxInflight).filterMap PStatus.pid?) :
    (s.step exp op).1.pending.packets = s.pending.packets.map (ackMap op) := by
  have hout' : pid ∉ (s.pending.packets.drop s.pending.window).filterMap PStatus.pid? := by
    rwa [drop_window]
  cases op with
  | puback pid' =>
    cases hop
    have := updFirst_map (f := completeStatus pid 1) (n := s.pending.window)
      (fun e e' h => (completeStatus_some h).2) hnd hout'
    show (s.pending.complete pid 1).1.packets = _
    rw [show s.pending.packets.map (ackMap (.puback pid)) = _ from this.symm]
    unfold Pending.complete
    cases updFirst (completeStatus pid 1) s.pending.window s.pending.packets <;> rfl
  | pubcomp pid' =>
    cases hop
    have := updFirst_map (f := completeStatus pid 2) (n := s.pending.window)
      (fun e e' h => (completeStatus_some h).2) hnd hout'
    show (s.pending.complete pid 2).1.packets = _
    rw [show s.pending.packets.map (ackMap (.pubcomp pid)) = _ from this.symm]
    unfold Pending.complete
    cases updFirst (completeStatus pid 2) s.pending.window s.pending.packets <;> rfl
  | pubrec now pid' =>
    cases hop
    have := updFirst_map (f := pubrecStatus now pid) (n := s.pending.window)
      (fun e e' h => by obtain ⟨_, a, l, p, d, rfl⟩ := pubrecStatus_some h; rfl) hnd hout'
    show (s.pending.pubrec now pid).1.packets = _
    rw [show s.pending.packets.map (ackMap (.pubrec now pid)) = _ from this.symm]
    unfold Pending.pubrec
    cases updFirst (pubrecStatus now pid) s.pending.window s.pending.packets <;> rfl
  | deliver now p => cases hop
  | pass clk => cases hop
  | reconnect m => cases hop

theorem ackMap_pid (op : SendOp P) (e : PStatus P) :
    (ackMap op e).pid? = e.pid? ∨ (ackMap op e).pid? = none := by
  cases op with
  | puback pid =>
    simp only [ackMap]
    cases h : completeStatus pid 1 e with
    | none => exact .inl rfl
    | some e' => rw [(completeStatus_some h).1]; exact .inr rfl
  | pubcomp pid =>
    simp only [ackMap]
    cases h : completeStatus pid 2 e with
    | none => exact .inl rfl
    | some e' => rw [(completeStatus_some h).1]; exact .inr rfl
  | pubrec now pid =>
    simp only [ackMap]
    cases h : pubrecStatus now pid e with
    | none => exact .inl rfl
    | some e' => obtain ⟨rfl, a, l, p, d, rfl⟩ := pubrecStatus_some h; exact .inl rfl
  | _ => exact .inl rfl

theorem ackMap_pids_sublist (op : SendOp P) (ps : List (PStatus P)) :
    ((ps.map (ackMap op)).filterMap PStatus.pid?).Sublist (ps.filterMap PStatus.pid?) := by
  induction ps with
  | nil => exact List.Sublist.refl _
  | cons e ps ih =>
    rw [List.map_cons, List.filterMap_cons, List.filterMap_cons]
    rcases ackMap_pid op e with h | h
    · rw [h]
      cases e.pid? with
      | none => exact ih
      | some x => exact ih.cons_cons _
    · rw [h]
      cases e.pid? with
      | none => exact ih
      | some x => exact ih.trans (List.sublist_cons_self _ _)

theorem acks_exec {exp : P → Option Nat} (ops : List (SendOp P)) (s : Sender P)
    (hnd : s.pids.Nodup)
    (hops : ∀ op ∈ ops, ∃ pid, ackPid op = some pid ∧
      pid ∉ (s.pending.packets.drop s.pending.maxInflight).filterMap PStatus.pid?) :
    (s.exec exp ops).pending.packets =
      s.pending.packets.map (fun e => ops.foldl (fun e op => ackMap op e) e) ∧
    (s.exec exp ops).pending.maxInflight = s.pending.maxInflight := by
  induction ops generalizing s with
  | nil => simp [exec_nil]
  | cons op ops ih =>
    obtain ⟨pid, h1, h2⟩ := hops op (by simp)
    have hstep := ack_step (exp := exp) h1 hnd h2
    have hmax : (s.step exp op).1.pending.maxInflight = s.pending.maxInflight := by
      rw [(step_params exp s op).1]
      cases op with
      | reconnect m => cases h1
      | _ => rfl
    have hnd' : (s.step exp op).1.pids.Nodup := by
      unfold Sender.pids
      rw [hstep]
      exact (ackMap_pids_sublist op _).nodup hnd
    have hops' : ∀ op' ∈ ops, ∃ pid, ackPid op' = some pid ∧
        pid ∉ ((s.step exp op).1.pending.packets.drop
          (s.step exp op).1.pending.maxInflight).filterMap PStatus.pid? := by
      intro op' hm
      obtain ⟨pid', h3, h4⟩ := hops op' (by simp [hm])
      refine ⟨pid', h3, fun hc => h4 ?_⟩
      rw [hstep, hmax, ← List.map_drop] at hc
      exact (ackMap_pids_sublist op _).subset hc
    obtain ⟨h5, h6⟩ := ih (s.step exp op).1 hnd' hops'
    rw [exec_cons]
    refine ⟨?_, h6.trans hmax⟩
    rw [h5, hstep, List.map_map]
    rfl

theorem ackMap_other {op : SendOp P} {pid : Pid} {e : PStatus P} (hop : ackPid op = some pid)
    (he : e.pid? ≠ some pid) : ackMap op e = e := by
  cases op with
  | puback pid' =>
    cases hop
    simp only [ackMap]
    cases h : completeStatus pid 1 e with
    | none => rfl
    | some e' => exact absurd (completeStatus_some h).2 he
  | pubcomp pid' =>
    cases hop
    simp only [ackMap]
    cases h : completeStatus pid 2 e with
    | none => rfl
    | some e' => exact absurd (completeStatus_some h).2 he
  | pubrec now pid' =>
    cases hop
    simp only [ackMap]
    cases h : pubrecStatus now pid e with
    | none => rfl
    | some e' =>
      obtain ⟨_, a, l, p, d, rfl⟩ := pubrecStatus_some h
      exact absurd rfl he
  | _ => rfl

theorem ackMap_complete (op : SendOp P) : ackMap op (.complete : PStatus P) = .complete := by
  cases op <;> rfl

theorem foldl_ack_complete (ops : List (SendOp P)) :
    ops.foldl (fun e op => ackMap op e) (.complete : PStatus P) = .complete := by
  induction ops with
  | nil => rfl
  | cons op ops ih => rw [List.foldl_cons, ackMap_complete, ih]

theorem foldl_ack_other {ops : List (SendOp P)} {e : PStatus P}
    (h : ∀ op ∈ ops, ∃ pid, ackPid op = some pid ∧ e.pid? ≠ some pid) :
    ops.foldl (fun e op => ackMap op e) e = e := by
  induction ops with
  | nil => rfl
  | cons op ops ih =>
    obtain ⟨pid, h1, h2⟩ := h op (by simp)
    rw [List.foldl_cons, ackMap_other h1 h2, ih (fun op hm => h op (by simp [hm]))]

theorem ackOf_pid {qos : P → QoS} {now : Nat} {x : Sent P} {op : SendOp P}
    (h : op ∈ ackOf qos now x) : ackPid op = some x.pid := by
  cases x with
  | publish pid p d y =>
    simp only [ackOf] at h
    split at h
    · simp only [List.mem_singleton] at h; subst h; rfl
    · simp only [List.mem_cons, List.not_mem_nil, or_false] at h
      rcases h with rfl | rfl <;> rfl
  | pubrel pid => simp only [ackOf, List.mem_singleton] at h; subst h; rfl

/-- The entry from which a packet was sent is completed by its acknowledgement. -/
theorem foldl_ackOf {exp : P → Option Nat} {qos : P → QoS} {now t : Nat} {e : PStatus P}
    {x : Sent P} (h : (e.attempt exp t).2.1 = some x) :
    (ackOf qos now x).foldl (fun e op => ackMap op e) (e.attempt exp t).1 = .complete := by
  cases x with
  | publish pid p d y =>
    obtain ⟨a, l, rfl, h2, _⟩ := attempt_sent h
    rw [h2]
    simp only [ackOf]
    split <;> simp [ackMap, completeStatus, pubrecStatus]
  | pubrel pid =>
    obtain ⟨l, rfl⟩ := attempt_pubrel h
    simp [ackOf, PStatus.attempt, ackMap, completeStatus]

theorem attempt_sent_pid {exp : P → Option Nat} {t : Nat} {e : PStatus P} {x : Sent P}
    (h : (e.attempt exp t).2.1 = some x) : e.pid? = some x.pid := by
  cases x with
  | publish pid p d y => obtain ⟨a, l, rfl, _⟩ := attempt_sent h; rfl
  | pubrel pid => obtain ⟨l, rfl⟩ := attempt_pubrel h; rfl

theorem sweep_sentPids (exp : P → Option Nat) (t : Nat) (clk : Clock) (n cur i : Nat)
    (ps : List (PStatus P)) :
    ((sweep exp t clk n cur i ps).2.1.map Sent.pid).Sublist ((ps.take n).filterMap PStatus.pid?) := by
  induction ps generalizing n cur i with
  | nil => cases n <;> simp [sweep]
  | cons s ss ih =>
    cases n with
    | zero => simp [sweep]
    | succ n =>
      rw [sweep, List.take_succ_cons, List.filterMap_cons]
      split
      · simp only [List.map_append]
        cases hx : (s.attempt exp (clk.sent i)).2.1 with
        | none =>
          simp only [Option.toList_none, List.map_nil, List.nil_append]
          cases s.pid? with
          | none => exact ih _ _ _
          | some y => exact (ih _ _ _).trans (List.sublist_cons_self _ _)
        | some x =>
          rw [attempt_sent_pid hx]
          simp only [Option.toList_some, List.map_cons, List.map_nil, List.singleton_append]
          exact (ih _ _ _).cons_cons _
      · cases s.pid? with
        | none => exact ih _ _ _
        | some y => exact (ih _ _ _).trans (List.sublist_cons_self _ _)

theorem dropWhile_all_append {p : α → Bool} {l r : List α} (h : ∀ x ∈ l, p x = true) :
    (l ++ r).dropWhile p = r.dropWhile p := by
  induction l with
  | nil => rfl
  | cons x l ih =>
    rw [List.cons_append, List.dropWhile_cons, h x (by simp), if_pos rfl]
    exact ih (fun y hy => h y (by simp [hy]))

theorem dropWhile_idem (p : α → Bool) (l : List α) :
    (l.dropWhile p).dropWhile p = l.dropWhile p := by
  induction l with
  | nil => rfl
  | cons x l ih =>
    rw [List.dropWhile_cons]
    split
    · exact ih
    · next h => rw [List.dropWhile_cons, if_neg h]

/-- Mapping with a function that keeps `complete` commutes with dropping, up to dropping again. -/
theorem dropWhile_map_dropWhile {f : PStatus P → PStatus P} (hf : f .complete = .complete)
    (l : List (PStatus P)) :
    ((l.dropWhile PStatus.isComplete).map f).dropWhile PStatus.isComplete =
      (l.map f).dropWhile PStatus.isComplete := by
  induction l with
  | nil => rfl
  | cons e l ih =>
    cases e with
    | complete =>
      have hc : (PStatus.complete : PStatus P).isComplete = true := rfl
      rw [List.dropWhile_cons, if_pos hc, ih, List.map_cons, hf, List.dropWhile_cons, if_pos hc]
    | new a l' pid p d => rw [List.dropWhile_cons, if_neg (by simp [PStatus.isComplete])]
    | pubrec l' pid => rw [List.dropWhile_cons, if_neg (by simp [PStatus.isComplete])]

theorem drop_dropWhile_pids {n : Nat} (ps : List (PStatus P)) :
    (((ps.dropWhile PStatus.isComplete).drop n).filterMap PStatus.pid?).Sublist
      ((ps.drop n).filterMap PStatus.pid?) := by
  obtain ⟨k, hk⟩ : ∃ k, ps.dropWhile PStatus.isComplete = ps.drop k := by
    have := List.dropWhile_suffix (l := ps) PStatus.isComplete
    obtain ⟨t, ht⟩ := this
    exact ⟨t.length, by rw [← ht, List.drop_left]; rw [ht]⟩
  rw [hk, List.drop_drop, Nat.add_comm, ← List.drop_drop]
  exact (List.drop_sublist k _).filterMap _

/-- The entries that are left after a pass and the acknowledgement of everything it sent. -/
theorem round_packets {exp : P → Option Nat} {qos : P → QoS} {now : Nat} {clk : Clock}
    {s : Sender P} {acks : List (Sent P)} (hnd : s.pids.Nodup)
    (hready : ∀ e ∈ s.pending.packets, e ≠ .complete →
      ∀ j, e.ready s.pending.timeout (clk.ready j) = true)
    (hacks : acks.Perm (s.step exp (.pass clk)).2) :
    (s.exec exp (.pass clk :: acks.flatMap (ackOf qos now))).pending.cleanComplete.packets =
      (s.pending.cleanComplete.packets.drop s.pending.maxInflight).dropWhile
        PStatus.isComplete := by
  have hsend : (s.step exp (.pass clk)).2 = (s.pending.swept exp clk).2.1 :=
    handlePendings_sent _ _ _
  rw [hsend] at hacks
  have hndc : (s.pending.cleanComplete.packets.filterMap PStatus.pid?).Nodup := by
    simp only [Pending.cleanComplete]; rw [filterMap_dropWhile _ rfl]; exact hnd
  obtain ⟨hS, hQ, hE⟩ := sweep_all_ready exp s.pending.timeout clk s.pending.cleanComplete.window
    0 0 s.pending.cleanComplete.packets
    (fun e he hne => hready e ((List.dropWhile_sublist _).subset (List.mem_of_mem_take he)) hne)
  rw [take_window, drop_window] at *
  have hmaxc : s.pending.cleanComplete.maxInflight = s.pending.maxInflight := rfl
  rw [hmaxc] at hS hQ hE
  generalize hW : s.pending.cleanComplete.packets.take s.pending.maxInflight = W at *
  generalize hD : s.pending.cleanComplete.packets.drop s.pending.maxInflight = D at *
  have hWD : W ++ D = s.pending.cleanComplete.packets := by
    rw [← hW, ← hD, List.take_append_drop]
  have hndWD : ((W ++ D).filterMap PStatus.pid?).Nodup := by rw [hWD]; exact hndc
  -- the queue after the pass
  have hafter := afterSweep_kill (exp := exp) (clk := clk) hnd
  -- everything sent or expired has an identifier of the window
  have hsentW : ∀ x ∈ (s.pending.swept exp clk).2.1, x.pid ∈ W.filterMap PStatus.pid? := by
    intro x hx
    have h := (sweep_sentPids exp s.pending.timeout clk s.pending.cleanComplete.window 0 0
      s.pending.cleanComplete.packets).subset (List.mem_map_of_mem hx)
    rw [take_window, hmaxc, hW] at h
    exact h
  have hdisj : ∀ pid, pid ∈ W.filterMap PStatus.pid? → pid ∉ D.filterMap PStatus.pid? := by
    intro pid h1 h2
    rw [List.filterMap_append, List.nodup_append] at hndWD
    exact hndWD.2.2 pid h1 pid h2 rfl
  let f : PStatus P → PStatus P := fun e =>
    (acks.flatMap (ackOf qos now)).foldl (fun e op => ackMap op e) e
  have hfc : f .complete = .complete := foldl_ack_complete _
  have hlist : (s.pending.swept exp clk).1 =
      (W.zipIdx 0).map (fun x => (x.1.attempt exp (clk.sent x.2)).1) ++ D := hQ
  -- the state after the pass
  have hpass : ∃ b : Bool, (s.step exp (.pass clk)).1.pending.packets =
      if b then (s.pending.afterSweep exp clk).packets
      else (s.pending.afterSweep exp clk).packets.dropWhile PStatus.isComplete := by
    show ∃ b : Bool, (s.pending.handlePendings exp clk).1.packets = _
    rw [Pending.handlePendings_eq]
    simp only
    split
    · exact ⟨true, rfl⟩
    · exact ⟨false, rfl⟩
  have hpids' : (s.step exp (.pass clk)).1.pids.Nodup := by
    have := step_pids_sublist exp s (.pass clk)
    simp only [delivered, List.map_nil, List.append_nil] at this
    exact this.nodup hnd
  have hmax' : (s.step exp (.pass clk)).1.pending.maxInflight = s.pending.maxInflight :=
    (step_params exp s (.pass clk)).1
  -- behind the window there is only `D`
  have hlen : ((W.zipIdx 0).map (fun x => (x.1.attempt exp (clk.sent x.2)).1)).length = W.length := by
    simp
  have hdropA : (((s.pending.afterSweep exp clk).packets.drop s.pending.maxInflight).filterMap
      PStatus.pid?).Sublist (D.filterMap PStatus.pid?) := by
    have h1 : ∀ (E : List Pid) (ps : List (PStatus P)), ∀ m,
        (((E.foldl (fun ps pid => ps.map (PStatus.kill pid)) ps).drop m).filterMap
          PStatus.pid?).Sublist ((ps.drop m).filterMap PStatus.pid?) := by
      intro E
      induction E with
      | nil => intro ps m; exact List.Sublist.refl _
      | cons pid E ih =>
        intro ps m
        rw [List.foldl_cons]
        refine (ih _ m).trans ?_
        rw [← List.map_drop]
        exact kill_pid_sublist pid _
    rw [hafter]
    refine (h1 _ _ _).trans ?_
    rw [hlist, List.drop_append, hlen]
    have : W.length ≤ s.pending.maxInflight := by rw [← hW]; exact List.length_take_le _ _
    rw [List.drop_eq_nil_of_le (by rw [hlen]; exact this), List.nil_append]
    exact (List.drop_sublist _ _).filterMap _
  have hout : ∀ op ∈ acks.flatMap (ackOf qos now), ∃ pid, ackPid op = some pid ∧
      pid ∉ ((s.step exp (.pass clk)).1.pending.packets.drop
        (s.step exp (.pass clk)).1.pending.maxInflight).filterMap PStatus.pid? := by
    intro op hop
    obtain ⟨x, hx, hop⟩ := List.mem_flatMap.mp hop
    refine ⟨x.pid, ackOf_pid hop, fun hc => ?_⟩
    have hxW := hsentW x (hacks.mem_iff.mp hx)
    apply hdisj _ hxW
    rw [hmax'] at hc
    obtain ⟨b, hb⟩ := hpass
    rw [hb] at hc
    cases b with
    | true => exact hdropA.subset hc
    | false => exact hdropA.subset ((drop_dropWhile_pids _).subset hc)
  obtain ⟨hfin, _⟩ := acks_exec (exp := exp) _ _ hpids' hout
  rw [exec_cons]
  show List.dropWhile _ _ = _
  rw [hfin]
  -- remove the optional clean
  have hclean : ((s.step exp (.pass clk)).1.pending.packets.map f).dropWhile PStatus.isComplete =
      ((s.pending.afterSweep exp clk).packets.map f).dropWhile PStatus.isComplete := by
    obtain ⟨b, hb⟩ := hpass
    rw [hb]
    cases b with
    | true => rfl
    | false => exact dropWhile_map_dropWhile hfc _
  show ((s.step exp (.pass clk)).1.pending.packets.map f).dropWhile _ = _
  rw [hclean, hafter, hlist]
  -- the entries of the window are complete, the others are unchanged
  have hkill : ∀ (E : List Pid) (ps : List (PStatus P)),
      E.foldl (fun ps pid => ps.map (PStatus.kill pid)) ps =
        ps.map (fun e => E.foldl (fun e pid => e.kill pid) e) := by
    intro E
    induction E with
    | nil => intro ps; simp
    | cons pid E ih => intro ps; rw [List.foldl_cons, ih, List.map_map]; rfl
  rw [hkill, List.map_append, List.map_append]
  have hEW : ∀ pid ∈ (s.pending.swept exp clk).2.2, pid ∈ W.filterMap PStatus.pid? := by
    intro pid hp
    obtain ⟨a, p, d, v, k, h1, _⟩ := sweep_expired _ _ _ _ _ _ _ pid hp
    rw [take_window, hmaxc, hW] at h1
    exact List.mem_filterMap.mpr ⟨_, h1, rfl⟩
  have hDsame : (D.map (fun e => (s.pending.swept exp clk).2.2.foldl (fun e pid => e.kill pid) e)).map f
      = D := by
    rw [List.map_map]
    conv => rhs; rw [← List.map_id D]
    apply List.map_congr_left
    intro e he
    have hpe : ∀ pid, e.pid? = some pid → pid ∈ D.filterMap PStatus.pid? :=
      fun pid h => List.mem_filterMap.mpr ⟨e, he, h⟩
    have h1 : ∀ E : List Pid, (∀ pid ∈ E, pid ∈ W.filterMap PStatus.pid?) →
        E.foldl (fun e pid => e.kill pid) e = e := by
      intro E hE'
      induction E with
      | nil => rfl
      | cons pid E ih =>
        have h2 : e.kill pid = e := by
          cases e with
          | new a l pid' p d =>
            have : pid' ≠ pid := fun hc => hdisj pid (hE' pid (by simp)) (hpe pid (by rw [← hc]; rfl))
            simp [PStatus.kill, this]
          | _ => rfl
        rw [List.foldl_cons, h2]
        exact ih (fun x hx => hE' x (by simp [hx]))
    simp only [Function.comp, id]
    rw [h1 _ hEW]
    apply foldl_ack_other
    intro op hop
    obtain ⟨x, hx, hop⟩ := List.mem_flatMap.mp hop
    exact ⟨x.pid, ackOf_pid hop, fun hc =>
      hdisj _ (hsentW x (hacks.mem_iff.mp hx)) (hpe _ hc)⟩
  rw [hDsame]
  apply dropWhile_all_append
  intro y hy
  simp only [List.map_map, List.mem_map, Function.comp] at hy
  obtain ⟨⟨e, i⟩, hei, rfl⟩ := hy
  simp only
  have heW : e ∈ W := by
    have := List.mem_zipIdx hei
    simp only [Nat.sub_zero, Nat.zero_add] at this
    rw [this.2.2]; exact List.getElem_mem _
  have heWD : e ∈ W ++ D := List.mem_append.mpr (.inl heW)
  -- the three cases for the entry
  suffices h : f ((s.pending.swept exp clk).2.2.foldl (fun e pid => e.kill pid)
      (e.attempt exp (clk.sent i)).1) = .complete by rw [h]; rfl
  have hkc : ∀ E : List Pid, E.foldl (fun e pid => e.kill pid) (.complete : PStatus P) = .complete := by
    intro E
    induction E with
    | nil => rfl
    | cons pid E ih => rw [List.foldl_cons]; exact ih
  cases hx : (e.attempt exp (clk.sent i)).2.1 with
  | some x =>
    -- sent: not expired, acknowledged
    have hxin : x ∈ (s.pending.swept exp clk).2.1 := by
      show x ∈ (sweep _ _ _ _ _ _ _).2.1
      rw [hS]
      exact List.mem_filterMap.mpr ⟨(e, i), hei, hx⟩
    have hpe := attempt_sent_pid hx
    have hnoexp : ∀ pid ∈ (s.pending.swept exp clk).2.2, e.pid? ≠ some pid := by
      intro pid hp hc
      have hp' : pid ∈ (W.zipIdx 0).filterMap (fun x => (x.1.attempt exp (clk.sent x.2)).2.2) := by
        rw [← hE]; exact hp
      obtain ⟨⟨e2, i2⟩, he2, hx2⟩ := List.mem_filterMap.mp hp'
      have he2W : e2 ∈ W := by
        have := List.mem_zipIdx he2
        simp only [Nat.sub_zero, Nat.zero_add] at this
        rw [this.2.2]; exact List.getElem_mem _
      have hp2 : e2.pid? = some pid ∧ ∀ t, (e2.attempt exp t).2.2 ≠ none → True := by
        refine ⟨?_, fun _ _ => trivial⟩
        cases e2 with
        | new a l pid' p d =>
          simp only [PStatus.attempt] at hx2
          cases hv : exp p with
          | none => simp [hv] at hx2
          | some v =>
            simp only [hv] at hx2
            split at hx2
            · simp at hx2; subst hx2; rfl
            · simp at hx2
        | pubrec l pid' => simp [PStatus.attempt] at hx2
        | complete => simp [PStatus.attempt] at hx2
      have heq := pid_unique hndWD heWD (List.mem_append.mpr (.inl he2W)) hc hp2.1
      subst heq
      -- same entry at two positions is impossible unless the positions agree
      have hii : i = i2 := by
        have h1 := List.mem_zipIdx hei
        have h2 := List.mem_zipIdx he2
        simp only [Nat.sub_zero, Nat.zero_add] at h1 h2
        rw [List.filterMap_append, List.nodup_append] at hndWD
        by_cases hne : i = i2
        · exact hne
        · exfalso
          have hWn := hndWD.1
          have key : ∀ (ps : List (PStatus P)) (i j : Nat), (ps.filterMap PStatus.pid?).Nodup →
              ∀ (hi : i < ps.length) (hj : j < ps.length), i < j → ps[i].pid? = some pid →
              ps[j].pid? = some pid → False := by
            intro ps
            induction ps with
            | nil => intro i j _ hi; simp at hi
            | cons y ps ih =>
              intro i j hn hi hj hij h3 h4
              cases j with
              | zero => omega
              | succ j =>
                simp only [List.getElem_cons_succ] at h4
                cases i with
                | zero =>
                  simp only [List.getElem_cons_zero] at h3
                  rw [List.filterMap_cons, h3, List.nodup_cons] at hn
                  exact hn.1 (List.mem_filterMap.mpr ⟨_, List.getElem_mem _, h4⟩)
                | succ i =>
                  simp only [List.getElem_cons_succ] at h3
                  refine ih i j ?_ (by simpa using hi) (by simpa using hj) (by omega) h3 h4
                  rw [List.filterMap_cons] at hn
                  split at hn
                  · exact hn
                  · exact (List.nodup_cons.mp hn).2
          rcases Nat.lt_or_gt_of_ne hne with h | h
          · exact key W i i2 hWn h1.2.1 h2.2.1 h (by rw [← h1.2.2]; exact hc)
              (by rw [← h2.2.2]; exact hc)
          · exact key W i2 i hWn h2.2.1 h1.2.1 h (by rw [← h2.2.2]; exact hc)
              (by rw [← h1.2.2]; exact hc)
      subst hii
      cases e with
      | new a l pid' p d =>
        simp only [PStatus.attempt] at hx hx2
        cases hv : exp p with
        | none => simp [hv] at hx2
        | some v =>
          simp only [hv] at hx hx2
          split at hx
          · simp at hx
          · next hcc => rw [if_neg hcc] at hx2; simp at hx2
      | pubrec l pid' => simp [PStatus.attempt] at hx2
      | complete => simp [PStatus.attempt] at hx2
    have hk1 : (s.pending.swept exp clk).2.2.foldl (fun e pid => e.kill pid)
        (e.attempt exp (clk.sent i)).1 = (e.attempt exp (clk.sent i)).1 := by
      have hpa := attempt_pid exp (clk.sent i) e
      generalize (e.attempt exp (clk.sent i)).1 = e' at hpa
      generalize (s.pending.swept exp clk).2.2 = E at hnoexp
      induction E with
      | nil => rfl
      | cons pid E ih =>
        have h2 : e'.kill pid = e' := by
          cases e' with
          | new a l pid' p d =>
            have : pid' ≠ pid := fun hc => hnoexp pid (by simp) (by rw [← hpa, ← hc]; rfl)
            simp [PStatus.kill, this]
          | _ => rfl
        rw [List.foldl_cons, h2]
        exact ih (fun x hx => hnoexp x (by simp [hx]))
    rw [hk1]
    -- split the acknowledgements around `x`
    have hxa := hacks.mem_iff.mpr hxin
    obtain ⟨A1, A2, hA⟩ := List.append_of_mem hxa
    have hndS : ((s.pending.swept exp clk).2.1.map Sent.pid).Nodup := by
      refine (sweep_sentPids exp s.pending.timeout clk s.pending.cleanComplete.window 0 0
        s.pending.cleanComplete.packets).nodup ?_
      exact ((List.take_sublist _ _).filterMap _).nodup hndc
    have hndA : (acks.map Sent.pid).Nodup := (hacks.map Sent.pid).nodup_iff.mpr hndS
    rw [hA, List.map_append, List.map_cons, List.nodup_append] at hndA
    have hA1 : ∀ z ∈ A1, z.pid ≠ x.pid := fun z hz hc =>
      hndA.2.2 z.pid (List.mem_map_of_mem hz) x.pid (by simp) hc
    show (acks.flatMap (ackOf qos now)).foldl (fun e op => ackMap op e) _ = _
    rw [hA, List.flatMap_append, List.flatMap_cons, List.foldl_append, List.foldl_append]
    rw [foldl_ack_other (ops := A1.flatMap (ackOf qos now)) (by
      intro op hop
      obtain ⟨z, hz, hop⟩ := List.mem_flatMap.mp hop
      refine ⟨z.pid, ackOf_pid hop, ?_⟩
      rw [attempt_pid, hpe]
      intro hc
      exact hA1 z hz (Option.some.inj hc).symm)]
    rw [foldl_ackOf hx, foldl_ack_complete]
  | none =>
    -- complete or expired
    cases e with
    | complete => simp only [PStatus.attempt]; rw [hkc]; exact hfc
    | pubrec l pid => simp [PStatus.attempt] at hx
    | new a l pid p d =>
      have hexp : (PStatus.new a l pid p d).attempt exp (clk.sent i) =
          (.new a l pid p d, none, some pid) := by
        simp only [PStatus.attempt] at hx ⊢
        cases hv : exp p with
        | none => simp [hv] at hx
        | some v =>
          simp only [hv] at hx ⊢
          split at hx
          · next hc => rw [if_pos hc]
          · simp at hx
      have hin : pid ∈ (s.pending.swept exp clk).2.2 := by
        show pid ∈ (sweep _ _ _ _ _ _ _).2.2
        rw [hE]
        exact List.mem_filterMap.mpr ⟨(.new a l pid p d, i), hei, by simp [hexp]⟩
      rw [hexp]
      simp only
      have : (s.pending.swept exp clk).2.2.foldl (fun e pid => e.kill pid)
          (PStatus.new a l pid p d) = .complete := by
        generalize (s.pending.swept exp clk).2.2 = E at hin
        induction E with
        | nil => cases hin
        | cons y E ih =>
          rw [List.foldl_cons]
          by_cases hy : pid = y
          · simp only [PStatus.kill, hy, if_true]; exact hkc E
          · simp only [PStatus.kill, hy, if_false]
            simp only [List.mem_cons] at hin
            exact ih (hin.resolve_left hy)
      rw [this]; exact hfc

end Akasa

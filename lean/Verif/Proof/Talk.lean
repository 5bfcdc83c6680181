import Verif.Spec.Talk
import Verif.Proof.Rest
import Verif.Proof.PendingPid
/-! # The conversation about messages with QoS 1 and 2 -/
namespace Akasa

variable {cfg : Config} {ext : Ext} {pr : Proto} {exp : PubPacket → Option Nat}

/-! ## The rules -/

theorem Talk.set_same (t : Talk) (pid : Pid) (u : PidUse) : (t.set pid u).use pid = u := by
  simp [Talk.set]

theorem Talk.set_other {t : Talk} {pid x : Pid} {u : PidUse} (h : x ≠ pid) :
    (t.set pid u).use x = t.use x := by
  simp [Talk.set, h]

theorem sameMessage_of {pid : Pid} {p : PubPacket} {d d' : Bool} {e e' : Option Nat} {v w : Publish}
    (h : Carries pr (.publish pid p d e) (.publish v))
    (h' : Carries pr (.publish pid p d' e') (.publish w)) : v.sameMessage w = true := by
  obtain ⟨_, h1, h2, h3, h4⟩ := h
  obtain ⟨_, k1, k2, k3, k4⟩ := h'
  unfold Publish.sameMessage
  rw [decide_eq_true_eq]
  refine ⟨by rw [h1, k1], by rw [h2, k2], by rw [h3, k3], ?_, ?_⟩
  · cases pr with
    | v3 => left; rw [h4.1, k4.1]
    | v5 =>
      rcases h4.1 with h4 | h4
      · rcases k4.1 with k4 | k4
        · left; rw [h4, k4]
        · exact .inr (.inr k4.1)
      · exact .inr (.inl h4.1)
  · cases pr with
    | v3 => rw [h4.2, k4.2]
    | v5 => rw [h4.2, k4.2]

/-- An entry of the queue and what the client remembers.  `loose`: packets may have been lost;
`closed`: the connection is at its end. -/
def Fitting (pr : Proto) (loose closed : Bool) (t : Talk) : PStatus PubPacket → Prop
  | .new _ _ pid p dup =>
    match t.use pid with
    | .idle => dup = true → loose = true
    | .unclear => dup = true → loose = true
    | .sent w => dup = true ∧ ∃ d e, Carries pr (.publish pid p d e) (.publish w)
    | .old w => dup = true ∧ ∃ d e, Carries pr (.publish pid p d e) (.publish w)
    | .answered => dup = true ∧ closed = true
    | .released => False
  | .pubrec _ pid => t.heard pid = true ∧ (∀ w, t.use pid ≠ .sent w) ∧ ∀ w, t.use pid ≠ .old w
  | .complete => True

theorem Fitting.congr {l c : Bool} {t t' : Talk} {e : PStatus PubPacket}
    (h : Fitting pr l c t e) (hu : ∀ pid, e.pid? = some pid → t'.use pid = t.use pid)
    (hh : ∀ pid, t.heard pid = true → t'.heard pid = true) : Fitting pr l c t' e := by
  cases e with
  | complete => trivial
  | pubrec n pid =>
    have h1 := hu pid rfl
    obtain ⟨h2, h3⟩ := h
    simp only [Fitting, h1]
    exact ⟨hh pid h2, h3⟩
  | new a n pid p d =>
    have h1 := hu pid rfl
    simp only [Fitting, h1]
    exact h

theorem Fitting.weaken {l c : Bool} {t : Talk} {e : PStatus PubPacket} (h : Fitting pr l c t e) :
    Fitting pr true true t e := by
  cases e with
  | complete => trivial
  | pubrec n pid => exact h
  | new a n pid p d =>
    unfold Fitting at h ⊢
    simp only at h ⊢
    split <;> rename_i hu <;> simp only [hu] at h
    · exact fun _ => trivial
    · exact fun _ => trivial
    · exact h
    · exact h
    · exact ⟨h.1, trivial⟩

/-! ## The queue and the client -/

/-- The queue and what the client remembers. -/
structure Concord (pr : Proto) (loose closed : Bool) (s : Sender PubPacket) (t : Talk) : Prop where
  nodup : s.pids.Nodup
  nonzero : (0 : Pid) ∉ s.pids
  qos : ∀ p ∈ s.msgs, p.qos ≠ 0
  fits : ∀ e ∈ s.pending.packets, Fitting pr loose closed t e
  out : closed = false → ∀ e ∈ s.pending.packets.drop s.pending.maxInflight, ∀ pid w,
    e.pid? = some pid → t.use pid ≠ .sent w
  old : ∀ pid, (∃ w, t.use pid = .old w) ∨ t.use pid = .unclear → loose = true
  ans : closed = false → ∀ pid, t.use pid ≠ .answered

theorem Concord.weaken {l c : Bool} {s : Sender PubPacket} {t : Talk} (h : Concord pr l c s t) :
    Concord pr true true s t :=
  { nodup := h.nodup, nonzero := h.nonzero, qos := h.qos, fits := fun e he => (h.fits e he).weaken
    out := (fun h => by cases h), old := fun _ _ => rfl, ans := (fun h => by cases h) }

/-- The client sees these packets. -/
def seesAll (t : Talk) (os : List OutPkt) : Option Talk := (os.map Obs.sent).foldlM Obs.talk t

theorem seesAll_nil (t : Talk) : seesAll t [] = some t := rfl

theorem seesAll_cons (t : Talk) (o : OutPkt) (os : List OutPkt) :
    seesAll t (o :: os) = (Obs.talk t (.sent o)).bind fun t => seesAll t os := rfl

theorem seesAll_append (t : Talk) (os os' : List OutPkt) :
    seesAll t (os ++ os') = (seesAll t os).bind fun t => seesAll t os' := by
  unfold seesAll
  rw [List.map_append, List.foldlM_append]
  rfl

theorem seesAll_filter (t : Talk) (os : List OutPkt) :
    seesAll t (os.filter OutPkt.isDelivery) = seesAll t os := by
  induction os generalizing t with
  | nil => rfl
  | cons o os ih =>
    rw [List.filter_cons]
    cases o with
    | publish w =>
      simp only [OutPkt.isDelivery, if_true, seesAll_cons]
      exact congrArg _ (funext fun t => ih t)
    | pubrel pid r =>
      simp only [OutPkt.isDelivery, if_true, seesAll_cons]
      exact congrArg _ (funext fun t => ih t)
    | _ => exact ih t

/-! ### A pass -/

/-- One entry is sent. -/
theorem attempt_talk {t : Talk} {e : PStatus PubPacket} {now : Nat} {pid : Pid}
    (hp : e.pid? = some pid) (h0 : pid ≠ 0) (hq : ∀ p, e.msg? = some p → p.qos ≠ 0)
    (hf : Fitting pr t.again false t e) (ha : t.use pid ≠ .answered) {x : Sent PubPacket}
    (hx : (e.attempt exp now).2.1 = some x) {o : OutPkt} (hc : Carries pr x o) :
    ∃ t', Obs.talk t (.sent o) = some t' ∧ t'.again = t.again ∧ t'.heard = t.heard ∧
      (∀ y, y ≠ pid → t'.use y = t.use y) ∧
      (t'.use pid = t.use pid ∨ ∃ w, t'.use pid = .sent w) ∧
      Fitting pr t.again false t' (e.attempt exp now).1 := by
  cases e with
  | complete => cases hp
  | pubrec n q =>
    cases hp
    cases hx
    cases o with
    | pubrel q r =>
      cases hc
      obtain ⟨h1, h2, h3⟩ := hf
      refine ⟨t, ?_, rfl, rfl, fun _ _ => rfl, .inl rfl, h1, h2, h3⟩
      simp only [Obs.talk, Talk.pubrel, h1, if_true]
    | _ => cases hc
  | new a n q p d =>
    cases hp
    have hq := hq p rfl
    obtain ⟨ex, k1, k2⟩ : ∃ ex, x = .publish pid p d ex ∧
        ((PStatus.new a n pid p d).attempt exp now).1 = .new a now pid p true := by
      simp only [PStatus.attempt] at hx ⊢
      split at hx <;> rename_i hv
      · cases hx; exact ⟨_, rfl, rfl⟩
      · split at hx
        · cases hx
        · rename_i hn
          cases hx
          exact ⟨_, rfl, by rw [if_neg hn]⟩
    subst k1
    rw [k2]
    cases o with
    | publish w =>
      have hpid : w.qosPid.pid? = some pid := by
        rw [hc.2.1, PubPacket.qosPid, if_neg hq]
        split <;> rfl
      have hd : w.dup = d := hc.1
      have hcar : Carries pr (.publish pid p d ex) (.publish w) := hc
      simp only [Obs.talk, Talk.publish, hpid, h0, if_false, hd]
      simp only [Fitting] at hf
      cases hu : t.use pid with
      | idle =>
        simp only [hu] at hf
        have : (d && !t.again) = false := by
          cases d with
          | false => rfl
          | true => rw [hf rfl]; rfl
        simp only [this, Bool.false_eq_true, if_false]
        refine ⟨_, rfl, rfl, rfl, fun y hy => Talk.set_other hy,
          .inr ⟨w, Talk.set_same _ _ _⟩, ?_⟩
        simp only [Fitting, Talk.set_same]
        exact ⟨trivial, _, _, hcar⟩
      | unclear =>
        refine ⟨_, rfl, rfl, rfl, fun y hy => Talk.set_other hy,
          .inr ⟨w, Talk.set_same _ _ _⟩, ?_⟩
        simp only [Fitting, Talk.set_same]
        exact ⟨trivial, _, _, hcar⟩
      | sent v =>
        simp only [hu] at hf
        obtain ⟨rfl, d', e', hv⟩ := hf
        have hs := sameMessage_of hv hcar
        simp only [hs, Bool.and_self, if_true]
        refine ⟨_, rfl, rfl, rfl, fun y hy => rfl, .inr ⟨v, hu⟩, ?_⟩
        simp only [Fitting, hu]
        exact ⟨trivial, _, _, hv⟩
      | old v =>
        simp only [hu] at hf
        obtain ⟨rfl, d', e', hv⟩ := hf
        have hs := sameMessage_of hv hcar
        simp only [hs, Bool.and_self, if_true]
        refine ⟨_, rfl, rfl, rfl, fun y hy => Talk.set_other hy,
          .inr ⟨v, Talk.set_same _ _ _⟩, ?_⟩
        simp only [Fitting, Talk.set_same]
        exact ⟨trivial, _, _, hv⟩
      | answered => exact absurd hu ha
      | released => simp only [hu] at hf
    | _ => cases hc

/-- Nothing is sent. -/
theorem attempt_silent {l c : Bool} {t : Talk} {e : PStatus PubPacket} {now : Nat}
    (hf : Fitting pr l c t e) (hx : (e.attempt exp now).2.1 = none) :
    Fitting pr l c t (e.attempt exp now).1 := by
  cases e with
  | complete => exact hf
  | pubrec n q => cases hx
  | new a n q p d =>
    simp only [PStatus.attempt] at hx ⊢
    split at hx <;> rename_i hv
    · cases hx
    · split at hx
      · rename_i hn
        rw [if_pos hn]
        exact hf
      · cases hx

/-- What is sent gets lost. -/
theorem attempt_weak {t : Talk} {e : PStatus PubPacket} {now : Nat}
    (hf : Fitting pr true true t e) : Fitting pr true true t (e.attempt exp now).1 := by
  cases e with
  | complete => exact hf
  | pubrec n q => exact hf
  | new a n q p d =>
    have : ((PStatus.new a n q p d).attempt exp now).1 = .new a n q p d ∨
        ((PStatus.new a n q p d).attempt exp now).1 = .new a now q p true := by
      simp only [PStatus.attempt]
      split
      · exact .inr rfl
      · split
        · exact .inl rfl
        · exact .inr rfl
    rcases this with h | h <;> rw [h]
    · exact hf
    · unfold Fitting at hf ⊢
      simp only at hf ⊢
      split <;> rename_i hu <;> simp only [hu] at hf
      · exact fun _ => trivial
      · exact fun _ => trivial
      · exact ⟨trivial, hf.2⟩
      · exact ⟨trivial, hf.2⟩
      · exact ⟨trivial, trivial⟩

theorem attempt_quiet_pid {e : PStatus PubPacket} {now : Nat} (hp : e.pid? = none) :
    (e.attempt exp now).2.1 = none := by
  cases e with
  | complete => rfl
  | pubrec n q => cases hp
  | new a n q p d => cases hp

theorem sweep_talk {T : Nat} {clk : Clock} (n cur i : Nat) (ps : List (PStatus PubPacket)) {t : Talk}
    (hnd : (ps.filterMap PStatus.pid?).Nodup) (h0 : (0 : Pid) ∉ ps.filterMap PStatus.pid?)
    (hq : ∀ p ∈ ps.filterMap PStatus.msg?, p.qos ≠ 0)
    (hf : ∀ e ∈ ps, Fitting pr t.again false t e) (ha : ∀ pid, t.use pid ≠ .answered)
    {os : List OutPkt} (hc : CarriesAll pr (sweep exp T clk n cur i ps).2.1 os) :
    ∃ t', seesAll t os = some t' ∧ t'.again = t.again ∧ t'.heard = t.heard ∧
      (∀ pid, t'.use pid = t.use pid ∨
        (∃ w, t'.use pid = .sent w) ∧ pid ∈ (ps.take n).filterMap PStatus.pid?) ∧
      ∀ e ∈ (sweep exp T clk n cur i ps).1, Fitting pr t.again false t' e := by
  induction ps generalizing n cur i t os with
  | nil =>
    have : (sweep exp T clk n cur i []).2.1 = [] ∧ (sweep exp T clk n cur i []).1 = [] := by
      cases n <;> exact ⟨rfl, rfl⟩
    rw [this.1] at hc
    cases hc
    exact ⟨t, rfl, rfl, rfl, fun _ => .inl rfl, by rw [this.2]; exact fun e he => by cases he⟩
  | cons s ss ih =>
    cases n with
    | zero =>
      rw [sweep] at hc
      cases hc
      exact ⟨t, rfl, rfl, rfl, fun _ => .inl rfl, hf⟩
    | succ n =>
      have hsub : (ss.filterMap PStatus.pid?).Sublist ((s :: ss).filterMap PStatus.pid?) :=
        (List.sublist_cons_self s ss).filterMap _
      have hnd' := hsub.nodup hnd
      have h0' : (0 : Pid) ∉ ss.filterMap PStatus.pid? := fun h => h0 (hsub.subset h)
      have hq' : ∀ p ∈ ss.filterMap PStatus.msg?, p.qos ≠ 0 := fun p hp =>
        hq p (((List.sublist_cons_self s ss).filterMap _).subset hp)
      have hfs := hf s (by simp)
      have hfss : ∀ e ∈ ss, Fitting pr t.again false t e := fun e he => hf e (by simp [he])
      have hmono : ∀ pid, pid ∈ (ss.take n).filterMap PStatus.pid? →
          pid ∈ ((s :: ss).take (n + 1)).filterMap PStatus.pid? := by
        intro pid h
        rw [List.take_succ_cons]
        exact ((List.sublist_cons_self s _).filterMap _).subset h
      have hown : ∀ pid, s.pid? = some pid → pid ∉ ss.filterMap PStatus.pid? := by
        intro pid hp
        rw [List.filterMap_cons, hp] at hnd
        exact (List.nodup_cons.1 hnd).1
      have htake : ∀ pid, pid ∈ (ss.take n).filterMap PStatus.pid? → pid ∈ ss.filterMap PStatus.pid? :=
        fun pid h => ((List.take_sublist n ss).filterMap _).subset h
      -- the rest leaves the first entry alone
      have hkeep : ∀ (t1 t' : Talk) (e : PStatus PubPacket), e.pid? = s.pid? →
          t'.heard = t1.heard →
          (∀ pid, t'.use pid = t1.use pid ∨
            (∃ w, t'.use pid = .sent w) ∧ pid ∈ (ss.take n).filterMap PStatus.pid?) →
          Fitting pr t.again false t1 e → Fitting pr t.again false t' e := by
        intro t1 t' e he hh hu hfit
        refine hfit.congr (fun pid hpid => ?_) (fun pid h => by rw [hh]; exact h)
        rcases hu pid with h | ⟨_, h⟩
        · exact h
        · exact absurd (htake pid h) (hown pid (by rw [← he]; exact hpid))
      rw [sweep] at hc ⊢
      split at hc
      · rename_i hr
        rw [if_pos hr]
        obtain ⟨os1, os2, rfl, hc1, hc2⟩ := hc.split
        cases hx : (s.attempt exp (clk.sent i)).2.1 with
        | none =>
          rw [hx] at hc1
          cases hc1
          obtain ⟨t', k1, k2, k3, k4, k5⟩ := ih n (i + 1) (i + 1) hnd' h0' hq' hfss ha hc2
          refine ⟨t', k1, k2, k3, fun pid => ?_, ?_⟩
          · rcases k4 pid with h | ⟨h, h'⟩
            · exact .inl h
            · exact .inr ⟨h, hmono pid h'⟩
          · intro e he
            rcases List.mem_cons.1 he with rfl | he
            · exact hkeep t t' _ (attempt_pid _ _ _) k3 k4 (attempt_silent hfs hx)
            · exact k5 e he
        | some x =>
          rw [hx] at hc1
          have hpid : ∃ pid, s.pid? = some pid := by
            cases hp : s.pid? with
            | none => rw [attempt_quiet_pid hp] at hx; cases hx
            | some pid => exact ⟨pid, rfl⟩
          obtain ⟨pid, hpid⟩ := hpid
          have hc1' : ∃ o, os1 = [o] ∧ Carries pr x o := by
            simp only [Option.toList_some] at hc1
            cases hc1 with
            | cons h1 h2 => cases h2; exact ⟨_, rfl, h1⟩
          obtain ⟨o, rfl, hcar⟩ := hc1'
          obtain ⟨t1, j1, j2, j3, j4, j5, j6⟩ := attempt_talk hpid
            (fun h => h0 (by rw [← h, List.filterMap_cons, hpid]; simp))
            (fun p hp => hq p (by rw [List.filterMap_cons, hp]; simp)) hfs (ha pid) hx hcar
          have hfss1 : ∀ e ∈ ss, Fitting pr t1.again false t1 e := by
            intro e he
            rw [j2]
            refine (hfss e he).congr (fun y hy => j4 y ?_) (fun y h => by rw [j3]; exact h)
            rintro rfl
            exact hown y hpid (List.mem_filterMap.2 ⟨e, he, hy⟩)
          have ha1 : ∀ y, t1.use y ≠ .answered := by
            intro y
            by_cases hy : y = pid
            · subst hy
              rcases j5 with h | ⟨w, h⟩ <;> rw [h]
              · exact ha y
              · exact fun h => by cases h
            · rw [j4 y hy]; exact ha y
          obtain ⟨t', k1, k2, k3, k4, k5⟩ := ih n (i + 1) (i + 1) hnd' h0' hq' hfss1 ha1 hc2
          refine ⟨t', ?_, k2.trans j2, k3.trans j3, fun y => ?_, ?_⟩
          · rw [List.singleton_append, seesAll_cons, j1]
            exact k1
          · rcases k4 y with h | ⟨h, h'⟩
            · by_cases hy : y = pid
              · subst hy
                rcases j5 with h5 | ⟨w, h5⟩
                · exact .inl (h.trans h5)
                · refine .inr ⟨⟨w, h.trans h5⟩, ?_⟩
                  rw [List.take_succ_cons, List.filterMap_cons, hpid]
                  simp
              · exact .inl (h.trans (j4 y hy))
            · exact .inr ⟨h, hmono y h'⟩
          · intro e he
            rcases List.mem_cons.1 he with rfl | he
            · exact hkeep t1 t' _ (attempt_pid _ _ _) k3 k4 j6
            · rw [← j2]; exact k5 e he
      · rename_i hr
        rw [if_neg hr]
        obtain ⟨t', k1, k2, k3, k4, k5⟩ := ih n cur (i + 1) hnd' h0' hq' hfss ha hc
        refine ⟨t', k1, k2, k3, fun pid => ?_, ?_⟩
        · rcases k4 pid with h | ⟨h, h'⟩
          · exact .inl h
          · exact .inr ⟨h, hmono pid h'⟩
        · intro e he
          rcases List.mem_cons.1 he with rfl | he
          · exact hkeep t t' _ rfl k3 k4 hfs
          · exact k5 e he

theorem handlePendings_drop (clk : Clock) (q : Pending PubPacket) {e : PStatus PubPacket}
    (h : e ∈ (q.handlePendings exp clk).1.packets.drop q.maxInflight) :
    e ∈ q.cleanComplete.packets.drop q.maxInflight := by
  have h1 := completeAll_drop (q.swept exp clk).2.2
    ({ q with packets := (q.swept exp clk).1 } : Pending PubPacket)
  have h2 : (q.afterSweep exp clk).packets.drop q.maxInflight =
      q.cleanComplete.packets.drop q.maxInflight := h1.trans (swept_drop exp clk q)
  rw [Pending.handlePendings_eq] at h
  simp only at h
  split at h
  · rw [← h2]; exact h
  · rw [← h2]; exact drop_dropWhile_subset h

theorem clean_pids (q : Pending PubPacket) :
    q.cleanComplete.packets.filterMap PStatus.pid? = q.packets.filterMap PStatus.pid? :=
  filterMap_dropWhile _ rfl _

theorem drop_take_disjoint {l : List (PStatus PubPacket)} {n : Nat}
    (h : (l.filterMap PStatus.pid?).Nodup) {e : PStatus PubPacket} {pid : Pid} (he : e ∈ l.drop n)
    (hp : e.pid? = some pid) : pid ∉ (l.take n).filterMap PStatus.pid? := by
  intro h1
  rw [← List.take_append_drop n l, List.filterMap_append, List.nodup_append] at h
  exact h.2.2 pid h1 pid (List.mem_filterMap.2 ⟨e, he, hp⟩) rfl

theorem step_nodup {s : Sender PubPacket} {op : SendOp PubPacket} (hd : delivered [op] = [])
    (h : s.pids.Nodup) (h0 : (0 : Pid) ∉ s.pids) (hq : ∀ p ∈ s.msgs, p.qos ≠ 0) :
    (s.step exp op).1.pids.Nodup ∧ (0 : Pid) ∉ (s.step exp op).1.pids ∧
      ∀ p ∈ (s.step exp op).1.msgs, p.qos ≠ 0 := by
  have h1 := step_pids_sublist exp s op
  have h2 := step_msgs exp s op
  rw [hd] at h1 h2
  rw [List.map_nil, List.append_nil] at h1
  rw [List.append_nil] at h2
  exact ⟨h1.nodup h, fun h => h0 (h1.subset h), fun p hp => hq p (h2.subset hp)⟩

theorem pass_talk {s : Sender PubPacket} {t : Talk} {clk : Clock}
    (h : Concord pr t.again false s t) {os : List OutPkt}
    (hc : CarriesAll pr (s.step exp (.pass clk)).2 os) :
    ∃ t', seesAll t os = some t' ∧ t'.again = t.again ∧
      Concord pr t'.again false (s.step exp (.pass clk)).1 t' ∧
      ∀ pid, t'.use pid = t.use pid ∨ (∃ w, t'.use pid = .sent w) ∧ pid ∈ s.pids := by
  have hsent : (s.step exp (.pass clk)).2 = (s.pending.swept exp clk).2.1 := by
    simp only [Sender.step]
    rw [Pending.handlePendings_eq]
  rw [hsent] at hc
  have hsub : s.pending.cleanComplete.packets.Sublist s.pending.packets := List.dropWhile_sublist _
  have hnd : (s.pending.cleanComplete.packets.filterMap PStatus.pid?).Nodup := by
    rw [clean_pids]; exact h.nodup
  obtain ⟨t', k1, k2, k3, k4, k5⟩ := sweep_talk (exp := exp) (T := s.pending.timeout) (clk := clk)
    s.pending.cleanComplete.window 0 0 s.pending.cleanComplete.packets (t := t) hnd
    (by rw [clean_pids]; exact h.nonzero) (fun p hp => h.qos p ((hsub.filterMap _).subset hp))
    (fun e he => h.fits e (hsub.subset he)) (h.ans rfl) hc
  obtain ⟨n1, n2, n3⟩ := step_nodup (exp := exp) (op := .pass clk) rfl h.nodup h.nonzero h.qos
  have hmi : (s.step exp (.pass clk)).1.pending.maxInflight = s.pending.maxInflight :=
    (handlePendings_params exp clk s.pending).1
  refine ⟨t', k1, k2, ⟨n1, n2, n3, ?_, ?_, ?_, ?_⟩, ?_⟩
  · intro e he
    rw [k2]
    rcases mem_handlePendings he with rfl | he
    · trivial
    · exact k5 e he
  · intro _ e he pid w hp
    rw [hmi] at he
    have he' := handlePendings_drop clk s.pending he
    rcases k4 pid with hu | ⟨_, hu⟩
    · rw [hu]
      exact h.out rfl e (drop_dropWhile_subset he') pid w hp
    · exfalso
      refine drop_take_disjoint hnd (n := s.pending.cleanComplete.window) ?_ hp hu
      have := drop_window s.pending.cleanComplete
      rw [this]
      exact he'
  · intro pid hp
    rw [k2]
    rcases k4 pid with hu | ⟨⟨w, hu⟩, _⟩
    · rw [hu] at hp; exact h.old pid hp
    · rw [hu] at hp
      rcases hp with ⟨_, hp⟩ | hp <;> cases hp
  · intro _ pid
    rcases k4 pid with hu | ⟨⟨w, hu⟩, _⟩
    · rw [hu]; exact h.ans rfl pid
    · rw [hu]; exact fun h => by cases h
  · intro pid
    rcases k4 pid with hu | ⟨hu, hm⟩
    · exact .inl hu
    · refine .inr ⟨hu, ?_⟩
      rw [Sender.pids, ← clean_pids]
      exact ((List.take_sublist _ _).filterMap _).subset hm

theorem pass_weak {s : Sender PubPacket} {t : Talk} {clk : Clock}
    (h : Concord pr true true s t) : Concord pr true true (s.step exp (.pass clk)).1 t := by
  obtain ⟨n1, n2, n3⟩ := step_nodup (exp := exp) (op := .pass clk) rfl h.nodup h.nonzero h.qos
  refine ⟨n1, n2, n3, ?_, (fun h => by cases h), fun _ _ => rfl, (fun h => by cases h)⟩
  intro e he
  rcases mem_handlePendings he with rfl | he
  · trivial
  · obtain ⟨e0, h0, h1⟩ := sweep_mem exp _ clk _ _ _ _ e he
    have hf := h.fits e0 ((List.dropWhile_sublist _).subset h0)
    rcases h1 with rfl | ⟨k, rfl⟩
    · exact hf
    · exact attempt_weak hf

/-! ### A new message -/

/-- The identifier is in use. -/
def PidUse.busy : PidUse → Prop
  | .idle => False
  | .unclear => False
  | _ => True

theorem deliver_talk {l c : Bool} {s : Sender PubPacket} {t : Talk} {now : Nat} {p : PubPacket}
    (h : Concord pr l c s t) (hq : p.qos ≠ 0) (h0 : s.nextPid ≠ 0) (hn : s.nextPid ∉ s.pids)
    (hu : ¬ (t.use s.nextPid).busy) : Concord pr l c (s.step exp (.deliver now p)).1 t := by
  have hsub : s.pending.cleanComplete.packets.Sublist s.pending.packets := List.dropWhile_sublist _
  have hpids := clean_pids s.pending
  have hps : (s.step exp (.deliver now p)).1.pids = s.pids ∨
      (s.step exp (.deliver now p)).1.pids = s.pids ++ [s.nextPid] := by
    unfold Sender.pids
    simp only [Sender.step, Pending.pushBack]
    split
    · exact .inl hpids
    · right
      simp only [List.filterMap_append, hpids]
      rfl
  have hout : ∀ e ∈ (s.step exp (.deliver now p)).1.pending.packets.drop
      (s.step exp (.deliver now p)).1.pending.maxInflight,
      e ∈ s.pending.packets.drop s.pending.maxInflight ∨ e = .new now 0 s.nextPid p false := by
    intro e he
    simp only [Sender.step, Pending.pushBack] at he
    split at he
    · exact .inl (drop_dropWhile_subset he)
    · simp only [List.drop_append, List.mem_append] at he
      rcases he with he | he
      · exact .inl (drop_dropWhile_subset he)
      · exact .inr (List.mem_singleton.1 (List.mem_of_mem_drop he))
  refine ⟨?_, ?_, ?_, ?_, ?_, h.old, h.ans⟩
  · rcases hps with e | e <;> rw [e]
    · exact h.nodup
    · rw [List.nodup_append]
      refine ⟨h.nodup, by simp, fun a ha b hb => ?_⟩
      rw [List.mem_singleton.1 hb]
      rintro rfl
      exact hn ha
  · rcases hps with e | e <;> rw [e]
    · exact h.nonzero
    · intro hm
      rcases List.mem_append.1 hm with hm | hm
      · exact h.nonzero hm
      · exact h0 (List.mem_singleton.1 hm).symm
  · intro x hx
    rcases List.mem_append.1 ((step_msgs exp s (.deliver now p)).subset hx) with hx | hx
    · exact h.qos x hx
    · rw [show delivered [SendOp.deliver now p] = [p] from rfl, List.mem_singleton] at hx
      rw [hx]; exact hq
  · intro e he
    have : e ∈ s.pending.packets ∨ e = .new now 0 s.nextPid p false := by
      simp only [Sender.step, Pending.pushBack] at he
      split at he
      · exact .inl (hsub.subset he)
      · simp only [List.mem_append, List.mem_singleton] at he
        exact he.imp (fun h => hsub.subset h) id
    rcases this with he | rfl
    · exact h.fits e he
    · unfold Fitting
      simp only
      cases hx : t.use s.nextPid <;> rw [hx] at hu <;> simp [PidUse.busy] at hu ⊢
  · intro hcl e he pid w hp hw
    rcases hout e he with he | rfl
    · exact h.out hcl e he pid w hp hw
    · cases hp
      rw [hw] at hu
      exact hu trivial

/-! ### Acknowledgements -/

theorem upd_mem {f : PStatus PubPacket → Option (PStatus PubPacket)} {n : Nat}
    {ps : List (PStatus PubPacket)} {target : Pid} (hnd : (ps.filterMap PStatus.pid?).Nodup)
    (hf : ∀ e e', f e = some e' → e.pid? = some target) :
    ∀ e' ∈ (updFirst f n ps).getD ps,
      (e' ∈ ps ∧ (f e' = none ∨ e' ∈ ps.drop n)) ∨ ∃ e ∈ ps, f e = some e' := by
  intro e' he
  cases hu : updFirst f n ps with
  | none =>
    rw [hu] at he
    have he : e' ∈ ps := he
    refine .inl ⟨he, ?_⟩
    rw [← List.take_append_drop n ps, List.mem_append] at he
    exact he.imp (fun h => updFirst_none hu e' h) id
  | some ps' =>
    rw [hu] at he
    have he : e' ∈ ps' := he
    obtain ⟨pre, s, s', post, rfl, rfl, h3, _, h5⟩ := updFirst_some hu
    have he : e' ∈ pre ++ s' :: post := he
    rw [List.mem_append, List.mem_cons] at he
    rcases he with he | rfl | he
    · exact .inl ⟨by simp [he], .inl (h5 e' he)⟩
    · exact .inr ⟨s, by simp, h3⟩
    · refine .inl ⟨by simp [he], .inl ?_⟩
      cases hx : f e' with
      | none => rfl
      | some x =>
        exfalso
        rw [List.filterMap_append, List.filterMap_cons, hf _ _ h3, List.nodup_append] at hnd
        exact (List.nodup_cons.1 hnd.2.1).1 (List.mem_filterMap.2 ⟨e', he, hf _ _ hx⟩)

theorem puback_use (t : Talk) (pid x : Pid) (h : x ≠ pid) : (t.puback pid).use x = t.use x := by
  unfold Talk.puback
  split <;> first | rfl | exact Talk.set_other h

theorem puback_rest (t : Talk) (pid : Pid) :
    (t.puback pid).heard = t.heard ∧ (t.puback pid).again = t.again := by
  unfold Talk.puback
  split <;> exact ⟨rfl, rfl⟩

theorem pubcomp_use (t : Talk) (pid x : Pid) (h : x ≠ pid) : (t.pubcomp pid).use x = t.use x := by
  unfold Talk.pubcomp
  split <;> first | rfl | exact Talk.set_other h

theorem pubcomp_rest (t : Talk) (pid : Pid) :
    (t.pubcomp pid).heard = t.heard ∧ (t.pubcomp pid).again = t.again := by
  unfold Talk.pubcomp
  split <;> exact ⟨rfl, rfl⟩

theorem pubrec_use (t : Talk) (pid x : Pid) (h : x ≠ pid) : (t.pubrec pid).use x = t.use x := by
  unfold Talk.pubrec
  simp only
  split <;> first | rfl | exact Talk.set_other h

theorem pubrec_rest (t : Talk) (pid : Pid) :
    (∀ x, (t.pubrec pid).heard x = (decide (x = pid) || t.heard x)) ∧
    (t.pubrec pid).again = t.again := by
  unfold Talk.pubrec
  simp only
  split <;> exact ⟨fun _ => rfl, rfl⟩

/-- What becomes of the use of an identifier. -/
def PidUse.puback : PidUse → PidUse
  | .sent _ => .idle
  | .old _ => .unclear
  | u => u

def PidUse.pubrec : PidUse → PidUse
  | .sent _ => .answered
  | .old _ => .unclear
  | u => u

def PidUse.pubcomp : PidUse → PidUse
  | .released => .idle
  | u => u

theorem puback_same (t : Talk) (pid : Pid) : (t.puback pid).use pid = (t.use pid).puback := by
  unfold Talk.puback
  split <;> rename_i h
  · rw [h]; exact Talk.set_same _ _ _
  · rw [h]; exact Talk.set_same _ _ _
  · cases hu : t.use pid <;> simp_all [PidUse.puback]

theorem pubrec_same (t : Talk) (pid : Pid) : (t.pubrec pid).use pid = (t.use pid).pubrec := by
  unfold Talk.pubrec
  simp only
  split <;> rename_i h
  · rw [h]; exact Talk.set_same _ _ _
  · rw [h]; exact Talk.set_same _ _ _
  · cases hu : t.use pid <;> simp_all [PidUse.pubrec]

theorem pubcomp_same (t : Talk) (pid : Pid) : (t.pubcomp pid).use pid = (t.use pid).pubcomp := by
  unfold Talk.pubcomp
  split <;> rename_i h
  · rw [h]; exact Talk.set_same _ _ _
  · cases hu : t.use pid <;> simp_all [PidUse.pubcomp]

theorem complete_pid {pid : Pid} {qos : QoS} (e e' : PStatus PubPacket)
    (h : completeStatus pid qos e = some e') : e.pid? = some pid := (completeStatus_some h).2

theorem pubrec_pid {pid : Pid} {now : Nat} (e e' : PStatus PubPacket)
    (h : pubrecStatus now pid e = some e') : e.pid? = some pid := by
  obtain ⟨_, a, l, p, d, rfl⟩ := pubrecStatus_some h
  rfl

theorem puback_talk {s : Sender PubPacket} {t : Talk} {pid : Pid} (h : Concord pr t.again false s t) :
    Concord pr t.again false (s.step exp (.puback pid)).1 (t.puback pid) := by
  obtain ⟨n1, n2, n3⟩ := step_nodup (exp := exp) (op := .puback pid) rfl h.nodup h.nonzero h.qos
  obtain ⟨g1, g2⟩ := complete_getD s.pending pid 1
  obtain ⟨r1, r2⟩ := puback_rest t pid
  refine ⟨n1, n2, n3, ?_, ?_, ?_, ?_⟩
  · intro e he
    have he : e ∈ (s.pending.complete pid 1).1.packets := he
    rw [g1] at he
    rcases upd_mem h.nodup complete_pid e he with ⟨he, hor⟩ | ⟨e0, _, he⟩
    · have hf := h.fits e he
      by_cases hp : e.pid? = some pid
      · cases e with
        | complete => trivial
        | pubrec n q =>
          cases hp
          obtain ⟨f1, f2, f3⟩ := hf
          refine ⟨by rw [r1]; exact f1, ?_, ?_⟩ <;> rw [puback_same] <;>
            cases hu : t.use pid <;> simp_all [PidUse.puback]
        | new a n q p d =>
          cases hp
          have hdrop : PStatus.new a n pid p d ∈ s.pending.packets.drop s.pending.maxInflight := by
            rcases hor with hor | hor
            · simp [completeStatus] at hor
            · rw [← drop_window]; exact hor
          have hns := h.out rfl _ hdrop pid
          have hold := h.old pid
          have hans := h.ans rfl pid
          unfold Fitting at hf ⊢
          simp only [puback_same] at hf ⊢
          cases hu : t.use pid with
          | idle => simpa [hu, PidUse.puback] using hf
          | unclear => simpa [hu, PidUse.puback] using hf
          | sent w => exact absurd hu (hns w rfl)
          | old w =>
            simp only [PidUse.puback]
            exact fun _ => hold (.inl ⟨w, hu⟩)
          | answered => exact absurd hu hans
          | released => simp [hu] at hf
      · refine hf.congr (fun y hy => puback_use _ _ _ ?_) (fun y hy => by rw [r1]; exact hy)
        rintro rfl
        exact hp hy
    · rw [(completeStatus_some he).1]
      trivial
  · intro _ e he q w hq
    have hm : (s.step exp (.puback pid)).1.pending.maxInflight = s.pending.maxInflight := g2
    rw [hm] at he
    have he : e ∈ (s.pending.complete pid 1).1.packets.drop s.pending.maxInflight := he
    rw [complete_drop] at he
    have := h.out rfl e he q w hq
    by_cases hqp : q = pid
    · subst hqp
      rw [puback_same]
      cases hu : t.use q <;> simp_all [PidUse.puback]
    · rw [puback_use _ _ _ hqp]; exact this
  · intro q hq
    by_cases hqp : q = pid
    · subst hqp
      rw [puback_same] at hq
      refine h.old q ?_
      cases hu : t.use q <;> simp_all [PidUse.puback]
    · rw [puback_use _ _ _ hqp] at hq; exact h.old q hq
  · intro _ q
    have := h.ans rfl q
    by_cases hqp : q = pid
    · subst hqp
      rw [puback_same]
      cases hu : t.use q <;> simp_all [PidUse.puback]
    · rw [puback_use _ _ _ hqp]; exact this

theorem pubcomp_talk {s : Sender PubPacket} {t : Talk} {pid : Pid} (h : Concord pr t.again false s t) :
    Concord pr t.again false (s.step exp (.pubcomp pid)).1 (t.pubcomp pid) := by
  obtain ⟨n1, n2, n3⟩ := step_nodup (exp := exp) (op := .pubcomp pid) rfl h.nodup h.nonzero h.qos
  obtain ⟨g1, g2⟩ := complete_getD s.pending pid 2
  obtain ⟨r1, r2⟩ := pubcomp_rest t pid
  refine ⟨n1, n2, n3, ?_, ?_, ?_, ?_⟩
  · intro e he
    have he : e ∈ (s.pending.complete pid 2).1.packets := he
    rw [g1] at he
    rcases upd_mem h.nodup complete_pid e he with ⟨he, hor⟩ | ⟨e0, _, he⟩
    · have hf := h.fits e he
      by_cases hp : e.pid? = some pid
      · cases e with
        | complete => trivial
        | pubrec n q =>
          cases hp
          obtain ⟨f1, f2, f3⟩ := hf
          refine ⟨by rw [r1]; exact f1, ?_, ?_⟩ <;> rw [pubcomp_same] <;>
            cases hu : t.use pid <;> simp_all [PidUse.pubcomp]
        | new a n q p d =>
          cases hp
          unfold Fitting at hf ⊢
          simp only [pubcomp_same] at hf ⊢
          cases hu : t.use pid <;> simp_all [PidUse.pubcomp]
      · refine hf.congr (fun y hy => pubcomp_use _ _ _ ?_) (fun y hy => by rw [r1]; exact hy)
        rintro rfl
        exact hp hy
    · rw [(completeStatus_some he).1]
      trivial
  · intro _ e he q w hq
    have hm : (s.step exp (.pubcomp pid)).1.pending.maxInflight = s.pending.maxInflight := g2
    rw [hm] at he
    have he : e ∈ (s.pending.complete pid 2).1.packets.drop s.pending.maxInflight := he
    rw [complete_drop] at he
    have := h.out rfl e he q w hq
    by_cases hqp : q = pid
    · subst hqp
      rw [pubcomp_same]
      cases hu : t.use q <;> simp_all [PidUse.pubcomp]
    · rw [pubcomp_use _ _ _ hqp]; exact this
  · intro q hq
    by_cases hqp : q = pid
    · subst hqp
      rw [pubcomp_same] at hq
      refine h.old q ?_
      cases hu : t.use q <;> simp_all [PidUse.pubcomp]
    · rw [pubcomp_use _ _ _ hqp] at hq; exact h.old q hq
  · intro _ q
    have := h.ans rfl q
    by_cases hqp : q = pid
    · subst hqp
      rw [pubcomp_same]
      cases hu : t.use q <;> simp_all [PidUse.pubcomp]
    · rw [pubcomp_use _ _ _ hqp]; exact this

/-- PUBREC and the PUBREL that answers it. -/
theorem pubrec_talk {s : Sender PubPacket} {t : Talk} {now : Nat} {pid : Pid}
    (h : Concord pr t.again false s t) :
    ∃ t', (t.pubrec pid).pubrel pid = some t' ∧ t'.again = t.again ∧
      Concord pr t.again false (s.step exp (.pubrec now pid)).1 t' ∧
      (∀ q, q ≠ pid → t'.use q = t.use q) ∧
      (t'.use pid = (t.use pid).pubrec ∨ t'.use pid = .released ∧ ∃ w, t.use pid = .sent w) := by
  obtain ⟨n1, n2, n3⟩ := step_nodup (exp := exp) (op := .pubrec now pid) rfl h.nodup h.nonzero h.qos
  obtain ⟨g1, g2⟩ := pubrec_getD s.pending now pid
  obtain ⟨r1, r2⟩ := pubrec_rest t pid
  have hhp : (t.pubrec pid).heard pid = true := by rw [r1]; simp
  have hex : ∃ t', (t.pubrec pid).pubrel pid = some t' ∧ t'.again = t.again ∧
      t'.heard = (t.pubrec pid).heard ∧ (∀ q, q ≠ pid → t'.use q = t.use q) ∧
      (t'.use pid = (t.use pid).pubrec ∧ (∀ w, t.use pid ≠ .sent w) ∨
        t'.use pid = .released ∧ ∃ w, t.use pid = .sent w) := by
    unfold Talk.pubrel
    rw [if_pos hhp, pubrec_same]
    cases hu : t.use pid with
    | sent w =>
      refine ⟨_, rfl, r2, rfl, fun q hq => ?_, .inr ⟨Talk.set_same _ _ _, _, rfl⟩⟩
      rw [Talk.set_other hq, pubrec_use _ _ _ hq]
    | answered => exact absurd hu (h.ans rfl pid)
    | _ => exact ⟨_, rfl, r2, rfl, fun q hq => pubrec_use _ _ _ hq, .inl ⟨by rw [pubrec_same, hu], (fun w h => by cases h)⟩⟩
  obtain ⟨t', k1, k2, k3, k4, k5⟩ := hex
  refine ⟨t', k1, k2, ⟨n1, n2, n3, ?_, ?_, ?_, ?_⟩, k4, k5.imp And.left id⟩
  · intro e he
    have he : e ∈ (s.pending.pubrec now pid).1.packets := he
    rw [g1] at he
    have hmark : t'.heard pid = true ∧ (∀ w, t'.use pid ≠ .sent w) ∧ ∀ w, t'.use pid ≠ .old w := by
      refine ⟨by rw [k3]; exact hhp, ?_, ?_⟩ <;>
        rcases k5 with ⟨k5, k6⟩ | ⟨k5, _⟩ <;> rw [k5] <;>
        cases hu : t.use pid <;> simp_all [PidUse.pubrec]
    rcases upd_mem h.nodup pubrec_pid e he with ⟨he, hor⟩ | ⟨e0, _, he⟩
    · have hf := h.fits e he
      by_cases hp : e.pid? = some pid
      · cases e with
        | complete => trivial
        | pubrec n q => cases hp; exact hmark
        | new a n q p d =>
          cases hp
          have hdrop : PStatus.new a n pid p d ∈ s.pending.packets.drop s.pending.maxInflight := by
            rcases hor with hor | hor
            · simp [pubrecStatus] at hor
            · rw [← drop_window]; exact hor
          have hns := h.out rfl _ hdrop pid
          have hold := h.old pid
          rcases k5 with ⟨k5, _⟩ | ⟨_, w, k5⟩
          · unfold Fitting at hf ⊢
            simp only [k5] at hf ⊢
            cases hu : t.use pid with
            | idle => simpa [hu, PidUse.pubrec] using hf
            | unclear => simpa [hu, PidUse.pubrec] using hf
            | sent w => exact absurd hu (hns w rfl)
            | old w =>
              simp only [PidUse.pubrec]
              exact fun _ => hold (.inl ⟨w, hu⟩)
            | answered => exact absurd hu (h.ans rfl pid)
            | released => simp [hu] at hf
          · exact absurd k5 (hns w rfl)
      · refine hf.congr (fun y hy => k4 _ ?_) (fun y hy => by rw [k3, r1]; simp [hy])
        rintro rfl
        exact hp hy
    · rw [(pubrecStatus_some he).1]
      exact hmark
  · intro _ e he q w hq
    have hm : (s.step exp (.pubrec now pid)).1.pending.maxInflight = s.pending.maxInflight := g2
    rw [hm] at he
    have he : e ∈ (s.pending.pubrec now pid).1.packets.drop s.pending.maxInflight := he
    rw [pubrec_drop] at he
    have := h.out rfl e he q w hq
    by_cases hqp : q = pid
    · subst hqp
      rcases k5 with ⟨k5, k6⟩ | ⟨k5, _⟩ <;> rw [k5]
      · cases hu : t.use q <;> simp_all [PidUse.pubrec]
      · exact fun h => by cases h
    · rw [k4 _ hqp]; exact this
  · intro q hq
    by_cases hqp : q = pid
    · subst hqp
      refine h.old q ?_
      rcases k5 with ⟨k5, k6⟩ | ⟨k5, _⟩ <;> rw [k5] at hq
      · cases hu : t.use q <;> simp_all [PidUse.pubrec]
      · rcases hq with ⟨_, hq⟩ | hq <;> cases hq
    · rw [k4 _ hqp] at hq; exact h.old q hq
  · intro _ q
    have := h.ans rfl q
    by_cases hqp : q = pid
    · subst hqp
      rcases k5 with ⟨k5, k6⟩ | ⟨k5, _⟩ <;> rw [k5]
      · cases hu : t.use q <;> simp_all [PidUse.pubrec]
      · exact fun h => by cases h
    · rw [k4 _ hqp]; exact this

/-! ### At the end of a connection -/

/-- The client has answered, but the answer has not come through. -/
theorem puback_weak {l : Bool} {s : Sender PubPacket} {t : Talk} (pid : Pid)
    (h : Concord pr l false s t) : Concord pr true true s (t.puback pid) := by
  obtain ⟨r1, r2⟩ := puback_rest t pid
  refine ⟨h.nodup, h.nonzero, h.qos, fun e he => ?_, (fun h => by cases h), fun _ _ => rfl,
    (fun h => by cases h)⟩
  have hf := (h.fits e he)
  by_cases hp : e.pid? = some pid
  · cases e with
    | complete => trivial
    | pubrec n q =>
      cases hp
      obtain ⟨f1, f2, f3⟩ := hf
      refine ⟨by rw [r1]; exact f1, ?_, ?_⟩ <;> rw [puback_same] <;>
        cases hu : t.use pid <;> simp_all [PidUse.puback]
    | new a n q p d =>
      cases hp
      unfold Fitting at hf ⊢
      simp only [puback_same] at hf ⊢
      cases hu : t.use pid <;> simp_all [PidUse.puback]
  · refine hf.weaken.congr (fun y hy => puback_use _ _ _ ?_) (fun y hy => by rw [r1]; exact hy)
    rintro rfl
    exact hp hy

theorem pubcomp_weak {l : Bool} {s : Sender PubPacket} {t : Talk} (pid : Pid)
    (h : Concord pr l false s t) : Concord pr true true s (t.pubcomp pid) := by
  obtain ⟨r1, r2⟩ := pubcomp_rest t pid
  refine ⟨h.nodup, h.nonzero, h.qos, fun e he => ?_, (fun h => by cases h), fun _ _ => rfl,
    (fun h => by cases h)⟩
  have hf := (h.fits e he)
  by_cases hp : e.pid? = some pid
  · cases e with
    | complete => trivial
    | pubrec n q =>
      cases hp
      obtain ⟨f1, f2, f3⟩ := hf
      refine ⟨by rw [r1]; exact f1, ?_, ?_⟩ <;> rw [pubcomp_same] <;>
        cases hu : t.use pid <;> simp_all [PidUse.pubcomp]
    | new a n q p d =>
      cases hp
      unfold Fitting at hf ⊢
      simp only [pubcomp_same] at hf ⊢
      cases hu : t.use pid <;> simp_all [PidUse.pubcomp]
  · refine hf.weaken.congr (fun y hy => pubcomp_use _ _ _ ?_) (fun y hy => by rw [r1]; exact hy)
    rintro rfl
    exact hp hy

theorem pubrec_weak {l : Bool} {s : Sender PubPacket} {t : Talk} (pid : Pid)
    (h : Concord pr l false s t) : Concord pr true true s (t.pubrec pid) := by
  obtain ⟨r1, r2⟩ := pubrec_rest t pid
  refine ⟨h.nodup, h.nonzero, h.qos, fun e he => ?_, (fun h => by cases h), fun _ _ => rfl,
    (fun h => by cases h)⟩
  have hf := (h.fits e he)
  by_cases hp : e.pid? = some pid
  · cases e with
    | complete => trivial
    | pubrec n q =>
      cases hp
      obtain ⟨f1, f2, f3⟩ := hf
      refine ⟨by rw [r1]; simp, ?_, ?_⟩ <;> rw [pubrec_same] <;>
        cases hu : t.use pid <;> simp_all [PidUse.pubrec]
    | new a n q p d =>
      cases hp
      unfold Fitting at hf ⊢
      simp only [pubrec_same] at hf ⊢
      cases hu : t.use pid <;> simp_all [PidUse.pubrec]
  · refine hf.weaken.congr (fun y hy => pubrec_use _ _ _ ?_) (fun y hy => by rw [r1]; simp [hy])
    rintro rfl
    exact hp hy

theorem complete_weak {s : Sender PubPacket} {t : Talk} {pid : Pid} {op : SendOp PubPacket}
    (h : Concord pr true true s t) (hop : op = .puback pid ∨ op = .pubcomp pid) :
    Concord pr true true (s.step exp op).1 t := by
  obtain ⟨n1, n2, n3⟩ := step_nodup (exp := exp) (op := op) (by rcases hop with rfl | rfl <;> rfl)
    h.nodup h.nonzero h.qos
  refine ⟨n1, n2, n3, fun e he => ?_, (fun h => by cases h), fun _ _ => rfl, (fun h => by cases h)⟩
  have : e = .complete ∨ e ∈ s.pending.packets := by
    rcases hop with rfl | rfl
    · exact mem_complete_new (q := s.pending) (pid := pid) (qos := 1) he
    · exact mem_complete_new (q := s.pending) (pid := pid) (qos := 2) he
  rcases this with rfl | he
  · trivial
  · exact h.fits e he

theorem pubrec_op_weak {s : Sender PubPacket} {t : Talk} {now : Nat} {pid : Pid}
    (h : Concord pr true true s t) (hh : t.heard pid = true) (h1 : ∀ w, t.use pid ≠ .sent w)
    (h2 : ∀ w, t.use pid ≠ .old w) : Concord pr true true (s.step exp (.pubrec now pid)).1 t := by
  obtain ⟨n1, n2, n3⟩ := step_nodup (exp := exp) (op := .pubrec now pid) rfl h.nodup h.nonzero h.qos
  refine ⟨n1, n2, n3, fun e he => ?_, (fun h => by cases h), fun _ _ => rfl, (fun h => by cases h)⟩
  have he : e ∈ (s.pending.pubrec now pid).1.packets := he
  rw [(pubrec_getD s.pending now pid).1] at he
  rcases upd_mem h.nodup pubrec_pid e he with ⟨he, _⟩ | ⟨e0, _, he⟩
  · exact h.fits e he
  · rw [(pubrecStatus_some he).1]
    exact ⟨hh, h1, h2⟩

/-- A new connection. -/
theorem connect_talk {s : Sender PubPacket} {t : Talk} {m : Option Nat}
    (h : Concord pr true true s t) :
    Concord pr true false (s.step exp (.reconnect m)).1 (t.connect true) := by
  obtain ⟨n1, n2, n3⟩ := step_nodup (exp := exp) (op := .reconnect m) rfl h.nodup h.nonzero h.qos
  have hns : ∀ pid w, (t.connect true).use pid ≠ .sent w := by
    intro pid w
    simp only [Talk.connect]
    split <;> simp_all
  refine ⟨n1, n2, n3, fun e he => ?_, fun _ e _ pid w _ => hns pid w, fun _ _ => rfl, fun _ pid => ?_⟩
  · rw [reconnect_packets, List.mem_map] at he
    obtain ⟨e, he, rfl⟩ := he
    have hf := h.fits e he
    cases e with
    | complete => trivial
    | pubrec n q =>
      obtain ⟨f1, f2, f3⟩ := hf
      refine ⟨f1, hns q, fun w => ?_⟩
      simp only [Talk.connect]
      split <;> simp_all
    | new a n q p d =>
      unfold Fitting at hf
      simp only at hf
      simp only [PStatus.reset, Fitting, Talk.connect]
      cases hu : t.use q <;> simp_all
  · simp only [Talk.connect]
    split <;> simp_all

/-! ## The supply of identifiers -/

/-- Where new packet identifiers come from.  `long`: no message is dropped or expires; else: few
messages. -/
structure Supply (long : Bool) (exp : PubPacket → Option Nat) (k : Nat) (s : Sender PubPacket)
    (t : Talk) : Prop where
  next : s.nextPid = pidOf k
  pids : long = false → ∀ pid ∈ s.pids, ∃ j, j < k ∧ pid = pidOf j
  used : long = false → ∀ pid, t.use pid ≠ .idle → ∃ j, j < k ∧ pid = pidOf j
  inv : long = true → PidInv s k
  busy : long = true → ∀ pid, (t.use pid).busy → pid ∈ s.pids
  plain : long = true → ∀ p ∈ s.msgs, exp p = none

/-- There is room for these messages. -/
structure Room (long : Bool) (exp : PubPacket → Option Nat) (k : Nat) (s : Sender PubPacket)
    (ds : List PubPacket) : Prop where
  qos : ∀ p ∈ ds, p.qos ≠ 0
  few : long = false → k + ds.length ≤ 65535
  plain : long = true → ∀ p ∈ ds, exp p = none
  space : long = true → s.pending.packets.length + ds.length ≤ s.pending.maxPackets
  max : long = true → s.pending.maxPackets ≤ 65535

theorem step_len (s : Sender PubPacket) (op : SendOp PubPacket) :
    (s.step exp op).1.pending.packets.length ≤ s.pending.packets.length + (delivered [op]).length := by
  have hd := (List.dropWhile_sublist PStatus.isComplete (l := s.pending.packets)).length_le
  cases op with
  | deliver now p =>
    simp only [Sender.step, Pending.pushBack, delivered, List.length_singleton]
    split
    · exact Nat.le_trans hd (Nat.le_succ _)
    · simp only [List.length_append, List.length_singleton]
      exact Nat.succ_le_succ hd
  | pass clk => exact (handlePendings_params exp clk s.pending).2.2.2
  | puback pid => exact Nat.le_of_eq (complete_params s.pending pid 1).2.2.2
  | pubrec now pid => exact Nat.le_of_eq (pubrec_params s.pending now pid).2.2.2
  | pubcomp pid => exact Nat.le_of_eq (complete_params s.pending pid 2).2.2.2
  | reconnect m =>
    rw [reconnect_packets, List.length_map]
    exact Nat.le_refl _

theorem delivered_cons (op : SendOp PubPacket) (ops : List (SendOp PubPacket)) :
    delivered (op :: ops) = delivered [op] ++ delivered ops := by
  cases op <;> simp [delivered]

theorem Room.tail {long : Bool} {k : Nat} {s : Sender PubPacket} {op : SendOp PubPacket}
    {ops : List (SendOp PubPacket)} (h : Room long exp k s (delivered (op :: ops))) :
    Room long exp (k + (delivered [op]).length) (s.step exp op).1 (delivered ops) := by
  rw [delivered_cons] at h
  have hm : (s.step exp op).1.pending.maxPackets = s.pending.maxPackets :=
    (exec_params exp s [op]).2.1
  have hl := step_len (exp := exp) s op
  refine ⟨fun p hp => h.qos p (List.mem_append_right _ hp), fun hb => ?_,
    fun hb p hp => h.plain hb p (List.mem_append_right _ hp), fun hb => ?_, fun hb => ?_⟩
  · have := h.few hb
    rw [List.length_append] at this
    omega
  · have := h.space hb
    rw [List.length_append] at this
    rw [hm]
    omega
  · rw [hm]; exact h.max hb

/-- The next identifier is not in use. -/
theorem Supply.fresh {long : Bool} {k : Nat} {s : Sender PubPacket} {t : Talk}
    (h : Supply long exp k s t) {p : PubPacket} {ds : List PubPacket}
    (hr : Room long exp k s (p :: ds)) :
    s.nextPid ≠ 0 ∧ s.nextPid ∉ s.pids ∧ ¬ (t.use s.nextPid).busy := by
  refine ⟨?_, ?_⟩
  · rw [h.next]
    intro h0
    have := (pidOf_range k).1
    rw [show pidOf k = 0 from h0] at this
    omega
  · cases long with
    | false =>
      have hk := hr.few rfl
      rw [List.length_cons] at hk
      have hnot : ¬ ∃ j, j < k ∧ s.nextPid = pidOf j := by
        rintro ⟨j, hj, he⟩
        rw [h.next] at he
        have := pidOf_inj he (by omega) (by omega)
        omega
      refine ⟨fun hm => hnot (h.pids rfl _ hm), fun hb => hnot (h.used rfl _ fun hi => ?_)⟩
      rw [hi] at hb
      exact hb
    | true =>
      have hs := hr.space rfl
      have hm := hr.max rfl
      rw [List.length_cons] at hs
      have hnot : s.nextPid ∉ s.pids := by
        intro hmem
        obtain ⟨b, hb, hc⟩ := h.inv rfl
        have := hc.sublist.subset hmem
        obtain ⟨j, hj, he⟩ := List.mem_map.1 this
        rw [List.mem_range'_1] at hj
        rw [h.next] at he
        have := pidOf_inj he (by omega) (by omega)
        omega
      exact ⟨hnot, fun hb => hnot (h.busy rfl _ hb)⟩

theorem Supply.step {long : Bool} {k : Nat} {s : Sender PubPacket} {t t' : Talk}
    (h : Supply long exp k s t) {op : SendOp PubPacket} {ops : List (SendOp PubPacket)}
    (hr : Room long exp k s (delivered (op :: ops)))
    (hu : long = false → ∀ pid, t'.use pid ≠ .idle → t.use pid ≠ .idle ∨ pid ∈ s.pids)
    (hb : long = true → ∀ pid, (t'.use pid).busy → pid ∈ (s.step exp op).1.pids) :
    Supply long exp (k + (delivered [op]).length) (s.step exp op).1 t' := by
  have hps := step_pids_sublist exp s op
  rw [delivered_cons] at hr
  have hmono : ∀ {pid : Pid}, (∃ j, j < k ∧ pid = pidOf j) →
      ∃ j, j < k + (delivered [op]).length ∧ pid = pidOf j := by
    rintro pid ⟨j, hj, he⟩
    exact ⟨j, by omega, he⟩
  refine ⟨step_nextPid exp s op h.next, fun hl pid hp => ?_, fun hl pid hp => ?_, fun hl => ?_, hb,
    fun hl p hp => ?_⟩
  · rcases List.mem_append.1 (hps.subset hp) with hp | hp
    · exact hmono (h.pids hl pid hp)
    · have hlen := List.length_pos_of_mem hp
      rw [List.length_map] at hlen
      obtain ⟨p, _, rfl⟩ := List.mem_map.1 hp
      exact ⟨k, by omega, h.next⟩
  · rcases hu hl pid hp with hp | hp
    · exact hmono (h.used hl pid hp)
    · exact hmono (h.pids hl pid hp)
  · refine (h.inv hl).step h.next op fun now p he => ?_
    subst he
    have := hr.space hl
    simp only [delivered, List.length_append, List.length_singleton] at this
    have hd := (List.dropWhile_sublist PStatus.isComplete (l := s.pending.packets)).length_le
    intro hf
    have hf : s.pending.maxPackets ≤ s.pending.cleanComplete.packets.length := hf
    have hf : s.pending.maxPackets ≤ (s.pending.packets.dropWhile PStatus.isComplete).length := hf
    omega
  · rcases List.mem_append.1 ((step_msgs exp s op).subset hp) with hp | hp
    · exact h.plain hl p hp
    · exact hr.plain hl p (List.mem_append_left _ hp)

/-- The client has answered, but the answer has not come through. -/
theorem Supply.same {long : Bool} {k : Nat} {s : Sender PubPacket} {t t' : Talk}
    (h : Supply long exp k s t) (hu : ∀ pid, t'.use pid ≠ .idle → t.use pid ≠ .idle)
    (hb : ∀ pid, (t'.use pid).busy → (t.use pid).busy) : Supply long exp k s t' :=
  { h with used := fun hl pid hp => h.used hl pid (hu pid hp)
           busy := fun hl pid hp => h.busy hl pid (hb pid hp) }

theorem busy_puback (t : Talk) (pid q : Pid) :
    ((t.puback pid).use q ≠ .idle → t.use q ≠ .idle) ∧
    (((t.puback pid).use q).busy → (t.use q).busy) := by
  by_cases hq : q = pid
  · subst hq
    rw [puback_same]
    cases hu : t.use q <;> simp [PidUse.puback, PidUse.busy]
  · rw [puback_use _ _ _ hq]; exact ⟨id, id⟩

theorem busy_pubrec (t : Talk) (pid q : Pid) :
    ((t.pubrec pid).use q ≠ .idle → t.use q ≠ .idle) ∧
    (((t.pubrec pid).use q).busy → (t.use q).busy) := by
  by_cases hq : q = pid
  · subst hq
    rw [pubrec_same]
    cases hu : t.use q <;> simp [PidUse.pubrec, PidUse.busy]
  · rw [pubrec_use _ _ _ hq]; exact ⟨id, id⟩

theorem busy_pubcomp (t : Talk) (pid q : Pid) :
    ((t.pubcomp pid).use q ≠ .idle → t.use q ≠ .idle) ∧
    (((t.pubcomp pid).use q).busy → (t.use q).busy) := by
  by_cases hq : q = pid
  · subst hq
    rw [pubcomp_same]
    cases hu : t.use q <;> simp [PidUse.pubcomp, PidUse.busy]
  · rw [pubcomp_use _ _ _ hq]; exact ⟨id, id⟩

theorem busy_connect (t : Talk) (b : Bool) (q : Pid) :
    ((t.connect b).use q ≠ .idle → t.use q ≠ .idle) ∧
    (((t.connect b).use q).busy → (t.use q).busy) := by
  simp only [Talk.connect]
  cases hu : t.use q <;> simp [PidUse.busy]

theorem pass_pids {s : Sender PubPacket} {clk : Clock} (h : ∀ p ∈ s.msgs, exp p = none) :
    (s.step exp (.pass clk)).1.pids = s.pids := by
  have he : (s.pending.swept exp clk).2.2 = [] := by
    rw [List.eq_nil_iff_forall_not_mem]
    intro x hx
    obtain ⟨a, p, d, v, k, h1, h2, _⟩ := sweep_expired exp _ clk _ _ _ _ x hx
    have h1 := (List.dropWhile_sublist _).subset (List.mem_of_mem_take h1)
    rw [h p (List.mem_filterMap.2 ⟨_, h1, rfl⟩)] at h2
    cases h2
  have : (s.step exp (.pass clk)).1.pending.packets = (s.pending.swept exp clk).1 := by
    simp only [Sender.step]
    rw [Pending.handlePendings_eq, he]
    simp [Pending.afterSweep, he, Pending.completeAll]
  rw [Sender.pids, this]
  show _ = s.pending.packets.filterMap PStatus.pid?
  rw [← clean_pids]
  have h2 := sweep_pids exp s.pending.timeout clk s.pending.cleanComplete.window 0 0
    s.pending.cleanComplete.packets
  have h3 := congrArg (List.filterMap id) h2
  rw [List.filterMap_map, List.filterMap_map] at h3
  exact h3

theorem complete_keeps {s : Sender PubPacket} {pid q : Pid} {qos : QoS} (hq : q ∈ s.pids)
    (h : ∀ e ∈ s.pending.packets, e.pid? = some q → completeStatus pid qos e = none) :
    q ∈ (s.pending.complete pid qos).1.packets.filterMap PStatus.pid? := by
  obtain ⟨e, he, hp⟩ := List.mem_filterMap.1 hq
  exact List.mem_filterMap.2 ⟨e, complete_mem he (h e he hp), hp⟩

theorem completeStatus_other {pid q : Pid} {qos : QoS} {e : PStatus PubPacket}
    (hp : e.pid? = some q) (h : q ≠ pid) : completeStatus pid qos e = none := by
  cases hc : completeStatus pid qos e with
  | none => rfl
  | some e' =>
    rw [(completeStatus_some hc).2] at hp
    cases hp
    exact absurd rfl h

theorem puback_supply {l : Bool} {s : Sender PubPacket} {t : Talk} {pid : Pid} {long : Bool} {k : Nat}
    (hc : Concord pr l false s t) (h : Supply long exp k s t) {ops : List (SendOp PubPacket)}
    (hr : Room long exp k s (delivered (.puback pid :: ops))) :
    Supply long exp k (s.step exp (.puback pid)).1 (t.puback pid) := by
  refine h.step (op := .puback pid) hr (fun _ q hq => .inl ((busy_puback t pid q).1 hq)) fun hl q hq => ?_
  refine complete_keeps (h.busy hl q ((busy_puback t pid q).2 hq)) fun e he hp => ?_
  by_cases hqp : q = pid
  · subst hqp
    rw [puback_same] at hq
    have hf := hc.fits e he
    have ha := hc.ans rfl q
    cases e with
    | complete => rfl
    | pubrec n x => simp [completeStatus]
    | new a n x p d =>
      cases hp
      exfalso
      unfold Fitting at hf
      simp only at hf
      cases hu : t.use q <;> simp_all [PidUse.puback, PidUse.busy]
  · exact completeStatus_other hp hqp

theorem pubcomp_supply {l : Bool} {s : Sender PubPacket} {t : Talk} {pid : Pid} {long : Bool} {k : Nat}
    (hc : Concord pr l false s t) (h : Supply long exp k s t) {ops : List (SendOp PubPacket)}
    (hr : Room long exp k s (delivered (.pubcomp pid :: ops))) :
    Supply long exp k (s.step exp (.pubcomp pid)).1 (t.pubcomp pid) := by
  refine h.step (op := .pubcomp pid) hr (fun _ q hq => .inl ((busy_pubcomp t pid q).1 hq)) fun hl q hq => ?_
  refine complete_keeps (h.busy hl q ((busy_pubcomp t pid q).2 hq)) fun e he hp => ?_
  by_cases hqp : q = pid
  · subst hqp
    rw [pubcomp_same] at hq
    have hf := hc.fits e he
    have ha := hc.ans rfl q
    cases e with
    | complete => rfl
    | new a n x p d => simp [completeStatus]
    | pubrec n x =>
      cases hp
      exfalso
      obtain ⟨_, f2, f3⟩ := hf
      cases hu : t.use q <;> simp_all [PidUse.pubcomp, PidUse.busy]
  · exact completeStatus_other hp hqp

theorem pubrec_pids {s : Sender PubPacket} {now : Nat} {pid : Pid} :
    (s.step exp (.pubrec now pid)).1.pids = s.pids := by
  show (s.pending.pubrec now pid).1.packets.filterMap PStatus.pid? = _
  unfold Pending.pubrec
  split
  · rename_i ps hu
    obtain ⟨pre, e, e', post, h1, rfl, h3, _⟩ := updFirst_some hu
    obtain ⟨rfl, a, l, p, d, rfl⟩ := pubrecStatus_some h3
    rw [Sender.pids, h1]
    simp [PStatus.pid?]
  · rfl

theorem pubrec_supply {s : Sender PubPacket} {t t' : Talk} {now : Nat} {pid : Pid} {long : Bool}
    {k : Nat} (h : Supply long exp k s t) {ops : List (SendOp PubPacket)}
    (hr : Room long exp k s (delivered (.pubrec now pid :: ops)))
    (ho : ∀ q, q ≠ pid → t'.use q = t.use q)
    (hs : t'.use pid = (t.use pid).pubrec ∨ t'.use pid = .released ∧ ∃ w, t.use pid = .sent w) :
    Supply long exp k (s.step exp (.pubrec now pid)).1 t' := by
  have hboth : ∀ q, (t'.use q ≠ .idle → t.use q ≠ .idle) ∧ ((t'.use q).busy → (t.use q).busy) := by
    intro q
    by_cases hq : q = pid
    · subst hq
      rcases hs with hs | ⟨hs, w, hw⟩
      · rw [hs]; cases hu : t.use q <;> simp [PidUse.pubrec, PidUse.busy]
      · rw [hs, hw]; simp [PidUse.busy]
    · rw [ho q hq]; exact ⟨id, id⟩
  refine h.step (op := .pubrec now pid) hr (fun _ q hq => .inl ((hboth q).1 hq)) fun hl q hq => ?_
  rw [pubrec_pids]
  exact h.busy hl q ((hboth q).2 hq)

theorem connect_supply {s : Sender PubPacket} {t : Talk} {m : Option Nat} {long b : Bool} {k : Nat}
    (h : Supply long exp k s t) {ops : List (SendOp PubPacket)}
    (hr : Room long exp k s (delivered (.reconnect m :: ops))) :
    Supply long exp k (s.step exp (.reconnect m)).1 (t.connect b) := by
  refine h.step (op := .reconnect m) hr (fun _ q hq => .inl ((busy_connect t b q).1 hq)) fun hl q hq => ?_
  rw [Sender.pids, reconnect_packets, filterMap_map_eq _ _ reset_pid]
  exact h.busy hl q ((busy_connect t b q).2 hq)

/-! ## The operations of a step -/

theorem Room.none {long : Bool} {k : Nat} {s : Sender PubPacket} {ds : List PubPacket}
    (h : Room long exp k s ds) : Room long exp k s [] :=
  ⟨(fun p hp => by cases hp), fun hb => by have := h.few hb; simp only [List.length_nil]; omega,
    (fun _ p hp => by cases hp),
    fun hb => by have := h.space hb; simp only [List.length_nil]; omega, h.max⟩

theorem deliver_supply {s : Sender PubPacket} {t : Talk} {now : Nat} {p : PubPacket} {long : Bool}
    {k : Nat} (h : Supply long exp k s t) {ops : List (SendOp PubPacket)}
    (hr : Room long exp k s (delivered (.deliver now p :: ops))) :
    Supply long exp (k + 1) (s.step exp (.deliver now p)).1 t := by
  refine h.step (op := .deliver now p) hr (fun _ q hq => .inl hq) fun hl q hq => ?_
  have hq := h.busy hl q hq
  unfold Sender.pids at hq ⊢
  rw [← clean_pids] at hq
  simp only [Sender.step, Pending.pushBack]
  split
  · exact hq
  · simp only [List.filterMap_append]
    exact List.mem_append_left _ hq

theorem pass_supply {s : Sender PubPacket} {t t' : Talk} {clk : Clock} {long : Bool}
    {k : Nat} (h : Supply long exp k s t) {ops : List (SendOp PubPacket)}
    (hr : Room long exp k s (delivered (.pass clk :: ops)))
    (hu : ∀ pid, t'.use pid = t.use pid ∨ (∃ w, t'.use pid = .sent w) ∧ pid ∈ s.pids) :
    Supply long exp k (s.step exp (.pass clk)).1 t' := by
  refine h.step (op := .pass clk) hr (fun _ q hq => ?_) fun hl q hq => ?_
  · rcases hu q with e | ⟨_, e⟩
    · rw [e] at hq; exact .inl hq
    · exact .inr e
  · rw [pass_pids (h.plain hl)]
    rcases hu q with e | ⟨_, e⟩
    · rw [e] at hq; exact h.busy hl q hq
    · exact e

/-- Messages are handed to the queue, and passes are made. -/
theorem ops_talk {ops : List OutOp} {s : Sender PubPacket} {t : Talk} {long : Bool} {k : Nat}
    (hin : ∀ i ∈ ops.filterMap OutOp.input, ∃ p, i = .message p) (hway : RightWay ops)
    (hr : Room long exp k s (delivered (queueOps ops)))
    (hc : Concord pr t.again false s t) (hs : Supply long exp k s t) {os : List OutPkt}
    (hcar : CarriesAll pr (sends exp s ops) os) :
    ∃ t', seesAll t os = some t' ∧ t'.again = t.again ∧
      Concord pr t'.again false (s.exec exp (queueOps ops)) t' ∧
      Supply long exp (k + (delivered (queueOps ops)).length) (s.exec exp (queueOps ops)) t' := by
  induction ops generalizing s t k os with
  | nil =>
    cases hcar
    exact ⟨t, rfl, rfl, hc, hs⟩
  | cons op ops ih =>
    have hin' : ∀ i ∈ ops.filterMap OutOp.input, ∃ p, i = .message p := by
      intro i hi
      refine hin i ?_
      rw [List.filterMap_cons]
      split
      · exact hi
      · exact List.mem_cons_of_mem _ hi
    cases op with
    | direct p =>
      have h0 := hway.1 p (by simp)
      rw [sends] at hcar
      cases hcar with
      | @cons _ o _ os h1 h2 =>
        obtain ⟨t', k1, k2, k3, k4⟩ := ih hin' hway.tail hr hc hs h2
        refine ⟨t', ?_, k2, k3, k4⟩
        rw [seesAll_cons]
        cases o with
        | publish w =>
          have : Obs.talk t (.sent (.publish w)) = some t := by
            simp only [Obs.talk, Talk.publish]
            rw [h1.2.1, h1.1, PubPacket.qosPid, if_pos h0]
            rfl
          rw [this]
          exact k1
        | _ => cases h1
    | queue op =>
      simp only [sends] at hcar
      obtain ⟨os1, os2, rfl, hc1, hc2⟩ := hcar.split
      simp only [queueOps] at hr ⊢
      rw [exec_cons, delivered_cons, List.length_append, ← Nat.add_assoc]
      cases op with
      | deliver now p =>
        cases hc1
        rw [List.nil_append]
        obtain ⟨f1, f2, f3⟩ := hs.fresh (p := p) (ds := delivered (queueOps ops)) (by
          simpa [delivered] using hr)
        exact ih hin' hway.tail hr.tail
          (deliver_talk hc (hr.qos p (by simp [delivered])) f1 f2 f3) (deliver_supply hs hr) hc2
      | pass clk =>
        obtain ⟨t1, j1, j2, j3, j4⟩ := pass_talk hc hc1
        obtain ⟨t', k1, k2, k3, k4⟩ := ih hin' hway.tail hr.tail j3 (pass_supply hs hr j4) hc2
        refine ⟨t', ?_, k2.trans j2, k3, k4⟩
        rw [seesAll_append, j1]
        exact k1
      | puback pid => obtain ⟨p, h⟩ := hin (.puback pid) (by simp [OutOp.input]); cases h
      | pubrec now pid => obtain ⟨p, h⟩ := hin (.pubrec pid) (by simp [OutOp.input]); cases h
      | pubcomp pid => obtain ⟨p, h⟩ := hin (.pubcomp pid) (by simp [OutOp.input]); cases h
      | reconnect m => obtain ⟨p, h⟩ := hin (.reconnect m) (by simp [OutOp.input]); cases h

/-- The same when nothing of it reaches the client. -/
theorem ops_weak {ops : List OutOp} {s : Sender PubPacket} {t : Talk} {long : Bool} {k : Nat}
    (hin : ∀ i ∈ ops.filterMap OutOp.input, ∃ p, i = .message p)
    (hr : Room long exp k s (delivered (queueOps ops)))
    (hc : Concord pr true true s t) (hs : Supply long exp k s t) :
    Concord pr true true (s.exec exp (queueOps ops)) t ∧
      Supply long exp (k + (delivered (queueOps ops)).length) (s.exec exp (queueOps ops)) t := by
  induction ops generalizing s k with
  | nil => exact ⟨hc, hs⟩
  | cons op ops ih =>
    have hin' : ∀ i ∈ ops.filterMap OutOp.input, ∃ p, i = .message p := by
      intro i hi
      refine hin i ?_
      rw [List.filterMap_cons]
      split
      · exact hi
      · exact List.mem_cons_of_mem _ hi
    cases op with
    | direct p => exact ih hin' hr hc hs
    | queue op =>
      simp only [queueOps] at hr ⊢
      rw [exec_cons, delivered_cons, List.length_append, ← Nat.add_assoc]
      cases op with
      | deliver now p =>
        obtain ⟨f1, f2, f3⟩ := hs.fresh (p := p) (ds := delivered (queueOps ops)) (by
          simpa [delivered] using hr)
        exact ih hin' hr.tail
          (deliver_talk hc (hr.qos p (by simp [delivered])) f1 f2 f3) (deliver_supply hs hr)
      | pass clk =>
        exact ih hin' hr.tail (pass_weak hc) (pass_supply hs hr fun _ => .inl rfl)
      | puback pid => obtain ⟨p, h⟩ := hin (.puback pid) (by simp [OutOp.input]); cases h
      | pubrec now pid => obtain ⟨p, h⟩ := hin (.pubrec pid) (by simp [OutOp.input]); cases h
      | pubcomp pid => obtain ⟨p, h⟩ := hin (.pubcomp pid) (by simp [OutOp.input]); cases h
      | reconnect m => obtain ⟨p, h⟩ := hin (.reconnect m) (by simp [OutOp.input]); cases h

/-! ## One step -/

/-- What the client remembers when it has sent a packet. -/
def InPkt.acks : InPkt → Talk → Talk
  | .puback pid, t => t.puback pid
  | .pubrec pid, t => t.pubrec pid
  | .pubcomp pid, t => t.pubcomp pid
  | _, t => t

/-- What the client remembers before the packets of the step are sent. -/
def Rec.talkBase (r : Rec) (t : Talk) : Talk :=
  match r.ev with
  | .resume _ => t.connect true
  | _ =>
    match r.received with
    | some pk => pk.acks t
    | none => t

theorem talk_rec (r : Rec) (t : Talk) :
    r.obs.foldlM Obs.talk t = seesAll (r.talkBase t) r.res.out := by
  have hskip : ∀ {α : Type} (xs : List α) (f : α → Obs) (t : Talk),
      (∀ a, (∃ m, f a = .took m) ∨ ∃ m, f a = .routed m) →
      (xs.map f).foldlM Obs.talk t = some t := by
    intro α xs f t hf
    induction xs with
    | nil => rfl
    | cons a xs ih =>
      rw [List.map_cons, List.foldlM_cons]
      rcases hf a with ⟨m, h⟩ | ⟨m, h⟩ <;> rw [h] <;> exact ih
  have hrest : ∀ t : Talk, (r.taken.toList.map Obs.took ++
      (r.res.routed.map Obs.routed ++ r.res.out.map Obs.sent)).foldlM Obs.talk t =
      seesAll t r.res.out := by
    intro t
    rw [List.foldlM_append, hskip _ Obs.took _ (fun _ => .inl ⟨_, rfl⟩)]
    show (r.res.routed.map Obs.routed ++ r.res.out.map Obs.sent).foldlM Obs.talk t = _
    rw [List.foldlM_append, hskip _ Obs.routed _ (fun _ => .inr ⟨_, rfl⟩)]
    rfl
  unfold Rec.obs
  rw [List.foldlM_append]
  unfold Rec.talkBase
  cases hev : r.ev with
  | resume c =>
    rw [resume_received hev]
    exact hrest _
  | packet a n pk =>
    cases hr : r.received with
    | none => exact hrest _
    | some pk =>
      cases pk <;> exact hrest _
  | _ =>
    have : r.received = none := by simp [Rec.received, hev]
    rw [this]
    exact hrest _

/-- A session and what its client remembers. -/
structure Talking (long : Bool) (pr : Proto) (k : Nat) (p : Peer) (t : Talk) : Prop where
  weak : Concord pr true true p.session.sender t
  supply : Supply long (expiryOf pr) k p.session.sender t
  held : p.online = true → p.session.disconnected = false →
    Concord pr t.again false p.session.sender t

/-- A packet that is too long is not acted on. -/
theorem long_silent {r : Rec} {after : Clock} {n : Nat} {pk : InPkt}
    (hs : r.pre.step cfg ext pr r.env r.before r.ev = some (r.post, r.res))
    (hev : r.ev = .packet after n pk) (hon : (r.pre.online && !r.pre.session.disconnected) = true)
    (hn : cfg.maxPacketSizeServer < n) :
    r.res.out.filter OutPkt.isDelivery = [] ∧
      ¬ (r.post.online = true ∧ r.post.session.disconnected = false) := by
  refine ⟨?_, fun h => ?_⟩
  · rw [hev] at hs
    simp only [Peer.step, hon, if_true, Option.map_eq_some_iff, Prod.mk.injEq] at hs
    obtain ⟨res, h3, _, h5⟩ := hs
    rw [← h5]
    cases pr with
    | v3 =>
      simp only [onPacket, handlePacket, handlePacketV3, if_pos hn, failV3, if_true,
        Option.some.injEq] at h3
      rw [← h3]
      rfl
    | v5 =>
      simp only [onPacket, handlePacket, handlePacketV5, if_pos hn, failV5, afterPacket,
        Session.disconnected, Bool.or_true, if_true, Bool.false_eq_true, if_false,
        Option.some.injEq] at h3
      rw [← h3]
      rfl
  · have := (packet_small hs hev hon h.1 h.2).2
    omega

/-- An acknowledgement or only messages. -/
theorem talk_cases (cfg : Config) (pr : Proto) (g : Global) (s : Session) (pk : InPkt) :
    ((∃ pid, pk = .puback pid) ∨ (∃ pid, pk = .pubrec pid) ∨ ∃ pid, pk = .pubcomp pid) ∨
    ((∀ i ∈ pk.inputs cfg pr g s, ∃ p, i = .message p) ∧
      ∀ pid, pk ≠ .puback pid ∧ pk ≠ .pubrec pid ∧ pk ≠ .pubcomp pid) := by
  cases pk with
  | puback pid => exact .inl (.inl ⟨pid, rfl⟩)
  | pubrec pid => exact .inl (.inr (.inl ⟨pid, rfl⟩))
  | pubcomp pid => exact .inl (.inr (.inr ⟨pid, rfl⟩))
  | subscribe pid topics id =>
    refine .inr ⟨?_, fun _ => ⟨(fun h => by cases h), (fun h => by cases h), (fun h => by cases h)⟩⟩
    simp only [InPkt.inputs]
    cases pr with
    | v3 => exact messages_all
    | v5 =>
      simp only
      split
      · exact fun i hi => by cases hi
      · exact messages_all
  | _ => exact .inr ⟨(fun i hi => by cases hi),
      fun _ => ⟨(fun h => by cases h), (fun h => by cases h), (fun h => by cases h)⟩⟩

theorem first_in {o : SendOp PubPacket} {ops : List OutOp} {i : Input}
    (hin : (OutOp.queue o :: ops).filterMap OutOp.input = [i]) (hi : (OutOp.queue o).input = some i) :
    ∀ i ∈ ops.filterMap OutOp.input, ∃ p, i = .message p := by
  rw [List.filterMap_cons, hi] at hin
  simp only [List.cons.injEq, true_and] at hin
  rw [hin]
  exact fun i hi => by cases hi

/-- After the first operation. -/
theorem after_first {o : SendOp PubPacket} {ops : List OutOp} {s : Sender PubPacket} {t t1 : Talk}
    {long : Bool} {k : Nat}
    (hin : ∀ i ∈ ops.filterMap OutOp.input, ∃ p, i = .message p) (hway : RightWay ops)
    (hr : Room long exp k s (delivered (queueOps (.queue o :: ops))))
    (hd : delivered [o] = [])
    (hc : Concord pr t1.again false (s.step exp o).1 t1) (hs : Supply long exp k (s.step exp o).1 t1)
    {os : List OutPkt}
    (h1 : ∀ os1, CarriesAll pr (s.step exp o).2 os1 → seesAll t os1 = some t1)
    (hcar : CarriesAll pr (sends exp s (.queue o :: ops)) os) :
    ∃ t', seesAll t os = some t' ∧ t'.again = t1.again ∧
      Concord pr t'.again false (s.exec exp (queueOps (.queue o :: ops))) t' ∧
      Supply long exp (k + (delivered (queueOps (.queue o :: ops))).length)
        (s.exec exp (queueOps (.queue o :: ops))) t' := by
  rw [sends_cons] at hcar
  obtain ⟨os1, os2, rfl, hc1, hc2⟩ := hcar.split
  have hr1 := Room.tail (ops := queueOps ops) (op := o) hr
  rw [hd] at hr1
  obtain ⟨t', k1, k2, k3, k4⟩ := ops_talk hin hway hr1 hc hs hc2
  have he : (delivered (queueOps (.queue o :: ops))).length = (delivered (queueOps ops)).length := by
    show (delivered (o :: queueOps ops)).length = _
    rw [delivered_cons, hd]; rfl
  rw [he]
  refine ⟨t', ?_, k2, k3, k4⟩
  rw [seesAll_append, h1 os1 hc1]
  exact k1

/-- The same when nothing of it reaches the client. -/
theorem after_first_weak {o : SendOp PubPacket} {ops : List OutOp} {s : Sender PubPacket} {t : Talk}
    {long : Bool} {k : Nat} (hin : ∀ i ∈ ops.filterMap OutOp.input, ∃ p, i = .message p)
    (hr : Room long exp k s (delivered (queueOps (.queue o :: ops))))
    (hd : delivered [o] = [])
    (hc : Concord pr true true (s.step exp o).1 t) (hs : Supply long exp k (s.step exp o).1 t) :
    Concord pr true true (s.exec exp (queueOps (.queue o :: ops))) t ∧
      Supply long exp (k + (delivered (queueOps (.queue o :: ops))).length)
        (s.exec exp (queueOps (.queue o :: ops))) t := by
  have hr1 := Room.tail (ops := queueOps ops) (op := o) hr
  rw [hd] at hr1
  have he : (delivered (queueOps (.queue o :: ops))).length = (delivered (queueOps ops)).length := by
    show (delivered (o :: queueOps ops)).length = _
    rw [delivered_cons, hd]; rfl
  rw [he]
  exact ops_weak hin hr1 hc hs

theorem carries_nil {os : List OutPkt} (h : CarriesAll pr [] os) : os = [] := by cases h; rfl

/-- A packet that is acted on. -/
theorem packet_talk {long : Bool} {k : Nat} {s : Sender PubPacket} {t : Talk} {pk : InPkt}
    {g : Global} {ss : Session} {ops : List OutOp}
    (hin : ops.filterMap OutOp.input = pk.inputs cfg pr g ss)
    (hpr : ∀ i ∈ pk.inputs cfg pr g ss, (∃ p, i = .message p) ∨
      ∃ op rest, ops = op :: rest ∧ op.input = some i)
    (hway : RightWay ops) (hr : Room long exp k s (delivered (queueOps ops)))
    (hc : Concord pr t.again false s t) (hs : Supply long exp k s t) :
    (∀ os, CarriesAll pr (sends exp s ops) os →
      ∃ t', seesAll (pk.acks t) os = some t' ∧
        Concord pr t'.again false (s.exec exp (queueOps ops)) t' ∧
        Supply long exp (k + (delivered (queueOps ops)).length) (s.exec exp (queueOps ops)) t') ∧
    Concord pr true true (s.exec exp (queueOps ops)) (pk.acks t) ∧
    Supply long exp (k + (delivered (queueOps ops)).length) (s.exec exp (queueOps ops)) (pk.acks t) := by
  have hfirst : ∀ i, pk.inputs cfg pr g ss = [i] → (∀ p, i ≠ .message p) →
      ∃ o rest, ops = OutOp.queue o :: rest ∧ (OutOp.queue o).input = some i ∧
        ∀ j ∈ rest.filterMap OutOp.input, ∃ p, j = .message p := by
    intro i hi hm
    rcases hpr i (by rw [hi]; simp) with ⟨p, hp⟩ | ⟨op, rest, he, ho⟩
    · exact absurd hp (hm p)
    · cases op with
      | direct p => simp only [OutOp.input, Option.some.injEq] at ho; exact absurd ho.symm (hm p)
      | queue o =>
        refine ⟨o, rest, he, ho, ?_⟩
        rw [he, hi] at hin
        exact first_in hin ho
  rcases talk_cases cfg pr g ss pk with (⟨pid, rfl⟩ | ⟨pid, rfl⟩ | ⟨pid, rfl⟩) | ⟨hm, hno⟩
  · obtain ⟨o, rest, rfl, ho, hrest⟩ := hfirst (.puback pid) rfl (fun _ h => by cases h)
    obtain rfl : o = .puback pid := by
      cases o <;> simp [OutOp.input] at ho
      rw [ho]
    have hag := (puback_rest t pid).2
    have hsup := puback_supply hc hs hr
    refine ⟨fun os hcar => ?_, after_first_weak hrest hr rfl
      (complete_weak (pid := pid) (puback_weak pid hc) (.inl rfl)) hsup⟩
    obtain ⟨t', k1, k2, k3, k4⟩ := after_first (t := t.puback pid) hrest hway.tail hr rfl
      (by rw [hag]; exact puback_talk hc) hsup
      (fun os1 h => by rw [carries_nil h]; rfl) hcar
    exact ⟨t', k1, k3, k4⟩
  · obtain ⟨o, rest, rfl, ho, hrest⟩ := hfirst (.pubrec pid) rfl (fun _ h => by cases h)
    obtain ⟨now, rfl⟩ : ∃ now, o = .pubrec now pid := by
      cases o <;> simp [OutOp.input] at ho
      exact ⟨_, by rw [ho]⟩
    obtain ⟨t1, j1, j2, j3, j4, j5⟩ := pubrec_talk (exp := exp) (now := now) (pid := pid) hc
    have hw := pubrec_weak pid hc
    have hnot : (∀ w, (t.pubrec pid).use pid ≠ .sent w) ∧ ∀ w, (t.pubrec pid).use pid ≠ .old w := by
      rw [pubrec_same]
      constructor <;> intro w <;> cases hu : t.use pid <;> simp [PidUse.pubrec]
    refine ⟨fun os hcar => ?_, after_first_weak hrest hr rfl
      (pubrec_op_weak hw (by show (t.pubrec pid).heard pid = true; rw [(pubrec_rest t pid).1]; simp)
        hnot.1 hnot.2)
      (pubrec_supply hs hr (fun q hq => pubrec_use _ _ _ hq) (.inl (pubrec_same t pid)))⟩
    obtain ⟨t', k1, k2, k3, k4⟩ := after_first (t := t.pubrec pid) (t1 := t1) hrest hway.tail hr rfl
      (by rw [j2]; exact j3) (pubrec_supply hs hr j4 j5) (fun os1 h => by
        cases h with
        | @cons _ o _ os h1 h2 =>
          rw [carries_nil h2, seesAll_cons]
          cases o with
          | pubrel q r =>
            cases h1
            simp only [Obs.talk, j1]
            rfl
          | _ => cases h1) hcar
    exact ⟨t', k1, k3, k4⟩
  · obtain ⟨o, rest, rfl, ho, hrest⟩ := hfirst (.pubcomp pid) rfl (fun _ h => by cases h)
    obtain rfl : o = .pubcomp pid := by
      cases o <;> simp [OutOp.input] at ho
      rw [ho]
    have hag := (pubcomp_rest t pid).2
    have hsup := pubcomp_supply hc hs hr
    refine ⟨fun os hcar => ?_, after_first_weak hrest hr rfl
      (complete_weak (pid := pid) (pubcomp_weak pid hc) (.inr rfl)) hsup⟩
    obtain ⟨t', k1, k2, k3, k4⟩ := after_first (t := t.pubcomp pid) hrest hway.tail hr rfl
      (by rw [hag]; exact pubcomp_talk hc) hsup
      (fun os1 h => by rw [carries_nil h]; rfl) hcar
    exact ⟨t', k1, k3, k4⟩
  · rw [← hin] at hm
    have hbase : (pk.acks t) = t := by
      cases pk with
      | puback pid => exact absurd rfl (hno pid).1
      | pubrec pid => exact absurd rfl (hno pid).2.1
      | pubcomp pid => exact absurd rfl (hno pid).2.2
      | _ => rfl
    rw [hbase]
    refine ⟨fun os hcar => ?_, ops_weak hm hr hc.weaken hs⟩
    obtain ⟨t', k1, k2, k3, k4⟩ := ops_talk hm hway hr hc hs hcar
    exact ⟨t', k1, k3, k4⟩

/-- A packet that is not acted on. -/
theorem ignored_talk {long : Bool} {k : Nat} {s : Sender PubPacket} {t : Talk} {pk : InPkt}
    {ops : List OutOp} (hin : ops.filterMap OutOp.input = [])
    (hr : Room long exp k s (delivered (queueOps ops)))
    (hc : Concord pr t.again false s t) (hs : Supply long exp k s t) :
    Concord pr true true (s.exec exp (queueOps ops)) (pk.acks t) ∧
    Supply long exp (k + (delivered (queueOps ops)).length) (s.exec exp (queueOps ops)) (pk.acks t) := by
  refine ops_weak (by rw [hin]; exact fun i hi => by cases hi) hr ?_ ?_
  · cases pk with
    | puback _ => exact puback_weak _ hc
    | pubrec _ => exact pubrec_weak _ hc
    | pubcomp _ => exact pubcomp_weak _ hc
    | _ => exact hc.weaken
  · cases pk with
    | puback _ => exact hs.same (fun q => (busy_puback t _ q).1) (fun q => (busy_puback t _ q).2)
    | pubrec _ => exact hs.same (fun q => (busy_pubrec t _ q).1) (fun q => (busy_pubrec t _ q).2)
    | pubcomp _ => exact hs.same (fun q => (busy_pubcomp t _ q).1) (fun q => (busy_pubcomp t _ q).2)
    | _ => exact hs

/-- The messages with QoS 1 or 2 that are due in a step. -/
def Rec.due (cfg : Config) (pr : Proto) (r : Rec) : List PubPacket :=
  (r.messages cfg pr).filter fun p => decide (p.qos ≠ 0)

theorem talk_step {r : Rec} {t : Talk} {long : Bool} {k : Nat}
    (hs : r.pre.step cfg ext pr r.env r.before r.ev = some (r.post, r.res))
    (hroom : Room long (expiryOf pr) k r.pre.session.sender (r.due cfg pr))
    (h : Talking long pr k r.pre t) :
    ∃ t', r.obs.foldlM Obs.talk t = some t' ∧
      Talking long pr (k + (r.due cfg pr).length) r.post t' := by
  obtain ⟨ops, hw⟩ := worksOff_step hs
  have hdel : delivered (queueOps ops) = r.due cfg pr := by
    rw [delivered_queueOps hw.way, hw.inputs]; rfl
  rw [← hdel] at hroom ⊢
  rw [talk_rec]
  have hq := hw.queue
  have hin := hw.inputs
  -- nothing happens
  have hidle : r.talkBase t = t → r.res.out = [] → r.post.session.sender = r.pre.session.sender →
      (r.post.online = true → r.post.session.disconnected = false →
        r.pre.online = true ∧ r.pre.session.disconnected = false) →
      delivered (queueOps ops) = [] →
      ∃ t', seesAll (r.talkBase t) r.res.out = some t' ∧
        Talking long pr (k + (delivered (queueOps ops)).length) r.post t' := by
    intro h1 h2 h3 h4 h5
    rw [h1, h2, h5]
    refine ⟨t, rfl, ?_, ?_, fun a b => ?_⟩
    · rw [h3]; exact h.weak
    · rw [h3]; exact h.supply
    · rw [h3]; exact h.held (h4 a b).1 (h4 a b).2
  cases hev : r.ev with
  | packet after n pk =>
    by_cases hon : (r.pre.online && !r.pre.session.disconnected) = true
    · have hrec : r.received = some pk := by simp only [Rec.received, hev]; rw [if_pos hon]
      have hbase : r.talkBase t = (pk.acks t) := by
        unfold Rec.talkBase
        rw [hev, hrec]
      have hon' := hon
      simp only [Bool.and_eq_true, Bool.not_eq_true'] at hon'
      have ha := h.held hon'.1 hon'.2
      rw [hbase]
      by_cases hn : n ≤ cfg.maxPacketSizeServer
      · have hinp : r.inputs cfg pr = pk.inputs cfg pr r.before r.pre.session := by
          unfold Rec.inputs
          rw [hev]
          simp only [hon, hn, decide_true, Bool.and_true, if_true]
        rw [hinp] at hin
        have hpr := hw.prompt
        rw [hinp] at hpr
        obtain ⟨k1, k2, k3⟩ := packet_talk hin hpr hw.way hroom ha h.supply
        cases hcl : r.res.closed with
        | true =>
          rw [hw.lost hcl]
          refine ⟨_, rfl, by rw [hq]; exact k2, by rw [hq]; exact k3, fun h1 _ => ?_⟩
          rw [step_closed hs hcl] at h1
          cases h1
        | false =>
          obtain ⟨t', j1, j2, j3⟩ := k1 _ (hw.wire hcl)
          rw [seesAll_filter] at j1
          refine ⟨t', j1, by rw [hq]; exact j2.weaken, by rw [hq]; exact j3, fun _ _ => ?_⟩
          rw [hq]; exact j2
      · have hinp : r.inputs cfg pr = [] := by
          unfold Rec.inputs
          rw [hev]
          simp only [hon, hn, decide_false, Bool.and_false, Bool.false_eq_true, if_false]
        rw [hinp] at hin
        obtain ⟨k1, k2⟩ := long_silent hs hev hon (by omega)
        obtain ⟨j1, j2⟩ := ignored_talk (pk := pk) hin hroom ha h.supply
        refine ⟨_, ?_, by rw [hq]; exact j1, by rw [hq]; exact j2, fun h1 h2 => absurd ⟨h1, h2⟩ k2⟩
        rw [← seesAll_filter, k1]
        rfl
    · have hrec : r.received = none := by simp only [Rec.received, hev]; rw [if_neg hon]
      have hs' := hs
      rw [hev] at hs'
      simp only [Peer.step] at hs'
      rw [if_neg hon] at hs'
      simp only [Option.some.injEq, Prod.mk.injEq] at hs'
      refine hidle (by unfold Rec.talkBase; rw [hev, hrec]) (by rw [← hs'.2]) (by rw [← hs'.1])
        (by rw [← hs'.1]; exact fun a b => ⟨a, b⟩) ?_
      have hinp : r.inputs cfg pr = [] := by
        unfold Rec.inputs
        rw [hev]
        simp only
        rw [Bool.not_eq_true] at hon
        rw [hon]
        rfl
      rw [hdel, Rec.due, Rec.messages, hinp]
      rfl
  | normal m =>
    have hrec : r.received = none := by simp [Rec.received, hev]
    have hbase : r.talkBase t = t := by unfold Rec.talkBase; rw [hev, hrec]
    by_cases hon : (r.pre.online && !r.pre.session.disconnected) = true
    · have hinp : r.inputs cfg pr =
          ((dueOf cfg pr r.pre.session m).map Input.message).toList := by
        unfold Rec.inputs
        rw [hev]
        simp only [hon, if_true]
      have hon' := hon
      simp only [Bool.and_eq_true, Bool.not_eq_true'] at hon'
      have ha := h.held hon'.1 hon'.2
      have hall : ∀ i ∈ ops.filterMap OutOp.input, ∃ p, i = .message p := by
        rw [hin, hinp]
        intro i hi
        cases hd : dueOf cfg pr r.pre.session m with
        | none => rw [hd] at hi; cases hi
        | some p => rw [hd] at hi; exact ⟨p, List.mem_singleton.1 hi⟩
      have hcl : r.res.closed = false := by
        cases hcl : r.res.closed with
        | false => rfl
        | true =>
          have h1 := step_closed hs hcl
          rw [hev] at hs
          simp only [Peer.step] at hs
          rw [if_pos hon] at hs
          simp only [Option.some.injEq, Prod.mk.injEq] at hs
          rw [← hs.1] at h1
          rw [hon'.1] at h1
          cases h1
      obtain ⟨t', k1, k2, k3, k4⟩ := ops_talk hall hw.way hroom ha h.supply (hw.wire hcl)
      rw [seesAll_filter] at k1
      rw [hbase]
      exact ⟨t', k1, by rw [hq]; exact k3.weaken, by rw [hq]; exact k4, fun _ _ => by rw [hq]; exact k3⟩
    · have hs' := hs
      rw [hev] at hs'
      simp only [Peer.step] at hs'
      rw [if_neg hon] at hs'
      simp only [Option.some.injEq, Prod.mk.injEq] at hs'
      refine hidle hbase (by rw [← hs'.2]) (by rw [← hs'.1])
        (by rw [← hs'.1]; exact fun a b => ⟨a, b⟩) ?_
      have hinp : r.inputs cfg pr = [] := by
        unfold Rec.inputs
        rw [hev]
        simp only
        rw [if_neg hon]
      rw [hdel, Rec.due, Rec.messages, hinp]
      rfl
  | offline m =>
    have hrec : r.received = none := by simp [Rec.received, hev]
    have hbase : r.talkBase t = t := by unfold Rec.talkBase; rw [hev, hrec]
    have hs' := hs
    rw [hev] at hs'
    simp only [Peer.step] at hs'
    split at hs'
    · rename_i hon
      simp only [Option.some.injEq, Prod.mk.injEq] at hs'
      refine hidle hbase (by rw [← hs'.2]) (by rw [← hs'.1])
        (by rw [← hs'.1]; exact fun a b => ⟨a, b⟩) ?_
      have hinp : r.inputs cfg pr = [] := by
        unfold Rec.inputs
        rw [hev]
        simp only [hon, if_true]
      rw [hdel, Rec.due, Rec.messages, hinp]
      rfl
    · rename_i hon
      simp only [Option.some.injEq, Prod.mk.injEq] at hs'
      have hall : ∀ i ∈ ops.filterMap OutOp.input, ∃ p, i = .message p := by
        rw [hin]
        unfold Rec.inputs
        rw [hev]
        simp only [hon, Bool.false_eq_true, if_false]
        intro i hi
        rw [Option.mem_toList, Option.map_eq_some_iff] at hi
        obtain ⟨p, _, rfl⟩ := hi
        exact ⟨p, rfl⟩
      obtain ⟨j1, j2⟩ := ops_weak hall hroom h.weak h.supply
      rw [hbase, ← hs'.2]
      refine ⟨t, rfl, by rw [hq]; exact j1, by rw [hq]; exact j2, fun h1 _ => ?_⟩
      rw [← hs'.1] at h1
      exact absurd h1 hon
  | passed b n =>
    have hrec : r.received = none := by simp [Rec.received, hev]
    have hbase : r.talkBase t = t := by unfold Rec.talkBase; rw [hev, hrec]
    have hs' := hs
    rw [hev] at hs'
    simp only [Peer.step, Option.some.injEq, Prod.mk.injEq] at hs'
    refine hidle hbase (by rw [← hs'.2]) (by rw [← hs'.1]) (by
      rw [← hs'.1]; exact fun a b => ⟨a, b⟩) ?_
    have hinp : r.inputs cfg pr = [] := by unfold Rec.inputs; rw [hev]
    rw [hdel, Rec.due, Rec.messages, hinp]
    rfl
  | lost =>
    have hrec : r.received = none := by simp [Rec.received, hev]
    have hbase : r.talkBase t = t := by unfold Rec.talkBase; rw [hev, hrec]
    have hs' := hs
    rw [hev] at hs'
    simp only [Peer.step, Option.some.injEq, Prod.mk.injEq] at hs'
    refine hidle hbase (by rw [← hs'.2]) (by rw [← hs'.1]) (by
      rw [← hs'.1]; exact fun a b => by cases a) ?_
    have hinp : r.inputs cfg pr = [] := by unfold Rec.inputs; rw [hev]
    rw [hdel, Rec.due, Rec.messages, hinp]
    rfl
  | resume c =>
    have hbase : r.talkBase t = t.connect true := by unfold Rec.talkBase; rw [hev]
    obtain ⟨m, hinp⟩ : ∃ m, r.inputs cfg pr = [.reconnect m] := by
      unfold Rec.inputs
      rw [hev]
      cases pr
      · exact ⟨_, rfl⟩
      · exact ⟨_, rfl⟩
    have hcl : r.res.closed = false := by
      rw [hev] at hs
      simp only [Peer.step, Option.some.injEq, Prod.mk.injEq] at hs
      rw [← hs.2]
    rw [hinp] at hin
    rcases hw.prompt (.reconnect m) (by rw [hinp]; simp) with ⟨p, hp⟩ | ⟨op, rest, he, ho⟩
    · cases hp
    · obtain rfl : op = .queue (.reconnect m) := by
        rcases op with p | op
        · cases ho
        · cases op <;> simp [OutOp.input] at ho
          rw [ho]
      subst he
      have hag : (t.connect true).again = true := by simp [Talk.connect]
      obtain ⟨t', k1, k2, k3, k4⟩ := after_first (t := t.connect true) (first_in hin ho) hw.way.tail
        hroom rfl (by rw [hag]; exact connect_talk h.weak) (connect_supply h.supply hroom)
        (fun os1 h => by rw [carries_nil h]; rfl) (hw.wire hcl)
      rw [seesAll_filter] at k1
      rw [hbase]
      exact ⟨t', k1, by rw [hq]; exact k3.weaken, by rw [hq]; exact k4, fun _ _ => by rw [hq]; exact k3⟩

/-! ## Runs -/

theorem talk_run {p : Peer} {recs : List Rec} (hrun : IsRun cfg ext pr p recs) {long : Bool} {k : Nat}
    {t : Talk} (hmax : p.session.sender.pending.maxPackets = cfg.maxInMemPending)
    (hfew : long = false → k + (recs.flatMap (Rec.due cfg pr)).length ≤ 65535)
    (hx : long = true → ∀ r ∈ recs, ∀ p ∈ r.messages cfg pr, expiryOf pr p = none)
    (hroom : long = true → ∀ r ∈ recs,
      r.pre.session.sender.pending.packets.length + (r.messages cfg pr).length ≤ cfg.maxInMemPending)
    (hsmall : long = true → cfg.maxInMemPending ≤ 65535)
    (h : Talking long pr k p t) :
    ∃ t', (recs.flatMap Rec.obs).foldlM Obs.talk t = some t' := by
  induction recs generalizing p k t with
  | nil => exact ⟨t, rfl⟩
  | cons r recs ih =>
    obtain ⟨rfl, h1, h2⟩ := hrun
    have hlen : (r.due cfg pr).length ≤ (r.messages cfg pr).length := List.length_filter_le _ _
    have hr : Room long (expiryOf pr) k r.pre.session.sender (r.due cfg pr) := by
      refine ⟨fun p hp => ?_, fun hl => ?_, fun hl p hp => ?_, fun hl => ?_, fun hl => ?_⟩
      · exact of_decide_eq_true (List.mem_filter.1 hp).2
      · have := hfew hl
        rw [List.flatMap_cons, List.length_append] at this
        omega
      · exact hx hl r (by simp) p (List.mem_filter.1 hp).1
      · have := hroom hl r (by simp)
        rw [hmax]
        omega
      · rw [hmax]; exact hsmall hl
    obtain ⟨t1, k1, k2⟩ := talk_step h1 hr h
    have hmax' : r.post.session.sender.pending.maxPackets = cfg.maxInMemPending := by
      obtain ⟨ops, hw⟩ := worksOff_step h1
      rw [hw.queue, (exec_params _ _ _).2.1]
      exact hmax
    obtain ⟨t', k3⟩ := ih h2 hmax' (fun hl => by
        have := hfew hl
        rw [List.flatMap_cons, List.length_append] at this
        omega) (fun hl r hr => hx hl r (by simp [hr])) (fun hl r hr => hroom hl r (by simp [hr])) k2
    refine ⟨t', ?_⟩
    rw [List.flatMap_cons, List.foldlM_append, k1]
    exact k3

theorem talk_start (cfg : Config) (pr : Proto) (i : Str) (id : ClientId) (c : ConnParams)
    (long : Bool) :
    Talking long pr 0 { session := Session.start cfg pr i id c } (({} : Talk).connect false) := by
  have hp : (Session.start cfg pr i id c).sender.pending.packets = [] := by cases pr <;> rfl
  have hu : ∀ pid, (({} : Talk).connect false).use pid = .idle := fun _ => rfl
  have hc : ∀ l cl, Concord pr l cl (Session.start cfg pr i id c).sender (({} : Talk).connect false) := by
    intro l cl
    refine ⟨?_, ?_, ?_, ?_, ?_, ?_, ?_⟩
    · simp [Sender.pids, hp]
    · simp [Sender.pids, hp]
    · simp [Sender.msgs, hp]
    · simp [hp]
    · simp [hp]
    · simp [hu]
    · simp [hu]
  refine ⟨hc _ _, ⟨?_, ?_, ?_, ?_, ?_, ?_⟩, fun _ _ => hc _ _⟩
  · show (Session.start cfg pr i id c).sender.nextPid = _
    rw [start_sender]; rfl
  · simp [Sender.pids, hp]
  · simp [hu]
  · exact fun _ => ⟨0, by show 0 + (Session.start cfg pr i id c).sender.pending.packets.length = 0
                          rw [hp]; rfl,
      fun n pid h => by
        change (Session.start cfg pr i id c).sender.pending.packets[n]?.bind _ = _ at h
        simp [hp] at h⟩
  · simp [hu, PidUse.busy]
  · simp [Sender.msgs, hp]

end Akasa

import Verif.Spec.Once
import Verif.Proof.Talk
/-! # A client that follows the protocol gets every message once -/
namespace Akasa

variable {cfg : Config} {ext : Ext} {pr : Proto} {exp : PubPacket → Option Nat}

/-! ## A pass -/

/-- A message with this identifier waits in the queue. -/
def NewIn (l : List (PStatus PubPacket)) (k : Pid) : Prop := ∃ a n p d, PStatus.new a n k p d ∈ l

theorem attempt_cases (e : PStatus PubPacket) (now : Nat) :
    (∃ a n k p d x, e = .new a n k p d ∧
      e.attempt exp now = (.new a now k p true, some (.publish k p d x), none)) ∨
    (∃ a k p d, e = .new a 0 k p d ∧ e.attempt exp now = (e, none, some k)) ∨
    (∃ n k, e = .pubrec n k ∧ e.attempt exp now = (.pubrec now k, some (.pubrel k), none)) ∨
    (e = .complete ∧ e.attempt exp now = (.complete, none, none)) := by
  cases e with
  | new a n k p d =>
    simp only [PStatus.attempt]
    cases exp p with
    | none => exact .inl ⟨a, n, k, p, d, _, rfl, rfl⟩
    | some v =>
      simp only
      split
      · rename_i h
        obtain ⟨rfl, _⟩ := h
        exact .inr (.inl ⟨a, k, p, d, rfl, rfl⟩)
      · exact .inl ⟨a, n, k, p, d, _, rfl, rfl⟩
  | pubrec n k => exact .inr (.inr (.inl ⟨n, k, rfl, rfl⟩))
  | complete => exact .inr (.inr (.inr ⟨rfl, rfl⟩))

/-- Before a message is sent, all older ones are sent, unless they were sent before or expire. -/
theorem sweep_first {T : Nat} {clk : Clock} (n cur i : Nat) (ps : List (PStatus PubPacket))
    (hs : (ps.filterMap PStatus.pid?).Pairwise (· < ·)) {A B : List (Sent PubPacket)} {j : Pid}
    {q : PubPacket} {d : Bool} {e : Option Nat}
    (h : (sweep exp T clk n cur i ps).2.1 = A ++ .publish j q d e :: B) {a l : Nat} {k : Pid}
    {p : PubPacket} {d' : Bool} (hk : PStatus.new a l k p d' ∈ ps) (hlt : k < j) :
    l ≠ 0 ∨ (∃ p1 d1 e1, Sent.publish k p1 d1 e1 ∈ A) ∨ k ∈ (sweep exp T clk n cur i ps).2.2 := by
  induction ps generalizing n cur i A with
  | nil => cases hk
  | cons s ss ih =>
    cases n with
    | zero => rw [sweep] at h; cases A <;> cases h
    | succ n =>
      have hs' : (ss.filterMap PStatus.pid?).Pairwise (· < ·) :=
        hs.sublist ((List.sublist_cons_self s ss).filterMap _)
      rw [sweep] at h ⊢
      split at h
      · rename_i hr
        rw [if_pos hr]
        simp only at h ⊢
        rcases attempt_cases (exp := exp) s (clk.sent i) with ⟨a1, n1, k1, p1, d1, x, rfl, h1⟩ |
          ⟨a1, k1, p1, d1, rfl, h1⟩ | ⟨n1, k1, rfl, h1⟩ | ⟨rfl, h1⟩
        · rw [h1] at h ⊢
          simp only [Option.toList_some, List.singleton_append, Option.toList_none, List.nil_append]
            at h ⊢
          cases A with
          | nil =>
            simp only [List.nil_append, List.cons.injEq, Sent.publish.injEq] at h
            obtain ⟨⟨rfl, _⟩, _⟩ := h
            rw [List.filterMap_cons] at hs
            simp only [PStatus.pid?, List.pairwise_cons] at hs
            rcases List.mem_cons.1 hk with hk | hk
            · cases hk; exact absurd hlt (Nat.lt_irrefl _)
            · exact absurd hlt (Nat.lt_asymm (hs.1 k (List.mem_filterMap.2 ⟨_, hk, rfl⟩)))
          | cons y A =>
            simp only [List.cons_append, List.cons.injEq] at h
            obtain ⟨rfl, h⟩ := h
            rcases List.mem_cons.1 hk with hk | hk
            · cases hk; exact .inr (.inl ⟨_, _, _, List.mem_cons_self ..⟩)
            · rcases ih _ _ _ hs' h hk with h | ⟨p1, d1, e1, h⟩ | h
              · exact .inl h
              · exact .inr (.inl ⟨p1, d1, e1, List.mem_cons_of_mem _ h⟩)
              · exact .inr (.inr h)
        · rw [h1] at h ⊢
          simp only [Option.toList_some, List.singleton_append, Option.toList_none, List.nil_append]
            at h ⊢
          rcases List.mem_cons.1 hk with hk | hk
          · cases hk; exact .inr (.inr (List.mem_cons_self ..))
          · rcases ih _ _ _ hs' h hk with h | h | h
            · exact .inl h
            · exact .inr (.inl h)
            · exact .inr (.inr (List.mem_cons_of_mem _ h))
        · rw [h1] at h ⊢
          simp only [Option.toList_some, List.singleton_append, Option.toList_none, List.nil_append]
            at h ⊢
          cases A with
          | nil => cases h
          | cons y A =>
            simp only [List.cons_append, List.cons.injEq] at h
            obtain ⟨rfl, h⟩ := h
            rcases List.mem_cons.1 hk with hk | hk
            · cases hk
            · rcases ih _ _ _ hs' h hk with h | ⟨p1, d1, e1, h⟩ | h
              · exact .inl h
              · exact .inr (.inl ⟨p1, d1, e1, List.mem_cons_of_mem _ h⟩)
              · exact .inr (.inr h)
        · rw [h1] at h ⊢
          simp only [Option.toList_none, List.nil_append] at h ⊢
          rcases List.mem_cons.1 hk with hk | hk
          · cases hk
          · exact ih _ _ _ hs' h hk
      · rename_i hr
        rw [if_neg hr]
        simp only at h ⊢
        rcases List.mem_cons.1 hk with hk | hk
        · subst hk
          left
          intro hl
          subst hl
          have : clk.ready cur < T := by simp [PStatus.ready] at hr; exact hr
          rw [sweep_not_ready this] at h
          cases A <;> cases h
        · exact ih _ _ _ hs' h hk

/-- Entries after a sweep: as before, or sent. -/
theorem sweep_entry {T : Nat} {clk : Clock} (n cur i : Nat) (ps : List (PStatus PubPacket))
    {a l : Nat} {k : Pid} {p : PubPacket} {d : Bool}
    (h : PStatus.new a l k p d ∈ (sweep exp T clk n cur i ps).1) :
    PStatus.new a l k p d ∈ ps ∨
      (∃ l' d', PStatus.new a l' k p d' ∈ ps) ∧
        ∃ d' e', Sent.publish k p d' e' ∈ (sweep exp T clk n cur i ps).2.1 := by
  induction ps generalizing n cur i with
  | nil => cases n <;> exact .inl h
  | cons s ss ih =>
    cases n with
    | zero => exact .inl h
    | succ n =>
      rw [sweep] at h ⊢
      split at h
      · rename_i hr
        rw [if_pos hr]
        simp only at h ⊢
        rcases List.mem_cons.1 h with h | h
        · rcases attempt_cases (exp := exp) s (clk.sent i) with ⟨a1, n1, k1, p1, d1, x, rfl, h1⟩ |
            ⟨a1, k1, p1, d1, rfl, h1⟩ | ⟨n1, k1, rfl, h1⟩ | ⟨rfl, h1⟩
          · rw [h1] at h ⊢
            simp only [PStatus.new.injEq] at h
            obtain ⟨rfl, rfl, rfl, rfl, rfl⟩ := h
            exact .inr ⟨⟨n1, d1, List.mem_cons_self ..⟩, d1, x, by simp⟩
          · rw [h1] at h
            exact .inl (by rw [h]; exact List.mem_cons_self ..)
          · rw [h1] at h; cases h
          · rw [h1] at h; cases h
        · rcases ih _ _ _ h with h | ⟨⟨l', d', h⟩, d1, e1, h1⟩
          · exact .inl (List.mem_cons_of_mem _ h)
          · exact .inr ⟨⟨l', d', List.mem_cons_of_mem _ h⟩, d1, e1, List.mem_append_right _ h1⟩
      · rename_i hr
        rw [if_neg hr]
        simp only at h ⊢
        rcases List.mem_cons.1 h with h | h
        · exact .inl (by rw [h]; exact List.mem_cons_self ..)
        · rcases ih _ _ _ h with h | ⟨⟨l', d', h⟩, h1⟩
          · exact .inl (List.mem_cons_of_mem _ h)
          · exact .inr ⟨⟨l', d', List.mem_cons_of_mem _ h⟩, h1⟩

/-- A message that is sent does not expire. -/
theorem sweep_sent_alive {T : Nat} {clk : Clock} (n cur i : Nat) (ps : List (PStatus PubPacket))
    (hnd : (ps.filterMap PStatus.pid?).Nodup) {k : Pid} {p : PubPacket} {d : Bool} {e : Option Nat}
    (h : Sent.publish k p d e ∈ (sweep exp T clk n cur i ps).2.1) :
    k ∉ (sweep exp T clk n cur i ps).2.2 := by
  induction ps generalizing n cur i with
  | nil => cases n <;> cases h
  | cons s ss ih =>
    cases n with
    | zero => cases h
    | succ n =>
      have hnd' : (ss.filterMap PStatus.pid?).Nodup :=
        ((List.sublist_cons_self s ss).filterMap _).nodup hnd
      have hown : ∀ k, s.pid? = some k → k ∉ ss.filterMap PStatus.pid? := by
        intro k hp
        rw [List.filterMap_cons, hp] at hnd
        exact (List.nodup_cons.1 hnd).1
      rw [sweep] at h ⊢
      split at h
      · rename_i hr
        rw [if_pos hr]
        simp only at h ⊢
        have hx : ∀ k, k ∈ (sweep exp T clk n (i + 1) (i + 1) ss).2.2 →
            k ∈ ss.filterMap PStatus.pid? := by
          intro k hk
          obtain ⟨a, p, d, v, _, h1, _⟩ := sweep_expired exp T clk _ _ _ ss k hk
          exact List.mem_filterMap.2 ⟨_, List.mem_of_mem_take h1, rfl⟩
        have hy : ∀ k p d e, Sent.publish k p d e ∈ (sweep exp T clk n (i + 1) (i + 1) ss).2.1 →
            k ∈ ss.filterMap PStatus.pid? := by
          intro k p d e hk
          obtain ⟨e0, h1, _, _, _, h3, _⟩ := sweep_sent exp T clk _ _ _ ss _ hk
          refine List.mem_filterMap.2 ⟨_, List.mem_of_mem_take h1, ?_⟩
          rcases attempt_cases (exp := exp) e0 (clk.sent _) with ⟨a1, n1, k1, p1, d1, x, rfl, h4⟩ |
            ⟨a1, k1, p1, d1, rfl, h4⟩ | ⟨n1, k1, rfl, h4⟩ | ⟨rfl, h4⟩ <;> rw [h4] at h3 <;> cases h3
          rfl
        rcases attempt_cases (exp := exp) s (clk.sent i) with ⟨a1, n1, k1, p1, d1, x, rfl, h1⟩ |
          ⟨a1, k1, p1, d1, rfl, h1⟩ | ⟨n1, k1, rfl, h1⟩ | ⟨rfl, h1⟩ <;> rw [h1] at h ⊢ <;>
          simp only [Option.toList_some, List.singleton_append, Option.toList_none, List.nil_append,
            List.mem_cons] at h ⊢
        · rcases h with h | h
          · cases h
            exact fun hk => hown k rfl (hx k hk)
          · exact ih _ _ _ hnd' h
        · rintro (rfl | hk)
          · exact hown k rfl (hy _ _ _ _ h)
          · exact ih _ _ _ hnd' h hk
        · rcases h with h | h
          · cases h
          · exact ih _ _ _ hnd' h
        · exact ih _ _ _ hnd' h
      · rename_i hr
        rw [if_neg hr]
        exact ih _ _ _ hnd' h

/-- What a pass does. -/
structure PassFacts (exp : PubPacket → Option Nat) (s s' : Sender PubPacket) (xs : List (Sent PubPacket)) : Prop where
  entry : ∀ a l k p d, PStatus.new a l k p d ∈ s'.pending.packets →
    PStatus.new a l k p d ∈ s.pending.packets ∨
      (∃ l' d', PStatus.new a l' k p d' ∈ s.pending.packets) ∧ ∃ d' e', Sent.publish k p d' e' ∈ xs
  marked : ∀ l k, PStatus.pubrec l k ∈ s'.pending.packets →
    ∃ l', PStatus.pubrec l' k ∈ s.pending.packets
  sent : ∀ k p d e, Sent.publish k p d e ∈ xs →
    (∃ a l, PStatus.new a l k p d ∈ s.pending.packets) ∧ NewIn s'.pending.packets k ∧
    ∀ e ∈ s'.pending.packets.drop s'.pending.maxInflight, e.pid? ≠ some k
  rel : ∀ k, Sent.pubrel k ∈ xs → ∃ l, PStatus.pubrec l k ∈ s.pending.packets
  first : ∀ A B j q d e, xs = A ++ .publish j q d e :: B → ∀ a k p d',
    PStatus.new a 0 k p d' ∈ s.pending.packets → k < j → NewIn s'.pending.packets k →
    ∃ p1 d1 e1, Sent.publish k p1 d1 e1 ∈ A
  behind : ∀ e ∈ s'.pending.packets.drop s'.pending.maxInflight,
    e ∈ s.pending.packets.drop s.pending.maxInflight
  next : s'.nextPid = s.nextPid
  sorted : s'.pids.Sublist s.pids
  kept : (∀ p ∈ s.msgs, exp p = none) → ∀ k, NewIn s.pending.packets k → NewIn s'.pending.packets k

theorem nodup_of_sorted {l : List Pid} (h : l.Pairwise (· < ·)) : l.Nodup :=
  h.imp fun h => Nat.ne_of_lt h

/-- What waits after a pass: it was left by the sweep and has not expired. -/
theorem pass_new {s : Sender PubPacket} {clk : Clock} (hnd : s.pids.Nodup) {a l : Nat} {k : Pid}
    {p : PubPacket} {d : Bool} :
    PStatus.new a l k p d ∈ (s.step exp (.pass clk)).1.pending.packets ↔
      PStatus.new a l k p d ∈ (s.pending.swept exp clk).1 ∧ k ∉ (s.pending.swept exp clk).2.2 := by
  rw [← mem_killAll, ← afterSweep_kill hnd]
  show _ ∈ (s.pending.handlePendings exp clk).1.packets ↔ _
  rw [Pending.handlePendings_eq]
  simp only
  split
  · exact Iff.rfl
  · exact mem_dropWhile (fun h => by cases h) _

theorem pass_facts {s : Sender PubPacket} {clk : Clock} (hs : s.pids.Pairwise (· < ·)) :
    PassFacts exp s (s.step exp (.pass clk)).1 (s.step exp (.pass clk)).2 := by
  have hnd : s.pids.Nodup := nodup_of_sorted hs
  have hsent : (s.step exp (.pass clk)).2 = (s.pending.swept exp clk).2.1 := by
    simp only [Sender.step]
    rw [Pending.handlePendings_eq]
  have hsub : s.pending.cleanComplete.packets.Sublist s.pending.packets := List.dropWhile_sublist _
  have hcs : (s.pending.cleanComplete.packets.filterMap PStatus.pid?).Pairwise (· < ·) := by
    rw [clean_pids]; exact hs
  have hcn : (s.pending.cleanComplete.packets.filterMap PStatus.pid?).Nodup := by
    rw [clean_pids]; exact hnd
  have hmi : (s.step exp (.pass clk)).1.pending.maxInflight = s.pending.maxInflight :=
    (handlePendings_params exp clk s.pending).1
  rw [hsent]
  have hbehind : ∀ e ∈ (s.step exp (.pass clk)).1.pending.packets.drop
      (s.step exp (.pass clk)).1.pending.maxInflight,
      e ∈ s.pending.cleanComplete.packets.drop s.pending.maxInflight := by
    intro e he
    rw [hmi] at he
    exact handlePendings_drop clk s.pending he
  refine ⟨?_, ?_, ?_, ?_, ?_, ?_, rfl, ?_, ?_⟩
  · intro a l k p d h
    rw [pass_new hnd] at h
    rcases sweep_entry _ _ _ _ h.1 with h | ⟨⟨l', d', h⟩, h1⟩
    · exact .inl (hsub.subset h)
    · exact .inr ⟨⟨l', d', hsub.subset h⟩, h1⟩
  · intro l k h
    rcases mem_handlePendings h with h | h
    · cases h
    · obtain ⟨e, he, h1⟩ := mem_swept h
      rcases h1 with rfl | ⟨j, h1⟩
      · exact ⟨l, he⟩
      · rcases attempt_cases (exp := exp) e (clk.sent j) with ⟨a1, n1, k1, p1, d1, x, rfl, h4⟩ |
            ⟨a1, k1, p1, d1, rfl, h4⟩ | ⟨n1, k1, rfl, h4⟩ | ⟨rfl, h4⟩ <;> rw [h4] at h1 <;> cases h1
        exact ⟨n1, he⟩
  · intro k p d e h
    have halive := sweep_sent_alive _ _ _ _ hcn h
    obtain ⟨e0, h1, j, i, _, h3, h5⟩ := sweep_sent exp _ clk _ _ _ _ _ h
    rcases attempt_cases (exp := exp) e0 (clk.sent i) with ⟨a1, n1, k1, p1, d1, x, rfl, h4⟩ |
            ⟨a1, k1, p1, d1, rfl, h4⟩ | ⟨n1, k1, rfl, h4⟩ | ⟨rfl, h4⟩ <;> rw [h4] at h3 <;> cases h3
    rw [h4] at h5
    refine ⟨⟨a1, n1, hsub.subset (List.mem_of_mem_take h1)⟩,
      ⟨a1, _, p, true, (pass_new hnd).2 ⟨List.mem_of_mem_take h5, halive⟩⟩, fun e he hp => ?_⟩
    refine drop_take_disjoint hcn (n := s.pending.cleanComplete.window) ?_ hp
      (List.mem_filterMap.2 ⟨_, h1, rfl⟩)
    have := drop_window s.pending.cleanComplete
    rw [this]
    exact hbehind e he
  · intro k h
    obtain ⟨e0, h1, j, i, _, h3, h5⟩ := sweep_sent exp _ clk _ _ _ _ _ h
    rcases attempt_cases (exp := exp) e0 (clk.sent i) with ⟨a1, n1, k1, p1, d1, x, rfl, h4⟩ |
            ⟨a1, k1, p1, d1, rfl, h4⟩ | ⟨n1, k1, rfl, h4⟩ | ⟨rfl, h4⟩ <;> rw [h4] at h3 <;> cases h3
    exact ⟨n1, hsub.subset (List.mem_of_mem_take h1)⟩
  · rintro A B j q d e hx a k p d' hk hlt ⟨a1, l1, p1, d1, hn⟩
    have hk' : PStatus.new a 0 k p d' ∈ s.pending.cleanComplete.packets :=
      (mem_dropWhile (fun h => by cases h) _).2 hk
    rcases sweep_first _ _ _ _ hcs hx hk' hlt with h | h | h
    · exact absurd rfl h
    · exact h
    · exact absurd h ((pass_new hnd).1 hn).2
  · exact fun e he => drop_dropWhile_subset (hbehind e he)
  · have := step_pids_sublist exp s (.pass clk)
    rwa [show delivered [SendOp.pass (P := PubPacket) clk] = [] from rfl, List.map_nil,
      List.append_nil] at this
  · rintro hexp k ⟨a, l, p, d, hk⟩
    have he : (s.pending.swept exp clk).2.2 = [] := by
      rw [List.eq_nil_iff_forall_not_mem]
      intro x hx
      obtain ⟨a, p, d, v, k, h1, h2, _⟩ := sweep_expired exp _ clk _ _ _ _ x hx
      have h1 := hsub.subset (List.mem_of_mem_take h1)
      rw [hexp p (List.mem_filterMap.2 ⟨_, h1, rfl⟩)] at h2
      cases h2
    have hk' : PStatus.new a l k p d ∈ s.pending.cleanComplete.packets :=
      (mem_dropWhile (fun h => by cases h) _).2 hk
    obtain ⟨e', h1, h2⟩ := sweep_keeps exp s.pending.timeout clk s.pending.cleanComplete.window 0 0 _ _ hk'
    have : ∃ l' d', e' = .new a l' k p d' := by
      rcases h2 with rfl | ⟨j, rfl⟩
      · exact ⟨l, d, rfl⟩
      · rcases attempt_cases (exp := exp) (.new a l k p d) (clk.sent j) with
            ⟨a1, n1, k1, p1, d1, x, h3, h4⟩ |
            ⟨a1, k1, p1, d1, h3, h4⟩ | ⟨n1, k1, h3, h4⟩ | ⟨h3, h4⟩
        · cases h3; rw [h4]; exact ⟨_, _, rfl⟩
        · rw [h4]; exact ⟨_, _, rfl⟩
        · cases h3
        · cases h3
    obtain ⟨l', d', rfl⟩ := this
    exact ⟨a, l', p, d', (pass_new hnd).2 ⟨h1, by rw [he]; exact fun h => by cases h⟩⟩

end Akasa

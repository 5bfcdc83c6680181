import Verif.Spec.Rest
import Verif.Proof.LifeUse
import Verif.Proof.Origin
import Verif.Proof.Params
/-! # What a client still has to answer, and what waits for it -/
namespace Akasa

variable {cfg : Config} {ext : Ext} {pr : Proto} {exp : PubPacket → Option Nat}

/-! ## The queue -/

/-- The answer that is awaited for an entry on the present connection. -/
def PStatus.owed? : PStatus PubPacket → Option Owed
  | .new _ l pid _ _ => if l = 0 then none else some (.publish pid)
  | .pubrec l pid => if l = 0 then none else some (.pubrel pid)
  | .complete => none

def Sent.owed : Sent PubPacket → List Owed
  | .publish pid p _ _ => if p.qos = 0 then [] else [.publish pid]
  | .pubrel pid => [.pubrel pid]

/-- The queue has messages with QoS 1 and 2 that do not expire. -/
structure Plainly (T : Nat) (exp : PubPacket → Option Nat) (s : Sender PubPacket) : Prop where
  timeout : s.pending.timeout = T
  msgs : ∀ p ∈ s.msgs, p.qos ≠ 0 ∧ exp p = none

/-- Every awaited answer is owed by the client, and the message was sent. -/
structure Covered (s : Sender PubPacket) (l : List Owed) (S : List (Sent PubPacket)) : Prop where
  count : ∀ o, (s.pending.packets.filterMap PStatus.owed?).count o ≤ l.count o
  sent : ∀ a n pid p d, PStatus.new a n pid p d ∈ s.pending.packets → n ≠ 0 → p ∈ allSent S
  out : ∀ e ∈ s.pending.packets.drop s.pending.maxInflight, e.owed? = none

/-- And for all unfinished entries in the window an answer is awaited. -/
structure Awaited (s : Sender PubPacket) (l : List Owed) (S : List (Sent PubPacket)) : Prop extends
    Covered s l S where
  window : ∀ e ∈ s.pending.packets.take s.pending.maxInflight, e.owed?.isSome ∨ e.isComplete = true
  head : ∀ e, s.pending.packets.head? = some e → e.isComplete = false

theorem owed_cons (e : PStatus PubPacket) (l : List (PStatus PubPacket)) :
    (e :: l).filterMap PStatus.owed? = e.owed?.toList ++ l.filterMap PStatus.owed? := by
  rw [List.filterMap_cons]
  split <;> simp_all

theorem Awaited.nil {s : Sender PubPacket} {S : List (Sent PubPacket)} (h : Awaited s [] S)
    (hw : 1 ≤ s.pending.maxInflight) : s.pending.packets = [] := by
  cases hp : s.pending.packets with
  | nil => rfl
  | cons e es =>
    exfalso
    have h1 := h.head e (by rw [hp]; rfl)
    obtain ⟨n, hn⟩ : ∃ n, s.pending.maxInflight = n + 1 := ⟨s.pending.maxInflight - 1, by omega⟩
    have h2 := h.window e (by rw [hp, hn]; simp)
    rw [h1] at h2
    obtain ⟨o, ho⟩ := Option.isSome_iff_exists.1 (h2.resolve_right (by simp))
    have h3 := h.count o
    rw [hp, List.filterMap_cons, ho] at h3
    simp at h3

theorem Covered.mono {s : Sender PubPacket} {l : List Owed} {S : List (Sent PubPacket)}
    (h : Covered s l S) (l' : List Owed) (S' : List (Sent PubPacket)) :
    Covered s (l ++ l') (S ++ S') where
  count o := Nat.le_trans (h.count o) (by rw [List.count_append]; omega)
  sent a n pid p d hm hn := by
    rw [allSent_append]; exact List.mem_append_left _ (h.sent a n pid p d hm hn)
  out := h.out

theorem Awaited.mono {s : Sender PubPacket} {l : List Owed} {S : List (Sent PubPacket)}
    (h : Awaited s l S) (l' : List Owed) (S' : List (Sent PubPacket)) :
    Awaited s (l ++ l') (S ++ S') :=
  { h.toCovered.mono l' S' with window := h.window, head := h.head }

/-! ### One pass -/

theorem sweep_owed {T : Nat} {clk : Clock} (hclk : clk.Late T) (n cur i : Nat)
    (ps : List (PStatus PubPacket))
    (hm : ∀ p ∈ ps.filterMap PStatus.msg?, p.qos ≠ 0 ∧ exp p = none) :
    (sweep exp T clk n cur i ps).2.2 = [] ∧
    (∀ o, ((sweep exp T clk n cur i ps).1.filterMap PStatus.owed?).count o ≤
      (ps.filterMap PStatus.owed?).count o +
        ((sweep exp T clk n cur i ps).2.1.flatMap Sent.owed).count o) ∧
    (∀ e ∈ (sweep exp T clk n cur i ps).1.take n, e.owed?.isSome ∨ e.isComplete = true) ∧
    (∀ a k pid p d, PStatus.new a k pid p d ∈ (sweep exp T clk n cur i ps).1 → k ≠ 0 →
      p ∈ allSent (sweep exp T clk n cur i ps).2.1 ∨
        ∃ a' k' d', PStatus.new a' k' pid p d' ∈ ps ∧ k' ≠ 0) ∧
    (sweep exp T clk n cur i ps).1.map PStatus.isComplete = ps.map PStatus.isComplete ∧
    (sweep exp T clk n cur i ps).1.drop n = ps.drop n := by
  induction ps generalizing n cur i with
  | nil => cases n <;> simp [sweep]
  | cons s ss ih =>
    cases n with
    | zero =>
      refine ⟨rfl, fun o => by simp [sweep], by simp [sweep], fun a k pid p d h hk => .inr ⟨a, k, d, h, hk⟩,
        rfl, rfl⟩
    | succ n =>
      have hm' : ∀ p ∈ ss.filterMap PStatus.msg?, p.qos ≠ 0 ∧ exp p = none := by
        intro p hp
        refine hm p ?_
        rw [List.mem_filterMap] at hp ⊢
        obtain ⟨e, he, hp⟩ := hp
        exact ⟨e, List.mem_cons_of_mem _ he, hp⟩
      rw [sweep]
      split
      · rename_i hr
        obtain ⟨h1, h2, h3, h4, h5, h6⟩ := ih n (i + 1) (i + 1) hm'
        cases s with
        | complete => simp [PStatus.ready] at hr
        | pubrec k pid =>
          have hpos : clk.sent i ≠ 0 := Nat.pos_iff_ne_zero.1 (hclk i).2
          refine ⟨by simp [PStatus.attempt, h1], fun o => ?_, ?_, ?_, ?_, by simpa using h6⟩
          · have h2 := h2 o
            rw [owed_cons, owed_cons, List.count_append, List.count_append]
            simp only [PStatus.attempt, PStatus.owed?, hpos, if_false, Option.toList_some,
              List.flatMap_append, List.flatMap_singleton, Sent.owed, List.count_append]
            omega
          · intro e he
            rw [List.take_succ_cons, List.mem_cons] at he
            rcases he with rfl | he
            · left; simp [PStatus.attempt, PStatus.owed?, hpos]
            · exact h3 e he
          · intro a k pid p d h hk
            simp only [PStatus.attempt, List.mem_cons, reduceCtorEq, false_or] at h
            rcases h4 a k pid p d h hk with h | ⟨a', k', d', h, hk'⟩
            · left; simpa [PStatus.attempt, allSent] using h
            · exact .inr ⟨a', k', d', List.mem_cons_of_mem _ h, hk'⟩
          · simp [PStatus.attempt, PStatus.isComplete, h5]
        | new a0 k0 pid0 p0 d0 =>
          obtain ⟨hq, hx⟩ := hm p0 (by simp [PStatus.msg?])
          have hpos : clk.sent i ≠ 0 := Nat.pos_iff_ne_zero.1 (hclk i).2
          refine ⟨by simp [PStatus.attempt, hx, h1], fun o => ?_, ?_, ?_, ?_, by simpa using h6⟩
          · have h2 := h2 o
            rw [owed_cons, owed_cons, List.count_append, List.count_append]
            simp only [PStatus.attempt, hx, PStatus.owed?, hpos, if_false, Option.toList_some,
              List.flatMap_append, List.flatMap_singleton, Sent.owed, hq, List.count_append]
            omega
          · intro e he
            rw [List.take_succ_cons, List.mem_cons] at he
            rcases he with rfl | he
            · left; simp [PStatus.attempt, hx, PStatus.owed?, hpos]
            · exact h3 e he
          · intro a k pid p d h hk
            simp only [PStatus.attempt, hx, List.mem_cons, PStatus.new.injEq] at h
            rcases h with ⟨_, _, _, rfl, _⟩ | h
            · left; simp [PStatus.attempt, hx, allSent]
            · rcases h4 a k pid p d h hk with h | ⟨a', k', d', h, hk'⟩
              · left; simp [PStatus.attempt, hx, allSent, h]
              · exact .inr ⟨a', k', d', List.mem_cons_of_mem _ h, hk'⟩
          · simp [PStatus.attempt, hx, PStatus.isComplete, h5]
      · rename_i hr
        obtain ⟨h1, h2, h3, h4, h5, h6⟩ := ih n cur (i + 1) hm'
        refine ⟨h1, fun o => ?_, ?_, ?_, ?_, by simpa using h6⟩
        · have h2 := h2 o
          simp only [owed_cons, List.count_append]
          omega
        · intro e he
          rw [List.take_succ_cons, List.mem_cons] at he
          rcases he with rfl | he
          · cases e with
            | complete => exact .inr rfl
            | pubrec k pid =>
              left
              have := (hclk cur).1
              simp [PStatus.ready] at hr
              have : k ≠ 0 := by omega
              simp [PStatus.owed?, this]
            | new a k pid p d =>
              left
              have := (hclk cur).1
              simp [PStatus.ready] at hr
              have : k ≠ 0 := by omega
              simp [PStatus.owed?, this]
          · exact h3 e he
        · intro a k pid p d h hk
          rw [List.mem_cons] at h
          rcases h with rfl | h
          · exact .inr ⟨a, k, d, by simp, hk⟩
          · rcases h4 a k pid p d h hk with h | ⟨a', k', d', h, hk'⟩
            · exact .inl h
            · exact .inr ⟨a', k', d', List.mem_cons_of_mem _ h, hk'⟩
        · simp [h5]

theorem filterMap_count_le {α β : Type} [BEq β] {f : α → Option β} {a b : List α}
    (h : a.Sublist b) (o : β) : (a.filterMap f).count o ≤ (b.filterMap f).count o :=
  (h.filterMap f).count_le o

theorem head_afterDrop {α : Type} (f : α → Bool) (l : List α) (e : α)
    (h : (l.dropWhile f).head? = some e) : f e = false := by
  have := List.head?_dropWhile_not f l
  rw [h] at this
  simpa using this

theorem mem_drop_of_le {α : Type} {l : List α} {m n : Nat} {e : α} (h : m ≤ n)
    (he : e ∈ l.drop n) : e ∈ l.drop m := by
  rw [show n = m + (n - m) by omega, ← List.drop_drop] at he
  exact List.mem_of_mem_drop he

theorem clean_out {q : Pending PubPacket}
    (h : ∀ e ∈ q.packets.drop q.maxInflight, e.owed? = none) :
    ∀ e ∈ q.cleanComplete.packets.drop q.maxInflight, e.owed? = none := by
  intro e he
  obtain ⟨k, hk⟩ := List.dropWhile_suffix PStatus.isComplete (l := q.packets)
  refine h e ?_
  rw [← hk, List.drop_append]
  exact List.mem_append_right _ (mem_drop_of_le (Nat.sub_le _ _) he)

theorem pass_eq {T : Nat} {s : Sender PubPacket} {clk : Clock} (hp : Plainly T exp s)
    (hclk : clk.Late T) :
    s.step exp (.pass clk) =
      ({ s with pending := { s.pending with packets := (s.pending.swept exp clk).1 } },
        (s.pending.swept exp clk).2.1) := by
  have h := (sweep_owed hclk s.pending.cleanComplete.window 0 0 s.pending.cleanComplete.packets
    (exp := exp) fun p hpp => hp.msgs p (cleanComplete_msgs _ p hpp)).1
  have h' : (s.pending.swept exp clk).2.2 = [] := by
    unfold Pending.swept; rw [hp.timeout]; exact h
  simp only [Sender.step]
  rw [Pending.handlePendings_eq, h']
  simp [Pending.afterSweep, h', Pending.completeAll]

theorem pass_awaited {T : Nat} {s : Sender PubPacket} {l : List Owed} {S : List (Sent PubPacket)}
    {clk : Clock} (hp : Plainly T exp s) (hc : Covered s l S) (hclk : clk.Late T) :
    Awaited (s.step exp (.pass clk)).1 (l ++ (s.step exp (.pass clk)).2.flatMap Sent.owed)
      (S ++ (s.step exp (.pass clk)).2) := by
  rw [pass_eq hp hclk]
  obtain ⟨h1, h2, h3, h4, h5, h8⟩ := sweep_owed hclk s.pending.cleanComplete.window 0 0
    s.pending.cleanComplete.packets (exp := exp)
    fun p hpp => hp.msgs p (cleanComplete_msgs _ p hpp)
  have hsw : s.pending.swept exp clk = sweep exp T clk s.pending.cleanComplete.window 0 0
    s.pending.cleanComplete.packets := by unfold Pending.swept; rw [hp.timeout]
  rw [hsw]
  have hlen := sweep_length exp T clk s.pending.cleanComplete.window 0 0
    s.pending.cleanComplete.packets
  generalize sweep exp T clk s.pending.cleanComplete.window 0 0
    s.pending.cleanComplete.packets = R at h1 h2 h3 h4 h5 h8 hlen ⊢
  have hsub : s.pending.cleanComplete.packets.Sublist s.pending.packets := List.dropWhile_sublist _
  refine { count := fun o => ?_, sent := ?_, out := ?_, window := ?_, head := ?_ }
  · have := h2 o
    have h6 := filterMap_count_le (f := PStatus.owed?) hsub o
    have h7 := hc.count o
    simp only [List.count_append]
    omega
  · intro a k pid p d hm hk
    rw [allSent_append, List.mem_append]
    rcases h4 a k pid p d hm hk with h | ⟨a', k', d', h, hk'⟩
    · exact .inr h
    · exact .inl (hc.sent _ _ _ _ _ (hsub.subset h) hk')
  · intro e he
    have he : e ∈ R.1.drop s.pending.maxInflight := he
    have h9 : R.1.drop s.pending.maxInflight =
        s.pending.cleanComplete.packets.drop s.pending.maxInflight := by
      have hle : s.pending.cleanComplete.window ≤ s.pending.maxInflight := Nat.min_le_left _ _
      have : s.pending.maxInflight = s.pending.cleanComplete.window +
        (s.pending.maxInflight - s.pending.cleanComplete.window) := by omega
      rw [this, ← List.drop_drop, ← List.drop_drop, h8]
    rw [h9] at he
    exact clean_out hc.out e he
  · intro e he
    refine h3 e ?_
    have : R.1.take s.pending.maxInflight = R.1.take s.pending.cleanComplete.window := by
      rw [Pending.window, ← hlen, ← List.take_take, List.take_length]
      rfl
    rw [← this]
    exact he
  · intro e he
    have h6 : (R.1.map PStatus.isComplete).head? = some e.isComplete := by
      rw [List.head?_map]
      have he : R.1.head? = some e := he
      rw [he]
      rfl
    rw [h5, List.head?_map, Option.map_eq_some_iff] at h6
    obtain ⟨e', h6, h7⟩ := h6
    rw [← h7]
    exact head_afterDrop _ _ _ h6

/-! ### The other operations -/

theorem Plainly.step {T : Nat} {s : Sender PubPacket} (h : Plainly T exp s) (op : SendOp PubPacket)
    (hd : ∀ p ∈ delivered [op], p.qos ≠ 0 ∧ exp p = none) : Plainly T exp (s.step exp op).1 where
  timeout := by rw [← h.timeout]; exact (exec_params exp s [op]).2.2
  msgs p hp := by
    rcases List.mem_append.1 ((step_msgs exp s op).subset hp) with hp | hp
    · exact h.msgs p hp
    · exact hd p hp

theorem deliver_covered {s : Sender PubPacket} {l : List Owed} {S : List (Sent PubPacket)}
    (hc : Covered s l S) (now : Nat) (p : PubPacket) :
    Covered (s.step exp (.deliver now p)).1 l S := by
  have hsub : s.pending.cleanComplete.packets.Sublist s.pending.packets := List.dropWhile_sublist _
  simp only [Sender.step, Pending.pushBack]
  split
  · exact ⟨fun o => Nat.le_trans (filterMap_count_le hsub o) (hc.count o),
      fun a n pid p d hm hn => hc.sent a n pid p d (hsub.subset hm) hn, clean_out hc.out⟩
  · refine ⟨fun o => ?_, fun a n pid p d hm hn => ?_, fun e he => ?_⟩
    · simp only [List.filterMap_append, List.count_append]
      have := filterMap_count_le (f := PStatus.owed?) hsub o
      have := hc.count o
      simp only [List.filterMap_cons, PStatus.owed?, if_true, List.filterMap_nil, List.count_nil]
      omega
    · simp only [List.mem_append, List.mem_singleton, PStatus.new.injEq] at hm
      rcases hm with hm | hm
      · exact hc.sent a n pid p d (hsub.subset hm) hn
      · exact absurd hm.2.1 hn
    · simp only [List.drop_append, List.mem_append] at he
      rcases he with he | he
      · exact clean_out hc.out e he
      · have := List.mem_of_mem_drop he
        rw [List.mem_singleton] at this
        subst this
        rfl

/-- The answer that an acknowledgement is. -/
def SendOp.answer : SendOp PubPacket → Option Owed
  | .puback pid => some (.publish pid)
  | .pubrec _ pid => some (.publish pid)
  | .pubcomp pid => some (.pubrel pid)
  | _ => none

theorem ack_update {s : Sender PubPacket} {l : List Owed} {S : List (Sent PubPacket)}
    (ha : Awaited s l S) {f : PStatus PubPacket → Option (PStatus PubPacket)} {x : Owed}
    {y : Option Owed}
    (hf : ∀ e e', f e = some e' → (e.owed? = some x ∨ e.owed? = none) ∧ e.isComplete = false ∧
      (e'.owed? = none ∨ e'.owed? = y) ∧ ∀ a n pid p d, e' ≠ .new a n pid p d)
    (hn : ∀ e, f e = none → e.owed? ≠ some x)
    {s' : Sender PubPacket}
    (hs : s'.pending.packets =
      (updFirst f s.pending.window s.pending.packets).getD s.pending.packets)
    (hi : s'.pending.maxInflight = s.pending.maxInflight) :
    Covered s' (l.erase x ++ y.toList) S := by
  have hwin : s.pending.packets.take s.pending.window = s.pending.packets.take s.pending.maxInflight := by
    rw [Pending.window, ← List.take_take, List.take_length]
  cases h : updFirst f s.pending.window s.pending.packets with
  | none =>
    rw [h] at hs
    have hs : s'.pending.packets = s.pending.packets := hs
    refine ⟨fun o => ?_, fun a n pid p d hm hn => ha.sent a n pid p d (hs ▸ hm) hn, by
      rw [hs, hi]; exact ha.out⟩
    have h0 := ha.count o
    rw [hs, List.count_append, List.count_erase]
    by_cases hxo : x = o
    · subst hxo
      have : (s.pending.packets.filterMap PStatus.owed?).count x = 0 := by
        rw [List.count_eq_zero, List.mem_filterMap]
        rintro ⟨e, he, ho⟩
        rw [← List.take_append_drop s.pending.maxInflight s.pending.packets, List.mem_append] at he
        rcases he with he | he
        · rw [← hwin] at he
          exact hn e (updFirst_none h e he) ho
        · rw [ha.out e he] at ho
          cases ho
      omega
    · simp [hxo]
      omega
  | some ps =>
    rw [h] at hs
    have hs : s'.pending.packets = ps := hs
    have hdrop := updFirst_drop h
    obtain ⟨pre, e, e', post, h1, h2, h3, h4, _⟩ := updFirst_some h
    obtain ⟨k1, k2, k3, k4⟩ := hf e e' h3
    have hw : pre.length < s.pending.maxInflight := Nat.lt_of_lt_of_le h4 (Nat.min_le_left _ _)
    have hmem : e ∈ s.pending.packets.take s.pending.maxInflight := by
      rw [h1, List.take_append, List.mem_append]
      right
      obtain ⟨n, hn⟩ : ∃ n, s.pending.maxInflight - pre.length = n + 1 :=
        ⟨s.pending.maxInflight - pre.length - 1, by omega⟩
      rw [hn]
      simp
    have hx : e.owed? = some x := by
      rcases k1 with k1 | k1
      · exact k1
      · have := ha.window e hmem
        rw [k1, k2] at this
        simp at this
    refine ⟨fun o => ?_, fun a n pid p d hm hn => ?_, fun b hb => ?_⟩
    · have := ha.count o
      rw [h1] at this
      rw [hs, h2]
      rw [List.filterMap_append, owed_cons, List.count_append, List.count_append] at this ⊢
      rw [hx] at this
      rw [List.count_append, List.count_erase]
      have h5 : e'.owed?.toList.count o ≤ y.toList.count o := by
        rcases k3 with k3 | k3 <;> rw [k3] <;> simp
      have h6 : (some x).toList.count o = if x == o then 1 else 0 := by
        simp [List.count_cons]
      rw [h6] at this
      omega
    · rw [hs, h2] at hm
      refine ha.sent a n pid p d ?_ hn
      rw [h1]
      simp only [List.mem_append, List.mem_cons] at hm ⊢
      rcases hm with hm | hm | hm
      · exact .inl hm
      · exact absurd hm.symm (k4 _ _ _ _ _)
      · exact .inr (.inr hm)
    · rw [hi, hs] at hb
      refine ha.out b ?_
      rw [show s.pending.maxInflight = s.pending.window + (s.pending.maxInflight - s.pending.window) by
        have : s.pending.window ≤ s.pending.maxInflight := Nat.min_le_left _ _
        omega, ← List.drop_drop] at hb ⊢
      rw [← hdrop]
      exact hb

theorem complete_getD (q : Pending PubPacket) (pid : Pid) (qos : QoS) :
    (q.complete pid qos).1.packets =
      (updFirst (completeStatus pid qos) q.window q.packets).getD q.packets ∧
    (q.complete pid qos).1.maxInflight = q.maxInflight := by
  unfold Pending.complete
  split <;> rename_i h <;> rw [h] <;> exact ⟨rfl, rfl⟩

theorem pubrec_getD (q : Pending PubPacket) (now : Nat) (pid : Pid) :
    (q.pubrec now pid).1.packets =
      (updFirst (pubrecStatus now pid) q.window q.packets).getD q.packets ∧
    (q.pubrec now pid).1.maxInflight = q.maxInflight := by
  unfold Pending.pubrec
  split <;> rename_i h <;> rw [h] <;> exact ⟨rfl, rfl⟩

theorem ack_covered {s : Sender PubPacket} {l : List Owed} {S : List (Sent PubPacket)}
    (ha : Awaited s l S) {op : SendOp PubPacket} {x : Owed} (hop : op.answer = some x) :
    Covered (s.step exp op).1 (l.erase x ++ (s.step exp op).2.flatMap Sent.owed)
      (S ++ (s.step exp op).2) := by
  cases op with
  | puback pid =>
    cases hop
    obtain ⟨h1, h2⟩ := complete_getD s.pending pid 1
    have := ack_update ha (f := completeStatus pid 1) (x := .publish pid) (y := none)
      (s' := (s.step exp (.puback pid)).1) ?_ ?_ h1 h2
    · simpa [Sender.step] using this
    · intro e e' h
      cases e with
      | new a n q p d =>
        simp only [completeStatus, true_and] at h
        split at h <;> cases h
        rename_i hq
        subst hq
        refine ⟨?_, rfl, .inl rfl, fun _ _ _ _ _ h => by cases h⟩
        by_cases hn : n = 0 <;> simp [PStatus.owed?, hn]
      | pubrec n q => simp [completeStatus] at h
      | complete => simp [completeStatus] at h
    · intro e h
      cases e with
      | new a n q p d =>
        simp only [completeStatus, true_and] at h
        split at h
        · cases h
        · rename_i hq
          simp only [PStatus.owed?]
          split <;> simp [hq]
      | pubrec n q => simp only [PStatus.owed?]; split <;> simp
      | complete => simp [PStatus.owed?]
  | pubrec now pid =>
    cases hop
    obtain ⟨h1, h2⟩ := pubrec_getD s.pending now pid
    have := ack_update ha (f := pubrecStatus now pid) (x := .publish pid) (y := some (.pubrel pid))
      (s' := (s.step exp (.pubrec now pid)).1) ?_ ?_ h1 h2
    · have := this.mono [] [.pubrel pid]
      simpa [Sender.step, Sent.owed] using this
    · intro e e' h
      cases e with
      | new a n q p d =>
        simp only [pubrecStatus] at h
        split at h <;> cases h
        rename_i hq
        subst hq
        refine ⟨?_, rfl, ?_, fun _ _ _ _ _ h => by cases h⟩
        · by_cases hn : n = 0 <;> simp [PStatus.owed?, hn]
        · by_cases hn : now = 0 <;> simp [PStatus.owed?, hn]
      | pubrec n q => simp [pubrecStatus] at h
      | complete => simp [pubrecStatus] at h
    · intro e h
      cases e with
      | new a n q p d =>
        simp only [pubrecStatus] at h
        split at h
        · cases h
        · rename_i hq
          simp only [PStatus.owed?]
          split <;> simp [hq]
      | pubrec n q => simp only [PStatus.owed?]; split <;> simp
      | complete => simp [PStatus.owed?]
  | pubcomp pid =>
    cases hop
    obtain ⟨h1, h2⟩ := complete_getD s.pending pid 2
    have := ack_update ha (f := completeStatus pid 2) (x := .pubrel pid) (y := none)
      (s' := (s.step exp (.pubcomp pid)).1) ?_ ?_ h1 h2
    · simpa [Sender.step] using this
    · intro e e' h
      cases e with
      | new a n q p d => simp [completeStatus] at h
      | pubrec n q =>
        simp only [completeStatus, true_and] at h
        split at h <;> cases h
        rename_i hq
        subst hq
        refine ⟨?_, rfl, .inl rfl, fun _ _ _ _ _ h => by cases h⟩
        by_cases hn : n = 0 <;> simp [PStatus.owed?, hn]
      | complete => simp [completeStatus] at h
    · intro e h
      cases e with
      | new a n q p d => simp only [PStatus.owed?]; split <;> simp
      | pubrec n q =>
        simp only [completeStatus, true_and] at h
        split at h
        · cases h
        · rename_i hq
          simp only [PStatus.owed?]
          split <;> simp [hq]
      | complete => simp [PStatus.owed?]
  | _ => cases hop

theorem reconnect_covered (s : Sender PubPacket) (m : Option Nat) (S : List (Sent PubPacket)) :
    Covered (s.step exp (.reconnect m)).1 [] S := by
  have hp : (s.step exp (.reconnect m)).1.pending.packets = s.pending.packets.map PStatus.reset := by
    cases m <;> rfl
  have hnone : ∀ e ∈ (s.step exp (.reconnect m)).1.pending.packets, e.owed? = none := by
    intro e he
    rw [hp, List.mem_map] at he
    obtain ⟨e', _, rfl⟩ := he
    cases e' <;> rfl
  refine ⟨fun o => ?_, fun a n pid p d hm hn => ?_, fun e he => hnone e (List.mem_of_mem_drop he)⟩
  · rw [List.filterMap_eq_nil_iff.2 hnone]
    exact Nat.zero_le _
  · have := hnone _ hm
    simp [PStatus.owed?, hn] at this

/-! ## The operations of a step -/

theorem delivered_cons_mem {P : Type} {op : SendOp P} {ops : List (SendOp P)} {p : P} :
    p ∈ delivered (op :: ops) ↔ p ∈ delivered [op] ∨ p ∈ delivered ops := by
  cases op <;> simp [delivered]

theorem RightWay.tail {op : OutOp} {ops : List OutOp} (h : RightWay (op :: ops)) : RightWay ops :=
  ⟨fun p hp => h.1 p (List.mem_cons_of_mem _ hp), fun n p hp => h.2 n p (List.mem_cons_of_mem _ hp)⟩

theorem Plainly.exec {T : Nat} {s : Sender PubPacket} (h : Plainly T exp s)
    (ops : List (SendOp PubPacket)) (hd : ∀ p ∈ delivered ops, p.qos ≠ 0 ∧ exp p = none) :
    Plainly T exp (s.exec exp ops) := by
  induction ops generalizing s with
  | nil => exact h
  | cons op ops ih =>
    exact ih (h.step op fun p hp => hd p (delivered_cons_mem.2 (.inl hp)))
      fun p hp => hd p (delivered_cons_mem.2 (.inr hp))

/-- Messages are handed to the queue, and passes are made. -/
theorem ops_covered {T : Nat} {ops : List OutOp} {s : Sender PubPacket} {l : List Owed}
    {S : List (Sent PubPacket)} (hin : ∀ i ∈ ops.filterMap OutOp.input, ∃ p, i = .message p)
    (hway : RightWay ops) (hd : ∀ p ∈ delivered (queueOps ops), p.qos ≠ 0 ∧ exp p = none)
    (hclk : ∀ clk ∈ passClocks ops, clk.Late T) (hp : Plainly T exp s) (hc : Covered s l S) :
    Covered (s.exec exp (queueOps ops)) (l ++ (sends exp s ops).flatMap Sent.owed)
      (S ++ sends exp s ops) := by
  induction ops generalizing s l S with
  | nil => simpa [sends, queueOps, Sender.exec] using hc
  | cons op ops ih =>
    have hin' : ∀ i ∈ ops.filterMap OutOp.input, ∃ p, i = .message p := by
      intro i hi
      refine hin i ?_
      rw [List.filterMap_cons]
      split
      · exact hi
      · exact List.mem_cons_of_mem _ hi
    cases op with
    | direct p =>
      have h0 := hway.1 p (by simp)
      have := ih hin' hway.tail hd hclk hp (hc.mono [] [.publish 0 p false p.props.messageExpiry])
      simp only [List.append_nil] at this
      simpa [sends, queueOps, Sent.owed, h0] using this
    | queue op =>
      have hd' : ∀ p ∈ delivered (queueOps ops), p.qos ≠ 0 ∧ exp p = none := fun p h =>
        hd p (delivered_cons_mem.2 (.inr h))
      have hp' := hp.step op fun p h => hd p (delivered_cons_mem.2 (.inl h))
      simp only [sends, queueOps, exec_cons, List.flatMap_append]
      rw [← List.append_assoc, ← List.append_assoc]
      cases op with
      | deliver now p =>
        refine ih hin' hway.tail hd' hclk hp' ?_
        have := (deliver_covered (exp := exp) hc now p).mono ((s.step exp (.deliver now p)).2.flatMap Sent.owed) (s.step exp (.deliver now p)).2
        exact this
      | pass clk =>
        exact ih hin' hway.tail hd' (fun c h => hclk c (List.mem_cons_of_mem _ h)) hp'
          (pass_awaited hp hc (hclk clk (List.mem_cons_self ..))).toCovered
      | puback pid => obtain ⟨p, h⟩ := hin (.puback pid) (by simp [OutOp.input]); cases h
      | pubrec now pid => obtain ⟨p, h⟩ := hin (.pubrec pid) (by simp [OutOp.input]); cases h
      | pubcomp pid => obtain ⟨p, h⟩ := hin (.pubcomp pid) (by simp [OutOp.input]); cases h
      | reconnect m => obtain ⟨p, h⟩ := hin (.reconnect m) (by simp [OutOp.input]); cases h

/-- And the last thing is a pass. -/
theorem ops_awaited {T : Nat} {ops : List OutOp} {clk : Clock} {s : Sender PubPacket} {l : List Owed}
    {S : List (Sent PubPacket)}
    (hin : ∀ i ∈ (ops ++ [OutOp.queue (.pass clk)]).filterMap OutOp.input, ∃ p, i = .message p)
    (hway : RightWay (ops ++ [.queue (.pass clk)]))
    (hd : ∀ p ∈ delivered (queueOps (ops ++ [.queue (.pass clk)])), p.qos ≠ 0 ∧ exp p = none)
    (hclk : ∀ c ∈ passClocks (ops ++ [.queue (.pass clk)]), c.Late T) (hp : Plainly T exp s)
    (hc : Covered s l S) :
    Awaited (s.exec exp (queueOps (ops ++ [.queue (.pass clk)])))
      (l ++ (sends exp s (ops ++ [.queue (.pass clk)])).flatMap Sent.owed)
      (S ++ sends exp s (ops ++ [.queue (.pass clk)])) := by
  rw [queueOps_append, delivered_append] at hd
  have hd' : ∀ p ∈ delivered (queueOps ops), p.qos ≠ 0 ∧ exp p = none := fun p h =>
    hd p (List.mem_append_left _ h)
  have h := ops_covered (exp := exp) (T := T) (ops := ops)
    (fun i hi => hin i (by rw [List.filterMap_append]; exact List.mem_append_left _ hi))
    ⟨fun p h => hway.1 p (List.mem_append_left _ h),
      fun n p h => hway.2 n p (List.mem_append_left _ h)⟩ hd'
    (fun c h => hclk c (by rw [passClocks_append]; exact List.mem_append_left _ h)) hp hc
  have hl := hclk clk (by rw [passClocks_append]; simp [passClocks])
  have := pass_awaited (hp.exec (queueOps ops) hd') h hl
  rw [queueOps_append, exec_append, sends_append, List.flatMap_append, ← List.append_assoc,
    ← List.append_assoc]
  simpa [queueOps, sends, exec_cons, Sender.exec] using this

/-- Or nothing is handed to the queue. -/
theorem ops_idle {T : Nat} {ops : List OutOp} {s : Sender PubPacket} {l : List Owed}
    {S : List (Sent PubPacket)} (hin : ∀ i ∈ ops.filterMap OutOp.input, ∃ p, i = .message p)
    (hway : RightWay ops) (hd : delivered (queueOps ops) = [])
    (hclk : ∀ clk ∈ passClocks ops, clk.Late T) (hp : Plainly T exp s) (hc : Awaited s l S) :
    Awaited (s.exec exp (queueOps ops)) (l ++ (sends exp s ops).flatMap Sent.owed)
      (S ++ sends exp s ops) := by
  induction ops generalizing s l S with
  | nil => simpa [sends, queueOps, Sender.exec] using hc
  | cons op ops ih =>
    have hin' : ∀ i ∈ ops.filterMap OutOp.input, ∃ p, i = .message p := by
      intro i hi
      refine hin i ?_
      rw [List.filterMap_cons]
      split
      · exact hi
      · exact List.mem_cons_of_mem _ hi
    cases op with
    | direct p =>
      have h0 := hway.1 p (by simp)
      have := ih hin' hway.tail hd hclk hp (hc.mono [] [.publish 0 p false p.props.messageExpiry])
      simp only [List.append_nil] at this
      simpa [sends, queueOps, Sent.owed, h0] using this
    | queue op =>
      simp only [sends, queueOps, exec_cons, List.flatMap_append]
      rw [← List.append_assoc, ← List.append_assoc]
      cases op with
      | deliver now p => simp [queueOps, delivered] at hd
      | pass clk =>
        have hp' := hp.step (.pass clk) fun p h => by cases h
        exact ih hin' hway.tail hd (fun c h => hclk c (List.mem_cons_of_mem _ h)) hp'
          (pass_awaited hp hc.toCovered (hclk clk (List.mem_cons_self ..)))
      | puback pid => obtain ⟨p, h⟩ := hin (.puback pid) (by simp [OutOp.input]); cases h
      | pubrec now pid => obtain ⟨p, h⟩ := hin (.pubrec pid) (by simp [OutOp.input]); cases h
      | pubcomp pid => obtain ⟨p, h⟩ := hin (.pubcomp pid) (by simp [OutOp.input]); cases h
      | reconnect m => obtain ⟨p, h⟩ := hin (.reconnect m) (by simp [OutOp.input]); cases h

/-! ## What the client owes, from the steps -/

/-- What is owed before the packets of the step are sent. -/
def Rec.owedBase (r : Rec) (l : List Owed) : List Owed :=
  match r.ev with
  | .resume _ => []
  | _ =>
    match r.received with
    | some p => Obs.owed l (.received p)
    | none => l

theorem owed_sent (out : List OutPkt) (l : List Owed) :
    (out.map Obs.sent).foldl Obs.owed l = l ++ out.flatMap OutPkt.owed := by
  induction out generalizing l with
  | nil => simp
  | cons o out ih => rw [List.map_cons, List.foldl_cons, ih, List.flatMap_cons, ← List.append_assoc]; rfl

theorem owed_rec (r : Rec) (l : List Owed) :
    r.obs.foldl Obs.owed l = r.owedBase l ++ r.res.out.flatMap OutPkt.owed := by
  have hskip : ∀ {α : Type} (xs : List α) (f : α → Obs) (l : List Owed),
      (∀ a, (∃ m, f a = .took m) ∨ ∃ m, f a = .routed m) → (xs.map f).foldl Obs.owed l = l := by
    intro α xs f l hf
    induction xs with
    | nil => rfl
    | cons a xs ih =>
      rw [List.map_cons, List.foldl_cons]
      rcases hf a with ⟨m, h⟩ | ⟨m, h⟩ <;> rw [h] <;> exact ih
  unfold Rec.obs Rec.owedBase
  rw [List.foldl_append, List.foldl_append, List.foldl_append, List.foldl_append, owed_sent,
    hskip _ Obs.routed _ (fun _ => .inr ⟨_, rfl⟩), hskip _ Obs.took _ (fun _ => .inl ⟨_, rfl⟩)]
  congr 1
  cases hev : r.ev with
  | resume c => rw [resume_received hev]; rfl
  | packet a n pk =>
    simp only [List.foldl_nil]
    cases hr : r.received with
    | none => rfl
    | some pk => cases pk <;> rfl
  | _ =>
    have : r.received = none := by simp [Rec.received, hev]
    rw [this]; rfl

theorem owed_deliveries (out : List OutPkt) :
    (out.filter OutPkt.isDelivery).flatMap OutPkt.owed = out.flatMap OutPkt.owed := by
  induction out with
  | nil => rfl
  | cons o out ih =>
    rw [List.filter_cons]
    cases o <;> simp [OutPkt.isDelivery, OutPkt.owed, ih]

theorem owed_carries {xs : List (Sent PubPacket)} {os : List OutPkt} (h : CarriesAll pr xs os) :
    os.flatMap OutPkt.owed = xs.flatMap Sent.owed := by
  induction h with
  | nil => rfl
  | @cons x o xs os h1 _ ih =>
    rw [List.flatMap_cons, List.flatMap_cons, ih]
    congr 1
    cases x with
    | publish pid p d e =>
      cases o with
      | publish w =>
        obtain ⟨_, h2, _⟩ := h1
        simp only [OutPkt.owed, Sent.owed, h2, PubPacket.qosPid]
        by_cases h0 : p.qos = 0
        · simp [h0]
        · by_cases h01 : p.qos = 1
          · simp [h01]
          · simp [h0, h01]
      | _ => cases h1
    | pubrel pid =>
      cases o with
      | pubrel pid' r => cases h1; rfl
      | _ => cases h1

/-! ## One step -/

/-- What is known of a session: it waits only while answers are owed. -/
structure Resting (T : Nat) (pr : Proto) (p : Peer) (l : List Owed) (S : List (Sent PubPacket)) :
    Prop where
  plain : Plainly T (expiryOf pr) p.session.sender
  held : p.online = true → p.session.disconnected = false → Awaited p.session.sender l S

theorem works_plain {r : Rec} {ops : List OutOp} (hw : WorksOff cfg pr r ops)
    (hx : ∀ p ∈ r.messages cfg pr, expiryOf pr p = none) :
    ∀ p ∈ delivered (queueOps ops), p.qos ≠ 0 ∧ expiryOf pr p = none := by
  intro p hp
  rw [delivered_queueOps hw.way, hw.inputs, List.mem_filter] at hp
  exact ⟨by simpa using hp.2, hx p hp.1⟩

theorem works_late {T : Nat} {r : Rec} {ops : List OutOp} (hw : WorksOff cfg pr r ops)
    (hl : lateEv T (r.env, r.before, r.ev)) : ∀ clk ∈ passClocks ops, clk.Late T := by
  intro clk hclk
  obtain ⟨n, hs⟩ := hw.clocks
  have h := hs.subset hclk
  unfold Rec.clocks at h
  unfold lateEv at hl
  cases hev : r.ev with
  | packet after k pk =>
    rw [hev] at h hl
    simp only [List.mem_append, List.mem_map, List.mem_singleton] at h
    rcases h with ⟨i, _, rfl⟩ | rfl
    · exact hl.1 i
    · exact hl.2
  | normal m => rw [hev] at h hl; rw [List.mem_singleton.1 h]; exact hl 0
  | resume c => rw [hev] at h hl; rw [List.mem_singleton.1 h]; exact hl 0
  | _ => rw [hev] at h; cases h

theorem packet_small {r : Rec} {after : Clock} {n : Nat} {pk : InPkt}
    (hs : r.pre.step cfg ext pr r.env r.before r.ev = some (r.post, r.res))
    (hev : r.ev = .packet after n pk) (hon : (r.pre.online && !r.pre.session.disconnected) = true)
    (h1 : r.post.online = true) (h2 : r.post.session.disconnected = false) :
    r.res.closed = false ∧ n ≤ cfg.maxPacketSizeServer := by
  rw [hev] at hs
  simp only [Peer.step, hon, if_true, Option.map_eq_some_iff, Prod.mk.injEq] at hs
  obtain ⟨res, h3, h4, h5⟩ := hs
  rw [← h4] at h1 h2
  have hcl : r.res.closed = false := by rw [← h5]; simpa using h1
  refine ⟨hcl, ?_⟩
  rcases Nat.lt_or_ge cfg.maxPacketSizeServer n with hn | hn
  · exfalso
    rw [← h5] at hcl
    cases pr with
    | v3 =>
      simp only [onPacket, handlePacket, handlePacketV3, if_pos hn, failV3, if_true,
        Option.some.injEq] at h3
      rw [← h3] at hcl
      cases hcl
    | v5 =>
      simp only [onPacket, handlePacket, handlePacketV5, if_pos hn, failV5, afterPacket,
        Session.disconnected, Bool.or_true, if_true, Bool.false_eq_true, if_false,
        Option.some.injEq] at h3
      rw [← h3] at h2
      simp [Session.disconnected] at h2
  · exact hn

theorem step_closed {r : Rec}
    (hs : r.pre.step cfg ext pr r.env r.before r.ev = some (r.post, r.res))
    (hc : r.res.closed = true) : r.post.online = false := by
  obtain ⟨ev, env, before, pre, post, res⟩ := r
  simp only at hs hc ⊢
  cases ev with
  | packet after n pk =>
    simp only [Peer.step] at hs
    split at hs
    · simp only [Option.map_eq_some_iff, Prod.mk.injEq] at hs
      obtain ⟨res, h3, rfl, rfl⟩ := hs
      simp [hc]
    · cases hs; cases hc
  | normal m =>
    simp only [Peer.step] at hs
    split at hs
    · cases hs
      unfold onNormal at hc
      simp only at hc
      split at hc
      · cases hc
      · split at hc <;> cases hc
    · cases hs; cases hc
  | offline m =>
    simp only [Peer.step] at hs
    split at hs <;> (cases hs; cases hc)
  | passed b n => cases hs; cases hc
  | lost => cases hs; rfl
  | resume c => cases hs; cases hc

theorem messages_all {l : List PubPacket} : ∀ i ∈ l.map Input.message, ∃ p, i = .message p := by
  intro i hi
  obtain ⟨p, _, rfl⟩ := List.mem_map.1 hi
  exact ⟨p, rfl⟩

/-- A packet is an acknowledgement or brings only messages. -/
theorem inputs_cases (cfg : Config) (pr : Proto) (g : Global) (s : Session) (pk : InPkt) :
    (∃ i x, pk.inputs cfg pr g s = [i] ∧ (∀ l, Obs.owed l (.received pk) = l.erase x) ∧
      (∀ p, i ≠ .message p) ∧
      ∀ op : OutOp, op.input = some i → ∃ o : SendOp PubPacket, op = .queue o ∧ o.answer = some x) ∨
    ((∀ i ∈ pk.inputs cfg pr g s, ∃ p, i = .message p) ∧ ∀ l, Obs.owed l (.received pk) = l) := by
  cases pk with
  | puback pid =>
    refine .inl ⟨_, .publish pid, rfl, fun _ => rfl, (fun _ h => by cases h), fun op ho => ?_⟩
    rcases op with p | op
    · cases ho
    · refine ⟨op, rfl, ?_⟩
      cases op <;> simp [OutOp.input] at ho
      rw [ho]; rfl
  | pubrec pid =>
    refine .inl ⟨_, .publish pid, rfl, fun _ => rfl, (fun _ h => by cases h), fun op ho => ?_⟩
    rcases op with p | op
    · cases ho
    · refine ⟨op, rfl, ?_⟩
      cases op <;> simp [OutOp.input] at ho
      rw [ho]; rfl
  | pubcomp pid =>
    refine .inl ⟨_, .pubrel pid, rfl, fun _ => rfl, (fun _ h => by cases h), fun op ho => ?_⟩
    rcases op with p | op
    · cases ho
    · refine ⟨op, rfl, ?_⟩
      cases op <;> simp [OutOp.input] at ho
      rw [ho]; rfl
  | subscribe pid topics id =>
    refine .inr ⟨?_, fun _ => rfl⟩
    simp only [InPkt.inputs]
    cases pr with
    | v3 => exact messages_all
    | v5 =>
      simp only
      split
      · exact fun i hi => by cases hi
      · exact messages_all
  | _ => exact .inr ⟨(fun i hi => by cases hi), fun _ => rfl⟩

theorem sends_cons (s : Sender PubPacket) (op : SendOp PubPacket) (ops : List OutOp) :
    sends exp s (.queue op :: ops) = (s.step exp op).2 ++ sends exp (s.step exp op).1 ops := rfl

/-- An acknowledgement or a new connection comes first, the last thing is a pass. -/
theorem first_awaited {T : Nat} {o : SendOp PubPacket} {ops : List OutOp} {i : Input}
    {s : Sender PubPacket} {l' : List Owed} {S : List (Sent PubPacket)}
    (hin : (OutOp.queue o :: ops).filterMap OutOp.input = [i]) (hi : (OutOp.queue o).input = some i)
    (hway : RightWay (.queue o :: ops))
    (hd : ∀ p ∈ delivered (queueOps (.queue o :: ops)), p.qos ≠ 0 ∧ exp p = none)
    (hclk : ∀ c ∈ passClocks (.queue o :: ops), c.Late T) (hp : Plainly T exp s)
    (hc : Covered (s.step exp o).1 (l' ++ (s.step exp o).2.flatMap Sent.owed) (S ++ (s.step exp o).2))
    (hf : ∃ ops' clk, OutOp.queue o :: ops = ops' ++ [.queue (.pass clk)]) :
    Awaited (s.exec exp (queueOps (.queue o :: ops)))
      (l' ++ (sends exp s (.queue o :: ops)).flatMap Sent.owed)
      (S ++ sends exp s (.queue o :: ops)) := by
  have hop : ∀ clk, o ≠ .pass clk := by rintro clk rfl; cases hi
  rw [List.filterMap_cons, hi] at hin
  simp only [List.cons.injEq, true_and] at hin
  obtain ⟨ops', clk, he⟩ := hf
  cases ops' with
  | nil =>
    simp only [List.nil_append, List.cons.injEq, OutOp.queue.injEq] at he
    exact absurd he.1 (hop clk)
  | cons x ops' =>
    simp only [List.cons_append, List.cons.injEq] at he
    obtain ⟨_, rfl⟩ := he
    have h := ops_awaited (exp := exp) (T := T) (ops := ops') (clk := clk)
      (by rw [hin]; exact fun i hi => by cases hi) hway.tail
      (fun p h => hd p (delivered_cons_mem.2 (.inr h)))
      (fun c h => hclk c (by cases o <;> simp_all [passClocks]))
      (hp.step o fun p h => hd p (delivered_cons_mem.2 (.inl h))) hc
    rw [sends_cons, List.flatMap_append, ← List.append_assoc, ← List.append_assoc]
    exact h

theorem rest_step {r : Rec} {l : List Owed} {S : List (Sent PubPacket)}
    (hs : r.pre.step cfg ext pr r.env r.before r.ev = some (r.post, r.res))
    (hl : lateEv cfg.inflightTimeout (r.env, r.before, r.ev))
    (hx : ∀ p ∈ r.messages cfg pr, expiryOf pr p = none)
    (h : Resting cfg.inflightTimeout pr r.pre l S) :
    ∃ S', CarriesAll pr S' (r.res.out.filter OutPkt.isDelivery) ∧
      Resting cfg.inflightTimeout pr r.post (r.obs.foldl Obs.owed l) (S ++ S') := by
  obtain ⟨ops, hw⟩ := worksOff_step hs
  have hd := works_plain hw hx
  have hclk := works_late hw hl
  have hplain : Plainly cfg.inflightTimeout (expiryOf pr) r.post.session.sender := by
    rw [hw.queue]; exact h.plain.exec _ hd
  cases hcl : r.res.closed with
  | true =>
    refine ⟨[], by rw [hw.lost hcl]; exact .nil, hplain, fun h1 _ => ?_⟩
    rw [step_closed hs hcl] at h1
    cases h1
  | false =>
    have hwire := hw.wire hcl
    refine ⟨_, hwire, hplain, fun h1 h2 => ?_⟩
    rw [owed_rec, ← owed_deliveries, owed_carries hwire, hw.queue]
    have hin := hw.inputs
    cases hev : r.ev with
    | packet after n pk =>
      have hon : (r.pre.online && !r.pre.session.disconnected) = true := by
        by_cases hon : (r.pre.online && !r.pre.session.disconnected) = true
        · exact hon
        · rw [hev] at hs
          simp only [Peer.step] at hs
          rw [if_neg hon] at hs
          simp only [Option.some.injEq, Prod.mk.injEq] at hs
          rw [hs.1] at hon
          simp [h1, h2] at hon
      obtain ⟨_, hn⟩ := packet_small hs hev hon h1 h2
      have hrec : r.received = some pk := by simp only [Rec.received, hev]; rw [if_pos hon]
      have hf : r.flushes cfg pr := by
        unfold Rec.flushes
        rw [hev]
        exact ⟨by rw [hrec]; simp, hcl, h2⟩
      have hinp : r.inputs cfg pr = pk.inputs cfg pr r.before r.pre.session := by
        unfold Rec.inputs
        rw [hev]
        simp only [hon, hn, decide_true, Bool.and_true, if_true]
      have hbase : r.owedBase l = Obs.owed l (.received pk) := by
        unfold Rec.owedBase
        rw [hev, hrec]
      simp only [Bool.and_eq_true, Bool.not_eq_true'] at hon
      have ha := h.held hon.1 hon.2
      rw [hbase]
      rcases inputs_cases cfg pr r.before r.pre.session pk with ⟨i, x, k1, k2, k3, k4⟩ | ⟨k1, k2⟩
      · rw [hinp, k1] at hin
        have hpr := hw.prompt i (by rw [hinp, k1]; simp)
        rcases hpr with ⟨p, hp⟩ | ⟨op, rest, he, ho⟩
        · exact absurd hp (k3 p)
        · obtain ⟨o, rfl, hans⟩ := k4 op ho
          subst he
          rw [k2]
          exact first_awaited hin ho hw.way hd hclk h.plain (ack_covered ha hans) (hw.flush hf)
      · rw [k2]
        obtain ⟨ops', clk, rfl⟩ := hw.flush hf
        exact ops_awaited (by rw [hin, hinp]; exact k1) hw.way hd hclk h.plain ha.toCovered
    | normal m =>
      have hbase : r.owedBase l = l := by
        unfold Rec.owedBase
        rw [hev]
        have : r.received = none := by simp [Rec.received, hev]
        rw [this]
      rw [hbase]
      have hon : (r.pre.online && !r.pre.session.disconnected) = true := by
        by_cases hon : (r.pre.online && !r.pre.session.disconnected) = true
        · exact hon
        · rw [hev] at hs
          simp only [Peer.step] at hs
          rw [if_neg hon] at hs
          simp only [Option.some.injEq, Prod.mk.injEq] at hs
          rw [hs.1] at hon
          simp [h1, h2] at hon
      have hinp : r.inputs cfg pr =
          ((dueOf cfg pr r.pre.session m).map Input.message).toList := by
        unfold Rec.inputs
        rw [hev]
        simp only [hon, if_true]
      simp only [Bool.and_eq_true, Bool.not_eq_true'] at hon
      have ha := h.held hon.1 hon.2
      cases hdue : dueOf cfg pr r.pre.session m with
      | none =>
        rw [hdue] at hinp
        refine ops_idle (by rw [hin, hinp]; exact fun i hi => by cases hi) hw.way ?_ hclk h.plain ha
        rw [delivered_queueOps hw.way, hin, hinp]
        rfl
      | some p =>
        rw [hdue] at hinp
        have hinp : r.inputs cfg pr = [.message p] := hinp
        have hall : ∀ i ∈ ops.filterMap OutOp.input, ∃ p, i = .message p := by
          rw [hin, hinp]
          exact fun i hi => ⟨p, List.mem_singleton.1 hi⟩
        by_cases hq : p.qos = 0
        · refine ops_idle hall hw.way ?_ hclk h.plain ha
          rw [delivered_queueOps hw.way, hin, hinp]
          simp [Input.message?, hq]
        · have hf : r.flushes cfg pr := by
            unfold Rec.flushes
            rw [hev]
            exact ⟨p, hinp, hq⟩
          obtain ⟨ops', clk, rfl⟩ := hw.flush hf
          exact ops_awaited hall hw.way hd hclk h.plain ha.toCovered
    | offline m =>
      have hbase : r.owedBase l = l := by
        unfold Rec.owedBase
        rw [hev]
        have : r.received = none := by simp [Rec.received, hev]
        rw [this]
      rw [hbase]
      rw [hev] at hs
      simp only [Peer.step] at hs
      split at hs
      · rename_i hon
        simp only [Option.some.injEq, Prod.mk.injEq] at hs
        have hinp : r.inputs cfg pr = [] := by
          unfold Rec.inputs
          rw [hev]
          simp only [hon, if_true]
        have ha := h.held hon (by rw [hs.1]; exact h2)
        refine ops_idle (by rw [hin, hinp]; exact fun i hi => by cases hi) hw.way ?_ hclk h.plain ha
        rw [delivered_queueOps hw.way, hin, hinp]
        rfl
      · rename_i hon
        simp only [Option.some.injEq, Prod.mk.injEq] at hs
        rw [← hs.1] at h1
        exact absurd h1 hon
    | passed b n =>
      have hbase : r.owedBase l = l := by
        unfold Rec.owedBase
        rw [hev]
        have : r.received = none := by simp [Rec.received, hev]
        rw [this]
      rw [hbase]
      rw [hev] at hs
      simp only [Peer.step, Option.some.injEq, Prod.mk.injEq] at hs
      have hinp : r.inputs cfg pr = [] := by unfold Rec.inputs; rw [hev]
      rw [← hs.1] at h1 h2
      have ha := h.held h1 h2
      refine ops_idle (by rw [hin, hinp]; exact fun i hi => by cases hi) hw.way ?_ hclk h.plain ha
      rw [delivered_queueOps hw.way, hin, hinp]
      rfl
    | lost =>
      rw [hev] at hs
      simp only [Peer.step, Option.some.injEq, Prod.mk.injEq] at hs
      rw [← hs.1] at h1
      cases h1
    | resume c =>
      have hbase : r.owedBase l = [] := by unfold Rec.owedBase; rw [hev]
      rw [hbase]
      have hf : r.flushes cfg pr := by unfold Rec.flushes; rw [hev]; trivial
      obtain ⟨m, hinp⟩ : ∃ m, r.inputs cfg pr = [.reconnect m] := by
        unfold Rec.inputs
        rw [hev]
        cases pr
        · exact ⟨_, rfl⟩
        · exact ⟨_, rfl⟩
      rw [hinp] at hin
      rcases hw.prompt (.reconnect m) (by rw [hinp]; simp) with ⟨p, hp⟩ | ⟨op, rest, he, ho⟩
      · cases hp
      · obtain ⟨o, rfl, hans⟩ : ∃ o : SendOp PubPacket, op = .queue o ∧ o = .reconnect m := by
          rcases op with p | op
          · cases ho
          · refine ⟨op, rfl, ?_⟩
            cases op <;> simp [OutOp.input] at ho
            rw [ho]
        subst he
        subst hans
        refine first_awaited hin ho hw.way hd hclk h.plain ?_ (hw.flush hf)
        exact reconnect_covered r.pre.session.sender m _

/-! ## Whole lives -/

theorem rest_run {p : Peer} {recs : List Rec} (hrun : IsRun cfg ext pr p recs)
    (hl : ∀ r ∈ recs, lateEv cfg.inflightTimeout (r.env, r.before, r.ev))
    (hx : ∀ r ∈ recs, ∀ p ∈ r.messages cfg pr, expiryOf pr p = none) {l : List Owed}
    {S : List (Sent PubPacket)} (h : Resting cfg.inflightTimeout pr p l S) :
    ∃ S', CarriesAll pr S' ((recs.flatMap (·.res.out)).filter OutPkt.isDelivery) ∧
      Resting cfg.inflightTimeout pr (endOf p recs) ((recs.flatMap Rec.obs).foldl Obs.owed l)
        (S ++ S') := by
  induction recs generalizing p l S with
  | nil => exact ⟨[], .nil, by simpa [endOf] using h⟩
  | cons r recs ih =>
    obtain ⟨rfl, h1, h2⟩ := hrun
    obtain ⟨S1, k1, k2⟩ := rest_step h1 (hl r (by simp)) (hx r (by simp)) h
    obtain ⟨S2, k3, k4⟩ := ih h2 (fun r hr => hl r (by simp [hr])) (fun r hr => hx r (by simp [hr])) k2
    refine ⟨S1 ++ S2, ?_, ?_⟩
    · rw [List.flatMap_cons, List.filter_append]
      exact k1.append k3
    · rw [List.flatMap_cons, List.foldl_append, ← List.append_assoc]
      exact k4

theorem rest_start (cfg : Config) (pr : Proto) (i : Str) (id : ClientId) (c : ConnParams) :
    Resting cfg.inflightTimeout pr { session := Session.start cfg pr i id c } [] [] := by
  have hp : (Session.start cfg pr i id c).sender.pending.packets = [] := by cases pr <;> rfl
  refine ⟨⟨by cases pr <;> rfl, fun p h => ?_⟩, fun _ _ => ⟨⟨fun o => ?_, ?_, ?_⟩, ?_, ?_⟩⟩
  · simp [Sender.msgs, hp] at h
  all_goals simp [hp]

/-! ## Nothing is lost -/

/-- What is no acknowledgement keeps all messages that do not expire. -/
theorem step_all {T : Nat} {s : Sender PubPacket} (hp : Plainly T exp s) {op : SendOp PubPacket}
    (ha : op.answer = none) (hc : ∀ clk, op = .pass clk → clk.Late T)
    (hroom : s.pending.packets.length + (delivered [op]).length ≤ s.pending.maxPackets) :
    (∀ p ∈ s.msgs ++ delivered [op], p ∈ (s.step exp op).1.msgs) ∧
    (s.step exp op).1.pending.packets.length ≤ s.pending.packets.length + (delivered [op]).length := by
  cases op with
  | deliver now p =>
    have hlen : s.pending.cleanComplete.packets.length ≤ s.pending.packets.length :=
      (List.dropWhile_sublist _).length_le
    have hfull : ¬ s.Full := by
      unfold Sender.Full
      simp only [delivered, List.length_singleton] at hroom
      intro h
      have h : s.pending.maxPackets ≤ s.pending.cleanComplete.packets.length := h
      omega
    have h := C09_room_accepted exp s now p hfull
    refine ⟨fun x hx => ?_, ?_⟩
    · rw [Sender.msgs, h]
      simp only [Pending.cleanComplete]
      rw [List.filterMap_append, filterMap_dropWhile _ rfl]
      exact hx
    · rw [h]
      simp only [delivered, List.length_append, List.length_singleton]
      omega
  | pass clk =>
    have hl := hc clk rfl
    refine ⟨fun x hx => ?_, ?_⟩
    · rw [pass_eq hp hl]
      simp only [delivered, List.append_nil] at hx
      show x ∈ (s.pending.swept exp clk).1.filterMap PStatus.msg?
      rw [swept_msgs]
      exact hx
    · show (s.pending.handlePendings exp clk).1.packets.length ≤ _
      simp only [delivered, List.length_nil, Nat.add_zero]
      exact (handlePendings_params exp clk s.pending).2.2.2
  | reconnect m =>
    refine ⟨fun x hx => ?_, ?_⟩
    · rw [Sender.msgs, reconnect_packets, filterMap_map_eq _ _ reset_msg]
      rw [show delivered [SendOp.reconnect m] = ([] : List PubPacket) from rfl, List.append_nil] at hx
      exact hx
    · rw [reconnect_packets, List.length_map]
      simp [delivered]
  | puback pid => cases ha
  | pubrec now pid => cases ha
  | pubcomp pid => cases ha

theorem exec_all {T : Nat} {ops : List (SendOp PubPacket)} {s : Sender PubPacket}
    (hp : Plainly T exp s) (hd : ∀ p ∈ delivered ops, p.qos ≠ 0 ∧ exp p = none)
    (ha : ∀ op ∈ ops, op.answer = none) (hc : ∀ clk, .pass clk ∈ ops → clk.Late T)
    (hroom : s.pending.packets.length + (delivered ops).length ≤ s.pending.maxPackets) :
    ∀ p ∈ s.msgs ++ delivered ops, p ∈ (s.exec exp ops).msgs := by
  induction ops generalizing s with
  | nil => intro p h; simpa [delivered, exec_nil] using h
  | cons op ops ih =>
    have hdc : delivered (op :: ops) = delivered [op] ++ delivered ops := by
      rw [← delivered_append]; rfl
    rw [hdc, List.length_append] at hroom
    obtain ⟨h1, h2⟩ := step_all hp (ha op (by simp)) (fun clk h => hc clk (by simp [h])) (by omega)
    have hmax : (s.step exp op).1.pending.maxPackets = s.pending.maxPackets :=
      (exec_params exp s [op]).2.1
    intro p h
    show p ∈ ((s.step exp op).1.exec exp ops).msgs
    refine ih (hp.step op fun p h => hd p (by rw [hdc]; simp [h]))
      (fun p h => hd p (by rw [hdc]; simp [h])) (fun o h => ha o (by simp [h]))
      (fun clk h => hc clk (by simp [h])) (by rw [hmax]; omega) p ?_
    rw [hdc, ← List.append_assoc] at h
    rcases List.mem_append.1 h with h | h
    · exact List.mem_append_left _ (h1 p h)
    · exact List.mem_append_right _ h

/-- An acknowledgement takes only messages that were sent. -/
theorem ack_all {s : Sender PubPacket} {l : List Owed} {S : List (Sent PubPacket)}
    (ha : Awaited s l S) {op : SendOp PubPacket} {x : Owed} (hop : op.answer = some x) :
    ∀ p ∈ s.msgs, p ∈ (s.step exp op).1.msgs ∨ p ∈ allSent S := by
  have key : ∀ (f : PStatus PubPacket → Option (PStatus PubPacket)),
      (∀ e e', f e = some e' → e.isComplete = false) →
      (s.step exp op).1.pending.packets =
        (updFirst f s.pending.window s.pending.packets).getD s.pending.packets →
      ∀ p ∈ s.msgs, p ∈ (s.step exp op).1.msgs ∨ p ∈ allSent S := by
    intro f hf hs p hp
    cases h : updFirst f s.pending.window s.pending.packets with
    | none =>
      rw [h] at hs
      left
      rw [Sender.msgs, hs]
      exact hp
    | some ps =>
      rw [h] at hs
      obtain ⟨pre, e, e', post, h1, h2, h3, h4, _⟩ := updFirst_some h
      rw [Sender.msgs, h1, List.mem_filterMap] at hp
      obtain ⟨y, hy, hm⟩ := hp
      rcases List.mem_append.1 hy with hy | hy
      · left
        rw [Sender.msgs, hs, List.mem_filterMap]
        exact ⟨y, by simp [h2, hy], hm⟩
      · rcases List.mem_cons.1 hy with rfl | hy
        · right
          have hw : pre.length < s.pending.maxInflight := Nat.lt_of_lt_of_le h4 (Nat.min_le_left _ _)
          have hmem : y ∈ s.pending.packets.take s.pending.maxInflight := by
            rw [h1, List.take_append, List.mem_append]
            right
            obtain ⟨n, hn⟩ : ∃ n, s.pending.maxInflight - pre.length = n + 1 :=
              ⟨s.pending.maxInflight - pre.length - 1, by omega⟩
            rw [hn]
            simp
          have := ha.window y hmem
          rw [hf _ _ h3] at this
          replace this := this.resolve_right (by simp)
          cases y with
          | new a n pid q d =>
            cases hm
            refine ha.sent a n pid p d (List.mem_of_mem_take hmem) fun hn => ?_
            simp [PStatus.owed?, hn] at this
          | pubrec n pid => cases hm
          | complete => cases hm
        · left
          rw [Sender.msgs, hs, List.mem_filterMap]
          exact ⟨y, by simp [h2, hy], hm⟩
  cases op with
  | puback pid =>
    refine key (completeStatus pid 1) (fun e e' h => ?_) (complete_getD s.pending pid 1).1
    cases e <;> simp [completeStatus] at h <;> rfl
  | pubrec now pid =>
    refine key (pubrecStatus now pid) (fun e e' h => ?_) (pubrec_getD s.pending now pid).1
    cases e <;> simp [pubrecStatus] at h <;> rfl
  | pubcomp pid =>
    refine key (completeStatus pid 2) (fun e e' h => ?_) (complete_getD s.pending pid 2).1
    cases e <;> simp [completeStatus] at h <;> rfl
  | _ => cases hop

theorem mem_passClocks {ops : List OutOp} {clk : Clock} (h : .pass clk ∈ queueOps ops) :
    clk ∈ passClocks ops := by
  induction ops with
  | nil => cases h
  | cons op ops ih =>
    rcases op with p | op
    · exact ih h
    · rcases List.mem_cons.1 h with hx | hx
      · subst hx; exact List.mem_cons_self
      · cases op <;> first | exact ih hx | exact List.mem_cons_of_mem _ (ih hx)

theorem mem_queueOps {ops : List OutOp} {op : SendOp PubPacket} :
    op ∈ queueOps ops ↔ .queue op ∈ ops := by
  induction ops with
  | nil => simp [queueOps]
  | cons x ops ih =>
    rcases x with p | x
    · simp [queueOps, ih]
    · simp [queueOps, ih]

/-- In a step with room in the queue, no message gets lost that was not sent. -/
theorem keep_step {r : Rec} {l : List Owed} {S : List (Sent PubPacket)}
    (hs : r.pre.step cfg ext pr r.env r.before r.ev = some (r.post, r.res))
    (hl : lateEv cfg.inflightTimeout (r.env, r.before, r.ev))
    (hx : ∀ p ∈ r.messages cfg pr, expiryOf pr p = none)
    (h : Resting cfg.inflightTimeout pr r.pre l S)
    (hroom : r.pre.session.sender.pending.packets.length + (r.messages cfg pr).length ≤
      r.pre.session.sender.pending.maxPackets) :
    ∀ p, p ∈ r.pre.session.sender.msgs ∨ (p ∈ r.messages cfg pr ∧ p.qos ≠ 0) →
      p ∈ r.post.session.sender.msgs ∨ p ∈ allSent S := by
  obtain ⟨ops, hw⟩ := worksOff_step hs
  have hd := works_plain hw hx
  have hclk := works_late hw hl
  have hin := hw.inputs
  have hdel : delivered (queueOps ops) = (r.messages cfg pr).filter (fun p => decide (p.qos ≠ 0)) := by
    rw [delivered_queueOps hw.way, hin]
    rfl
  have hlen : (delivered (queueOps ops)).length ≤ (r.messages cfg pr).length := by
    rw [hdel]; exact List.length_filter_le _ _
  have hquiet : (∀ op ∈ queueOps ops, op.answer = none) →
      ∀ p, p ∈ r.pre.session.sender.msgs ∨ (p ∈ r.messages cfg pr ∧ p.qos ≠ 0) →
        p ∈ r.post.session.sender.msgs ∨ p ∈ allSent S := by
    intro ha p hp
    left
    rw [hw.queue]
    refine exec_all h.plain hd ha (fun clk hm => hclk clk ?_) (by omega) p ?_
    · exact mem_passClocks hm
    · rw [List.mem_append, hdel, List.mem_filter]
      simpa using hp
  by_cases hq : ∀ op ∈ queueOps ops, op.answer = none
  · exact hquiet hq
  · obtain ⟨i, hi, hni⟩ : ∃ i ∈ r.inputs cfg pr,
        (∀ p, i ≠ .message p) ∧ ∀ m, i ≠ .reconnect m := by
      rw [Classical.not_forall] at hq
      obtain ⟨op, hq⟩ := hq
      rw [Classical.not_imp] at hq
      obtain ⟨hm, ha⟩ := hq
      rw [mem_queueOps] at hm
      rw [← hin]
      cases op with
      | puback pid => exact ⟨.puback pid, List.mem_filterMap.2 ⟨_, hm, rfl⟩, by simp, by simp⟩
      | pubrec now pid => exact ⟨.pubrec pid, List.mem_filterMap.2 ⟨_, hm, rfl⟩, by simp, by simp⟩
      | pubcomp pid => exact ⟨.pubcomp pid, List.mem_filterMap.2 ⟨_, hm, rfl⟩, by simp, by simp⟩
      | deliver now p => exact absurd rfl ha
      | pass clk => exact absurd rfl ha
      | reconnect m => exact absurd rfl ha
    have hi0 := hi
    unfold Rec.inputs at hi
    cases hev : r.ev with
    | packet after n pk =>
      rw [hev] at hi
      simp only at hi
      split at hi
      · rename_i hon
        have hinp : r.inputs cfg pr = pk.inputs cfg pr r.before r.pre.session := by
          unfold Rec.inputs
          rw [hev]
          simp only [hon, if_true]
        simp only [Bool.and_eq_true, Bool.not_eq_true'] at hon
        have ha := h.held hon.1.1 hon.1.2
        rcases inputs_cases cfg pr r.before r.pre.session pk with ⟨j, x, k1, k2, k3, k4⟩ | ⟨k1, k2⟩
        · rw [hinp, k1] at hin
          have hpr := hw.prompt j (by rw [hinp, k1]; simp)
          rcases hpr with ⟨p, hp⟩ | ⟨op, rest, he, ho⟩
          · exact absurd hp (k3 p)
          · obtain ⟨o, rfl, hans⟩ := k4 op ho
            subst he
            rw [List.filterMap_cons, ho] at hin
            simp only [List.cons.injEq, true_and] at hin
            have hnone : ∀ op ∈ queueOps rest, op.answer = none ∧ delivered [op] = [] := by
              intro op hm
              have := List.filterMap_eq_nil_iff.1 hin _ (mem_queueOps.1 hm)
              cases op <;> simp_all [OutOp.input, SendOp.answer, delivered]
            have hd0 : delivered (queueOps rest) = [] := by
              rw [delivered_queueOps hw.way.tail, hin]
              rfl
            have hmess : r.messages cfg pr = [] := by
              unfold Rec.messages
              rw [hinp, k1]
              cases j <;> first | rfl | exact absurd rfl (k3 _)
            rintro p (hp | hp)
            · rcases ack_all (exp := expiryOf pr) ha hans p hp with hp | hp
              · left
                rw [hw.queue]
                show p ∈ ((r.pre.session.sender.step (expiryOf pr) o).1.exec _ (queueOps rest)).msgs
                have hlen1 : (r.pre.session.sender.step (expiryOf pr) o).1.pending.packets.length ≤
                    r.pre.session.sender.pending.packets.length := by
                  cases o with
                  | puback pid => exact Nat.le_of_eq (complete_params _ _ _).2.2.2
                  | pubrec now pid => exact Nat.le_of_eq (pubrec_params _ _ _).2.2.2
                  | pubcomp pid => exact Nat.le_of_eq (complete_params _ _ _).2.2.2
                  | _ => cases hans
                refine exec_all (h.plain.step o fun p h => hd p (delivered_cons_mem.2 (.inl h)))
                  (fun p h => hd p (delivered_cons_mem.2 (.inr h))) (fun op hm => (hnone op hm).1)
                  (fun clk hm => hclk clk ?_) ?_ p ?_
                · exact mem_passClocks (List.mem_cons_of_mem _ hm)
                · have hmx : (r.pre.session.sender.step (expiryOf pr) o).1.pending.maxPackets =
                      r.pre.session.sender.pending.maxPackets :=
                    (exec_params (expiryOf pr) r.pre.session.sender [o]).2.1
                  rw [hd0, hmx]
                  simp only [List.length_nil]
                  omega
                · simp [hp]
              · exact .inr hp
            · rw [hmess] at hp
              cases hp.1
        · rw [hinp] at hi0
          obtain ⟨p, hp⟩ := k1 i hi0
          exact absurd hp (hni.1 p)
      · cases hi
    | normal m =>
      rw [hev] at hi
      simp only at hi
      split at hi
      · rw [Option.mem_toList, Option.map_eq_some_iff] at hi
        obtain ⟨p, _, hp⟩ := hi
        exact absurd hp.symm (hni.1 p)
      · cases hi
    | offline m =>
      rw [hev] at hi
      simp only at hi
      split at hi
      · cases hi
      · rw [Option.mem_toList, Option.map_eq_some_iff] at hi
        obtain ⟨p, _, hp⟩ := hi
        exact absurd hp.symm (hni.1 p)
    | passed b n => rw [hev] at hi; cases hi
    | lost => rw [hev] at hi; cases hi
    | resume c =>
      rw [hev] at hi
      cases pr with
      | v3 => exact absurd (List.mem_singleton.1 hi) (hni.2 _)
      | v5 => exact absurd (List.mem_singleton.1 hi) (hni.2 _)

theorem keep_run {p : Peer} {recs : List Rec} (hrun : IsRun cfg ext pr p recs)
    (hl : ∀ r ∈ recs, lateEv cfg.inflightTimeout (r.env, r.before, r.ev))
    (hx : ∀ r ∈ recs, ∀ p ∈ r.messages cfg pr, expiryOf pr p = none)
    (hmax : p.session.sender.pending.maxPackets = cfg.maxInMemPending)
    (hroom : ∀ r ∈ recs, r.pre.session.sender.pending.packets.length + (r.messages cfg pr).length ≤
      cfg.maxInMemPending) {l : List Owed}
    {S : List (Sent PubPacket)} (h : Resting cfg.inflightTimeout pr p l S) :
    ∃ S', CarriesAll pr S' ((recs.flatMap (·.res.out)).filter OutPkt.isDelivery) ∧
      Resting cfg.inflightTimeout pr (endOf p recs) ((recs.flatMap Rec.obs).foldl Obs.owed l)
        (S ++ S') ∧
      ∀ m, (m ∈ p.session.sender.msgs ∨ ((∃ r ∈ recs, m ∈ r.messages cfg pr) ∧ m.qos ≠ 0)) →
        m ∈ (endOf p recs).session.sender.msgs ∨ m ∈ allSent (S ++ S') := by
  induction recs generalizing p l S with
  | nil =>
    refine ⟨[], .nil, by simpa [endOf] using h, fun m hm => ?_⟩
    rcases hm with hm | ⟨⟨r, hr, _⟩, _⟩
    · exact .inl hm
    · cases hr
  | cons r recs ih =>
    obtain ⟨rfl, h1, h2⟩ := hrun
    obtain ⟨S1, k1, k2⟩ := rest_step h1 (hl r (by simp)) (hx r (by simp)) h
    have hmax' : r.post.session.sender.pending.maxPackets = cfg.maxInMemPending := by
      obtain ⟨ops, hw⟩ := worksOff_step h1
      rw [hw.queue, (exec_params _ _ _).2.1]
      exact hmax
    obtain ⟨S2, k3, k4, k5⟩ := ih h2 (fun r hr => hl r (by simp [hr])) (fun r hr => hx r (by simp [hr]))
      hmax' (fun r hr => hroom r (by simp [hr])) k2
    have hkeep := keep_step h1 (hl r (by simp)) (hx r (by simp)) h
      (by rw [hmax]; exact hroom r (by simp))
    refine ⟨S1 ++ S2, ?_, ?_, fun m hm => ?_⟩
    · rw [List.flatMap_cons, List.filter_append]
      exact k1.append k3
    · rw [List.flatMap_cons, List.foldl_append, ← List.append_assoc]
      exact k4
    · have hsub : m ∈ allSent S → m ∈ allSent (S ++ (S1 ++ S2)) := by
        intro h
        rw [allSent_append]
        exact List.mem_append_left _ h
      rw [← List.append_assoc] at hsub ⊢
      have hthen : m ∈ r.post.session.sender.msgs ∨ m ∈ allSent S →
          m ∈ (endOf r.pre (r :: recs)).session.sender.msgs ∨ m ∈ allSent (S ++ S1 ++ S2) := by
        rintro (h | h)
        · exact k5 m (.inl h)
        · exact .inr (hsub h)
      rcases hm with hm | ⟨⟨r', hr', hm⟩, hq⟩
      · exact hthen (hkeep m (.inl hm))
      · rcases List.mem_cons.1 hr' with rfl | hr'
        · exact hthen (hkeep m (.inr ⟨hm, hq⟩))
        · exact k5 m (.inr ⟨⟨r', hr', hm⟩, hq⟩)

theorem given_of_sent {xs : List (Sent PubPacket)} {os : List OutPkt} (h : CarriesAll pr xs os)
    {m : PubPacket} (hm : m ∈ allSent xs) : ∃ o ∈ os, Gives pr m o := by
  induction h with
  | nil => cases hm
  | @cons x o xs os hc _ ih =>
    cases x with
    | publish pid p dup ex =>
      rcases List.mem_cons.1 hm with rfl | hm
      · exact ⟨o, by simp, pid, dup, ex, hc⟩
      · obtain ⟨o', h1, h2⟩ := ih hm
        exact ⟨o', by simp [h1], h2⟩
    | pubrel pid =>
      obtain ⟨o', h1, h2⟩ := ih hm
      exact ⟨o', by simp [h1], h2⟩

/-! ## The window -/

theorem window_end {i : Str} {id : ClientId} {c : ConnParams} {recs : List Rec}
    (h : IsRun cfg ext pr { session := Session.start cfg pr i id c } recs) :
    (endOf { session := Session.start cfg pr i id c } recs).session.sender.pending.maxInflight =
      windowOf cfg pr (paramsOf c recs) := by
  obtain ⟨ops, hl, he⟩ := log_of_isRun h
  rw [he, (exec_params _ _ _).1, start_sender]
  cases pr with
  | v3 => exact log_receiveMax_v3 hl _
  | v5 => exact log_receiveMax_v5 hl c

/-! ## The whole broker -/

variable {w : World} {evs : List Event}

/-- What is in the inboxes was published, and the clocks show a time after `t`. -/
def Good.lately (t : Nat) (w : World) (evs : List Event) : Good :=
  { Good.origin w evs with
    env := fun env => ∀ i, (env.clk i).Late t
    after := fun clk => clk.Late t }

theorem lately_life {acts : List Act} {t : Nat} (h : Reaches cfg ext acts w evs)
    (hl : ∀ a ∈ acts, a.late t) : LifeIn (Good.lately t w evs) cfg ext w evs := by
  refine LifeIn.run h fun acts1 a acts2 w1 evs1 ha h1 => ?_
  have hla := hl a (by rw [ha]; simp)
  subst ha
  obtain ⟨⟨rest, rfl⟩, hreq⟩ := run_prefix h1 h
  obtain ⟨h2, h3⟩ := origin_state h1
  obtain ⟨h4, h5⟩ := origin_mono (evs1 := evs1) (rest := rest) hreq
  refine ⟨h4 _ h2, fun d q hq e he => h5 _ (h3 d q hq e he), ?_⟩
  cases a <;> first | trivial | exact hla

theorem lately_origin {t : Nat} {e : Env × Global × SessEv} (h : (Good.lately t w evs).ev e) :
    (Good.origin w evs).ev e ∧ lateEv t e := by
  obtain ⟨env, g, ev⟩ := e
  obtain ⟨h1, h2⟩ := h
  cases ev with
  | packet after n p => exact ⟨⟨h1, trivial, trivial⟩, h2⟩
  | normal m => exact ⟨⟨h1, trivial, h2.2⟩, h2.1⟩
  | offline m => exact ⟨⟨h1, trivial, h2.2⟩, trivial⟩
  | resume c => exact ⟨⟨h1, trivial⟩, h2⟩
  | passed b n => exact ⟨⟨h1, trivial⟩, trivial⟩
  | lost => exact ⟨⟨h1, trivial⟩, trivial⟩

theorem settled {acts : List Act} (hrun : Reaches cfg ext acts w evs)
    (hlate : ∀ a ∈ acts, a.late cfg.inflightTimeout) {t : TaskId} {s : Session} {req : Request}
    (hexp : req.level.proto = .v5 → NoneExpires evs)
    (hs : w.onlineSession t = some s) (hd : s.disconnected = false) (hreq : w.request t = some req)
    (hwin : 1 ≤ windowOf cfg req.level.proto req.params)
    (hnone : owedIn (lifeOf w req.identifier evs) = []) : s.sender.pending.packets = [] := by
  unfold World.onlineSession at hs
  unfold World.request at hreq
  cases hx : w.tasks.get t with
  | none => rw [hx] at hs; cases hs
  | some y =>
    rw [hx] at hs hreq
    cases hreq
    simp only at hs
    obtain ⟨s', hst⟩ : ∃ s', y.stage = .online s' := by
      cases hst : y.stage <;> rw [hst] at hs <;> first | exact ⟨_, rfl⟩ | cases hs
    rw [hst] at hs
    cases hs
    have hconn : connIn (lifeOf w y.req.identifier evs) = some y.req.params :=
      life_conn hrun hx (by rw [hst]; rfl) (by rw [hst]; rfl)
    obtain ⟨chain, p, h1, hf, _, _, h4⟩ :=
      (lately_life hrun hlate).life t y s hx (by rw [hst]; rfl)
    rw [hst] at hf
    have hf : p = { session := s } := hf
    have hlife : lifeOf w y.req.identifier evs = obsOf chain evs := lifeOf_chain h1.lives h4
    obtain ⟨i, id, c, sevs, recs, k1, k2, k3, k4, _⟩ := h1
    have hG : ∀ r ∈ recs, (Good.lately cfg.inflightTimeout w evs).ev (r.env, r.before, r.ev) :=
      fun r hr => k4 _ (by rw [← rec_event k1]; exact List.mem_map.2 ⟨r, hr, rfl⟩)
    rw [hlife, k2] at hnone hconn
    rw [connIn_recs] at hconn
    simp only [Option.some.injEq] at hconn
    have hr := isRun_of_run k1
    obtain ⟨S, _, hrest⟩ := rest_run hr (fun r hr => (lately_origin (hG r hr)).2)
      (fun r hr p hp => by
        cases hv : y.req.level.proto with
        | v3 => rfl
        | v5 =>
          rw [hv] at hp
          obtain ⟨u, m, req, h6, h7, -, -, -, -, h8⟩ :=
            messages_from (lately_origin (hG r hr)).1 hp
          have h8 := h8 rfl
          show p.props.messageExpiry = none
          rw [h8]
          simp only
          unfold SendPub.seenProps
          split
          · rfl
          · exact hexp hv _ h6) (rest_start cfg _ i id c)
    have hw := window_end hr
    rw [← k3, hf] at hrest hw
    have ha := hrest.held rfl hd
    have hz : (recs.flatMap Rec.obs).foldl Obs.owed [] = [] := hnone
    rw [hz] at ha
    refine ha.nil ?_
    rw [hw, hconn]
    exact hwin

end Akasa

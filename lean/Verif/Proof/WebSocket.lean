import Verif.Spec.WebSocket
/-!
# Lemmas for C53
-/
namespace Akasa.Ws

theorem payloads_append (a b : List Next) : payloads (a ++ b) = payloads a ++ payloads b := by
  induction a with
  | nil => rfl
  | cons x a ih =>
    cases x with
    | msg m => cases m <;> simp [payloads, ih]
    | error => simp [payloads, ih]
    | ended => simp [payloads, ih]
    | pending => simp [payloads, ih]

theorem sentPayloads_append (a b : List Msg) :
    sentPayloads (a ++ b) = sentPayloads a ++ sentPayloads b := by
  induction a with
  | nil => rfl
  | cons x a ih => cases x <;> simp [sentPayloads, ih]

theorem pings_append (a b : List Next) : pings (a ++ b) = pings a ++ pings b := by
  induction a with
  | nil => rfl
  | cons x a ih =>
    cases x with
    | msg m => cases m <;> simp [pings, ih]
    | error => simp [pings, ih]
    | ended => simp [pings, ih]
    | pending => simp [pings, ih]

theorem pongs_append (a b : List Msg) : pongs (a ++ b) = pongs a ++ pongs b := by
  induction a with
  | nil => rfl
  | cons x a ih => cases x <;> simp [pongs, ih]

theorem copyData_split (n : Nat) (s : State) :
    (copyData n s).2 ++ (copyData n s).1.unread = s.unread := by
  unfold copyData State.unread
  simp only
  rw [← List.drop_drop, List.take_append_drop]

/-- What the loop of `poll_read` does, in one statement. -/
theorem readLoop_spec (n : Nat) (k : Nat → Sink) (src : List Next) :
    ∀ (i : Nat) (s : State), s.unread = [] →
    ∃ taken, src = taken ++ (readLoop n k i s src).rest ∧
      (readLoop n k i s src).res.bytes ++ (readLoop n k i s src).state.unread = payloads taken ∧
      sentPayloads (readLoop n k i s src).sent = [] ∧
      List.Sublist (pongs (readLoop n k i s src).sent ++ (readLoop n k i s src).state.pong.toList)
        (s.pong.toList ++ pings taken) := by
  induction src with
  | nil =>
    intro i s hs
    exact ⟨[], rfl, by simp [readLoop, ReadRes.bytes, payloads, hs], rfl, by simp [readLoop, pongs, pings]⟩
  | cons x src ih =>
    intro i s hs
    cases x with
    | error => exact ⟨[.error], rfl, by simp [readLoop, ReadRes.bytes, payloads, hs], rfl, by simp [readLoop, pongs, pings]⟩
    | ended => exact ⟨[.ended], rfl, by simp [readLoop, ReadRes.bytes, payloads, hs], rfl, by simp [readLoop, pongs, pings]⟩
    | pending => exact ⟨[.pending], rfl, by simp [readLoop, ReadRes.bytes, payloads, hs], rfl, by simp [readLoop, pongs, pings]⟩
    | msg m =>
      cases m with
      | text => exact ⟨[.msg .text], rfl, by simp [readLoop, ReadRes.bytes, payloads, hs], rfl, by simp [readLoop, pongs, pings]⟩
      | frame => exact ⟨[.msg .frame], rfl, by simp [readLoop, ReadRes.bytes, payloads, hs], rfl, by simp [readLoop, pongs, pings]⟩
      | close => exact ⟨[.msg .close], rfl, by simp [readLoop, ReadRes.bytes, payloads, hs], rfl, by simp [readLoop, pongs, pings]⟩
      | pong d => exact ⟨[.msg (.pong d)], rfl, by simp [readLoop, ReadRes.bytes, payloads, hs], rfl, by simp [readLoop, pongs, pings]⟩
      | binary d =>
        by_cases hd : d = []
        · obtain ⟨t, h1, h2, h3, h4⟩ := ih i s hs
          refine ⟨.msg (.binary d) :: t, ?_, ?_, ?_, ?_⟩
          · simp only [readLoop, if_pos hd, List.cons_append]
            rw [← h1]
          · subst hd
            simpa [readLoop, payloads] using h2
          · simp only [readLoop, if_pos hd, h3]
          · simp only [readLoop, if_pos hd, pings]
            exact h4
        · refine ⟨[.msg (.binary d)], ?_, ?_, ?_, ?_⟩
          · simp [readLoop, hd]
          · simp only [readLoop, if_neg hd, ReadRes.bytes, payloads, List.append_nil]
            rw [copyData_split]
            simp [State.unread]
          · simp [readLoop, hd, sentPayloads]
          · simp [readLoop, hd, pongs, pings, copyData]
      | ping d =>
        cases hk : k i with
        | ready =>
          obtain ⟨t, h1, h2, h3, h4⟩ := ih (i + 1) { s with pong := none } hs
          refine ⟨.msg (.ping d) :: t, ?_, ?_, ?_, ?_⟩
          · simp only [readLoop, sendPong, hk, if_true, List.cons_append]
            rw [← h1]
          · simp only [readLoop, sendPong, hk, if_true, payloads, h2]
          · simp only [readLoop, sendPong, hk, if_true, List.cons_append, List.nil_append,
              sentPayloads, h3]
          · simp only [readLoop, sendPong, hk, if_true, List.cons_append, List.nil_append, pongs,
              pings]
            exact (List.Sublist.cons_cons d (by simpa using h4)).trans
              (List.sublist_append_right _ _)
        | pending =>
          obtain ⟨t, h1, h2, h3, h4⟩ := ih (i + 1) { s with pong := some d } hs
          refine ⟨.msg (.ping d) :: t, ?_, ?_, ?_, ?_⟩
          · simp only [readLoop, sendPong, hk, if_true, List.cons_append]
            rw [← h1]
          · simp only [readLoop, sendPong, hk, if_true, payloads, h2]
          · simp only [readLoop, sendPong, hk, if_true, List.nil_append, h3]
          · simp only [readLoop, sendPong, hk, if_true, List.nil_append, pings]
            exact (show List.Sublist _ (d :: pings t) by simpa using h4).trans
              (List.sublist_append_right _ _)
        | error =>
          exact ⟨[.msg (.ping d)], by simp [readLoop, sendPong, hk],
            by simpa [readLoop, sendPong, hk, ReadRes.bytes, payloads, State.unread] using hs,
            by simp [readLoop, sendPong, hk, sentPayloads],
            by simp [readLoop, sendPong, hk, pongs, pings]⟩
        | late =>
          exact ⟨[.msg (.ping d)], by simp [readLoop, sendPong, hk],
            by simpa [readLoop, sendPong, hk, ReadRes.bytes, payloads, State.unread] using hs,
            by simp [readLoop, sendPong, hk, sentPayloads],
            by simp [readLoop, sendPong, hk, pongs, pings]⟩

theorem sendPong_spec (k : Sink) (pong : Option Bytes) :
    sentPayloads (sendPong k pong).2.1 = [] ∧
      List.Sublist (pongs (sendPong k pong).2.1 ++ (sendPong k pong).1.toList) pong.toList := by
  unfold sendPong
  cases pong with
  | none => simp [sentPayloads, pongs]
  | some d => cases k <;> simp [sentPayloads, pongs]

theorem unread_nil {s : State} (h : ¬ s.idx < s.data.length) : s.unread = [] := by
  unfold State.unread
  exact List.drop_eq_nil_of_le (by omega)

/-- The pong handling at the beginning of `poll_read` and `poll_write`. -/
theorem pongFirst_spec (s : State) (k : Sink) :
    sentPayloads (if s.closed then (s.pong, [], true) else sendPong k s.pong).2.1 = [] ∧
      List.Sublist (pongs (if s.closed then (s.pong, [], true) else sendPong k s.pong).2.1
        ++ (if s.closed then (s.pong, [], true) else sendPong k s.pong).1.toList) s.pong.toList := by
  cases hc : s.closed with
  | true => simp [sentPayloads, pongs]
  | false => simpa using sendPong_spec k s.pong

theorem pollRead_spec (n : Nat) (k : Nat → Sink) (s : State) (src : List Next) :
    ∃ taken, src = taken ++ (pollRead n k s src).rest ∧
      (pollRead n k s src).res.bytes ++ (pollRead n k s src).state.unread
        = s.unread ++ payloads taken ∧
      sentPayloads (pollRead n k s src).sent = [] ∧
      List.Sublist (pongs (pollRead n k s src).sent ++ (pollRead n k s src).state.pong.toList)
        (s.pong.toList ++ pings taken) := by
  have hp := pongFirst_spec s (k 0)
  unfold pollRead
  generalize (if s.closed then (s.pong, [], true) else sendPong (k 0) s.pong) = p at hp
  obtain ⟨pong, sent, ok⟩ := p
  simp only at hp ⊢
  cases ok with
  | false =>
    exact ⟨[], rfl, by simp [ReadRes.bytes, payloads, State.unread], hp.1, by simpa [pings] using hp.2⟩
  | true =>
    simp only [Bool.not_true, Bool.false_eq_true, if_false]
    by_cases hi : s.idx < s.data.length
    · rw [if_pos hi]
      refine ⟨[], rfl, ?_, hp.1, ?_⟩
      · simp only [ReadRes.bytes, payloads, List.append_nil]
        rw [copyData_split]
        rfl
      · simpa [pings, copyData] using hp.2
    · rw [if_neg hi]
      obtain ⟨t, h1, h2, h3, h4⟩ := readLoop_spec n k src 1 { s with pong }
        (by simpa [State.unread] using unread_nil hi)
      refine ⟨t, h1, ?_, ?_, ?_⟩
      · rw [unread_nil hi]
        simpa using h2
      · rw [sentPayloads_append, hp.1, h3]
        rfl
      · rw [pongs_append, List.append_assoc]
        have h5 := List.Sublist.append (List.Sublist.refl (pongs sent)) h4
        refine h5.trans ?_
        rw [← List.append_assoc]
        exact List.Sublist.append hp.2 (List.Sublist.refl _)

theorem pollWrite_spec (buf : Bytes) (kp k : Sink) (s : State) :
    (pollWrite buf kp k s).1.unread = s.unread ∧
      List.Sublist (pongs (pollWrite buf kp k s).2.2 ++ (pollWrite buf kp k s).1.pong.toList)
        s.pong.toList ∧
      (∀ n, (pollWrite buf kp k s).2.1 = .wrote n →
        n = buf.length ∧ sentPayloads (pollWrite buf kp k s).2.2 = buf) ∧
      ((pollWrite buf kp k s).2.1 = .pending → sentPayloads (pollWrite buf kp k s).2.2 = []) ∧
      (sentPayloads (pollWrite buf kp k s).2.2 = [] ∨
        sentPayloads (pollWrite buf kp k s).2.2 = buf) := by
  have hp := pongFirst_spec s kp
  unfold pollWrite
  generalize (if s.closed then (s.pong, [], true) else sendPong kp s.pong) = p at hp
  obtain ⟨pong, sent, ok⟩ := p
  simp only at hp ⊢
  obtain ⟨hp1, hp2⟩ := hp
  cases ok with
  | false => simp [State.unread, hp1, hp2]
  | true =>
    cases k <;>
      simp [State.unread, hp1, hp2, sentPayloads_append, sentPayloads, pongs_append, pongs]

/-- Everything the transport does, in one invariant: what was taken from the stream, and what the
broker read, wrote and sent. -/
structure Inv (src : List Next) (c : Conn) : Prop where
  read : ∃ taken, src = taken ++ c.src ∧ c.got ++ c.state.unread = payloads taken ∧
    List.Sublist (pongs c.sent ++ c.state.pong.toList) (pings taken)
  wrote : c.failed = false → c.put = sentPayloads c.sent
  prefix_ : c.put <+: sentPayloads c.sent

theorem Inv.step {src : List Next} {c : Conn} (h : Inv src c) (a : Act) : Inv src (c.step a) := by
  unfold Conn.step
  cases hf : c.failed with
  | true => simpa using h
  | false =>
    obtain ⟨⟨taken, h1, h2, h3⟩, h4, h5⟩ := h
    have hput := h4 hf
    cases a with
    | read n k =>
      obtain ⟨t, r1, r2, r3, r4⟩ := pollRead_spec n k c.state c.src
      simp only [Bool.false_eq_true, if_false]
      refine ⟨⟨taken ++ t, ?_, ?_, ?_⟩, ?_, ?_⟩
      · rw [List.append_assoc, ← r1, h1]
      · rw [List.append_assoc, r2, ← List.append_assoc, h2, payloads_append]
      · rw [pongs_append, pings_append, List.append_assoc]
        refine (List.Sublist.append (List.Sublist.refl _) r4).trans ?_
        rw [← List.append_assoc]
        exact List.Sublist.append h3 (List.Sublist.refl _)
      · intro _
        rw [sentPayloads_append, r3, List.append_nil]
        exact hput
      · rw [sentPayloads_append, r3, List.append_nil]
        exact h5
    | write buf kp k =>
      obtain ⟨w1, w2, w3, w4, w5⟩ := pollWrite_spec buf kp k c.state
      simp only [Bool.false_eq_true, if_false]
      refine ⟨⟨taken, h1, ?_, ?_⟩, ?_, ?_⟩
      · simp only
        rw [w1]; exact h2
      · rw [pongs_append, List.append_assoc]
        exact (List.Sublist.append (List.Sublist.refl _) w2).trans h3
      · simp only [decide_eq_false_iff_not]
        intro hne
        rw [sentPayloads_append, ← hput]
        cases hr : (pollWrite buf kp k c.state).2.1 with
        | wrote n => simp [(w3 n hr).1, (w3 n hr).2]
        | pending => simp [w4 hr]
        | error => exact absurd hr hne
      · simp only
        rw [sentPayloads_append, ← hput]
        cases hr : (pollWrite buf kp k c.state).2.1 with
        | wrote n => simp [(w3 n hr).1, (w3 n hr).2]
        | pending => simp
        | error => simp
    | shutdown k =>
      simp only [Bool.false_eq_true, if_false]
      have hs : (pollShutdown k c.state).1.unread = c.state.unread ∧
          (pollShutdown k c.state).1.pong = c.state.pong ∧
          sentPayloads (pollShutdown k c.state).2.2 = [] ∧
          pongs (pollShutdown k c.state).2.2 = [] := by
        unfold pollShutdown State.unread
        split
        · simp [sentPayloads, pongs]
        · cases k <;> simp [sentPayloads, pongs]
      refine ⟨⟨taken, h1, ?_, ?_⟩, ?_, ?_⟩
      · simp only
        rw [hs.1]; exact h2
      · simp only
        rw [pongs_append, hs.2.2.2, List.append_nil, hs.2.1]
        exact h3
      · intro _
        simp only
        rw [sentPayloads_append, hs.2.2.1, List.append_nil]
        exact hput
      · simp only
        rw [sentPayloads_append, hs.2.2.1, List.append_nil]
        exact h5

theorem inv_run (src : List Next) (acts : List Act) : Inv src (Conn.run { src } acts) := by
  have key : ∀ (acts : List Act) (c : Conn), Inv src c → Inv src (c.run acts) := by
    intro acts
    induction acts with
    | nil => exact fun c h => h
    | cons a acts ih => exact fun c h => ih _ (h.step a)
  refine key acts _ ⟨⟨[], rfl, rfl, by simp [pongs]⟩, fun _ => rfl, ?_⟩
  simp [sentPayloads]

theorem sendPong_close (k : Sink) (p : Option Bytes) : (sendPong k p).2.1.count .close = 0 := by
  unfold sendPong
  cases p <;> cases k <;> simp [List.count_cons]

theorem readLoop_close (n : Nat) (k : Nat → Sink) (src : List Next) : ∀ (i : Nat) (s : State),
    (readLoop n k i s src).sent.count .close = 0 ∧
    (readLoop n k i s src).state.closed = s.closed := by
  induction src with
  | nil => intro i s; exact ⟨rfl, rfl⟩
  | cons x src ih =>
    intro i s
    cases x with
    | error => exact ⟨rfl, rfl⟩
    | ended => exact ⟨rfl, rfl⟩
    | pending => exact ⟨rfl, rfl⟩
    | msg m =>
      cases m with
      | text => exact ⟨rfl, rfl⟩
      | frame => exact ⟨rfl, rfl⟩
      | pong => exact ⟨rfl, rfl⟩
      | close => exact ⟨rfl, rfl⟩
      | binary d =>
        by_cases hd : d = []
        · simp only [readLoop, if_pos hd]; exact ih i s
        · simp [readLoop, if_neg hd, copyData]
      | ping d =>
        simp only [readLoop]
        cases hb : (sendPong (k i) (some d)).2.2 with
        | false =>
          simp only [Bool.false_eq_true, if_false]
          exact ⟨sendPong_close _ _, trivial⟩
        | true =>
          simp only [if_true, List.count_append, sendPong_close, Nat.zero_add]
          exact ih _ _

/-- The Close messages sent, against the state. -/
def CloseInv (c : Conn) : Prop :=
  (c.state.closed = true → c.sent.count .close = 1) ∧
  (c.state.closed = false → c.failed = false → c.sent.count .close = 0) ∧
  (c.state.closed = false → c.sent.count .close ≤ 1)

theorem closeInv_step {c : Conn} (h : CloseInv c) (a : Act) : CloseInv (c.step a) := by
  obtain ⟨h1, h2, h3⟩ := h
  unfold Conn.step
  cases hf : c.failed with
  | true => simp only [if_true]; exact ⟨h1, h2, h3⟩
  | false =>
    simp only [Bool.false_eq_true, if_false]
    have hp : ∀ k, (if c.state.closed then (c.state.pong, ([] : List Msg), true)
        else sendPong k c.state.pong).2.1.count .close = 0 := by
      intro k
      split
      · rfl
      · exact sendPong_close _ _
    cases a with
    | read n k =>
      have : (pollRead n k c.state c.src).sent.count .close = 0 ∧
          (pollRead n k c.state c.src).state.closed = c.state.closed := by
        have hp := hp (k 0)
        unfold pollRead
        generalize (if c.state.closed then (c.state.pong, ([] : List Msg), true)
          else sendPong (k 0) c.state.pong) = p at hp ⊢
        simp only
        split
        · exact ⟨hp, rfl⟩
        · split
          · exact ⟨hp, rfl⟩
          · simp only [List.count_append, hp, Nat.zero_add]
            exact readLoop_close ..
      simp only [CloseInv, List.count_append, this.1, this.2, Nat.add_zero]
      exact ⟨h1, fun h _ => h2 h hf, h3⟩
    | write buf kp k =>
      have : (pollWrite buf kp k c.state).2.2.count .close = 0 ∧
          (pollWrite buf kp k c.state).1.closed = c.state.closed := by
        have hp := hp kp
        unfold pollWrite
        generalize (if c.state.closed then (c.state.pong, ([] : List Msg), true)
          else sendPong kp c.state.pong) = p at hp ⊢
        simp only
        split
        · exact ⟨hp, rfl⟩
        · cases k <;> simp [List.count_append, hp, List.count_cons]
      simp only [CloseInv, List.count_append, this.1, this.2, Nat.add_zero]
      exact ⟨h1, fun h _ => h2 h hf, h3⟩
    | shutdown k =>
      simp only [CloseInv, List.count_append]
      unfold pollShutdown
      cases hc : c.state.closed with
      | true => simp [hc, h1 hc]
      | false =>
        have := h2 hc hf
        cases k <;> simp [hc, this, List.count_cons]

theorem closeInv_run (src : List Next) (acts : List Act) : CloseInv (Conn.run { src } acts) := by
  suffices ∀ c : Conn, CloseInv c → CloseInv (c.run acts) from
    this _ ⟨by simp, by simp, by simp⟩
  induction acts with
  | nil => intro c h; exact h
  | cons a acts ih => intro c h; exact ih _ (closeInv_step h a)

end Akasa.Ws

import Verif.Proof.WebSocket
/-!
# C53: the WebSocket transport is a faithful byte stream
-/
namespace Akasa.Ws

/-- Example: five messages, read in small pieces, with a ping between them. -/
def exSrc : List Next :=
  [.msg (.binary [1, 2, 3]), .msg (.binary []), .msg (.ping [9]), .pending, .msg (.binary [4]),
   .msg .close]

def exRead (n : Nat) : Act := .read n (fun _ => .ready)

/-- **C53**.  Whatever the sizes of the reads and whatever is written in between: the bytes read so
far, followed by the bytes of a message that has been received but not yet handed out, are exactly
the payloads of the binary messages taken from the stream, in order. -/
theorem C53_read (src : List Next) (acts : List Act) :
    ∃ taken, src = taken ++ (Conn.run { src } acts).src ∧
      (Conn.run { src } acts).got ++ (Conn.run { src } acts).state.unread = payloads taken := by
  obtain ⟨⟨t, h1, h2, _⟩, _, _⟩ := inv_run src acts
  exact ⟨t, h1, h2⟩

example : (Conn.run { src := exSrc } [exRead 2, exRead 2, exRead 9, exRead 9]).got = [1, 2, 3, 4] ∧
    payloads exSrc = [1, 2, 3, 4] := by decide

/-- **C53**.  A read into a buffer with room returns something whenever there is something: bytes
left over from the last message come first, as many as there is room for; otherwise the payload of
the first message that has any. -/
theorem C53_progress (n : Nat) (s : State) (k : Nat → Sink) (hk : ∀ i, k i = .ready ∨ k i = .pending)
    (src : List Next) :
    (s.idx < s.data.length →
      (pollRead n k s src).res = .data (s.unread.take n)) ∧
    (¬ s.idx < s.data.length → ∀ (quiet : List Next) (d : Bytes) (rest : List Next),
      src = quiet ++ .msg (.binary d) :: rest → (∀ x ∈ quiet, x.silent = true) → d ≠ [] →
      (pollRead n k s src).res = .data (d.take n) ∧ (pollRead n k s src).rest = rest) := by
  have hpong : ∀ pong i, (sendPong (k i) pong).2.2 = true := by
    intro pong i
    unfold sendPong
    cases pong with
    | none => rfl
    | some d => rcases hk i with h | h <;> simp [h]
  have hok : (if s.closed then (s.pong, [], true) else sendPong (k 0) s.pong).2.2 = true := by
    cases s.closed with
    | true => rfl
    | false => simpa using hpong s.pong 0
  constructor
  · intro hi
    unfold pollRead
    simp only [hok, Bool.not_true, Bool.false_eq_true, if_false]
    rw [if_pos hi]
    simp only [copyData, State.unread]
    congr 1
    rw [Nat.min_comm, ← List.take_take]
    congr 1
    rw [List.take_of_length_le (by simp)]
  · intro hi quiet d rest hsrc hq hd
    subst hsrc
    unfold pollRead
    simp only [hok, Bool.not_true, Bool.false_eq_true, if_false]
    rw [if_neg hi]
    have key : ∀ (quiet : List Next) (i : Nat) (s : State), (∀ x ∈ quiet, x.silent = true) →
        (readLoop n k i s (quiet ++ .msg (.binary d) :: rest)).res = .data (d.take n) ∧
        (readLoop n k i s (quiet ++ .msg (.binary d) :: rest)).rest = rest := by
      intro quiet
      induction quiet with
      | nil =>
        intro i s _
        simp only [List.nil_append, readLoop, if_neg hd]
        refine ⟨?_, trivial⟩
        simp only [copyData, Nat.sub_zero, List.drop_zero]
        congr 1
        rw [Nat.min_comm, ← List.take_take, List.take_of_length_le (Nat.le_refl _)]
      | cons x quiet ih =>
        intro i s hq
        have hx := hq x (by simp)
        have ih' := fun i s => ih i s (fun y hy => hq y (by simp [hy]))
        cases x with
        | error => cases hx
        | ended => cases hx
        | pending => cases hx
        | msg m =>
          cases m with
          | text => cases hx
          | frame => cases hx
          | close => cases hx
          | pong => cases hx
          | binary e =>
            simp only [Next.silent, List.isEmpty_iff] at hx
            simp only [List.cons_append, readLoop, if_pos hx]
            exact ih' i s
          | ping e =>
            simp only [List.cons_append, readLoop, hpong, if_true]
            exact ih' _ _
    exact key quiet 1 _ hq

example : (pollRead 2 (fun _ => .ready) { data := [7, 8, 9], idx := 1 } []).res = .data [8, 9] ∧
    (pollRead 2 (fun _ => .pending) {} [.msg (.ping [1]), .msg (.binary [5, 6, 7])]).res
      = .data [5, 6] := by decide

/-- **C53**.  A text message, a pong nobody asked for or a raw frame ends the stream with an error,
without any byte of it being handed out; empty messages and pings before it do not matter. -/
theorem C53_unexpected (n : Nat) (s : State) (k : Nat → Sink) (hs : ¬ s.idx < s.data.length)
    (quiet rest : List Next) (m : Msg) (hm : m.unexpected = true)
    (hq : ∀ x ∈ quiet, x.silent = true) :
    (pollRead n k s (quiet ++ .msg m :: rest)).res = .error := by
  unfold pollRead
  generalize (if s.closed then (s.pong, [], true) else sendPong (k 0) s.pong) = p
  obtain ⟨pong, sent, ok⟩ := p
  cases ok with
  | false => rfl
  | true =>
    simp only [Bool.not_true, Bool.false_eq_true, if_false]
    rw [if_neg hs]
    have key : ∀ (quiet : List Next) (i : Nat) (s : State), (∀ x ∈ quiet, x.silent = true) →
        (readLoop n k i s (quiet ++ .msg m :: rest)).res = .error := by
      intro quiet
      induction quiet with
      | nil => intro i s _; cases m <;> first | rfl | cases hm
      | cons x quiet ih =>
        intro i s hq
        have hx := hq x (by simp)
        have ih' := fun i s => ih i s (fun y hy => hq y (by simp [hy]))
        cases x with
        | error => cases hx
        | ended => cases hx
        | pending => cases hx
        | msg m' =>
          cases m' with
          | text => cases hx
          | frame => cases hx
          | close => cases hx
          | pong => cases hx
          | binary e =>
            simp only [Next.silent, List.isEmpty_iff] at hx
            simp only [List.cons_append, readLoop, if_pos hx]
            exact ih' i s
          | ping e =>
            simp only [List.cons_append, readLoop]
            cases hb : (sendPong (k i) (some e)).2.2 with
            | false => rfl
            | true =>
              simp only [if_true]
              exact ih' _ _
    exact key quiet 1 _ hq

example : (Conn.run { src := [.msg (.binary [1]), .msg .text, .msg (.binary [2])] }
    [exRead 4, exRead 4, exRead 4]).got = [1] := by decide

/-- **C53**.  A read into a buffer with room reports the end of the stream (no bytes) only after a
Close message or the end of the stream below. -/
theorem C53_eof (n : Nat) (hn : 0 < n) (s : State) (k : Nat → Sink) (src : List Next)
    (h : (pollRead n k s src).res = .data []) :
    ∃ quiet x, src = quiet ++ x :: (pollRead n k s src).rest ∧ (∀ y ∈ quiet, y.silent = true) ∧
      (x = .msg .close ∨ x = .ended) := by
  unfold pollRead at h ⊢
  generalize (if s.closed then (s.pong, [], true) else sendPong (k 0) s.pong) = p at h ⊢
  obtain ⟨pong, sent, ok⟩ := p
  cases ok with
  | false => cases h
  | true =>
    simp only [Bool.not_true, Bool.false_eq_true, if_false] at h ⊢
    by_cases hi : s.idx < s.data.length
    · rw [if_pos hi] at h
      simp only [copyData, ReadRes.data.injEq] at h
      have hl := congrArg List.length h
      simp at hl
      omega
    · rw [if_neg hi] at h ⊢
      have key : ∀ (src : List Next) (i : Nat) (s : State), (readLoop n k i s src).res = .data [] →
          ∃ quiet x, src = quiet ++ x :: (readLoop n k i s src).rest ∧
            (∀ y ∈ quiet, y.silent = true) ∧ (x = .msg .close ∨ x = .ended) := by
        intro src
        induction src with
        | nil => intro i s h; cases h
        | cons x src ih =>
          intro i s h
          cases x with
          | error => cases h
          | pending => cases h
          | ended => exact ⟨[], .ended, rfl, by simp, Or.inr rfl⟩
          | msg m =>
            cases m with
            | text => cases h
            | frame => cases h
            | pong => cases h
            | close => exact ⟨[], .msg .close, rfl, by simp, Or.inl rfl⟩
            | binary d =>
              by_cases hd : d = []
              · simp only [readLoop, if_pos hd] at h ⊢
                obtain ⟨q, y, h1, h2, h3⟩ := ih i s h
                refine ⟨.msg (.binary d) :: q, y, ?_, ?_, h3⟩
                · rw [List.cons_append, ← h1]
                · intro z hz
                  rcases List.mem_cons.mp hz with rfl | hz
                  · simp [Next.silent, hd]
                  · exact h2 z hz
              · simp only [readLoop, if_neg hd, copyData, ReadRes.data.injEq] at h
                have hl := congrArg List.length h
                have : 0 < d.length := List.length_pos_iff.mpr hd
                simp only [List.length_take, List.length_drop, List.length_nil, Nat.sub_zero] at hl
                omega
            | ping d =>
              simp only [readLoop] at h ⊢
              cases hb : (sendPong (k i) (some d)).2.2 with
              | false => rw [hb] at h; cases h
              | true =>
                rw [hb] at h
                simp only [if_true] at h ⊢
                obtain ⟨q, y, h1, h2, h3⟩ := ih _ _ h
                refine ⟨.msg (.ping d) :: q, y, ?_, ?_, h3⟩
                · rw [List.cons_append, ← h1]
                · intro z hz
                  rcases List.mem_cons.mp hz with rfl | hz
                  · rfl
                  · exact h2 z hz
      exact key src 1 _ h

example : (pollRead 4 (fun _ => .ready) {} [.msg (.ping []), .msg .close]).res = .data [] := by decide

/-- **C53**, and whenever all that was received is handed out and a Close message or the end of the
stream below comes next, the reader is told that the stream has ended. -/
theorem C53_closed (n : Nat) (s : State) (k : Nat → Sink) (hk : ∀ i, k i = .ready ∨ k i = .pending)
    (hs : ¬ s.idx < s.data.length) (quiet rest : List Next) (x : Next)
    (hx : x = .msg .close ∨ x = .ended) (hq : ∀ y ∈ quiet, y.silent = true) :
    (pollRead n k s (quiet ++ x :: rest)).res = .data [] ∧
    (pollRead n k s (quiet ++ x :: rest)).rest = rest := by
  have hpong : ∀ pong i, (sendPong (k i) pong).2.2 = true := by
    intro pong i
    unfold sendPong
    cases pong with
    | none => rfl
    | some d => rcases hk i with h | h <;> simp [h]
  have hok : (if s.closed then (s.pong, [], true) else sendPong (k 0) s.pong).2.2 = true := by
    cases s.closed with
    | true => rfl
    | false => simpa using hpong s.pong 0
  unfold pollRead
  simp only [hok, Bool.not_true, Bool.false_eq_true, if_false]
  rw [if_neg hs]
  have key : ∀ (quiet : List Next) (i : Nat) (s : State), (∀ x ∈ quiet, x.silent = true) →
      (readLoop n k i s (quiet ++ x :: rest)).res = .data [] ∧
      (readLoop n k i s (quiet ++ x :: rest)).rest = rest := by
    intro quiet
    induction quiet with
    | nil => intro i s _; rcases hx with rfl | rfl <;> exact ⟨rfl, rfl⟩
    | cons y quiet ih =>
      intro i s hq
      have hy := hq y (by simp)
      have ih' := fun i s => ih i s (fun z hz => hq z (by simp [hz]))
      cases y with
      | error => cases hy
      | ended => cases hy
      | pending => cases hy
      | msg m =>
        cases m with
        | text => cases hy
        | frame => cases hy
        | close => cases hy
        | pong => cases hy
        | binary e =>
          simp only [Next.silent, List.isEmpty_iff] at hy
          simp only [List.cons_append, readLoop, if_pos hy]
          exact ih' i s
        | ping e =>
          simp only [List.cons_append, readLoop, hpong, if_true]
          exact ih' _ _
  exact key quiet 1 _ hq

example : (pollRead 4 (fun _ => .pending) { data := [7], idx := 1 } [.msg (.ping []), .ended]).res
    = .data [] := by decide

/-- **C53**, the other direction: the bytes the broker was told are written are a prefix of the
payloads of the binary messages sent, and as long as nothing has failed exactly these. -/
theorem C53_write (src : List Next) (acts : List Act) :
    (Conn.run { src } acts).put <+: sentPayloads (Conn.run { src } acts).sent ∧
    ((Conn.run { src } acts).failed = false →
      (Conn.run { src } acts).put = sentPayloads (Conn.run { src } acts).sent) := by
  have h := inv_run src acts
  exact ⟨h.prefix_, h.wrote⟩

example : (Conn.run { src := exSrc }
    [.write [1, 2] .ready .ready, exRead 4, .write [3] .ready .pending, .write [3] .ready .ready]).sent
    = [.binary [1, 2], .binary [3]] := by decide

/-- **C53**, pings: every pong sent carries the payload of a ping received, in order, and no ping is
answered twice. -/
theorem C53_pongs (src : List Next) (acts : List Act) :
    ∃ taken, src = taken ++ (Conn.run { src } acts).src ∧
      List.Sublist (pongs (Conn.run { src } acts).sent) (pings taken) := by
  obtain ⟨⟨t, h1, _, h3⟩, _, _⟩ := inv_run src acts
  exact ⟨t, h1, (List.sublist_append_left _ _).trans h3⟩

example : pongs (Conn.run { src := exSrc } [exRead 4, exRead 4, exRead 4]).sent = [[9]] := by decide

/-- **C53**, the end: at most one Close message is ever sent, one has been sent if the connection
was shut down, and none if it was neither shut down nor has failed. -/
theorem C53_close (src : List Next) (acts : List Act) :
    (Conn.run { src } acts).sent.count .close ≤ 1 ∧
    ((Conn.run { src } acts).state.closed = true →
      (Conn.run { src } acts).sent.count .close = 1) ∧
    ((Conn.run { src } acts).state.closed = false → (Conn.run { src } acts).failed = false →
      .close ∉ (Conn.run { src } acts).sent) := by
  have h := closeInv_run src acts
  refine ⟨?_, h.1, fun h1 h2 => ?_⟩
  · cases hc : (Conn.run { src } acts).state.closed
    · exact h.2.2 hc
    · exact Nat.le_of_eq (h.1 hc)
  · intro hm
    have := h.2.1 h1 h2
    rw [List.count_eq_zero] at this
    exact this hm

/-- **C53**, the end: when the stream below takes a message, shutting down sends the Close
message and succeeds. -/
theorem C53_shutdown {c : Conn} (hf : c.failed = false) (hc : c.state.closed = false) :
    (c.step (.shutdown .ready)).sent = c.sent ++ [.close] ∧
    (c.step (.shutdown .ready)).state.closed = true ∧
    (c.step (.shutdown .ready)).failed = false := by
  unfold Conn.step pollShutdown
  simp [hf, hc]

example : (Conn.run { src := exSrc } [.write [1] .ready .ready, .shutdown .pending, .shutdown .ready,
    .shutdown .ready]).sent = [.binary [1], .close] := by decide

end Akasa.Ws

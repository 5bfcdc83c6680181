import Verif.Proof.PendingAlive
import Verif.Proof.PendingTag
import Verif.Proof.PendingResend
/-!
# Properties of the outgoing queue (C09 – C18)

`Sender.new m n t` is the queue of a new session: receive maximum `m`, at most `n` messages,
retransmission timeout `t`.  `exp p` is the message expiry interval of message `p`; MQTT 3 is the
case `∀ p, exp p = none`.  A run is a list of operations (`SendOp`).
-/
namespace Akasa

variable {P : Type}

/-! ## C09 -/

/-- **C09.**  In every run of a session the queue never holds more messages than the configured
maximum. -/
theorem C09_bounded (exp : P → Option Nat) (m n t : Nat) (ops : List (SendOp P)) :
    ((Sender.new m n t).exec exp ops).pending.packets.length ≤ n :=
  exec_length exp (Sender.new m n t) ops (by simp [Sender.new, Pending.empty])

/-- **C09.**  A message arriving when the queue is full is refused: it is not queued, and what is
pending stays the same (only finished entries at the front are cleared away). -/
theorem C09_full_refused (exp : P → Option Nat) (s : Sender P) (now : Nat) (p : P) (h : s.Full) :
    (s.step exp (.deliver now p)).1.pending = s.pending.cleanComplete ∧
    (s.step exp (.deliver now p)).1.pids = s.pids := by
  have h1 : (s.step exp (.deliver now p)).1.pending = s.pending.cleanComplete := by
    show (s.pending.cleanComplete.pushBack now s.nextPid p).1 = _
    unfold Pending.pushBack
    unfold Sender.Full at h
    rw [if_pos (by exact h)]
  refine ⟨h1, ?_⟩
  unfold Sender.pids
  rw [h1]
  exact filterMap_dropWhile _ rfl _

/-- **C09.**  A message arriving when there is room is appended. -/
theorem C09_room_accepted (exp : P → Option Nat) (s : Sender P) (now : Nat) (p : P) (h : ¬ s.Full) :
    (s.step exp (.deliver now p)).1.pending.packets =
      s.pending.cleanComplete.packets ++ [.new now 0 s.nextPid p false] := by
  show (s.pending.cleanComplete.pushBack now s.nextPid p).1.packets = _
  unfold Pending.pushBack
  unfold Sender.Full at h
  rw [if_neg (by exact h)]

/-- A queue for two messages refuses the third. -/
example : ((Sender.new 1 2 10).exec (fun _ : Nat => none)
    [.deliver 5 100, .deliver 5 101, .deliver 6 102]).pending.packets =
    [.new 5 0 1 100 false, .new 5 0 2 101 false] := by decide

/-! ## C10 -/

theorem distinct_of_noDrops {exp : P → Option Nat} {m n t : Nat} {ops : List (SendOp P)}
    (hn : n ≤ 65535) (h : NoDrops exp (Sender.new m n t) ops) :
    DistinctPids exp (Sender.new m n t) ops :=
  fun pre hp => exec_pids_nodup exp m n t pre hn (fun a now p ha => h a now p (ha.trans hp))

/-- **C10** for MQTT 3 receivers (whose messages do not expire): in every run, at every moment, the
number of PUBLISH packets sent on the present connection and not acknowledged is at most the
receive maximum. -/
theorem C10_receive_maximum_v3 (exp : P → Option Nat) (m n t : Nat) (ops : List (SendOp P))
    (hexp : ∀ p, exp p = none) :
    (outstanding [] ((Sender.new m n t).trace exp ops)).length ≤ receiveMax m ops :=
  exec_outstanding_le exp m n t ops (.inl hexp)

/-- **C10** with message expiry (MQTT 5), partial: the pending messages must have different packet
identifiers (which C17 gives when no message is dropped for want of room) and the clock must not
show 1 January 1970, 00:00:00. -/
theorem C10_receive_maximum_partial (exp : P → Option Nat) (m n t : Nat) (ops : List (SendOp P))
    (hd : DistinctPids exp (Sender.new m n t) ops) (hc : ClockRunning ops) :
    (outstanding [] ((Sender.new m n t).trace exp ops)).length ≤ receiveMax m ops :=
  exec_outstanding_le exp m n t ops (.inr ⟨hd, hc⟩)

/-- **C10** with message expiry for runs in which no message is dropped. -/
theorem C10_receive_maximum_no_drops_partial (exp : P → Option Nat) (m n t : Nat)
    (ops : List (SendOp P)) (hn : n ≤ 65535) (hd : NoDrops exp (Sender.new m n t) ops)
    (hc : ClockRunning ops) :
    (outstanding [] ((Sender.new m n t).trace exp ops)).length ≤ receiveMax m ops :=
  exec_outstanding_le exp m n t ops (.inr ⟨distinct_of_noDrops hn hd, hc⟩)

/-- Receive maximum 2, three messages queued: two are outstanding, and the third is sent when the
first is acknowledged. -/
example : (outstanding [] ((Sender.new 2 9 10).trace (fun _ : Nat => none)
    [.deliver 5 100, .deliver 5 101, .deliver 6 102, .pass (.const 20)])) = [2, 1] ∧
  (outstanding [] ((Sender.new 2 9 10).trace (fun _ : Nat => none)
    [.deliver 5 100, .deliver 5 101, .deliver 6 102, .pass (.const 20), .puback 1,
      .pass (.const 21)])) = [3, 2] := by decide

theorem full_drops {exp : P → Option Nat} {s : Sender P} (hf : s.pending.cleanComplete = s.pending)
    (h : s.pending.maxPackets ≤ s.pending.packets.length) (now : Nat) (p : P) (k : Nat) :
    ∃ pid, s.exec exp (List.replicate k (.deliver now p)) = { s with nextPid := pid } := by
  induction k generalizing s with
  | zero => exact ⟨s.nextPid, rfl⟩
  | succ k ih =>
    rw [List.replicate_succ, exec_cons]
    have h1 := (C09_full_refused exp s now p (by unfold Sender.Full; rw [hf]; exact h)).1
    rw [hf] at h1
    have : (s.step exp (.deliver now p)).1 = { s with nextPid := s.nextPid.next } := by
      cases hs : (s.step exp (.deliver now p)).1 with
      | mk q pid =>
        rw [hs] at h1
        simp only at h1
        subst h1
        have h2 : (s.step exp (.deliver now p)).1.nextPid = s.nextPid.next := rfl
        rw [hs] at h2
        simp only at h2
        rw [h2]
    rw [this]
    exact ih (s := { s with nextPid := s.nextPid.next }) hf h

/-- After two messages and `65534` dropped ones the next identifier is 2 again. -/
theorem wrapped (exp : Nat → Option Nat) :
    (Sender.new 2 2 0).exec exp ([.deliver 5 0, .deliver 5 0] ++
      List.replicate 65534 (.deliver 5 0)) =
    { pending := { maxInflight := 2, maxPackets := 2, timeout := 0
                   packets := [.new 5 0 1 0 false, .new 5 0 2 0 false] }, nextPid := 2 } := by
  have h0 : (Sender.new 2 2 0).exec exp [.deliver 5 0, .deliver 5 0] =
      { pending := { maxInflight := 2, maxPackets := 2, timeout := 0
                     packets := [.new 5 0 1 0 false, .new 5 0 2 0 false] }, nextPid := 3 } := rfl
  have hn := exec_nextPid exp 2 2 0 ([.deliver 5 0, .deliver 5 0] ++
      List.replicate 65534 (.deliver 5 0))
  rw [exec_append, h0] at hn ⊢
  obtain ⟨pid, hp⟩ := full_drops (exp := exp)
      (s := ⟨⟨2, 2, 0, [.new 5 0 1 0 false, .new 5 0 2 0 false]⟩, 3⟩)
      rfl (by decide) 5 (0 : Nat) 65534
  rw [hp] at hn ⊢
  simp only at hn
  have hd : ∀ k, (delivered (List.replicate k (.deliver 5 0 : SendOp Nat))).length = k := by
    intro k
    induction k with
    | zero => rfl
    | succ k ih => rw [List.replicate_succ]; simp [delivered, ih]
  have : pid = 2 := by
    rw [hn, delivered_append, List.length_append, hd]
    rfl
  rw [this]

/-- The run of `C10_false`: messages are numbers, message 9 expires after one second.  Two messages
are sent, the queue is full and 65534 messages are dropped, so that the next message gets the
identifier 2, which is still in use.  It expires, and its expiry is booked on the other message. -/
def overrun : List (SendOp Nat) :=
  [.deliver 5 0, .deliver 5 0] ++ List.replicate 65534 (.deliver 5 0) ++
    [.pass (.const 6), .puback 1, .deliver 7 9, .pass (.const 20), .deliver 20 0, .pass (.const 20),
      .deliver 20 0, .pass (.const 20)]

/-- **C10 is false** for MQTT 5 receivers when packet identifiers wrap around: after this run three
messages are unacknowledged although the receive maximum is two. -/
theorem C10_false : ∃ (exp : Nat → Option Nat) (m n t : Nat) (ops : List (SendOp Nat)),
    receiveMax m ops < (outstanding [] ((Sender.new m n t).trace exp ops)).length := by
  refine ⟨fun p => if p = 9 then some 1 else none, 2, 2, 0, overrun, ?_⟩
  have hr : ∀ k, receiveMax 2 (List.replicate k (.deliver 5 0 : SendOp Nat)) = 2 := by
    intro k
    induction k with
    | zero => rfl
    | succ k ih => rw [List.replicate_succ]; exact ih
  have hmax : receiveMax 2 overrun = 2 := by
    unfold overrun
    rw [receiveMax_append, receiveMax_append]
    show receiveMax (receiveMax 2 _) _ = 2
    rw [hr]; rfl
  have ho : ∀ k (s : Sender Nat) (exp : Nat → Option Nat),
      outstanding [] (s.trace exp (List.replicate k (.deliver 5 0))) = [] := by
    intro k
    induction k with
    | zero => intro s exp; rfl
    | succ k ih => intro s exp; rw [List.replicate_succ]; exact ih _ _
  rw [hmax]
  unfold overrun
  rw [trace_append, outstanding_append, trace_append, outstanding_append]
  have h2 : ∀ (s : Sender Nat) (exp : Nat → Option Nat),
      outstanding [] (s.trace exp [.deliver 5 0, .deliver 5 0]) = [] := fun _ _ => rfl
  rw [h2, ho, wrapped]
  decide

/-! ## C11 -/

/-- **C11.**  In every run of a session (any number of connections) in which the messages are
pairwise different: a PUBLISH carries DUP exactly if its message has been transmitted before, and
all transmissions of a message carry the same packet identifier.  (The message itself, including
QoS, topic and payload, is the same by construction of the statement.) -/
theorem C11_dup (exp : P → Option Nat) (m n t : Nat) (ops : List (SendOp P))
    (hnd : (delivered ops).Nodup) : DupOK ((Sender.new m n t).outs exp ops) :=
  (exec_dupInv exp m n t ops hnd).ok

/-- **C11** without any assumption on the messages: number the messages handed to the session (the
`i`-th message `p` becomes `(p, i)`); the packets sent are those of `l`, in which every packet
carries the number of its message, and in `l` the DUP flag is set exactly on the retransmissions
and packet identifiers do not change. -/
theorem C11_dup_any (exp : P → Option Nat) (m n t : Nat) (ops : List (SendOp P)) :
    ∃ l : List (Sent (P × Nat)),
      (Sender.new m n t).outs exp ops = l.map (Sent.map Prod.fst) ∧ DupOK l ∧
      ∀ pid p i d x, Sent.publish pid (p, i) d x ∈ l → (delivered ops)[i]? = some p := by
  refine ⟨_, outs_tagged exp m n t ops,
    (exec_dupInv _ m n t (tagOps 0 ops) (by rw [delivered_tagOps]; exact zipIdx_nodup _ _)).ok, ?_⟩
  intro pid p i d x hx
  have hm := sent_mem_allSent hx
  have h2 : (p, i) ∈ delivered (tagOps 0 ops) := by
    by_cases hc : (p, i) ∈ delivered (tagOps 0 ops)
    · exact hc
    · exact absurd hm (not_sent_of_not_msgs (by simp [Sender.new, Pending.empty, Sender.msgs]) hc)
  rw [delivered_tagOps, List.mem_zipIdx_iff_getElem?] at h2
  exact h2

/-- Two transmissions of a message, the second with DUP, on the next connection. -/
example : (Sender.new 2 9 10).outs (fun _ : Nat => none)
    [.deliver 5 100, .pass (.const 20), .pass (.const 25), .reconnect none, .pass (.const 26),
      .pass (.const 36)] =
    [.publish 1 100 false none, .publish 1 100 true none, .publish 1 100 true none] := by decide

/-! ## C12 -/

/-- The entry of a message that has been sent is in the window. -/
theorem sent_in_window {exp : P → Option Nat} {m n t : Nat} {ops : List (SendOp P)} {pid : Pid}
    {p : P} {d : Bool} {x : Option Nat} (hnd : (delivered ops).Nodup) (hm : NeverReduced m ops)
    (hs : Sent.publish pid p d x ∈ (Sender.new m n t).outs exp ops)
    {a l pid' d'} (he : PStatus.new a l pid' p d' ∈
      ((Sender.new m n t).exec exp ops).pending.packets) :
    pid' = pid ∧ d' = true ∧ PStatus.new a l pid' p d' ∈
      ((Sender.new m n t).exec exp ops).pending.packets.take
        ((Sender.new m n t).exec exp ops).pending.maxInflight := by
  have hq := (exec_dupInv exp m n t ops hnd).queue _ _ _ _ _ he
  have hd : d' = true := hq.1.mpr (sent_mem_allSent hs)
  refine ⟨(hq.2 _ _ _ hs).symm, hd, ?_⟩
  have h0 := he
  rw [← List.take_append_drop ((Sender.new m n t).exec exp ops).pending.maxInflight
    ((Sender.new m n t).exec exp ops).pending.packets, List.mem_append] at he
  rcases he with he | he
  · exact he
  · obtain ⟨a', pid'', p', h'⟩ := exec_tail exp m n t ops hm _ he
    simp only [PStatus.new.injEq] at h'
    rw [hd] at h'; simp at h'

theorem msgs_nodup {exp : P → Option Nat} {m n t : Nat} {ops : List (SendOp P)}
    (hnd : (delivered ops).Nodup) : ((Sender.new m n t).exec exp ops).msgs.Nodup := by
  have := exec_msgs exp (Sender.new m n t : Sender P) ops
  simp only [Sender.new, Pending.empty, Sender.msgs, List.filterMap_nil, List.nil_append] at this
  exact this.nodup hnd

/-- **C12.**  Message `p` has been sent with identifier `pid`; then a PUBREC for `pid` arrives.
Whatever happens later, on this or later connections, `p` is never sent again.  (`p` is told apart
from the other messages by `hnd`; the pending identifiers are different at the time of the PUBREC;
no reconnect has reduced the receive maximum.) -/
theorem C12_no_publish_after_pubrec (exp : P → Option Nat) (m n t : Nat)
    (ops later : List (SendOp P)) (now : Nat) (pid : Pid) (p : P) (d : Bool) (x : Option Nat)
    (hnd : (delivered (ops ++ later)).Nodup) (hm : NeverReduced m ops)
    (hpid : ((Sender.new m n t).exec exp ops).pids.Nodup)
    (hs : Sent.publish pid p d x ∈ (Sender.new m n t).outs exp ops) :
    p ∉ allSent (((Sender.new m n t).exec exp (ops ++ [.pubrec now pid])).outs exp later) := by
  rw [delivered_append] at hnd
  have hnd0 := (List.nodup_append.mp hnd).1
  have hp : p ∈ delivered ops := by
    by_cases hc : p ∈ delivered ops
    · exact hc
    · exact absurd (sent_mem_allSent hs)
        (not_sent_of_not_msgs (by simp [Sender.new, Pending.empty, Sender.msgs]) hc)
  apply not_sent_of_not_msgs
  · rw [exec_snoc]
    by_cases hin : p ∈ ((Sender.new m n t).exec exp ops).msgs
    · obtain ⟨e, he, hep⟩ := List.mem_filterMap.mp hin
      cases e with
      | new a l pid' p' d' =>
        simp only [PStatus.msg?, Option.some.injEq] at hep
        subst hep
        obtain ⟨rfl, _, hw⟩ := sent_in_window hnd0 hm hs he
        exact (pubrec_removes hpid (msgs_nodup hnd0) hw).1
      | pubrec l pid' => simp [PStatus.msg?] at hep
      | complete => simp [PStatus.msg?] at hep
    · intro hc
      have := (step_msgs exp _ _).subset hc
      simp only [delivered, List.append_nil] at this
      exact hin this
  · intro hc
    exact (List.nodup_append.mp hnd).2.2 p hp p hc rfl

/-- **C12.**  In the same situation, if `p` is still unacknowledged, then the PUBREC makes the
identifier a released one, for which only PUBREL is sent (until PUBCOMP, see C14). -/
theorem C12_released_after_pubrec (exp : P → Option Nat) (m n t : Nat)
    (ops : List (SendOp P)) (now : Nat) (pid : Pid) (p : P) (d : Bool) (x : Option Nat)
    (hnd : (delivered ops).Nodup) (hm : NeverReduced m ops)
    (hpid : ((Sender.new m n t).exec exp ops).pids.Nodup)
    (hs : Sent.publish pid p d x ∈ (Sender.new m n t).outs exp ops)
    (hh : ((Sender.new m n t).exec exp ops).Holds pid p) :
    ((Sender.new m n t).exec exp (ops ++ [.pubrec now pid])).Released pid := by
  rw [exec_snoc]
  obtain ⟨a, l, d', he⟩ := hh
  obtain ⟨_, _, hw⟩ := sent_in_window hnd hm hs he
  exact (pubrec_removes hpid (msgs_nodup hnd) hw).2

/-- **C12.**  After the PUBACK for a message that has been sent, nothing with its identifier is sent
until the broker assigns the identifier to another message (or the client sends a PUBREC for it,
which is always answered). -/
theorem C12_nothing_after_puback (exp : P → Option Nat) (m n t : Nat)
    (ops later : List (SendOp P)) (pid : Pid) (p : P) (d : Bool) (x : Option Nat)
    (hnd : (delivered ops).Nodup) (hm : NeverReduced m ops)
    (hpid : ((Sender.new m n t).exec exp ops).pids.Nodup)
    (hs : Sent.publish pid p d x ∈ (Sender.new m n t).outs exp ops)
    (hh : ((Sender.new m n t).exec exp ops).Holds pid p)
    (h1 : pid ∉ assigned exp ((Sender.new m n t).exec exp (ops ++ [.puback pid])) later)
    (h2 : ∀ now, SendOp.pubrec now pid ∉ later) :
    ∀ y ∈ ((Sender.new m n t).exec exp (ops ++ [.puback pid])).outs exp later, y.pid ≠ pid := by
  apply no_pid_sent later _ h1 h2
  rw [exec_snoc]
  obtain ⟨a, l, d', he⟩ := hh
  obtain ⟨_, _, hw⟩ := sent_in_window hnd hm hs he
  exact complete_removes hpid hw (by simp [completeStatus])

/-- **C12.**  After the PUBCOMP for a released identifier nothing with that identifier is sent, in
the same sense. -/
theorem C12_nothing_after_pubcomp (exp : P → Option Nat) (m n t : Nat)
    (ops later : List (SendOp P)) (pid : Pid) (hm : NeverReduced m ops)
    (hpid : ((Sender.new m n t).exec exp ops).pids.Nodup)
    (hr : ((Sender.new m n t).exec exp ops).Released pid)
    (h1 : pid ∉ assigned exp ((Sender.new m n t).exec exp (ops ++ [.pubcomp pid])) later)
    (h2 : ∀ now, SendOp.pubrec now pid ∉ later) :
    ∀ y ∈ ((Sender.new m n t).exec exp (ops ++ [.pubcomp pid])).outs exp later, y.pid ≠ pid := by
  apply no_pid_sent later _ h1 h2
  rw [exec_snoc]
  obtain ⟨l, he⟩ := hr
  have hw : PStatus.pubrec l pid ∈ ((Sender.new m n t).exec exp ops).pending.packets.take
        ((Sender.new m n t).exec exp ops).pending.maxInflight := by
    rw [← List.take_append_drop ((Sender.new m n t).exec exp ops).pending.maxInflight
      ((Sender.new m n t).exec exp ops).pending.packets, List.mem_append] at he
    rcases he with he | he
    · exact he
    · obtain ⟨a', pid'', p', h'⟩ := exec_tail exp m n t ops hm _ he
      cases h'
  exact complete_removes hpid hw (by simp [completeStatus])

/-- A QoS 2 exchange: PUBLISH, PUBREC, PUBREL, retransmitted PUBREL, PUBCOMP, then nothing. -/
example : (Sender.new 2 9 10).outs (fun _ : Nat => none)
    [.deliver 5 100, .pass (.const 20), .pubrec 21 1, .pass (.const 30), .pass (.const 40),
      .pubcomp 1, .pass (.const 60)] =
    [.publish 1 100 false none, .pubrel 1, .pubrel 1] := by decide

/-! ## C13 -/

/-- **C13** for MQTT 3 receivers: the first transmissions happen in the order in which the messages
were handed to the session, for every run and every clock. -/
theorem C13_fifo_v3 (exp : P → Option Nat) (m n t : Nat) (ops : List (SendOp P))
    (hexp : ∀ p, exp p = none) :
    (firstSent ((Sender.new m n t).outs exp ops)).Sublist (delivered ops) :=
  (List.sublist_append_left _ _).trans (exec_firstSent exp m n t ops (.inl hexp))

/-- **C13** with message expiry, for every run during which the clock does not go back. -/
theorem C13_fifo_v5 (exp : P → Option Nat) (m n t : Nat) (ops : List (SendOp P))
    (hc : ClockMono 0 ops) :
    (firstSent ((Sender.new m n t).outs exp ops)).Sublist (delivered ops) := by
  have := outs_firstSent_mono (exp := exp) (Sender.new m n t : Sender P) 0 ops
    (by intro a l pid p h; simp [Sender.new, Pending.empty] at h) hc
  simpa [Sender.new, Pending.empty] using this

/-- **C13** with message expiry and any clock, if pending identifiers are different. -/
theorem C13_fifo_v5_any_clock (exp : P → Option Nat) (m n t : Nat) (ops : List (SendOp P))
    (hd : DistinctPids exp (Sender.new m n t) ops) :
    (firstSent ((Sender.new m n t).outs exp ops)).Sublist (delivered ops) :=
  (List.sublist_append_left _ _).trans (exec_firstSent exp m n t ops (.inr hd))

/-- **C13.**  Whatever is sent by one pass (first transmissions and retransmissions) is in the order
in which the messages were handed to the session. -/
theorem C13_pass_order (exp : P → Option Nat) (m n t : Nat) (ops : List (SendOp P)) (clk : Clock) :
    (allSent (((Sender.new m n t).exec exp ops).step exp (.pass clk)).2).Sublist
      (delivered ops) := by
  refine (pass_allSent exp clk _).trans ?_
  have := exec_msgs exp (Sender.new m n t : Sender P) ops
  simpa [Sender.new, Pending.empty, Sender.msgs] using this

example : ClockMono 0 [.deliver 5 100, .deliver 5 101, .pass (.const 20), .deliver 21 102,
      .puback 1, .pass (.const 21), .reconnect none, .pass (.const 30)] ∧
    firstSent ((Sender.new 2 9 10).outs (fun _ : Nat => some 50)
    [.deliver 5 100, .deliver 5 101, .pass (.const 20), .deliver 21 102, .puback 1,
      .pass (.const 21), .reconnect none, .pass (.const 30)]) = [100, 101, 102] :=
  ⟨⟨20, fun _ => ⟨Nat.le_of_ble_eq_true rfl, Nat.le_refl _⟩, 21, fun _ => ⟨Nat.le_of_ble_eq_true rfl, Nat.le_refl _⟩, 30,
    fun _ => ⟨Nat.le_of_ble_eq_true rfl, Nat.le_refl _⟩, trivial⟩, by decide⟩

/-! ## C14 -/

/-- **C14.**  A message arriving when there is room is held by the queue. -/
theorem C14_accepted (exp : P → Option Nat) (s : Sender P) (now : Nat) (p : P) (h : ¬ s.Full) :
    (s.step exp (.deliver now p)).1.Holds s.nextPid p :=
  ⟨now, 0, false, by rw [C09_room_accepted exp s now p h]; simp⟩

/-- **C14** for MQTT 3 receivers: a held message is held, with the same identifier, until PUBACK or
PUBREC with its identifier, whatever else happens. -/
theorem C14_kept_v3 (exp : P → Option Nat) (s : Sender P) (pid : Pid) (p : P)
    (ops : List (SendOp P)) (hexp : ∀ p, exp p = none) (h : s.Holds pid p)
    (h1 : SendOp.puback pid ∉ ops) (h2 : ∀ now, SendOp.pubrec now pid ∉ ops) :
    (s.exec exp ops).Holds pid p :=
  exec_keeps_v3 hexp h ops h1 h2

/-- **C14** for MQTT 5 receivers, partial: a message queued at time `a` is held until it is
acknowledged or has expired (`v` seconds after `a`).  Missing: nothing is lost after the first
transmission — this is false (`C14_false`). -/
theorem C14_kept_v5_partial (exp : P → Option Nat) (s : Sender P) (pid : Pid) (p : P)
    (ops : List (SendOp P)) (a l : Nat) (d : Bool)
    (h : PStatus.new a l pid p d ∈ s.pending.packets) (hd : DistinctPids exp s ops)
    (h1 : SendOp.puback pid ∉ ops) (h2 : ∀ now, SendOp.pubrec now pid ∉ ops)
    (h3 : ∀ v clk k, exp p = some v → SendOp.pass clk ∈ ops → clk.sent k - a < v) :
    (s.exec exp ops).Holds pid p := by
  obtain ⟨l', d', h', _⟩ := exec_keeps_v5 h ops hd h1 h2 (.inl h3)
  exact ⟨a, l', d', h'⟩

/-- **C14** for MQTT 5 receivers, partial: a message that was transmitted on the present connection
(by the pass `clk`) is held until it is acknowledged or the connection ends. -/
theorem C14_kept_once_sent_partial (exp : P → Option Nat) (s : Sender P) (pid : Pid) (p : P)
    (clk : Clock) (ops : List (SendOp P)) (d : Bool) (x : Option Nat)
    (hs : Sent.publish pid p d x ∈ (s.step exp (.pass clk)).2)
    (hd : DistinctPids exp s (.pass clk :: ops)) (hc : ClockRunning (.pass clk :: ops))
    (h1 : SendOp.puback pid ∉ ops) (h2 : ∀ now, SendOp.pubrec now pid ∉ ops)
    (h3 : ∀ m, SendOp.reconnect m ∉ ops) :
    (s.exec exp (.pass clk :: ops)).Holds pid p := by
  have hpos : ∀ k, 0 < clk.sent k := hc clk (by simp)
  have hs' : Sent.publish pid p d x ∈ (s.pending.handlePendings exp clk).2 := hs
  rw [handlePendings_sent] at hs'
  obtain ⟨e, _, j, k, _, h4, h5⟩ := sweep_sent _ _ _ _ _ _ _ _ hs'
  obtain ⟨a, l, rfl, h6, _⟩ := attempt_sent h4
  rw [h6] at h5
  have hwin : (s.pending.swept exp clk).1.take s.pending.cleanComplete.window =
      (s.pending.swept exp clk).1.take s.pending.maxInflight := by
    have h := take_window ({ s.pending.cleanComplete with
      packets := (s.pending.swept exp clk).1 } : Pending P)
    have hl : (s.pending.swept exp clk).1.length = s.pending.cleanComplete.packets.length :=
      sweep_length _ _ _ _ _ _ _
    have hw : ({ s.pending.cleanComplete with packets := (s.pending.swept exp clk).1 }
      : Pending P).window = s.pending.cleanComplete.window := by
      show min _ (s.pending.swept exp clk).1.length = min _ _
      rw [hl]
    rw [hw] at h
    exact h
  have h5 : PStatus.new a (clk.sent k) pid p true ∈
      (s.pending.swept exp clk).1.take s.pending.cleanComplete.window := h5
  rw [hwin] at h5
  have hin := List.mem_of_mem_take (flying_pass (z := true) h5
    ⟨rfl, fun _ a' p' d' hc' => by
      simp only [PStatus.new.injEq] at hc'
      have := hpos k
      omega⟩
    (.inr ⟨rfl, hd [] (List.nil_prefix)⟩))
  rw [exec_cons]
  obtain ⟨l', d', h', _⟩ := exec_keeps_v5 (s := (s.step exp (.pass clk)).1) hin ops
    (fun pre hp => by
      have := hd (.pass clk :: pre) ((List.cons_prefix_cons).mpr ⟨rfl, hp⟩)
      rwa [exec_cons] at this) h1 h2
    (.inr ⟨hpos k, h3, fun c hm => hc c (by simp [hm])⟩)
  exact ⟨a, l', d', h'⟩

/-- **C14.**  A released identifier (after PUBREC) stays released until PUBCOMP with that
identifier. -/
theorem C14_released_kept (exp : P → Option Nat) (s : Sender P) (pid : Pid)
    (ops : List (SendOp P)) (h : s.Released pid) (h1 : SendOp.pubcomp pid ∉ ops) :
    (s.exec exp ops).Released pid :=
  exec_keeps_released h ops h1

/-- **C14 is false** for MQTT 5: a message is transmitted, the connection breaks before the client
acknowledges it, and if the client comes back after the expiry interval the message is dropped
although it is not waiting for its first transmission. -/
theorem C14_false : ∃ (exp : Nat → Option Nat) (s : Sender Nat) (pid p : Nat)
    (ops : List (SendOp Nat)) (l : Nat),
    s = (Sender.new 2 9 0).exec exp [.deliver 5 7, .pass (.const 6)] ∧
    (Sender.new 2 9 0).outs exp [.deliver 5 7, .pass (.const 6)] = [.publish pid p false (some l)] ∧
    s.Holds pid p ∧ SendOp.puback pid ∉ ops ∧ (∀ now, SendOp.pubrec now pid ∉ ops) ∧
    ¬ (s.exec exp ops).Holds pid p := by
  refine ⟨fun _ => some 10, _, 1, 7, [.reconnect none, .pass (.const 20)], 9, rfl, by decide,
    ⟨5, 6, true, by decide⟩, by simp, by simp, ?_⟩
  rintro ⟨a, l, d, h⟩
  have : ((((Sender.new 2 9 0).exec (fun _ : Nat => some 10) [.deliver 5 7, .pass (.const 6)]).exec
    (fun _ => some 10) [.reconnect none, .pass (.const 20)]).pending.packets : List (PStatus Nat))
    = [] := by decide
  rw [this] at h; cases h

/-- A message survives foreign acknowledgements, timeouts and reconnects. -/
example : ((Sender.new 2 9 10).exec (fun _ : Nat => none)
    [.deliver 5 100, .deliver 5 101, .pass (.const 20), .puback 2, .puback 7, .pubcomp 1,
      .pass (.const 35), .reconnect (some 4)]).Holds 1 100 := ⟨5, 0, true, by decide⟩

/-! ## C15 -/

/-- **C15.**  A session is resumed after any history (in which no reconnect has reduced the receive
maximum, and the new one does not reduce it either).  In the first sending pass every message that
was sent before, is unacknowledged and has not expired is sent again, with DUP and the same packet
identifier. -/
theorem C15_resent (exp : P → Option Nat) (m n t : Nat) (ops : List (SendOp P)) (m' : Option Nat)
    (clk : Clock) (pid : Pid) (p : P) (hnd : (delivered ops).Nodup)
    (hm : NeverReduced m (ops ++ [.reconnect m'])) (hclk : ∀ j, t ≤ clk.ready j)
    (hs : p ∈ allSent ((Sender.new m n t).outs exp ops))
    (hh : ((Sender.new m n t).exec exp ops).Holds pid p)
    (hx : ∀ v a k, exp p = some v → SendOp.deliver a p ∈ ops → clk.sent k - a < v) :
    ∃ x, Sent.publish pid p true x ∈
      ((Sender.new m n t).exec exp ops).outs exp [.reconnect m', .pass clk] := by
  obtain ⟨a, l, d, he⟩ := hh
  have hd : d = true := ((exec_dupInv exp m n t ops hnd).queue _ _ _ _ _ he).1.mpr hs
  subst hd
  have hpar := exec_params exp (Sender.new m n t : Sender P) ops
  have hm0 : NeverReduced m ops := fun pre k h => hm pre k (h.trans (List.prefix_append _ _))
  have hle : ((Sender.new m n t : Sender P).exec exp ops).pending.maxInflight ≤
      m'.getD ((Sender.new m n t : Sender P).exec exp ops).pending.maxInflight := by
    cases m' with
    | none => exact Nat.le_refl _
    | some k => rw [hpar.1]; exact hm ops k (List.prefix_refl _)
  have hw := mem_window_of_tail hle (exec_tail exp m n t ops hm0) he (by simp)
    (by rintro ⟨a', pid', p', h'⟩; simp at h')
  rw [resume_sent exp _ m' clk (by intro j; rw [hpar.2.2]; exact hclk j)]
  exact sent_of_mem_reset hw
    (fun v k hv => hx v a k hv (exec_new exp m n t ops _ _ _ _ _ he).1)

/-- **C15.**  In the same situation PUBREL is sent again for every message that has been PUBRECed
and not PUBCOMPed. -/
theorem C15_pubrel_resent (exp : P → Option Nat) (m n t : Nat) (ops : List (SendOp P))
    (m' : Option Nat) (clk : Clock) (pid : Pid)
    (hm : NeverReduced m (ops ++ [.reconnect m'])) (hclk : ∀ j, t ≤ clk.ready j)
    (hr : ((Sender.new m n t).exec exp ops).Released pid) :
    Sent.pubrel pid ∈ ((Sender.new m n t).exec exp ops).outs exp [.reconnect m', .pass clk] := by
  obtain ⟨l, he⟩ := hr
  have hpar := exec_params exp (Sender.new m n t : Sender P) ops
  have hm0 : NeverReduced m ops := fun pre k h => hm pre k (h.trans (List.prefix_append _ _))
  have hle : ((Sender.new m n t : Sender P).exec exp ops).pending.maxInflight ≤
      m'.getD ((Sender.new m n t : Sender P).exec exp ops).pending.maxInflight := by
    cases m' with
    | none => exact Nat.le_refl _
    | some k => rw [hpar.1]; exact hm ops k (List.prefix_refl _)
  have hw := mem_window_of_tail hle (exec_tail exp m n t ops hm0) he (by simp)
    (by rintro ⟨a', pid', p', h'⟩; simp at h')
  rw [resume_sent exp _ m' clk (by intro j; rw [hpar.2.2]; exact hclk j)]
  exact pubrel_of_mem_reset hw

/-- **C15.**  Whatever the queue content and the new receive maximum: the first pass after a
reconnect sends, in queue order, one packet for each unfinished entry of the window (messages that
cannot expire). -/
theorem C15_whole_window (exp : P → Option Nat) (s : Sender P) (m' : Option Nat) (clk : Clock)
    (hexp : ∀ p, exp p = none) (hclk : ∀ j, s.pending.timeout ≤ clk.ready j) :
    (s.outs exp [.reconnect m', .pass clk]).map Sent.pid =
      (s.pending.cleanComplete.packets.take (m'.getD s.pending.maxInflight)).filterMap
        PStatus.pid? := by
  rw [resume_sent exp s m' clk hclk]
  generalize s.pending.cleanComplete.packets.take (m'.getD s.pending.maxInflight) = l
  generalize 0 = i
  induction l generalizing i with
  | nil => rfl
  | cons e l ih =>
    rw [List.map_cons, List.zipIdx_cons, List.filterMap_cons, List.filterMap_cons, ← ih (i + 1)]
    generalize (List.filterMap _ ((List.map PStatus.reset l).zipIdx (i + 1))) = r
    cases e with
    | new a l0 pid p d => simp [PStatus.reset, PStatus.attempt, hexp, PStatus.pid?, Sent.pid]
    | pubrec l0 pid => simp [PStatus.reset, PStatus.attempt, PStatus.pid?, Sent.pid]
    | complete => simp [PStatus.reset, PStatus.attempt, PStatus.pid?]

/-- **C15.**  Within one connection a message is not retransmitted before the timeout: it is sent by
the pass `c1` with clock readings at least `T`; a later pass `c2` on the same connection whose
readings are before `T` + timeout does not send it. -/
theorem C15_not_before_timeout (exp : P → Option Nat) (m n t : Nat) (ops mid : List (SendOp P))
    (c1 c2 : Clock) (T : Nat) (p : P) (hnd : (delivered (ops ++ mid)).Nodup)
    (hs : p ∈ allSent (((Sender.new m n t).exec exp ops).step exp (.pass c1)).2)
    (h1 : ∀ k, T ≤ c1.sent k) (h2 : ∀ clk, SendOp.pass clk ∈ mid → ∀ k, T ≤ clk.sent k)
    (h3 : ∀ m', SendOp.reconnect m' ∉ mid) (h4 : ∀ j, c2.ready j < t + T) :
    p ∉ allSent (((Sender.new m n t).exec exp (ops ++ .pass c1 :: mid)).step exp (.pass c2)).2 := by
  rw [delivered_append] at hnd
  have hnd0 := (List.nodup_append.mp hnd).1
  have hp : p ∈ delivered ops := by
    have h5 := (pass_allSent exp c1 _).subset hs
    have h6 := (exec_msgs exp (Sender.new m n t : Sender P) ops).subset h5
    simpa [Sender.new, Pending.empty, Sender.msgs] using h6
  rw [exec_append, exec_cons]
  apply LastGe.not_sent (T := T)
  · apply LastGe.exec (LastGe.of_sent (msgs_nodup hnd0) hs h1) mid h3 _ h2
    intro hc
    exact (List.nodup_append.mp hnd).2.2 p hp p hc rfl
  · intro j
    rw [(exec_params exp _ mid).2.2, (step_params exp _ _).2.2, (exec_params exp _ ops).2.2]
    exact h4 j

/-- Two messages were sent, one of them PUBRECed; both are resumed after the reconnect, the third
message is sent for the first time when there is room. -/
example : ((Sender.new 2 9 10).exec (fun _ : Nat => none)
    [.deliver 5 100, .deliver 5 101, .deliver 6 102, .pass (.const 20), .pubrec 21 1]).outs
      (fun _ => none) [.reconnect (some 3), .pass (.const 22)] =
    [.pubrel 1, .publish 2 101 true none, .publish 3 102 false none] := by decide

/-! ## C16 -/

/-- **C16.**  After any history `ops` a client acknowledges what it receives, for `r` rounds, at
times when everything sent before is due again (`lo` is at least the timeout plus every clock
reading of the history).  Then at least `r * receive maximum` entries are gone. -/
theorem C16_drain (exp : P → Option Nat) (qos : P → QoS) (m n t : Nat) (ops : List (SendOp P))
    (b lo hi r : Nat) (s' : Sender P) (outs : List (Sent P)) (hb : ReadingsLe b ops)
    (hlo : t + b ≤ lo) (hpid : ((Sender.new m n t).exec exp ops).pids.Nodup)
    (h : AckRounds exp qos lo hi r ((Sender.new m n t).exec exp ops) outs s') :
    s'.pending.cleanComplete.packets.length ≤
      ((Sender.new m n t).exec exp ops).pending.packets.length - r * receiveMax m ops := by
  have hpar := exec_params exp (Sender.new m n t : Sender P) ops
  have h1 := (rounds_drain h (exec_lastLe _ ops hb (by simp [Sender.new, Pending.empty]))
    (by rw [hpar.2.2]; exact hlo) hpid).1
  rw [hpar.1] at h1
  refine Nat.le_trans h1 ?_
  have := length_dropWhile_le PStatus.isComplete
    ((Sender.new m n t : Sender P).exec exp ops).pending.packets
  have h2 : ((Sender.new m n t : Sender P).exec exp ops).pending.cleanComplete.packets.length =
    (List.dropWhile PStatus.isComplete
      ((Sender.new m n t : Sender P).exec exp ops).pending.packets).length := rfl
  have h3 : receiveMax (Sender.new m n t : Sender P).pending.maxInflight ops = receiveMax m ops := rfl
  rw [h3]
  omega

/-- **C16.**  With a positive receive maximum the queue is empty after as many rounds as there are
messages, and every message that was held (and did not expire in the meantime) has been
transmitted in these rounds. -/
theorem C16_empty (exp : P → Option Nat) (qos : P → QoS) (m n t : Nat) (ops : List (SendOp P))
    (b lo hi r : Nat) (s' : Sender P) (outs : List (Sent P)) (hb : ReadingsLe b ops)
    (hlo : t + b ≤ lo) (hpid : ((Sender.new m n t).exec exp ops).pids.Nodup)
    (h : AckRounds exp qos lo hi r ((Sender.new m n t).exec exp ops) outs s')
    (hpos : 0 < receiveMax m ops)
    (hr : ((Sender.new m n t).exec exp ops).pending.packets.length ≤ r) :
    s'.pids = [] ∧
    ∀ pid p, ((Sender.new m n t).exec exp ops).Holds pid p →
      (∀ v a, exp p = some v → SendOp.deliver a p ∈ ops → hi - a < v) → p ∈ allSent outs := by
  have hpar := exec_params exp (Sender.new m n t : Sender P) ops
  have hmul : r ≤ r * receiveMax m ops := Nat.le_mul_of_pos_right r hpos
  constructor
  · have h1 := C16_drain exp qos m n t ops b lo hi r s' outs hb hlo hpid h
    have : s'.pending.cleanComplete.packets = [] := by
      rw [← List.length_eq_zero_iff]; omega
    unfold Sender.pids
    rw [← filterMap_dropWhile PStatus.pid? rfl]
    show s'.pending.cleanComplete.packets.filterMap _ = []
    rw [this]; rfl
  · rintro pid p ⟨a, l, d, he⟩ hx
    refine (rounds_drain h (exec_lastLe _ ops hb (by simp [Sender.new, Pending.empty]))
      (by rw [hpar.2.2]; exact hlo) hpid).2 ?_ a l pid p d he
      (fun v hv => hx v a hv (exec_new exp m n t ops _ _ _ _ _ he).1)
    rw [hpar.1]
    have := length_dropWhile_le PStatus.isComplete
      ((Sender.new m n t : Sender P).exec exp ops).pending.packets
    have h2 : ((Sender.new m n t : Sender P).exec exp ops).pending.cleanComplete.packets.length =
      (List.dropWhile PStatus.isComplete
        ((Sender.new m n t : Sender P).exec exp ops).pending.packets).length := rfl
    have h3 : receiveMax (Sender.new m n t : Sender P).pending.maxInflight ops = receiveMax m ops :=
      rfl
    rw [h3]
    omega

/-- Two rounds empty a queue of three messages with receive maximum 2 (QoS 1 and QoS 2, the
acknowledgements of the first round arrive in reverse order). -/
example : ∃ s' outs, AckRounds (fun _ : Nat => none) (fun p => if p = 101 then 2 else 1) 30 40 2
    ((Sender.new 2 9 10).exec (fun _ : Nat => none)
      [.deliver 5 100, .deliver 5 101, .deliver 6 102]) outs s' ∧ s'.pids = [] ∧
    allSent outs = [100, 101, 102] := by
  refine ⟨_, _, .round (.const 30) 31 (fun _ => Nat.le_refl _) (fun _ => Nat.le_of_ble_eq_true rfl) rfl
    (acks := [.publish 2 101 false none, .publish 1 100 false none]) ?_
    (.round (.const 32) 33 (fun _ => Nat.le_of_ble_eq_true rfl) (fun _ => Nat.le_of_ble_eq_true rfl) rfl
      (List.Perm.refl _) (.done _)), by decide, by decide⟩
  exact List.Perm.swap _ _ _

/-! ## C17 -/

/-- **C17.**  Packet identifiers of pending messages, and the next one, are between 1 and 65535. -/
theorem C17_range (exp : P → Option Nat) (m n t : Nat) (ops : List (SendOp P)) :
    (∀ pid ∈ ((Sender.new m n t).exec exp ops).pids, 1 ≤ pid ∧ pid ≤ 65535) ∧
    1 ≤ ((Sender.new m n t).exec exp ops).nextPid ∧
    ((Sender.new m n t).exec exp ops).nextPid ≤ 65535 := by
  refine ⟨?_, by rw [exec_nextPid]; exact pidOf_range _⟩
  intro pid hp
  obtain ⟨k, _, rfl⟩ := List.mem_map.mp ((exec_pids_sublist exp m n t ops).subset hp)
  exact pidOf_range k

/-- **C17** partial: pending messages have different identifiers as long as no message is dropped
for want of room and the configured maximum is at most 65535. -/
theorem C17_distinct_no_drops_partial (exp : P → Option Nat) (m n t : Nat) (ops : List (SendOp P))
    (hn : n ≤ 65535) (h : NoDrops exp (Sender.new m n t) ops) :
    ((Sender.new m n t).exec exp ops).pids.Nodup :=
  exec_pids_nodup exp m n t ops hn h

/-- **C17** partial: pending messages have different identifiers during the first 65535 messages of
the session, even if some of them are dropped. -/
theorem C17_distinct_first_65535_partial (exp : P → Option Nat) (m n t : Nat)
    (ops : List (SendOp P)) (h : (delivered ops).length ≤ 65535) :
    ((Sender.new m n t).exec exp ops).pids.Nodup := by
  refine (exec_pids_sublist exp m n t ops).nodup (nodup_map_pidOf List.nodup_range ?_)
  intro a ha b hb
  rw [List.mem_range] at ha hb
  omega

/-- **C17 is false** in general: identifiers are used up by dropped messages too, so that after the
counter has wrapped around a message gets the identifier of a message which is still pending. -/
theorem C17_false : ∃ (exp : Nat → Option Nat) (m n t : Nat) (ops : List (SendOp Nat)),
    ¬ ((Sender.new m n t).exec exp ops).pids.Nodup := by
  refine ⟨fun _ => none, 2, 2, 0, [.deliver 5 0, .deliver 5 0] ++
    List.replicate 65534 (.deliver 5 0) ++ [.pass (.const 6), .puback 1, .deliver 7 0], ?_⟩
  rw [exec_append, wrapped]
  decide

example : ((Sender.new 2 9 10).exec (fun _ : Nat => none)
    [.deliver 5 100, .deliver 5 101, .pass (.const 20), .puback 2, .deliver 6 102]).pids = [1, 3] := by
  decide

/-! ## C18 -/

/-- **C18.**  Every PUBLISH sent for a message with expiry interval `v` was handed to the session at
some time `a`, and carries `v` minus the seconds since then (computed modulo 2 ^ 32, not below 0);
on a first transmission fewer than `v` seconds have passed. -/
theorem C18_expiry (exp : P → Option Nat) (m n t : Nat) (ops : List (SendOp P)) (clk : Clock)
    (pid : Pid) (p : P) (d : Bool) (x : Option Nat) (v : Nat) (hv : exp p = some v)
    (h : Sent.publish pid p d x ∈ (((Sender.new m n t).exec exp ops).step exp (.pass clk)).2) :
    ∃ a k, SendOp.deliver a p ∈ ops ∧ x = some (v - (clk.sent k - a) % 2 ^ 32) ∧
      (d = false → clk.sent k - a < v) := by
  obtain ⟨a, l, k, h1, _, h3, _⟩ := pass_sent h
  obtain ⟨h4, h5⟩ := exec_new exp m n t ops _ _ _ _ _ h1
  exact ⟨a, k, h4, (h3 v hv).1, fun hd => (h3 v hv).2 (h5 hd)⟩

/-- **C18.**  Messages without an expiry interval are sent without one. -/
theorem C18_no_expiry (exp : P → Option Nat) (s : Sender P) (clk : Clock)
    (pid : Pid) (p : P) (d : Bool) (x : Option Nat) (hv : exp p = none)
    (h : Sent.publish pid p d x ∈ (s.step exp (.pass clk)).2) : x = none := by
  obtain ⟨a, l, k, _, h2, _⟩ := pass_sent h
  exact h2 hv

/-- **C18.**  A message that was handed to the session at time `a` only, and for which every later
clock reading is at least its expiry interval after `a`, is never sent. -/
theorem C18_expired_never_sent (exp : P → Option Nat) (m n t : Nat) (ops : List (SendOp P))
    (p : P) (v a : Nat) (hv : exp p = some v) (hnd : (delivered ops).Nodup)
    (ha : ∀ a', SendOp.deliver a' p ∈ ops → a' = a)
    (hclk : ∀ clk, SendOp.pass clk ∈ ops → ∀ k, v ≤ clk.sent k - a) :
    p ∉ allSent ((Sender.new m n t).outs exp ops) := by
  induction ops using snoc_induction with
  | nil => simp [outs_nil, allSent]
  | snoc ops op ih =>
    rw [delivered_append] at hnd
    have hnd0 := (List.nodup_append.mp hnd).1
    have ih := ih hnd0 (fun a' h => ha a' (by simp [h])) (fun clk h => hclk clk (by simp [h]))
    rw [outs_snoc, allSent_append, List.mem_append, not_or]
    refine ⟨ih, fun hc => ?_⟩
    obtain ⟨pid, d, x, hx⟩ := mem_allSent hc
    cases op with
    | pass clk =>
      obtain ⟨a0, l, k, h1, _, h3, _⟩ := pass_sent hx
      obtain ⟨h4, h5⟩ := exec_new exp m n t ops _ _ _ _ _ h1
      have hd : d = false := by
        cases d with
        | false => rfl
        | true => exact absurd (((exec_dupInv exp m n t ops hnd0).queue _ _ _ _ _ h1).1.mp rfl) ih
      have := (h3 v hv).2 (h5 hd)
      rw [ha a0 (by simp [h4])] at this
      have := hclk clk (by simp) k
      omega
    | pubrec now pid' => simp [Sender.step] at hx
    | deliver now p' => simp [Sender.step] at hx
    | puback pid' => simp [Sender.step] at hx
    | pubcomp pid' => simp [Sender.step] at hx
    | reconnect m' => simp [Sender.step] at hx

/-- Of two messages one expires in the queue, the other is sent with its interval decreased. -/
example : (Sender.new 2 9 10).outs (fun p : Nat => some p)
    [.deliver 5 100, .deliver 5 10, .pass (.const 20)] = [.publish 1 100 false (some 85)] := by decide

end Akasa

import Verif.Proof.OnlineClose
import Verif.Proof.OnlineBound
import Verif.Proof.WorldRoom
import Verif.Props.Hook
/-!
# C76, C77, C78: the task of a connection

A run is any sequence of polls of the task, from the beginning of the connection; `is` is what the
world answers during the polls, `rs` what the polls did.
-/
namespace Akasa

section
variable {cfg : Config} {hooks : HookConfig} {ext : HookExt} {pr : Proto}
  {enc : OutPkt → Option Bytes} {s : Session} {is : List PollIn} {rs : List PollOut}

/-- A new session has no message on its way to others when its connection begins (the retransmission
of unacknowledged messages included): the hypothesis of the theorems below. -/
theorem idle_start {name : Str} {id : ClientId} {c : ConnParams} {clk : Clock} {out : List OutPkt}
    (h : handlePendingsOf pr clk (Session.start cfg pr name id c) = (s, out)) : s.idle := by
  have := copies_pendings pr clk (Session.start cfg pr name id c)
  rw [h] at this
  have h1 := congrArg Prod.fst this
  have h2 := congrArg Prod.snd this
  exact ⟨by rw [show s.bcast = _ from h1]; cases pr <;> rfl,
    by rw [show s.bcastCnt = _ from h2]; cases pr <;> rfl⟩

/-- Nor has a session that is resumed or replaced by a new one. -/
theorem idle_session {req : Request} {old : Session} {level : Level} {s0 : Session} {b : Bool}
    {clk : Clock} {out : List OutPkt} (h0 : req.session cfg old level = (s0, b))
    (h : handlePendingsOf pr clk s0 = (s, out)) : s.idle := by
  have := copies_pendings pr clk s0
  rw [h] at this
  have h1 := congrArg Prod.fst this
  have h2 := congrArg Prod.snd this
  have h3 : s0.idle := by
    unfold Request.session at h0
    split at h0
    · cases h0; cases req.level.proto <;> exact ⟨rfl, rfl⟩
    · cases h0; cases req.level.proto <;> exact ⟨rfl, rfl⟩
  exact ⟨(show s.bcast = _ from h1).trans h3.1, (show s.bcastCnt = _ from h2).trans h3.2⟩

/-- **C76**, as far as it holds: after every poll of the task, unless the connection has ended, the
task is run again at once or will be woken for everything that is left to do; except for writing if
the last write took only a part of the bytes, and for flushing if an earlier flush did not succeed at
once. -/
theorem C76_attended_partial (hs : s.idle)
    (h : (OnlineLoop.new s).run cfg hooks ext pr enc is = some rs) {k : Nat} {r : PollOut}
    (hr : rs[k]? = some r) (c : Chore) (hw : c = .write → r.short = false)
    (hf : c = .flush → ∀ i ∈ is.take k, i.flush ≠ .pending) : r.Attended c := by
  intro he hk ht
  obtain ⟨i, hi, l0, hl0, hp, htidy⟩ := loop_run_at (loopInv_new hs.1 hs.2) h hr
  obtain ⟨-, hd⟩ := poll_done hl0 hp
  rcases (hd he).2.awaits hk c ht with h1 | ⟨rfl, h1⟩ | ⟨rfl, h1, h2, h3⟩
  · exact h1
  · rw [hw rfl] at h1; cases h1
  · rcases htidy (hf rfl) (fun h => by cases h) h1 with h4 | h4
    · exact absurd h2 h4
    · rw [h3] at h4; cases h4

/-- **C76**: what the connection and the inbox offer is taken in order, nothing is skipped and
nothing is handled twice: the packets handled, and the one whose hook is still running, are the
packets read; the messages handled are the messages taken out of the inbox; and what is left behind
by a poll is the end of what was offered. -/
theorem C76_taken (h : (OnlineLoop.new s).run cfg hooks ext pr enc is = some rs) :
    (handledBy rs).filterMap Handled.packet? ++ hookRunning rs = readPackets (takenReads is rs) ∧
    (handledBy rs).filterMap Handled.normal? = (takenNormals is rs).map Prod.snd ∧
    ∀ x ∈ is.zip rs, x.2.readsLeft <:+ x.1.reads ∧ x.2.normalsLeft <:+ x.1.normals := by
  obtain ⟨h1, h2, h3⟩ := loop_run_taken h
  refine ⟨?_, h3.symm, h1⟩
  have h4 : (OnlineLoop.new s).hook = none := rfl
  rw [h4] at h2
  simp only [Option.toList_none, List.nil_append] at h2
  rw [h2]
  cases hl : rs.getLast? <;> simp [hookRunning, hl]

/-- **C76**: the task waits for packets, or for messages of other sessions, only if it has taken all
there were. -/
theorem C76_waits (hs : s.idle)
    (h : (OnlineLoop.new s).run cfg hooks ext pr enc is = some rs) {r : PollOut} (hr : r ∈ rs)
    (he : r.ended = none) :
    (.read ∈ r.waits → r.loop.out.session.disconnected = false → r.readsLeft = []) ∧
    (.normal ∈ r.waits → r.normalsLeft = []) := by
  obtain ⟨i, hi, l0, hl0, hp, -⟩ := loop_run_mem (loopInv_new hs.1 hs.2) h hr
  obtain ⟨-, hd⟩ := poll_done hl0 hp
  have ht := poll_taken hp
  refine ⟨fun h1 h2 => ?_, ht.normalWaits⟩
  rcases ht.readWaits h1 with h3 | h3
  · exact h3
  · rw [(hd he).2.inv.drain h3] at h2; cases h2

/-- **C76**: a connection waits for a hook only with a PUBLISH, SUBSCRIBE or UNSUBSCRIBE packet that
this hook is configured for and that is not too large. -/
theorem C76_hook (hs : s.idle)
    (h : (OnlineLoop.new s).run cfg hooks ext pr enc is = some rs) {r : PollOut} (hr : r ∈ rs)
    {size : Nat} {p : InPkt} (hp : r.loop.hook = some (size, p)) :
    p.hooked hooks = true ∧ size ≤ cfg.maxPacketSizeServer := by
  have hx := hookFor_all (loopInv_new hs.1 hs.2) (fun _ _ hx => by cases hx) h hr _ _ hp
  simp only [asksHook, Bool.and_eq_true, decide_eq_true_eq] at hx
  refine ⟨?_, hx.1⟩
  cases p <;> simp_all [InPkt.hooked]

/-- **C77**: if no answer to a packet or message consists of more than `B` packets, never more than
`15 + B` wait to be written. -/
theorem C77_queue (hs : s.idle)
    (h : (OnlineLoop.new s).run cfg hooks ext pr enc is = some rs) {r : PollOut} (hr : r ∈ rs)
    {B : Nat} (hB : 1 ≤ B) (hb : ∀ x ∈ handledBy rs, x.out.length ≤ B) :
    r.loop.writer.queue.length ≤ 15 + B := by
  obtain ⟨k, hk⟩ := mem_take hr
  exact loop_run_queue (loopInv_new hs.1 hs.2) (loop_run_take h k) hk hB (Nat.zero_le _)
    (fun x hx => hb x (handledBy_take hx))

/-- **C77**, as far as it holds: unless the answer to a SUBSCRIBE packet (SUBACK and the retained
messages) is longer, no more packets wait to be written to a client than fifteen, one, and as many as
the client accepts unacknowledged at the same time; however slowly the client reads, and however much
it or others send. -/
theorem C77_window_partial (hs : s.idle)
    (h : (OnlineLoop.new s).run cfg hooks ext pr enc is = some rs)
    (hu : ∀ x ∈ handledBy rs, x.what.unhooked)
    (hsub : ∀ x ∈ handledBy rs, x.what.isSubscribe = true →
      x.out.length ≤ 1 + s.sender.pending.maxInflight) {r : PollOut} (hr : r ∈ rs) :
    r.loop.writer.queue.length ≤ 16 + s.sender.pending.maxInflight := by
  have := C77_queue hs h hr (B := 1 + s.sender.pending.maxInflight) (by omega)
    (fun x hx => by simpa using loop_run_little hs h hu hsub x hx)
  omega

/-- **C78**: the bytes given to the transport are a prefix of the encodings of the packets the
session sent, in the order of sending. -/
theorem C78_wire (hs : s.idle)
    (h : (OnlineLoop.new s).run cfg hooks ext pr enc is = some rs) {r : PollOut}
    (hr : rs.getLast? = some r) : r.loop.writer.wire <+: encodings enc (sentBy rs) :=
  (loop_run_wire hs h hr).pre

/-- **C78**: when nothing waits to be written (and the transport has not failed), all of them have
been given to it. -/
theorem C78_complete (hs : s.idle)
    (h : (OnlineLoop.new s).run cfg hooks ext pr enc is = some rs) {r : PollOut}
    (hr : rs.getLast? = some r) (hl : r.loop.writer.live = true)
    (hq : r.loop.writer.queue = []) : r.loop.writer.wire = encodings enc (sentBy rs) := by
  have := (loop_run_wire hs h hr).eq hl
  rw [hq] at this
  simpa [packetBytes] using this

/-- **C78**: when the task closes the connection after a DISCONNECT of either side, everything the
session sent before (a DISCONNECT of the broker included) has been written and flushed, unless the
transport fails or somebody asks to close the connection at once. -/
theorem C78_closed (hs : s.idle)
    (h : (OnlineLoop.new s).run cfg hooks ext pr enc is = some rs) {r : PollOut}
    (hr : rs.getLast? = some r) (he : r.ended = some .stopped) (hd : r.loop.draining.isSome)
    (hl : r.loop.writer.live = true)
    (hok : ∀ i ∈ is, .kick ∉ i.controls ∧ i.flush ≠ .error ∧ i.drainFlush ≠ .error) :
    r.loop.writer.wire = encodings enc (sentBy rs) ∧ r.loop.unflushed = false := by
  obtain ⟨i, hi, l0, hl0, hp, -⟩ := loop_run_mem (loopInv_new hs.1 hs.2) h
    (List.mem_of_getLast? hr)
  obtain ⟨h1, h2⟩ := poll_closed hl0 hp he hd hl (hok i hi).1 (hok i hi).2.1 (hok i hi).2.2
  exact ⟨C78_complete hs h hr hl h1, h2⟩

/-- **C78**: what the task does is a life of the session: the packets and messages handled, in this
order, are its events (besides the passing of copies to others), what is sent is what it sends in
that life, and its state is the state at the end.  Only after bytes that are no packet a DISCONNECT
follows. -/
theorem C78_session (hs : s.idle)
    (h : (OnlineLoop.new s).run cfg hooks ext pr enc is = some rs)
    (hu : ∀ x ∈ handledBy rs, x.what.unhooked) :
    ∃ evs recs tail, ({ session := s } : Peer).run cfg ext.toExt pr evs = some recs ∧
      evs.filter (fun e => !e.2.2.isPassed) = (handledBy rs).filterMap (·.what.event) ∧
      sentBy rs = recs.flatMap (·.res.out) ++ tail ∧
      (∀ r, rs.getLast? = some r →
        (tail = [] ∧ (endOf { session := s } recs).session = r.loop.out.session) ∨
        (tail = [.disconnect .malformedPacket] ∧ pr = .v5 ∧
          r.loop.out.session.disconnected = true)) ∧ (rs = [] → tail = []) := by
  obtain ⟨evs, recs, tail, hm, h1, h2, h3⟩ := loop_run_session hs h hu
  exact ⟨evs, recs, tail, hm.run, hm.events, h1, h2, h3⟩

end

/-! ### Examples -/

/-- Every packet is two bytes long. -/
def exEnc (_ : OutPkt) : Option Bytes := some [1, 2]

/-- What a handler sees. -/
def exMoment : Moment := { global := exGlobal, env := { clk := fun _ => Clock.const 100 } }

/-- A PINGREQ that can be read. -/
def exPing : ReadItem := .packet exMoment 2 .pingreq false

/-- The session at the beginning. -/
def exLoopSession : Session := (exPeer .v5).session

example : exLoopSession.idle := ⟨rfl, rfl⟩

/-- Two polls: eighteen PINGREQ can be read, the client does not read anything; after the sixteenth
answer the task stops reading and waits for the transport to accept bytes.  Then it accepts 40 bytes. -/
def exPolls : List PollIn :=
  [{ reads := List.replicate 18 exPing, writes := [.pending] },
   { reads := List.replicate 2 exPing, writes := [.wrote 40] }]

example : ((OnlineLoop.new exLoopSession).run {} {} exHookExt .v5 exEnc exPolls).map (fun rs =>
      rs.map fun r => ([r.loop.readHeld, r.woken],
        [r.readsLeft.length, r.loop.writer.queue.length, r.loop.writer.wire.length], r.waits)) =
    -- the sixteen packets are one block of 32 bytes after the first poll
    some [([true, false], [2, 1, 0], [.control, .write]),
      ([false, false], [0, 0, 36], [.read, .control, .normal])] := by
  decide +kernel

/-- A way to find the results of a run by computation. -/
theorem runs_of {o : Option (List PollOut)} {P : List PollOut → Prop} [DecidablePred P]
    (h : o.any (fun rs => decide (P rs)) = true) : ∃ rs, o = some rs ∧ P rs := by
  cases o with
  | none => cases h
  | some rs => exact ⟨rs, rfl, of_decide_eq_true h⟩

/-- Two PINGREQ and bytes that are no packet; the transport takes three bytes, later the rest.  The
answers and the DISCONNECT are written and flushed, then the broker waits for the client to close its
side. -/
example : ∃ rs, (OnlineLoop.new exLoopSession).run {} {} exHookExt .v5 exEnc
      [{ reads := [exPing, exPing, .malformed], writes := [.wrote 3], drainWrites := [.pending] },
       { writes := [.wrote 3] }, { drainRead := .eof }] = some rs ∧
    rs.map (fun r => (r.ended, r.waits, r.loop.writer.wire.length)) =
      [(none, [.control, .write], 3), (none, [.control, .timer, .read], 6),
        (some .stopped, [.control, .timer], 6)] ∧
    sentBy rs = [.pingresp, .pingresp, .disconnect .malformedPacket] :=
  runs_of (P := fun rs => rs.map (fun r => (r.ended, r.waits, r.loop.writer.wire.length)) =
      [(none, [.control, .write], 3), (none, [.control, .timer, .read], 6),
        (some .stopped, [.control, .timer], 6)] ∧
    sentBy rs = [.pingresp, .pingresp, .disconnect .malformedPacket]) (by decide +kernel)

/-- A slow hook for UNSUBSCRIBE: the connection waits, until the hook answers. -/
example : ∃ rs, (OnlineLoop.new exLoopSession).run {} { subscribe := false } exHookExt .v5 exEnc
      [{ reads := [.packet exMoment 10 (.subscribe 1 [(str "a", { maxQos := 0 })] none) true,
          .packet exMoment 10 (.unsubscribe 2 [str "a"]) true, exPing], writes := [.wrote 9] },
       { hook := none }] = some rs ∧
    rs.map (fun r => (r.waits, r.loop.hook.isSome, r.log.length, r.readsLeft.length)) =
      [([.hook], true, 1, 1), ([.hook], true, 0, 0)] :=
  runs_of (P := fun rs => rs.map (fun r => (r.waits, r.loop.hook.isSome, r.log.length,
      r.readsLeft.length)) = [([.hook], true, 1, 1), ([.hook], true, 0, 0)]) (by decide +kernel)

/-- **C76** is false of the code for writing: a write that takes one of the two bytes of the answer
ends the poll, and nothing will wake the task for the other byte. -/
theorem C76_write_false : ∃ i rs, (OnlineLoop.new exLoopSession).run {} {} exHookExt .v5 exEnc [i] =
      some rs ∧ ∃ r ∈ rs, r.loop.writer.wire = [1] ∧ ¬ r.Attended .write := by
  obtain ⟨rs, h, hp⟩ := runs_of (o := (OnlineLoop.new exLoopSession).run {} {} exHookExt .v5 exEnc
      [{ reads := [exPing], writes := [.wrote 1] }])
    (P := fun rs => ∃ r ∈ rs, r.loop.writer.wire = [1] ∧ r.ended = none ∧ r.woken = false ∧
      r.loop.writer.queue.length ≠ 0 ∧ .write ∉ r.waits ∧ r.loop.hook.isNone ∧
      r.loop.handover = false) (by decide +kernel)
  obtain ⟨r, hr, h1, h2, h3, h4, h5, h6, h7⟩ := hp
  refine ⟨_, rs, h, r, hr, h1, fun ha => ?_⟩
  have hw := ha h2 h3 (fun h => h4 (by rw [h]; rfl))
  cases hw with
  | direct e1 e2 => rw [List.mem_singleton.1 e1] at e2; exact h5 e2
  | behindWrite e1 => simp at e1
  | hook e1 => cases hk : r.loop.hook <;> simp [hk] at e1 h6
  | handover e1 => rw [h7] at e1; cases e1

/-- **C76** is false of the code for flushing: a flush that does not succeed at once is never called
again (until something else is written), though the transport would now flush. -/
theorem C76_flush_false : ∃ i1 i2 rs,
    (OnlineLoop.new exLoopSession).run {} {} exHookExt .v5 exEnc [i1, i2] = some rs ∧
      i2.flush = .ready ∧ ∃ r, rs.getLast? = some r ∧ r.loop.writer.wire = [1, 2] ∧
        ¬ r.Attended .flush := by
  obtain ⟨rs, h, hp⟩ := runs_of (o := (OnlineLoop.new exLoopSession).run {} {} exHookExt .v5 exEnc
      [{ reads := [exPing], writes := [.wrote 2], flush := .pending }, {}])
    (P := fun rs => ∃ r ∈ rs.getLast?, r.loop.writer.wire = [1, 2] ∧ r.ended = none ∧
      r.woken = false ∧ r.loop.unflushed = true ∧ r.loop.writer.queue.length = 0 ∧
      .flush ∉ r.waits ∧ r.loop.hook.isNone ∧ r.loop.handover = false) (by decide +kernel)
  obtain ⟨r, hr, h1, h2, h3, h4, h5, h6, h7, h8⟩ := hp
  refine ⟨_, _, rs, h, rfl, r, hr, h1, fun ha => ?_⟩
  have hw := ha h2 h3 h4
  cases hw with
  | direct e1 e2 => rw [List.mem_singleton.1 e1] at e2; exact h6 e2
  | behindWrite _ e1 _ => exact e1 (List.eq_nil_of_length_eq_zero h5)
  | hook e1 => cases hk : r.loop.hook <;> simp [hk] at e1 h7
  | handover e1 => rw [h8] at e1; cases e1

/-- A client that accepts one unacknowledged message at a time. -/
def exOneAtATime : Session := Session.start {} .v5 (str "me") 7 { receiveMax := 1 }

/-- Twenty retained messages. -/
def exTwenty : Global :=
  { exGlobal with retain := RetainTable.empty.run ((List.range 20).map fun n =>
      { publisher := str "you", qos := 0, topic := List.replicate (n + 1) 'a', payload := [1],
        props := none, encodeLen := 10 }) }

/-- **C77** is false of the code without the condition on SUBSCRIBE packets: all retained messages
that match are queued at once. -/
theorem C77_false : ∃ i rs, (OnlineLoop.new exOneAtATime).run {} {} exHookExt .v5
      (fun _ => some (List.replicate 2048 0)) [i] = some rs ∧ exOneAtATime.idle ∧
    ∃ r ∈ rs, r.loop.writer.queue.length > 16 + exOneAtATime.sender.pending.maxInflight := by
  obtain ⟨rs, h, hp⟩ := runs_of (o := (OnlineLoop.new exOneAtATime).run {} {} exHookExt .v5
      (fun _ => some (List.replicate 2048 0))
      [{ reads := [.packet { exMoment with global := exTwenty } 10
          (.subscribe 1 [(str "#", { maxQos := 0 })] none) false], writes := [.pending] }])
    (P := fun rs => ∃ r ∈ rs,
      r.loop.writer.queue.length > 16 + exOneAtATime.sender.pending.maxInflight) (by decide +kernel)
  exact ⟨_, rs, h, ⟨rfl, rfl⟩, hp⟩

/-- With the hypotheses of `C77_window_partial`: thirty PINGREQ and a client that reads nothing. -/
example : ∃ rs, (OnlineLoop.new exOneAtATime).run {} {} exHookExt .v5
      (fun _ => some (List.replicate 2048 0))
      [{ reads := List.replicate 30 exPing, writes := [.pending] }] = some rs ∧
    (∀ x ∈ handledBy rs, x.what.isSubscribe = false) ∧
    (∀ r ∈ rs, r.loop.writer.queue.length = 16 ∧ r.readsLeft.length = 14) :=
  runs_of (P := fun rs => (∀ x ∈ handledBy rs, x.what.isSubscribe = false) ∧
    (∀ r ∈ rs, r.loop.writer.queue.length = 16 ∧ r.readsLeft.length = 14)) (by decide +kernel)

end Akasa

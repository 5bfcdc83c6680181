import Verif.Proof.Told
import Verif.Props.OnlineLoop
/-!
# Is a client of MQTT 5 told why its connection is closed? (C95)
-/
namespace Akasa

section
variable {cfg : Config} {ext : Ext} {identifier : Str} {id : ClientId} {cp : ConnParams}
  {evs : List (Env × Global × SessEv)} {recs : List Rec}

/-- **C95, the truth.**  A DISCONNECT is sent only in answer to a packet with which the client did
something wrong, its reason code says what, and it is all that is sent. -/
theorem C95_truth
    (hrun : ({ session := Session.start cfg .v5 identifier id cp } : Peer).run cfg ext .v5 evs =
      some recs) {a c : List Rec} {r : Rec} (hsplit : recs = a ++ r :: c) {code : Reason}
    (hd : .disconnect code ∈ r.res.out) :
    ∃ pkt, r.received = some pkt ∧ r.res.out = [.disconnect code] ∧
      Fault cfg (boundTopic a) (unreleased a) (askedInterval cp.expiryInterval a) r.size pkt code := by
  cases hr : r.received with
  | none =>
    have h := isRun_of_run hrun
    rw [hsplit, isRun_append] at h
    obtain ⟨hA, hpre, hst, _⟩ := h
    rw [← hpre] at hst
    have := (step_idle hst hr).2.2.2.1 _ hd
    cases this
  | some pkt =>
    obtain ⟨hi, r0, st, hcase⟩ := v5_at hrun hsplit hr
    refine ⟨pkt, rfl, ?_⟩
    obtain ⟨rest, hout, hrest⟩ := st.out
    have hmem : .disconnect code ∈ r0.out := by
      rw [hout] at hd
      rcases List.mem_append.1 hd with h | h
      · exact h
      · have := hrest _ h; cases this
    have no : ∀ {l : List OutPkt}, .disconnect code ∈ l → (∀ o ∈ l, o.isDisconnect = false) →
        False := fun h h' => by have := h' _ h; cases this
    cases hcase with
    | fail s' code' hr hf hcs =>
      have hd' : r0.session.disconnected = true := by rw [hr]; simp [failV5, Session.disconnected]
      have hall := st.outFail (.inr ⟨rfl, hd'⟩)
      rw [hr] at hmem hall
      have : code = code' := by simpa [failV5] using hmem
      subst this
      rw [← hi]
      exact ⟨hall, hf⟩
    | bye _ _ _ ho => rw [ho] at hmem; cases hmem
    | inUse _ _ _ _ _ ho => rw [ho] at hmem; simp at hmem
    | fine ho => exact (no hmem ho).elim

/-- **C95, being told.**  A client that does something wrong is sent a DISCONNECT with a reason code
that says what (if there are several mistakes, one of them), and nothing else; only the use of an
identifier that is taken may be answered with a PUBREC that says so instead. -/
theorem C95_told
    (hrun : ({ session := Session.start cfg .v5 identifier id cp } : Peer).run cfg ext .v5 evs =
      some recs) {a c : List Rec} {r : Rec} (hsplit : recs = a ++ r :: c) {pkt : InPkt}
    (hr : r.received = some pkt) {code : Reason}
    (hf : Fault cfg (boundTopic a) (unreleased a) (askedInterval cp.expiryInterval a) r.size pkt
      code) :
    (∃ code', r.res.out = [.disconnect code'] ∧ r.post.session.disconnected = true ∧
      Fault cfg (boundTopic a) (unreleased a) (askedInterval cp.expiryInterval a) r.size pkt
        code') ∨
    ∃ p pid rest, pkt = .publish p ∧ p.qosPid = .level2 pid ∧ pid ∈ unreleased a ∧
      r.res.out = .pubrec pid .packetIdentifierInUse :: rest ∧
      ∀ o ∈ rest, o.isDelivery = true := by
  obtain ⟨hi, r0, st, hcase⟩ := v5_at hrun hsplit hr
  rw [← hi] at hf ⊢
  cases hcase with
  | fail s' code' hr hf' hcs =>
    left
    have hd' : r0.session.disconnected = true := by rw [hr]; simp [failV5, Session.disconnected]
    have hall := st.outFail (.inr ⟨rfl, hd'⟩)
    refine ⟨code', by rw [hall, hr]; rfl, ?_, hf'⟩
    rw [ident_disc (ident_of_core st.core)]; exact hd'
  | bye _ _ _ _ _ _ _ hn => exact absurd hf (hn code)
  | inUse p pid hp hl hh ho =>
    right
    obtain ⟨rest, hout, hrest⟩ := st.out
    exact ⟨p, pid, rest, hp, hl, hh, by rw [hout, ho]; rfl, hrest⟩
  | fine _ _ _ _ _ hn => exact absurd hf (hn code)

end

section
variable {cfg : Config} {hooks : HookConfig} {ext : HookExt} {enc : OutPkt → Option Bytes}
  {s : Session} {is : List PollIn} {rs : List PollOut}

/-- **C95** (partial; the full statement is about every connection the broker closes, see the
counterexamples below): if the task ends, and it was not told to stop, the transport did not fail,
and the client sent no packet that has no place on an established connection, then either the client
said good-bye, and no DISCONNECT was sent, or the last packet sent is a DISCONNECT, the only one, and
the answer to the last thing the client sent: with the reason "malformed packet" if that was no
packet, and otherwise as `C95_truth` says.  In both cases all has been written and flushed. -/
theorem C95_partial (hs : s.idle) (hd : s.disconnected = false)
    (h : (OnlineLoop.new s).run cfg hooks ext .v5 enc is = some rs) {r : PollOut}
    (hr : rs.getLast? = some r) (he : r.ended = some .stopped) (hl : r.loop.writer.live = true)
    (hok : ∀ i ∈ is, .kick ∉ i.controls ∧ .failed ∉ i.reads ∧ i.flush ≠ .error ∧
      i.drainFlush ≠ .error)
    (hu : ∀ x ∈ handledBy rs, x.what.unhooked ∧ x.what.isForeign = false) :
    (((∃ x ∈ handledBy rs, x.what.isBye = true) ∧ ∀ o ∈ sentBy rs, o.isDisconnect = false) ∨
     ∃ before x code, handledBy rs = before ++ [x] ∧ x.out = [.disconnect code] ∧
       (x.what = .malformed → code = .malformedPacket) ∧
       sentBy rs = before.flatMap (·.out) ++ [.disconnect code] ∧
       ∀ o ∈ before.flatMap (·.out), o.isDisconnect = false) ∧
    r.loop.writer.wire = encodings enc (sentBy rs) ∧ r.loop.unflushed = false := by
  obtain ⟨i, hi, l0, hl0, hp, -⟩ := loop_run_mem (loopInv_new hs.1 hs.2) h
    (List.mem_of_getLast? hr)
  obtain ⟨hk, hfa, hfl, hdf⟩ := hok i hi
  have hlog : ∀ x ∈ r.log, x.what.unhooked ∧ x.what.isForeign = false := fun x hx =>
    hu x (List.mem_flatMap.2 ⟨r, List.mem_of_getLast? hr, hx⟩)
  obtain ⟨hdr, hdis⟩ := poll_stopped hl0 hp he hl hk hfl hfa hlog
  have hclosed := C78_closed hs h hr he hdr hl (fun j hj => ⟨(hok j hj).1, (hok j hj).2.2⟩)
  refine ⟨?_, hclosed⟩
  have hinv := loop_run_end hs hd h hr hu
  have hsent : sentBy rs = (handledBy rs).flatMap (·.out) := by
    simp only [sentBy, handledBy, List.flatMap_assoc]
  rw [hsent]
  cases hsd : r.loop.out.session.serverDisconnected with
  | true =>
    right
    obtain ⟨before, x, code, h1, h2, h3, h4⟩ := hinv.server hsd
    exact ⟨before, x, code, h1, h2, h3, by rw [h1]; simp [h2], h4⟩
  | false =>
    left
    have hcd : r.loop.out.session.clientDisconnected = true := by
      simpa [Session.disconnected, hsd] using hdis
    exact ⟨hinv.bye hcd, hinv.open_ hsd⟩

end

/-! ### Where it is false of the code -/

/-- **C95** is false of the code for a session that is taken over by a new connection of the client:
the old connection is closed without a word. -/
theorem C95_takeover_false : ∃ is rs, (OnlineLoop.new exLoopSession).run {} {} exHookExt .v5 exEnc is =
      some rs ∧ sentBy rs = [] ∧ ∃ r ∈ rs.getLast?, r.ended = some .takenOver ∧
        r.loop.writer.wire = [] := by
  obtain ⟨rs, h, hp⟩ := runs_of (o := (OnlineLoop.new exLoopSession).run {} {} exHookExt .v5 exEnc
      [{ controls := [.takeOver] }, { handover := true }])
    (P := fun rs => sentBy rs = [] ∧ ∃ r ∈ rs.getLast?, r.ended = some .takenOver ∧
      r.loop.writer.wire = []) (by decide +kernel)
  exact ⟨_, rs, h, hp⟩

/-- **C95** is false of the code for a client that was silent for too long (the task is told to
stop): the connection is closed without a word. -/
theorem C95_silent_false : ∃ is rs, (OnlineLoop.new exLoopSession).run {} {} exHookExt .v5 exEnc is =
      some rs ∧ sentBy rs = [] ∧ ∃ r ∈ rs.getLast?, r.ended = some .stopped ∧
        r.loop.writer.wire = [] := by
  obtain ⟨rs, h, hp⟩ := runs_of (o := (OnlineLoop.new exLoopSession).run {} {} exHookExt .v5 exEnc
      [{ controls := [.kick] }])
    (P := fun rs => sentBy rs = [] ∧ ∃ r ∈ rs.getLast?, r.ended = some .stopped ∧
      r.loop.writer.wire = []) (by decide +kernel)
  exact ⟨_, rs, h, hp⟩

/-- **C95** is false of the code for a client that sends a second CONNECT (or another packet that has
no place on an established connection): the connection is closed without a word. -/
theorem C95_foreign_false : ∃ m size rs, (OnlineLoop.new exLoopSession).run {} {} exHookExt .v5 exEnc
      [{ reads := [.packet m size .invalid false] }] = some rs ∧ size ≤ ({} : Config).maxPacketSizeServer ∧
      sentBy rs = [] ∧ ∃ r ∈ rs.getLast?, r.ended = some .stopped ∧ r.loop.writer.wire = [] := by
  obtain ⟨rs, h, hp⟩ := runs_of (o := (OnlineLoop.new exLoopSession).run {} {} exHookExt .v5 exEnc
      [{ reads := [.packet exMoment 20 .invalid false] }])
    (P := fun rs => sentBy rs = [] ∧ ∃ r ∈ rs.getLast?, r.ended = some .stopped ∧
      r.loop.writer.wire = []) (by decide +kernel)
  exact ⟨_, _, rs, h, by decide, hp⟩

/-- A PUBLISH. -/
def exToldPub (topic : String) (qosPid : QosPid) (payload : Bytes) (topicAlias : Option Nat) :
    InPkt :=
  .publish { dup := false, retain := false, topic := str topic, payload, qosPid
             props := { topicAlias } }

/-- A hook that fails. -/
def exFailing : HookAns := { beforePublish := fun _ => none }

/-- **C95** is false of the code if a hook fails: the connection is closed without a word. -/
theorem C95_hook_false : ∃ m size p rs, (OnlineLoop.new exLoopSession).run {} { publish := true }
      exHookExt .v5 exEnc [{ reads := [.packet m size p false] }] = some rs ∧
      sentBy rs = [] ∧ ∃ r ∈ rs.getLast?, r.ended = some .stopped ∧ r.loop.writer.wire = [] := by
  obtain ⟨rs, h, hp⟩ := runs_of (o := (OnlineLoop.new exLoopSession).run {} { publish := true }
      exHookExt .v5 exEnc [{ reads := [.packet { exMoment with ans := exFailing } 20
        (exToldPub "a" (.level1 1) [1] none) false] }])
    (P := fun rs => sentBy rs = [] ∧ ∃ r ∈ rs.getLast?, r.ended = some .stopped ∧
      r.loop.writer.wire = []) (by decide +kernel)
  exact ⟨_, _, _, rs, h, hp⟩

/-! ### Examples -/

/-- A client publishes under a topic with an alias, then with an alias that is not bound: "protocol
error"; it comes back, uses the identifier of its first message for another one: "packet identifier
in use"; and it leaves with an interval of ten seconds though its session was to end with the
connection: "protocol error". -/
def exTold : List (Env × Global × SessEv) :=
  [({}, exGlobal, .packet (Clock.const 0) 20 (exToldPub "a" (.level2 1) [1] (some 1))),
   ({}, exGlobal, .packet (Clock.const 0) 20 (exToldPub "" .level0 [1] (some 2))),
   ({}, exGlobal, .lost),
   ({}, exGlobal, .resume {}),
   ({}, exGlobal, .packet (Clock.const 0) 20 (exToldPub "b" (.level2 1) [1, 2] none)),
   ({}, exGlobal, .packet (Clock.const 0) 20 (.disconnect .success (some 10)))]

example : (({ session := Session.start { topicAliasMax := 5 } .v5 (str "me") 7 {} } : Peer).run
      { topicAliasMax := 5 } { hash := fun p => p.payload.length
                               encLen := fun _ => 20 } .v5 exTold).map
      (fun rs => rs.map (·.res.out)) =
    some [[.pubrec 1 .noMatchingSubscribers], [.disconnect .protocolError], [], [],
      [.pubrec 1 .packetIdentifierInUse], [.disconnect .protocolError]] := by
  decide +kernel

/-- With the hypotheses of `C95_partial`: two PINGREQ and bytes that are no packet. -/
example : ∃ rs, (OnlineLoop.new exLoopSession).run {} {} exHookExt .v5 exEnc
      [{ reads := [exPing, exPing, .malformed], writes := [.wrote 3], drainWrites := [.pending] },
       { writes := [.wrote 3] }, { drainRead := .eof }] = some rs ∧
    sentBy rs = [.pingresp, .pingresp, .disconnect .malformedPacket] ∧
    (∀ x ∈ handledBy rs, x.what.isForeign = false) ∧
    ∃ r ∈ rs.getLast?, r.ended = some .stopped ∧ r.loop.writer.live = true ∧
      r.loop.writer.wire = [1, 2, 1, 2, 1, 2] :=
  runs_of (P := fun rs => sentBy rs = [.pingresp, .pingresp, .disconnect .malformedPacket] ∧
    (∀ x ∈ handledBy rs, x.what.isForeign = false) ∧
    ∃ r ∈ rs.getLast?, r.ended = some .stopped ∧ r.loop.writer.live = true ∧
      r.loop.writer.wire = [1, 2, 1, 2, 1, 2]) (by decide +kernel)

end Akasa

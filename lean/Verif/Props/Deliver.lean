import Verif.Proof.DeliverDue
import Verif.Props.Fanout
import Verif.Props.Retain
/-!
# What a session delivers to its client (C28 – C31, C34, C57, C58)

A step of a session is described by the operations it carries out (`WorksOff`): which messages are
due (`Rec.inputs`, `Spec/Deliver.lean`), QoS 0 messages sent at once, other messages put into the
queue, sending passes of the queue.
-/
namespace Akasa

section
variable {cfg : Config} {ext : Ext} {pr : Proto} {p0 : Peer} {evs : List (Env × Global × SessEv)}
  {recs : List Rec}

/-! ## C57 -/

/-- **C57.**  Every step of a session is accounted for by operations on its queue and by QoS 0
messages sent at once: they work off exactly the inputs of the step, the queue afterwards is the
result of the queue operations, and the PUBLISH and PUBREL packets sent are those they produce. -/
theorem C57_step (hrun : p0.run cfg ext pr evs = some recs) {A B : List Rec} {r : Rec}
    (hsplit : recs = A ++ r :: B) : ∃ ops, WorksOff cfg pr r ops := by
  have h := isRun_of_run hrun
  rw [hsplit, isRun_append] at h
  obtain ⟨hA, hpre, hst, _⟩ := h
  rw [← hpre] at hst
  exact worksOff_step hst

/-- **C57.**  A whole run of a session, from its first connection, is a run of a new queue. -/
theorem C57_run {i : Str} {id : ClientId} {c : ConnParams}
    (hrun : ({ session := Session.start cfg pr i id c } : Peer).run cfg ext pr evs = some recs)
    {A B : List Rec} {r : Rec} (hsplit : recs = A ++ r :: B) :
    ∃ ops, Log cfg pr (A ++ [r]) ops ∧
      r.post.session.sender =
        (Sender.new (windowOf cfg pr c) cfg.maxInMemPending cfg.inflightTimeout).exec
          (expiryOf pr) (queueOps ops) := by
  have h := isRun_of_run hrun
  have e : A ++ r :: B = (A ++ [r]) ++ B := by simp
  rw [hsplit, e, isRun_append] at h
  obtain ⟨ops, h1, h2⟩ := log_of_isRun h.1
  refine ⟨ops, h1, ?_⟩
  rw [endOf_append] at h2
  rw [← start_sender cfg pr i id c]
  exact h2

/-- **C57** with C09: the queue of a session never has more entries than configured. -/
theorem C57_bounded {i : Str} {id : ClientId} {c : ConnParams}
    (hrun : ({ session := Session.start cfg pr i id c } : Peer).run cfg ext pr evs = some recs)
    {r : Rec} (hr : r ∈ recs) :
    r.post.session.sender.pending.packets.length ≤ cfg.maxInMemPending := by
  obtain ⟨A, B, hsplit⟩ := List.append_of_mem hr
  obtain ⟨ops, _, h⟩ := C57_run hrun hsplit
  rw [h]
  exact C09_bounded ..

/-- **C57** with C13, MQTT 3: the PUBLISH packets with QoS 1 and 2 and DUP 0 that a session sends
during its life carry messages that were due to it, in the order in which they became due. -/
theorem C57_fifo_v3 {i : Str} {id : ClientId} {c : ConnParams}
    (hrun : ({ session := Session.start cfg .v3 i id c } : Peer).run cfg ext .v3 evs = some recs) :
    ∃ xs, CarriesAll .v3 xs ((recs.flatMap (·.res.out)).filter OutPkt.isFirst) ∧
      (firstSent xs).Sublist
        ((recs.flatMap (Rec.messages cfg .v3)).filter fun p => decide (p.qos ≠ 0)) := by
  have h := isRun_of_run hrun
  obtain ⟨ops, hl, _⟩ := log_of_isRun h
  obtain ⟨xs, h1, h2⟩ := hl.firsts h
  refine ⟨xs, h1, h2.trans ?_⟩
  rw [← hl.delivered_eq]
  show (firstSent ((Session.start cfg .v3 i id c).sender.outs (expiryOf .v3) (queueOps ops))).Sublist _
  rw [start_sender]
  exact C13_fifo_v3 _ _ _ _ _ (fun _ => rfl)

/-- **C57** with C10, MQTT 3: at every moment the client has at most `max_inflight_client`
PUBLISH packets that it has got on the present connection and not acknowledged. -/
theorem C57_window_v3 {i : Str} {id : ClientId} {c : ConnParams}
    (hrun : ({ session := Session.start cfg .v3 i id c } : Peer).run cfg ext .v3 evs = some recs)
    {A B : List Rec} (hsplit : recs = A ++ B) :
    (unanswered A).length ≤ cfg.maxInflightClient := by
  have h := isRun_of_run hrun
  rw [hsplit, isRun_append] at h
  obtain ⟨ops, hl, _⟩ := log_of_isRun h.1
  have h2 := unanswered_run h.1 hl (l := []) (l' := []) (fun _ h => h) List.nodup_nil
  refine Nat.le_trans (nodup_subset_length h2.2 h2.1) ?_
  show (outstanding [] ((Session.start cfg .v3 i id c).sender.trace _ _)).length ≤ _
  rw [start_sender]
  refine Nat.le_trans (C10_receive_maximum_v3 _ _ _ _ _ (fun _ => rfl)) ?_
  rw [log_receiveMax_v3 hl]
  exact Nat.le_refl _

/-- A QoS 2 message from another client, granted QoS `q`. -/
def exNormal (payload : Bytes) (q : QoS) : NormalMsg :=
  .publishV3 false 2 (str "a") payload (str "a") q 10

/-- An event at time 100 with the empty tables. -/
def exAt (e : SessEv) : Env × Global × SessEv :=
  ({ now := fun _ _ => 100, clk := fun _ => Clock.const 100 }, exGlobal, e)

/-- Subscribe, receive three messages with a window of two, acknowledge the first. -/
def exDeliverEvs : List (Env × Global × SessEv) :=
  [exAt (.packet (Clock.const 100) 10 (.subscribe 1 [(str "a", { maxQos := 2 })] none)),
   exAt (.normal (exNormal [1] 1)), exAt (.normal (exNormal [2] 2)), exAt (.normal (exNormal [3] 0)),
   exAt (.normal (exNormal [4] 1)), exAt (.packet (Clock.const 100) 4 (.puback 1)), exAt .lost,
   exAt (.offline (exNormal [5] 0)), exAt (.offline (exNormal [6] 1)), exAt (.resume {})]

/-- A window of two. -/
def exDeliverCfg : Config := { maxInflightClient := 2 }

/-- A connected MQTT 3 session with a window of two. -/
def exDeliverPeer : Peer := { session := Session.start exDeliverCfg .v3 (str "me") 7 {} }

example : (exDeliverPeer.run exDeliverCfg exExt .v3 exDeliverEvs).map (fun recs =>
      (recs.map fun r => (r.res.out.filter OutPkt.isDelivery).map fun o =>
        match o with
        | .publish w => (w.dup, w.qosPid, w.payload)
        | _ => (false, .level0, []))) =
    some [[], [(false, .level1 1, [1])], [(false, .level2 2, [2])], [(false, .level0, [3])], [],
      [(false, .level1 3, [4])], [], [], [], [(true, .level2 2, [2]), (true, .level1 3, [4])]] := by
  decide

example : (exDeliverPeer.run exDeliverCfg exExt .v3 exDeliverEvs).map (fun recs =>
      (((recs.flatMap (Rec.messages exDeliverCfg .v3)).map (·.payload)),
        unanswered (recs.take 5), unanswered (recs.take 6), unanswered recs,
        (endOf exDeliverPeer recs).session.sender.pending.packets.length)) =
    some ([[1], [2], [3], [4], [6]], [2, 1], [3, 2], [3, 2], 3) := by decide

/-! ## C29 -/

/-- **C29.**  A message from another session for which the session (connected) owes its client a
packet: the QoS is the minimum of the published and the granted one.  With QoS 0 it is sent at once
and not queued; otherwise it is put into the queue and a sending pass is made. -/
theorem C29_live (hrun : p0.run cfg ext pr evs = some recs) {A B : List Rec} {r : Rec}
    (hsplit : recs = A ++ r :: B) {m : NormalMsg} (hev : r.ev = .normal m)
    (hon : r.pre.online = true) (hc : r.pre.session.disconnected = false)
    {p : PubPacket} (hd : dueOf cfg pr r.pre.session m = some p) :
    p.qos = min m.qos m.granted ∧ p.topic = m.topic ∧ p.payload = m.payload ∧
    (p.qos = 0 → r.post.session.sender = r.pre.session.sender ∧
      ∃ w, r.res.out = [.publish w] ∧
        Carries pr (.publish 0 p false p.props.messageExpiry) (.publish w)) ∧
    (p.qos ≠ 0 → ∃ now clk,
      r.post.session.sender =
        r.pre.session.sender.exec (expiryOf pr) [.deliver now p, .pass clk] ∧
      CarriesAll pr (r.pre.session.sender.outs (expiryOf pr) [.deliver now p, .pass clk])
        r.res.out) := by
  have h := isRun_of_run hrun
  rw [hsplit, isRun_append] at h
  obtain ⟨hA, hpre, hst, _⟩ := h
  rw [← hpre] at hst
  obtain ⟨q1, q2, q3⟩ := due_parts hd
  obtain ⟨h1, h2⟩ := live_step hst hev hon hc hd
  exact ⟨q1, q2, q3, h1, h2⟩

/-- **C29.**  While the client is not connected, messages with QoS 1 or 2 are queued and messages
with QoS 0 are dropped; nothing is sent. -/
theorem C29_offline (hrun : p0.run cfg ext pr evs = some recs) {A B : List Rec} {r : Rec}
    (hsplit : recs = A ++ r :: B) {m : NormalMsg} (hev : r.ev = .offline m)
    (hoff : r.pre.online = false) {p : PubPacket} (hd : dueOf cfg pr r.pre.session m = some p) :
    p.qos = min m.qos m.granted ∧ p.topic = m.topic ∧ p.payload = m.payload ∧ r.res.out = [] ∧
    (p.qos = 0 → r.post.session.sender = r.pre.session.sender) ∧
    (p.qos ≠ 0 → ∃ now, r.post.session.sender =
      r.pre.session.sender.exec (expiryOf pr) [.deliver now p]) := by
  have h := isRun_of_run hrun
  rw [hsplit, isRun_append] at h
  obtain ⟨hA, hpre, hst, _⟩ := h
  rw [← hpre] at hst
  obtain ⟨q1, q2, q3⟩ := due_parts hd
  refine ⟨q1, q2, q3, ?_⟩
  obtain ⟨ev, env, before, pre, post, res⟩ := r
  subst hev
  simp only [Peer.step] at hst
  rw [if_neg (by rw [hoff]; simp)] at hst
  simp only [Option.some.injEq, Prod.mk.injEq] at hst
  obtain ⟨rfl, rfl⟩ := hst
  have hoff := offline_normal cfg pr pre.session (env.now 0 0) m
  simp only at hd
  refine ⟨rfl, fun hq => ?_, fun hq => ⟨env.now 0 0, ?_⟩⟩
  · rw [hd] at hoff
    simpa [Option.filter, hq] using hoff
  · rw [hd, Option.filter, if_pos (by simpa using hq)] at hoff
    exact hoff

/-- **C29.**  The messages passed on because of a SUBSCRIBE (with QoS 0 at once, otherwise through
the queue) are stored messages for one of its filters, with the minimum of the stored, the requested
and the configured QoS. -/
theorem C29_retained (hrun : p0.run cfg ext pr evs = some recs) {A B : List Rec} {r : Rec}
    (hsplit : recs = A ++ r :: B) {pid : Pid} {topics : List (Str × SubOpts)} {id : Option Nat}
    (hr : r.received = some (.subscribe pid topics id)) :
    ∃ ms, PassesOn pr r ms ∧ ∀ p ∈ ms, ∃ F o c, (F, o) ∈ topics ∧ c ∈ r.before.stored F ∧
      p.qos = min c.qos (min o.maxQos cfg.maxAllowedQos) ∧ p.topic = c.topic ∧
      p.payload = c.payload := by
  have h := isRun_of_run hrun
  rw [hsplit, isRun_append] at h
  obtain ⟨hA, hpre, hst, _⟩ := h
  rw [← hpre] at hst
  refine ⟨_, passes_step hst, fun p hp => ?_⟩
  obtain ⟨F, o, c, h1, h2, h3⟩ := retained_source hr hp
  refine ⟨F, o, c, h1, h2, ?_⟩
  cases pr with
  | v3 =>
    simp only [retainedCopy, retainedCopyV3] at h3
    split at h3
    · cases h3
    · rename_i hle
      cases h3
      refine ⟨?_, rfl, rfl⟩
      exact (min_eq_left_qos (Fin.not_lt.mp hle)).symm
  | v5 =>
    simp only [retainedCopy, retainedCopyV5] at h3
    split at h3
    · cases h3
    · split at h3
      · cases h3
      · cases h3; exact ⟨rfl, rfl, rfl⟩

/-! ## C30 -/

/-- **C30.**  A message from another session for an MQTT 5 client is dropped without any effect if
none of the subscriptions because of which it was routed is left. -/
theorem C30_dropped (hrun : p0.run cfg ext .v5 evs = some recs) {A B : List Rec} {r : Rec}
    (hsplit : recs = A ++ r :: B) {m : NormalMsg} (hev : r.ev = .normal m ∨ r.ev = .offline m)
    (hnone : ∀ F ∈ m.filters, r.pre.session.subscribes.get F = none) :
    r.res.out = [] ∧ r.post.session.sender = r.pre.session.sender := by
  have h := isRun_of_run hrun
  rw [hsplit, isRun_append] at h
  obtain ⟨hA, hpre, hst, _⟩ := h
  rw [← hpre] at hst
  have hd : dueOf cfg .v5 r.pre.session m = none := by
    simp only [dueOf, dueV5]
    rw [if_pos (held_nil_iff.mpr hnone)]
  exact none_step hst hev hd

/-- **C30.**  If one of the subscriptions is left and the packet is not larger than the client
accepts, one message is passed on, and its subscription identifiers are exactly those of the
subscriptions left, each once. -/
theorem C30_identifiers (hrun : p0.run cfg ext .v5 evs = some recs) {A B : List Rec} {r : Rec}
    (hsplit : recs = A ++ r :: B) {m : NormalMsg} (hev : r.ev = .normal m)
    (hon : r.pre.online = true) (hc : r.pre.session.disconnected = false)
    {F : Str} (hF : F ∈ m.filters) (hs : r.pre.session.subscribes.get F ≠ none)
    (hfit : sizeAt m.size m.qos (min m.qos m.granted) ≤ r.pre.session.maxPacketSize) :
    ∃ p, PassesOn .v5 r [p] ∧ p.topic = m.topic ∧ p.payload = m.payload ∧
      p.qos = min m.qos m.granted ∧ p.props.subscriptionIds.Nodup ∧
      ∀ i, i ∈ p.props.subscriptionIds ↔
        ∃ F ∈ m.filters, ∃ d, r.pre.session.subscribes.get F = some d ∧ d.id = some i := by
  have h := isRun_of_run hrun
  rw [hsplit, isRun_append] at h
  obtain ⟨hA, hpre, hst, _⟩ := h
  rw [← hpre] at hst
  have h1 : r.pre.session.held m ≠ [] := fun e => hs (held_nil_iff.mp e F hF)
  have hp := passes_step hst
  rw [messages_normal hev hon hc] at hp
  simp only [dueOf, dueV5] at hp
  rw [if_neg h1, if_neg (Nat.not_lt.mpr hfit)] at hp
  refine ⟨_, hp, rfl, rfl, rfl, ?_, ?_⟩
  · exact nodup_eraseDups _
  · intro i
    simp only [List.mem_eraseDups, List.mem_filterMap, Session.held]
    constructor
    · rintro ⟨d, ⟨F, hF, hd⟩, hi⟩; exact ⟨F, hF, d, hd, hi⟩
    · rintro ⟨F, hF, d, hd, hi⟩; exact ⟨d, ⟨F, hF, hd⟩, hi⟩

/-- **C30** on the wire: the PUBLISH packets an MQTT 5 session sends carry the subscription
identifiers of the message (the packet is one of the messages due, see `C57_step`). -/
theorem C30_wire {pid : Pid} {p : PubPacket} {d : Bool} {x : Option Nat} {w : Publish}
    (h : Carries .v5 (.publish pid p d x) (.publish w)) :
    w.props.subscriptionIds = p.props.subscriptionIds := by
  obtain ⟨_, _, _, _, _, h⟩ := h
  rw [h]

/-- Three filters with identifiers 5, none and 5 are left of four. -/
def exIdsSession : Session :=
  { Session.start {} .v5 (str "me") 7 {} with
    subscribes := [(str "a/+", { opts := { maxQos := 2 }, id := some 5 }),
      (str "#", { opts := { maxQos := 0 } }), (str "a/#", { opts := { maxQos := 0 }, id := some 5 })] }

example : ((({ session := exIdsSession } : Peer).run {} exExt .v5
      [exAt (.normal (.publishV5 false 1 (str "a/b") [1] [str "x", str "a/+", str "#", str "a/#"] 1
        {} 10)),
       exAt (.normal (.publishV5 false 1 (str "a/b") [1] [str "x", str "y"] 1 {} 10))]).map
      fun recs => recs.map fun r => r.res.out.map fun o =>
        match o with
        | .publish w => (w.qosPid, w.props.subscriptionIds)
        | _ => (.level0, [])) =
    some [[(.level1 1, [5])], []] := by decide

/-! ## C31 -/

/-- **C31 is false.**  An MQTT 3 client is subscribed to `#` and was subscribed to `a`; a message
that was routed to it because of both filters is dropped, though it is still subscribed to `#`. -/
theorem C31_false : ∃ (cfg : Config) (s : Session) (m : NormalMsg) (F : Str) (env : Env)
    (g : Global), F ∈ m.filters ∧ s.subscribes.get F ≠ none ∧ s.disconnected = false ∧
    (({ session := s } : Peer).run cfg exExt .v3 [(env, g, .normal m)]).map (fun recs =>
      recs.map fun r => (r.res.out, decide (r.post.session = r.pre.session))) = some [([], true)] := by
  refine ⟨{}, { Session.start {} .v3 (str "me") 7 {} with
    subscribes := [(str "#", { opts := { maxQos := 1 } })] },
    .publishV5 false 1 (str "a") [1] [str "a", str "#"] 1 {} 10, str "#", {}, exGlobal, ?_⟩
  decide

/-- **C31 (partial).**  A message routed to an MQTT 3 client is passed on if the first of the
filters because of which it was routed is still subscribed — in particular if there is only one
filter, as in all messages published over MQTT 3.

Missing: it is enough that any of the filters is still subscribed; this is false (`C31_false`). -/
theorem C31_first_filter_partial (hrun : p0.run cfg ext .v3 evs = some recs) {A B : List Rec} {r : Rec}
    (hsplit : recs = A ++ r :: B) {m : NormalMsg} (hev : r.ev = .normal m)
    (hon : r.pre.online = true) (hc : r.pre.session.disconnected = false)
    {F : Str} {Fs : List Str} (hm : m.filters = F :: Fs)
    (hs : r.pre.session.subscribes.get F ≠ none) :
    ∃ p, PassesOn .v3 r [p] ∧ p.topic = m.topic ∧ p.payload = m.payload ∧
      p.qos = min m.qos m.granted := by
  have h := isRun_of_run hrun
  rw [hsplit, isRun_append] at h
  obtain ⟨hA, hpre, hst, _⟩ := h
  rw [← hpre] at hst
  have hp := passes_step hst
  rw [messages_normal hev hon hc] at hp
  simp only [dueOf, dueV3, hm] at hp
  rw [if_neg hs] at hp
  exact ⟨_, hp, rfl, rfl, rfl⟩

/-- The message routed to a client with the filters `a` and `#`, of which only `a` is left. -/
example : ((({ session := { Session.start {} .v3 (str "me") 7 {} with
      subscribes := [(str "a", { opts := { maxQos := 1 } })] } } : Peer).run {} exExt .v3
      [exAt (.normal (.publishV5 false 1 (str "a") [1] [str "a", str "#"] 1 {} 10))]).map
      fun recs => recs.map fun r => r.res.out.map fun o =>
        match o with
        | .publish w => (w.topic, w.qosPid, w.payload)
        | _ => ([], .level0, [])) =
    some [[(str "a", .level1 1, [1])]] := by decide

/-- **C31** (the other direction): a message is dropped without effect if no filter is left. -/
theorem C31_dropped (hrun : p0.run cfg ext .v3 evs = some recs) {A B : List Rec} {r : Rec}
    (hsplit : recs = A ++ r :: B) {m : NormalMsg} (hev : r.ev = .normal m ∨ r.ev = .offline m)
    (hnone : ∀ F ∈ m.filters, r.pre.session.subscribes.get F = none) :
    r.res.out = [] ∧ r.post.session.sender = r.pre.session.sender := by
  have h := isRun_of_run hrun
  rw [hsplit, isRun_append] at h
  obtain ⟨hA, hpre, hst, _⟩ := h
  rw [← hpre] at hst
  have hd : dueOf cfg .v3 r.pre.session m = none := by
    simp only [dueOf, dueV3]
    split
    · rfl
    · rename_i F Fs hm
      rw [if_pos (hnone F (by rw [hm]; simp))]
  exact none_step hst hev hd

/-! ## C34 -/

/-- **C34**, MQTT 5: the messages passed on because of a SUBSCRIBE are, filter by filter, the retained messages
whose topics match the filter, each once, if the filter is accepted, retained messages are
available, the filter is not shared and the retain handling option asks for them (taking into
account whether the client was already subscribed to the filter, before the packet or by an earlier
entry of it); `h` are the retain operations that led to the store.  A message of the client itself
is left out for a no-local filter, and so is one larger than the client accepts (`retainedCopyV5`).-/
theorem C34_retained_v5 (hrun : p0.run cfg ext .v5 evs = some recs) {A B : List Rec} {r : Rec}
    (hsplit : recs = A ++ r :: B) {after : Clock} {n : Nat} {pid : Pid}
    {topics : List (Str × SubOpts)} {id : Option Nat}
    (hev : r.ev = .packet after n (.subscribe pid topics id))
    (hon : r.pre.online = true) (hc : r.pre.session.disconnected = false)
    (hn : n ≤ cfg.maxPacketSizeServer)
    (hid : id = none ∨ (cfg.subscriptionIdAvailable = true ∧ id ≠ some 0))
    {h : List RetainContent} (hstore : r.before.retain = RetainTable.empty.run h)
    (hval : ∀ t ∈ topics, ValidFilter t.1) :
    ∃ blocks : List (List PubPacket), PassesOn .v5 r blocks.flatten ∧
      blocks.length = topics.length ∧
      ∀ (k : Nat) (F : Str) (o : SubOpts), topics[k]? = some (F, o) → ∃ block, blocks[k]? = some block ∧
        (if Accepts cfg F ∧ WantsRetained cfg F o
            (r.pre.session.subscribes.get F ≠ none ∨ F ∈ (topics.take k).map Prod.fst) then
          ∃ cs : List RetainContent, (∀ c, c ∈ cs ↔ retained h c.topic = some c ∧ Matches F c.topic) ∧
            cs.Pairwise (fun a b => a.topic ≠ b.topic) ∧
            block = cs.filterMap (retainedCopyV5 cfg r.pre.session o id)
        else block = []) := by
  have h := isRun_of_run hrun
  rw [hsplit, isRun_append] at h
  obtain ⟨hA, hpre, hst, _⟩ := h
  rw [← hpre] at hst
  have hp := passes_step hst
  rw [messages_subscribe_v5 hev hon hc hn hid] at hp
  obtain ⟨blocks, h1, h2⟩ := retainedDueV5_blocks (cfg := cfg) (s := r.pre.session) (id := id) []
    hstore hval
  rw [h1] at hp
  exact ⟨blocks, hp, h2⟩

/-- A retained message of another client. -/
def exRetained (qos : QoS) : RetainContent :=
  { publisher := str "x", qos, topic := str "a", payload := [1], props := none, encodeLen := 10 }

/-- The store for the examples. -/
def exStore : List RetainContent :=
  [{ publisher := str "me", qos := 1, topic := str "a", payload := [1], props := none,
     encodeLen := 10 },
   { publisher := str "you", qos := 2, topic := str "b", payload := [2], props := none,
     encodeLen := 10 },
   { publisher := str "you", qos := 1, topic := str "a", payload := [3], props := none,
     encodeLen := 10 },
   { publisher := str "me", qos := 1, topic := str "c/d", payload := [4], props := none,
     encodeLen := 10 }]

/-- A SUBSCRIBE with the store. -/
def exSubStore (topics : List (Str × SubOpts)) : Env × Global × SessEv :=
  ({ now := fun _ _ => 100, clk := fun _ => Clock.const 100 },
    { exGlobal with retain := RetainTable.empty.run exStore },
    .packet (Clock.const 100) 10 (.subscribe 1 topics none))

/-- All messages for `#`, nothing for a filter known already with `sendAtSubscribeIfNotExist`, and
no own messages with no-local. -/
example : (∀ t ∈ [str "#", str "a", str "+/d"], ValidFilter t) ∧
    ((exPeer .v5).run {} exExt .v5 [exSubStore [(str "#", { maxQos := 1 }),
      (str "a", { maxQos := 2, retainHandling := .sendAtSubscribeIfNotExist }),
      (str "a", { maxQos := 2, retainHandling := .sendAtSubscribeIfNotExist }),
      (str "+/d", { maxQos := 1, noLocal := true })]]).map (fun recs =>
      recs.map fun r => (r.messages {} .v5).map fun p => (p.topic, p.qos, p.payload)) =
    some [[(str "c/d", 1, [4]), (str "a", 1, [3]), (str "b", 1, [2]), (str "a", 1, [3])]] := by
  decide +kernel

/-- The form of a retained message that is due (MQTT 5): topic, payload and the minimum QoS. -/
theorem C34_copy_v5 {s : Session} {o : SubOpts} {id : Option Nat} {c : RetainContent}
    (hown : o.noLocal = false ∨ c.publisher ≠ s.identifier)
    (hfit : sizeAt c.size c.qos (min c.qos (min o.maxQos cfg.maxAllowedQos)) ≤ s.maxPacketSize) :
    ∃ p, retainedCopyV5 cfg s o id c = some p ∧ p.topic = c.topic ∧ p.payload = c.payload ∧
      p.qos = min c.qos (min o.maxQos cfg.maxAllowedQos) ∧
      p.props.subscriptionIds = id.toList := by
  unfold retainedCopyV5
  rw [if_neg, if_neg (Nat.not_lt.mpr hfit)]
  · exact ⟨_, rfl, rfl, rfl, rfl, rfl⟩
  · rintro ⟨h1, h2⟩
    rcases hown with h | h
    · rw [h] at h1; cases h1
    · exact h h2

/-- **C34** for MQTT 3 is false: a retained message with QoS 1 is not sent to a client that
subscribes with QoS 0, though it should be sent with QoS 0. -/
theorem C34_v3_false : ∃ (h : List RetainContent) (F : Str) (o : SubOpts) (c : RetainContent),
    ValidFilter F ∧ retained h c.topic = some c ∧ Matches F c.topic ∧
    ((exPeer .v3).run {} exExt .v3
      [({}, { exGlobal with retain := RetainTable.empty.run h },
        .packet (Clock.const 0) 10 (.subscribe 1 [(F, o)] none))]).map (fun recs =>
      recs.map fun r => (r.res.out, r.messages {} .v3)) =
      some [([.suback 1 [.grantedQos 0]], [])] := by
  exact ⟨[exRetained 1], str "a", { maxQos := 0 }, exRetained 1, by decide, rfl,
    ⟨.same _ .done, by decide⟩, by decide⟩

/-- **C34** for MQTT 3 (partial): the messages due are, filter by filter, the retained messages
whose topics match and whose QoS is not larger than the granted one, each once.

Missing: messages with a larger QoS (`C34_v3_false`). -/
theorem C34_retained_v3_partial (hrun : p0.run cfg ext .v3 evs = some recs) {A B : List Rec} {r : Rec}
    (hsplit : recs = A ++ r :: B) {after : Clock} {n : Nat} {pid : Pid}
    {topics : List (Str × SubOpts)} {id : Option Nat}
    (hev : r.ev = .packet after n (.subscribe pid topics id))
    (hon : r.pre.online = true) (hc : r.pre.session.disconnected = false)
    (hn : n ≤ cfg.maxPacketSizeServer) (hplain : ∀ t ∈ topics, IsPlain t.1)
    {h : List RetainContent} (hstore : r.before.retain = RetainTable.empty.run h)
    (hval : ∀ t ∈ topics, ValidFilter t.1) :
    ∃ blocks : List (List PubPacket), PassesOn .v3 r blocks.flatten ∧
      blocks.length = topics.length ∧
      ∀ (k : Nat) (F : Str) (o : SubOpts), topics[k]? = some (F, o) → ∃ block, blocks[k]? = some block ∧
        ∃ cs : List RetainContent, (∀ c, c ∈ cs ↔ retained h c.topic = some c ∧ Matches F c.topic) ∧
          cs.Pairwise (fun a b => a.topic ≠ b.topic) ∧
          block = cs.filterMap (retainedCopyV3 cfg o.maxQos) := by
  have h := isRun_of_run hrun
  rw [hsplit, isRun_append] at h
  obtain ⟨hA, hpre, hst, _⟩ := h
  rw [← hpre] at hst
  have hp := passes_step hst
  rw [messages_subscribe_v3 hev hon hc hn] at hp
  obtain ⟨blocks, h1, h2⟩ := retainedDueV3_blocks (cfg := cfg) hstore hplain hval
  rw [h1] at hp
  exact ⟨blocks, hp, h2⟩

example : ((exPeer .v3).run {} exExt .v3 [exSubStore [(str "#", { maxQos := 1 }),
      (str "b", { maxQos := 2 })]]).map (fun recs =>
      recs.map fun r => (r.messages {} .v3).map fun p => (p.topic, p.qos, p.payload)) =
    some [[(str "c/d", 1, [4]), (str "a", 1, [3]), (str "b", 2, [2])]] := by decide

/-- The form of a retained message that is due (MQTT 3). -/
theorem C34_copy_v3_partial {q : QoS} {c : RetainContent} (hq : c.qos ≤ min q cfg.maxAllowedQos) :
    ∃ p, retainedCopyV3 cfg q c = some p ∧ p.topic = c.topic ∧ p.payload = c.payload ∧
      p.qos = min c.qos (min q cfg.maxAllowedQos) ∧ p.retain = true := by
  refine ⟨_, by unfold retainedCopyV3; rw [if_neg (Fin.not_lt.mpr hq)], rfl, rfl, ?_, rfl⟩
  exact (min_eq_left_qos hq).symm

/-! ## C28, retained messages -/

/-- **C28** for retained messages: every message passed on because of a SUBSCRIBE is a stored message
for one of its filters, which was published by somebody else or the filter lacks the no-local
option. -/
theorem C28_no_echo_retained (hrun : p0.run cfg ext .v5 evs = some recs) {A B : List Rec} {r : Rec}
    (hsplit : recs = A ++ r :: B) {pid : Pid} {topics : List (Str × SubOpts)}
    {id : Option Nat} (hr : r.received = some (.subscribe pid topics id)) :
    ∃ ms, PassesOn .v5 r ms ∧ ∀ p ∈ ms, ∃ F o c, (F, o) ∈ topics ∧ c ∈ r.before.stored F ∧
      p.topic = c.topic ∧ p.payload = c.payload ∧
      (o.noLocal = true → c.publisher ≠ r.pre.session.identifier) := by
  have h := isRun_of_run hrun
  rw [hsplit, isRun_append] at h
  obtain ⟨hA, hpre, hst, _⟩ := h
  rw [← hpre] at hst
  refine ⟨_, passes_step hst, fun p hp => ?_⟩
  obtain ⟨F, o, c, h1, h2, h3⟩ := retained_source hr hp
  refine ⟨F, o, c, h1, h2, ?_⟩
  simp only [retainedCopy, retainedCopyV5] at h3
  split at h3
  · cases h3
  · rename_i hno
    split at h3
    · cases h3
    · cases h3
      exact ⟨rfl, rfl, fun h e => hno ⟨h, e⟩⟩

/-! ## C58 -/

/-- **C58**, MQTT 5: a message from another session is delivered with RETAIN 1 only if a
subscription that led to it has the retain-as-published option and it was published with RETAIN 1. -/
theorem C58_live_v5 (hrun : p0.run cfg ext .v5 evs = some recs) {A B : List Rec} {r : Rec}
    (hsplit : recs = A ++ r :: B) {m : NormalMsg} (hev : r.ev = .normal m)
    (hon : r.pre.online = true) (hc : r.pre.session.disconnected = false) :
    ∃ ms, PassesOn .v5 r ms ∧ ∀ p ∈ ms, p.retain = true → m.retain = true ∧
      ∃ F ∈ m.filters, ∃ d, r.pre.session.subscribes.get F = some d ∧
        d.opts.retainAsPublished = true := by
  have h := isRun_of_run hrun
  rw [hsplit, isRun_append] at h
  obtain ⟨hA, hpre, hst, _⟩ := h
  rw [← hpre] at hst
  refine ⟨_, passes_step hst, fun p hp hret => ?_⟩
  rw [messages_normal hev hon hc, Option.mem_toList] at hp
  have hd : dueOf cfg .v5 r.pre.session m = some p := hp
  simp only [dueOf, dueV5] at hd
  split at hd
  · cases hd
  · split at hd
    · cases hd
    · cases hd
      simp only [Bool.and_eq_true, List.any_eq_true] at hret
      obtain ⟨⟨h1, _⟩, d, h2, h3⟩ := hret
      simp only [Session.held, List.mem_filterMap] at h2
      obtain ⟨F, hF, hd⟩ := h2
      exact ⟨h1, F, hF, d, hd, h3⟩

/-- **C58**, MQTT 3: retained messages sent because of a SUBSCRIBE have RETAIN 1. -/
theorem C58_retained_v3 (hrun : p0.run cfg ext .v3 evs = some recs) {A B : List Rec} {r : Rec}
    (hsplit : recs = A ++ r :: B) {pid : Pid} {topics : List (Str × SubOpts)}
    {id : Option Nat} (hr : r.received = some (.subscribe pid topics id)) :
    ∃ ms, PassesOn .v3 r ms ∧ ∀ p ∈ ms, p.retain = true := by
  have h := isRun_of_run hrun
  rw [hsplit, isRun_append] at h
  obtain ⟨hA, hpre, hst, _⟩ := h
  rw [← hpre] at hst
  refine ⟨_, passes_step hst, fun p hp => ?_⟩
  obtain ⟨F, o, c, h1, h2, h3⟩ := retained_source hr hp
  simp only [retainedCopy, retainedCopyV3] at h3
  split at h3
  · cases h3
  · cases h3; rfl

/-- **C58 is false** for MQTT 5: a retained message sent because of a SUBSCRIBE has RETAIN 0 (unless
the retain-as-published option is set), though it is not a live message. -/
theorem C58_retained_v5_false : ∃ (h : List RetainContent) (F : Str) (o : SubOpts) (c : RetainContent),
    ValidFilter F ∧ retained h c.topic = some c ∧ Matches F c.topic ∧
    ((exPeer .v5).run {} exExt .v5
      [({}, { exGlobal with retain := RetainTable.empty.run h },
        .packet (Clock.const 0) 10 (.subscribe 1 [(F, o)] none))]).map (fun recs =>
      recs.map fun r => r.res.out.filterMap fun p =>
        match p with
        | .publish w => some (w.topic, w.payload, w.retain)
        | _ => none) = some [[(c.topic, c.payload, false)]] := by
  exact ⟨[exRetained 0], str "a", { maxQos := 0 }, exRetained 0, by decide, rfl,
    ⟨.same _ .done, by decide⟩, by decide⟩

/-- **C58 is false** for MQTT 3: a live message published with RETAIN 1 is passed on with RETAIN 1
to a client that was already subscribed. -/
theorem C58_live_v3_false : ∃ (s : Session) (m : NormalMsg), m.retain = true ∧
    (({ session := s } : Peer).run {} exExt .v3 [exAt (.normal m)]).map (fun recs =>
      recs.map fun r => r.res.out.filterMap fun p =>
        match p with
        | .publish w => some (w.topic, w.payload, w.retain)
        | _ => none) = some [[(m.topic, m.payload, true)]] := by
  refine ⟨{ Session.start {} .v3 (str "me") 7 {} with
    subscribes := [(str "a", { opts := { maxQos := 1 } })] },
    .publishV3 true 0 (str "a") [1] (str "a") 1 10, rfl, ?_⟩
  decide

end

end Akasa

import Verif.Props.IncomingTopic
import Verif.Proof.Pending
/-!
# Acknowledgements of received packets (C25)
-/
namespace Akasa

section
variable {cfg : Config} {ext : Ext} {pr : Proto}

theorem replyOf_answer (p : Publish) (n : Nat) : ∃ code, replyOf pr p n = p.answer code := by
  cases pr
  · exact ⟨.success, by cases h : p.qosPid <;> simp [replyOf, ackV3, Publish.answer, h]⟩
  · refine ⟨if n > 0 then .success else .noMatchingSubscribers, ?_⟩
    cases h : p.qosPid <;> simp [replyOf, ackV5, Publish.answer, h]

end

/-- **C25, PUBLISH.**  A PUBLISH that does not make the broker end the connection is answered by
nothing (QoS 0), exactly one PUBACK (QoS 1) or exactly one PUBREC (QoS 2) with its identifier; only
deliveries to the client follow.  Either protocol, any state. -/
theorem C25_publish_answered {cfg : Config} {ext : Ext} {pr : Proto} {p : Peer}
    {evs : List (Env × Global × SessEv)} {recs : List Rec}
    (hrun : p.run cfg ext pr evs = some recs) {r : Rec} (hr : r ∈ recs) {m : Publish}
    (hm : r.publish? = some m) (hon : r.post.online = true)
    (hdis : r.post.session.disconnected = false) :
    ∃ code rest, r.res.out = m.answer code ++ rest ∧ ∀ o ∈ rest, o.isDelivery = true := by
  obtain ⟨a, b, e⟩ := List.append_of_mem hr
  have h := isRun_of_run hrun
  rw [e, isRun_append] at h
  obtain ⟨_, hpre, hst, _⟩ := h
  rw [← hpre] at hst
  obtain ⟨n, r0, st⟩ := step_received hst (received_of_publish? hm)
  obtain ⟨rest, ho, hrest⟩ := st.out
  rw [ident_disc (ident_of_core st.core)] at hdis
  rw [st.online] at hon
  have hc := handle_publish_cases st.handled
  clear st
  suffices ∃ code, r0.out = m.answer code by
    obtain ⟨code, hcode⟩ := this
    exact ⟨code, rest, by rw [ho, hcode], hrest⟩
  cases hc with
  | rejectV5 hpr s' hs' code => simp [failV5, Session.disconnected] at hdis
  | rejectV3 hpr => simp [failV3] at hon
  | inUse hpr s1 topic pid prev hres hl hg hne => exact ⟨_, by simp [Publish.answer, hl]; rfl⟩
  | repeated s1 topic pid hres hl hd hg => exact ⟨.success, by simp [Publish.answer, hl]⟩
  | lostFirst s1 topic pid hres hl hd hg hlen => exact ⟨.success, by simp [Publish.answer, hl]⟩
  | route2 s1 topic pid s' g' n hres hl hd hg hlen hsend => exact replyOf_answer m n
  | route01 s1 topic s' g' n hres hl hsend => exact replyOf_answer m n

/-- What C25 demands of the reason code: "no matching subscribers" exactly if nobody is subscribed
to a matching filter. -/
def ReasonIsRight (cfg : Config) (ext : Ext) (ops : List RouteOp) : Prop :=
  ∀ (p : Peer) (evs : List (Env × Global × SessEv)) (recs : List Rec),
    p.run cfg ext .v5 evs = some recs → ∀ r ∈ recs, ∀ m s, r.publish? = some m →
    r.res.routed = [s] → RouteTable.empty.run ops = some r.before.route → ValidTopic s.topic →
    ∃ code rest, r.res.out = m.answer code ++ rest ∧ (∀ o ∈ rest, o.isDelivery = true) ∧
      ((∃ f, Matches f s.topic ∧ SubscribedVia ops f) → code = .success) ∧
      ((¬ ∃ f, Matches f s.topic ∧ SubscribedVia ops f) → code = .noMatchingSubscribers)

theorem found_iff {ops : List RouteOp} (h : NoRejoin ops) {t : RouteTable}
    (hrun : RouteTable.empty.run ops = some t) {topic : Str} (hv : ValidTopic topic) :
    0 < (t.getMatches topic).length ↔ ∃ f, Matches f topic ∧ SubscribedVia ops f := by
  obtain ⟨t', hrun', hs, hr⟩ := run_noRejoin ops h
  rw [hrun] at hrun'; simp at hrun'; subst hrun'
  constructor
  · intro hpos
    obtain ⟨c, hc⟩ := List.exists_mem_of_length_pos hpos
    obtain ⟨f, h1, h2, _, h4⟩ := (RouteTable.mem_getMatches hv hr.tf).mp hc
    exact ⟨f, h1, (content_iff hs hr f).mp (by rw [← h2]; exact h4)⟩
  · rintro ⟨f, hm, hsub⟩
    have hc := (content_iff hs hr f).mpr hsub
    obtain ⟨f', h1, h2⟩ := hr.tf _ hc
    have := levels_injective h2; subst this
    exact List.length_pos_of_mem ((RouteTable.mem_getMatches hv hr.tf).mpr ⟨f', hm, rfl, h1, hc⟩)

/-- **C25, reason code of MQTT 5, partial**: for all histories of subscriptions in which no client
comes back to a shared group it left while the group has lived on.  Missing: the other histories,
where it is false (`C25_reason_false`). -/
theorem C25_reason_partial (cfg : Config) (ext : Ext) (ops : List RouteOp) (hn : NoRejoin ops) :
    ReasonIsRight cfg ext ops := by
  intro p evs recs hrun r hr m s hm hs hops hv
  obtain ⟨a, b, e⟩ := List.append_of_mem hr
  have h := isRun_of_run hrun
  rw [e, isRun_append] at h
  obtain ⟨_, hpre, hst, _⟩ := h
  rw [← hpre] at hst
  obtain ⟨n, r0, st⟩ := step_received hst (received_of_publish? hm)
  obtain ⟨rest, ho, hrest⟩ := st.out
  have hrt := st.routed
  rw [hs] at hrt
  have hc := handle_publish_cases st.handled
  clear st
  have key : ∀ {s1 s' : Session} {g' : Global} {n' : Nat}, r0.out = replyOf .v5 m n' →
      sendOf .v5 r.env r.before s1 s = some (s', g', n') →
      ∃ code rest, r.res.out = m.answer code ++ rest ∧ (∀ o ∈ rest, o.isDelivery = true) ∧
      ((∃ f, Matches f s.topic ∧ SubscribedVia ops f) → code = .success) ∧
      ((¬ ∃ f, Matches f s.topic ∧ SubscribedVia ops f) → code = .noMatchingSubscribers) := by
    intro s1 s' g' n' h1 h2
    refine ⟨if n' > 0 then .success else .noMatchingSubscribers, rest, ?_, hrest, ?_⟩
    · rw [ho, h1]
      cases h : m.qosPid <;> simp [replyOf, ackV5, Publish.answer, h]
    · have hn' : n' = (r.before.route.getMatches s.topic).length := by
        unfold sendOf sendPublishV5 at h2
        simp only at h2
        split at h2
        · cases h2
        · simp only [Option.some.injEq, Prod.mk.injEq] at h2
          exact h2.2.2.symm
      rw [← found_iff hn hops hv, ← hn']
      constructor
      · intro h; rw [if_pos h]
      · intro h; rw [if_neg h]
  cases hc with
  | rejectV5 hpr s' hs' code => cases hrt
  | rejectV3 hpr => cases hpr
  | inUse hpr s1 topic pid prev hres hl hg hne => cases hrt
  | repeated s1 topic pid hres hl hd hg => cases hrt
  | lostFirst s1 topic pid hres hl hd hg hlen => cases hrt
  | route2 s1 topic pid s' g' n hres hl hd hg hlen hsend =>
    simp only [List.cons.injEq, and_true] at hrt
    rw [← hrt] at hsend
    exact key rfl hsend
  | route01 s1 topic s' g' n hres hl hsend =>
    simp only [List.cons.injEq, and_true] at hrt
    rw [← hrt] at hsend
    exact key rfl hsend

/-- Tables in which the routing history is the given one. -/
def exRouted (ops : List RouteOp) : Global :=
  { exGlobal with route := (RouteTable.empty.run ops).getD RouteTable.empty }

/-- A QoS 1 PUBLISH to `topic` with these tables. -/
def exPub1 (g : Global) (topic : String) (pid : Pid) : Env × Global × SessEv :=
  ({}, g, .packet (Clock.const 0) 10 (.publish {
    dup := false, qosPid := .level1 pid, retain := false, topic := str topic, payload := [1] }))

example : NoRejoin (exShared) ∧ ((exPeer .v5).run {} exExt .v5
      [exPub1 (exRouted exShared) "x/y" 5, exPub1 (exRouted exShared) "y" 6]).map (fun recs =>
      recs.map (·.res.out)) =
    some [[.puback 5 .success], [.puback 6 .noMatchingSubscribers]] :=
  ⟨exShared_noRejoin, by decide⟩

/-- Two clients join a group, the second leaves twice: the code removes the first one. -/
def exLeaveTwice : List RouteOp := exLeave ++ [.unsub (str "$share/g/x") 2]

/-- The full statement about the reason code is false of the code: after a client has left a shared
group twice, another member is lost and "no matching subscribers" is reported although it is
subscribed. -/
theorem C25_reason_false : ¬ ∀ cfg ext ops, ReasonIsRight cfg ext ops := by
  intro h
  have key := h {} exExt exLeaveTwice (exPeer .v5) [exPub1 (exRouted exLeaveTwice) "x" 5] _ rfl _
    (by simp; rfl) _ _ rfl rfl rfl (by
      show ValidTopic (str "x"); unfold ValidTopic; decide)
  obtain ⟨code, rest, h1, _, h2, _⟩ := key
  have hsub : ∃ f, Matches f (str "x") ∧ SubscribedVia exLeaveTwice f :=
    ⟨str "x", ⟨.same _ .done, by decide⟩, .inr ⟨str "g", 1, 0, by decide, by decide⟩⟩
  have := h2 hsub
  subst this
  have h3 : [OutPkt.puback 5 .noMatchingSubscribers] = [.puback 5 .success] ++ rest := h1
  simp at h3

/-- **C25, PUBREC.**  A PUBREC is answered with PUBREL with the same identifier (unless the packet
exceeds the size limit); in MQTT 5 the reason is success exactly if the identifier is that of an
unacknowledged message in the sending window. -/
theorem C25_pubrec_answered {cfg : Config} {ext : Ext} {pr : Proto} {p : Peer}
    {evs : List (Env × Global × SessEv)} {recs : List Rec}
    (hrun : p.run cfg ext pr evs = some recs) {r : Rec} (hr : r ∈ recs) {pid : Pid}
    (hm : r.received = some (.pubrec pid)) (hon : r.post.online = true)
    (hdis : r.post.session.disconnected = false) :
    ∃ code rest, r.res.out = .pubrel pid code :: rest ∧ (∀ o ∈ rest, o.isDelivery = true) ∧
      (pr = .v3 → code = .success) ∧
      (pr = .v5 → code = if pid ∈ r.pre.session.unacked then .success
        else .packetIdentifierNotFound) := by
  obtain ⟨a, b, e⟩ := List.append_of_mem hr
  have h := isRun_of_run hrun
  rw [e, isRun_append] at h
  obtain ⟨_, hpre, hst, _⟩ := h
  rw [← hpre] at hst
  obtain ⟨n, r0, st⟩ := step_received hst hm
  obtain ⟨rest, ho, hrest⟩ := st.out
  rw [ident_disc (ident_of_core st.core)] at hdis
  rw [st.online] at hon
  have hh := st.handled
  clear st
  have hfound : (r.pre.session.sender.pending.pubrec (r.env.now 0 0) pid).2 =
      decide (pid ∈ r.pre.session.unacked) := by
    generalize hq : r.pre.session.sender.pending = q
    have htake : q.packets.take q.window = q.packets.take q.maxInflight := by
      unfold Pending.window
      rw [Nat.min_def]
      split
      · rfl
      · rw [List.take_length, List.take_of_length_le (by omega)]
    unfold Session.unacked
    rw [hq, ← htake]
    unfold Pending.pubrec
    cases hu : updFirst (pubrecStatus (r.env.now 0 0) pid) q.window q.packets with
    | some ps =>
      obtain ⟨pre, s, s', post, h1, _, h3, h4, _⟩ := updFirst_some hu
      simp only
      symm
      rw [decide_eq_true_eq, List.mem_filterMap]
      refine ⟨s, ?_, ?_⟩
      · rw [h1, List.take_append]
        have : q.window - pre.length ≠ 0 := by omega
        obtain ⟨k, hk⟩ := Nat.exists_eq_succ_of_ne_zero this
        rw [hk]
        simp
      · unfold pubrecStatus at h3
        cases s with
        | new a b c d e =>
          simp only at h3 ⊢
          split at h3
          · rename_i hc; rw [hc]
          · cases h3
        | pubrec a b => cases h3
        | complete => cases h3
    | none =>
      have hnone := updFirst_none hu
      simp only
      symm
      rw [decide_eq_false_iff_not, List.mem_filterMap]
      rintro ⟨s, hs, he⟩
      have := hnone s hs
      cases s with
      | new a b c d e =>
        simp only [Option.some.injEq] at he
        simp [pubrecStatus, he] at this
      | pubrec a b => cases he
      | complete => cases he
  cases pr
  · simp only [handlePacket, handlePacketV3] at hh
    split at hh
    · cases hh; simp [failV3] at hon
    · cases hh
      exact ⟨.success, rest, by rw [ho]; rfl, hrest, fun _ => rfl, by intro h; cases h⟩
  · simp only [handlePacket, handlePacketV5] at hh
    split at hh
    · cases hh; simp [failV5, Session.disconnected] at hdis
    · cases hh
      refine ⟨_, rest, by rw [ho]; rfl, hrest, (by intro h; cases h), ?_⟩
      intro _
      rw [hfound]
      simp

/-- **C25, PUBREL.**  A PUBREL is answered with PUBCOMP with the same identifier if that QoS 2
message was accepted and not yet released; otherwise MQTT 5 answers with the reason "packet
identifier not found" and MQTT 3 ends the connection. -/
theorem C25_pubrel_answered {cfg : Config} {ext : Ext} {pr : Proto} {identifier : Str}
    {id : ClientId} {cp : ConnParams} {evs : List (Env × Global × SessEv)} {recs : List Rec}
    (hrun : ({ session := Session.start cfg pr identifier id cp } : Peer).run cfg ext pr evs =
      some recs) {a c : List Rec} {r : Rec} (hsplit : recs = a ++ r :: c) {pid : Pid}
    {after : Clock} {n : Nat} (hev : r.ev = .packet after n (.pubrel pid))
    (hm : r.received = some (.pubrel pid)) (hsize : n ≤ cfg.maxPacketSizeServer) :
    (pid ∈ unreleased a → ∃ rest, r.res.out = .pubcomp pid .success :: rest ∧
      (∀ o ∈ rest, o.isDelivery = true) ∧ r.post.online = true) ∧
    (pid ∉ unreleased a → pr = .v5 →
      ∃ rest, r.res.out = .pubcomp pid .packetIdentifierNotFound :: rest ∧
        (∀ o ∈ rest, o.isDelivery = true) ∧ r.post.online = true) ∧
    (pid ∉ unreleased a → pr = .v3 → r.res.out = [] ∧ r.post.online = false) := by
  have h := isRun_of_run hrun
  rw [hsplit, isRun_append] at h
  obtain ⟨hA, hpre, hst, _⟩ := h
  rw [← unreleased_eq (start_qos2 ..) hA, ← hpre, ← FMap.get_isSome_iff]
  rw [← hpre] at hst
  obtain ⟨n', r0, st⟩ := step_received hst hm
  obtain ⟨rest, ho, hrest⟩ := st.out
  have hh := st.handled
  have hof := st.outFail
  have hon := st.online
  obtain ⟨_, hev'⟩ := st.isEv
  rw [hev] at hev'; cases hev'
  cases pr
  · simp only [handlePacket, handlePacketV3] at hh
    rw [if_neg (by omega)] at hh
    cases hh
    unfold handlePubrelV3 FMap.contains at ho hof hon
    by_cases hc : (r.pre.session.qos2.get pid).isSome
    · rw [if_pos hc] at ho hon
      exact ⟨fun _ => ⟨rest, ho, hrest, hon⟩, fun h => absurd hc h, fun h => absurd hc h⟩
    · rw [if_neg hc] at hof hon
      exact ⟨fun h => absurd h hc, (by intro _ h; cases h),
        fun _ _ => ⟨hof (.inl rfl), hon⟩⟩
  · simp only [handlePacket, handlePacketV5] at hh
    rw [if_neg (by omega)] at hh
    cases hh
    unfold handlePubrelV5 FMap.contains at ho
    by_cases hc : (r.pre.session.qos2.get pid).isSome
    · simp only [hc, if_true] at ho
      exact ⟨fun _ => ⟨rest, ho, hrest, hon⟩, fun h => absurd hc h, fun h => absurd hc h⟩
    · simp only [hc] at ho
      exact ⟨fun h => absurd h hc, fun _ _ => ⟨rest, ho, hrest, hon⟩, (by intro _ h; cases h)⟩

/-- PUBREL for an accepted and for an unknown identifier. -/
example : ((exPeer .v5).run {} exExt .v5
      [exPkt (exPub2 "a" 1 false [1]), exPkt (.pubrel 1), exPkt (.pubrel 9), exPkt (.pubrec 4)]).map
      (fun recs => (unreleased (recs.take 1), recs.map (·.res.out))) =
    some ([1], [[.pubrec 1 .noMatchingSubscribers], [.pubcomp 1 .success],
      [.pubcomp 9 .packetIdentifierNotFound], [.pubrel 4 .packetIdentifierNotFound]]) := by decide

/-- **C25, PUBREL sent again**: a PUBREL that is sent because it is due (and not as the answer to a
PUBREC) carries "success". -/
theorem C25_pubrel_due (pr : Proto) (clk : Clock) (s : Session) {pid : Pid} {code : Reason}
    (h : .pubrel pid code ∈ (handlePendingsOf pr clk s).2) : code = .success := by
  have key : ∀ x : Publish ⊕ Pid, OutPkt.pubrel pid code = OutPkt.ofWire x → code = .success := by
    intro x hx
    cases x with
    | inl p => cases hx
    | inr q => cases hx; rfl
  cases pr
  · simp only [handlePendingsOf, handlePendingsV3, List.mem_map] at h
    obtain ⟨x, _, hx⟩ := h
    exact key _ hx.symm
  · simp only [handlePendingsOf, handlePendingsV5, List.mem_map] at h
    obtain ⟨x, _, hx⟩ := h
    exact key _ hx.symm

/-- A message is sent, received by the client, and PUBREL is sent again after the timeout. -/
example :
    let s0 : Session := (exPeer .v5).session
    let s1 := (handlePendingsOf .v5 (Clock.const 0)
      (s0.enqueue 0 { topic := str "a", qos := 2, retain := false, payload := [1] })).1
    let s2 := (handlePubrecV5 {} exGlobal s1 1).session
    (handlePendingsOf .v5 (Clock.const 100000) s2).2 = [.pubrel 1 .success] := by decide

end Akasa

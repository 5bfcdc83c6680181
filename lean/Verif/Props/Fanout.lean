import Verif.Props.Alias
import Verif.Props.Acks
import Verif.Proof.FanoutTable
/-!
# C26, C27, C28: who gets a copy of a published message

The steps are those of any run of a session (`Peer.run`), in particular steps from arbitrary session
states.  The shared routing table at the moment of the step is the result of any history `ops` of
subscriptions and unsubscriptions of any clients.
-/
namespace Akasa

/-- How a message handed to routing changes the queues. -/
theorem routed_queued {cfg : Config} {ext : Ext} {pr : Proto} {r : Rec} {m : SendPub}
    (hs : r.pre.step cfg ext pr r.env r.before r.ev = some (r.post, r.res))
    (hm : r.res.routed = [m]) :
    ∃ s2 s' g' n, sendOf pr r.env r.before s2 m = some (s', g', n) ∧
      s2.bcast = r.pre.session.bcast ∧ s2.clientId = r.pre.session.clientId ∧
      s2.subscribes = r.pre.session.subscribes ∧ r.post.session.bcast = s'.bcast := by
  cases hr : r.received with
  | none => rw [(step_idle hs hr).1] at hm; cases hm
  | some pkt =>
    obtain ⟨n, r0, st⟩ := step_received hs hr
    rw [st.routed] at hm
    have hb : r.post.session.bcast = r0.session.bcast := congrArg (·.1) st.copies
    by_cases hpub : ∃ p, pkt = .publish p
    · obtain ⟨p, rfl⟩ := hpub
      have hc := handle_publish_cases st.handled
      cases hc with
      | rejectV5 hpr s' hs' code => cases hm
      | rejectV3 hpr => cases hm
      | inUse hpr s1 topic pid prev hres hl hg hne => cases hm
      | repeated s1 topic pid hres hl hd hg => cases hm
      | lostFirst s1 topic pid hres hl hd hg hlen => cases hm
      | route2 s1 topic pid s' g' n hres hl hd hg hlen hsend =>
        simp only [List.cons.injEq, and_true] at hm
        subst hm
        have e := resolved_ident hres
        exact ⟨_, s', g', n, hsend, by rw [e], by rw [e], by rw [e], hb⟩
      | route01 s1 topic s' g' n hres hl hsend =>
        simp only [List.cons.injEq, and_true] at hm
        subst hm
        have e := resolved_ident hres
        exact ⟨_, s', g', n, hsend, by rw [e], by rw [e], by rw [e], hb⟩
    · rw [(handle_other (fun p e => hpub ⟨p, e⟩) st.handled).1] at hm; cases hm

theorem reachable_congr {reg : ClientId → Bool} {a b : Session} (h : a.bcast = b.bcast)
    (id : ClientId) : Reachable reg a id ↔ Reachable reg b id := by
  unfold Reachable; rw [h]

theorem queued_congr {a b : Session} (h : a.bcast = b.bcast) (id : ClientId) :
    a.queued id = b.queued id := by unfold Session.queued; rw [h]

theorem filter_copies {α : Type} (rs : List (ClientId × α)) (f : ClientId × α → NormalMsg)
    (id : ClientId) :
    ((rs.map fun e => (e.1, f e)).filter fun c => decide (c.1 = id)).map (·.2) =
      (rs.filter fun e => decide (e.1 = id)).map f := by
  induction rs with
  | nil => rfl
  | cons e rs ih =>
    simp only [List.map_cons, List.filter_cons]
    by_cases h : e.1 = id
    · simp only [h, decide_true, if_true, List.map_cons]; rw [ih]
    · simp only [h, decide_false, if_false, Bool.false_eq_true]; rw [ih]

/-- The queues after an MQTT 5 PUBLISH, in terms of the reasons collected. -/
theorem queued_v5 {cfg : Config} {ext : Ext} {r : Rec} {m : SendPub}
    (hs : r.pre.step cfg ext .v5 r.env r.before r.ev = some (r.post, r.res))
    (hm : r.res.routed = [m]) :
    ∃ (s2 : Session) (l : List Cause), s2.clientId = r.pre.session.clientId ∧
      s2.subscribes = r.pre.session.subscribes ∧
      causes s2 r.env.pick (r.before.route.getMatches m.topic) = some l ∧
      ∀ id,
        (Reachable r.before.registered r.pre.session id → r.post.session.queued id =
          r.pre.session.queued id ++
            (match FMap.get (addAll l []) id with
              | none => []
              | some x => [m.copyV5 x.1 x.2])) ∧
        (¬ Reachable r.before.registered r.pre.session id →
          r.post.session.queued id = r.pre.session.queued id) := by
  obtain ⟨s2, s', g', n, hsend, h1, h2, h3, h4⟩ := routed_queued hs hm
  simp only [sendOf, sendPublishV5, collectV5_eq] at hsend
  cases hl : causes s2 r.env.pick (r.before.route.getMatches m.topic) with
  | none => rw [hl] at hsend; cases hsend
  | some l =>
    rw [hl] at hsend
    simp only [Option.map_some, Option.some.injEq, Prod.mk.injEq] at hsend
    obtain ⟨rfl, rfl, _⟩ := hsend
    refine ⟨s2, l, h2, h3, hl, ?_⟩
    intro id
    have hq := queued_pushCopies s2 r.before.registered ((addAll l []).map fun e =>
      (e.1, NormalMsg.publishV5 m.retain m.qos m.topic m.payload e.2.1 e.2.2 m.props m.encodeLen))
      id
    rw [← reachable_congr h1, ← queued_congr h1, queued_congr h4]
    constructor
    · intro hr
      rw [hq.1 hr]
      congr 1
      rw [filter_copies (addAll l []) (fun e => NormalMsg.publishV5 m.retain m.qos m.topic m.payload
        e.2.1 e.2.2 m.props m.encodeLen) id, filter_of_get (wf_addAll l (by simp)) id]
      cases FMap.get (addAll l []) id <;> rfl
    · intro hr
      unfold Session.queued
      rw [hq.2 hr]

theorem mem_ofClient {id : ClientId} {l : List Cause} {e : Cause} :
    e ∈ ofClient id l ↔ e ∈ l ∧ e.1 = id := by
  unfold ofClient; rw [List.mem_filter, decide_eq_true_iff]

theorem levels_slash (g f : Str) : ∃ a b c, levels (g ++ '/' :: f) = a :: b :: c := by
  induction g with
  | nil =>
    cases h : levels f with
    | nil => exact absurd h (levels_ne_nil f)
    | cons a b => exact ⟨[], a, b, by simp [levels, h]⟩
  | cons x g ih =>
    obtain ⟨a, b, c, ih⟩ := ih
    by_cases hx : x = '/'
    · subst hx
      exact ⟨[], a, b :: c, by simp [levels, ih]⟩
    · exact ⟨x :: a, b, c, by simp [levels, ih, hx]⟩

theorem fullFilter_shared (g f : Str) : sharedInfo (fullFilter g f) ≠ none := by
  have : fullFilter g f = '$' :: 's' :: 'h' :: 'a' :: 'r' :: 'e' :: '/' :: (g ++ '/' :: f) := by
    simp [fullFilter]
  rw [this]
  obtain ⟨a, b, c, h⟩ := levels_slash g f
  simp [sharedInfo, h]

/-- **C26 and C27, MQTT 5 publisher (partial).**  There is a choice of one member for every shared
group with members such that, when the session hands a message to routing: a client that is not
reachable or to which the message is not due gets nothing; every other client gets exactly one copy
of the message, which names exactly the filters because of which it is due, each once, and carries
the highest of the QoS levels granted for them.

Missing: routing tables made by histories in which a client comes back to a shared group it left
while the group lived on; there the code loses members or panics (`C26_shared_false`). -/
theorem C26_receivers_v5_partial {cfg : Config} {ext : Ext} {p0 : Peer}
    {evs : List (Env × Global × SessEv)} {recs : List Rec}
    (hrun : p0.run cfg ext .v5 evs = some recs) {A B : List Rec} {r : Rec}
    (hsplit : recs = A ++ r :: B) {ops : List RouteOp} (hops : NoRejoin ops)
    (htab : RouteTable.empty.run ops = some r.before.route)
    {m : SendPub} (hm : r.res.routed = [m]) (hv : ValidTopic m.topic) :
    ∃ sel, SelectsMembers ops sel ∧ ∀ id,
      ((¬ Reachable r.before.registered r.pre.session id ∨
        ∀ F q, ¬ DueV5 ops sel r.pre.session m.topic id F q) →
          r.post.session.queued id = r.pre.session.queued id) ∧
      (Reachable r.before.registered r.pre.session id →
        (∃ F q, DueV5 ops sel r.pre.session m.topic id F q) →
        ∃ Fs q, r.post.session.queued id = r.pre.session.queued id ++ [m.copyV5 Fs q] ∧
          Fs.Nodup ∧ (∀ F, F ∈ Fs ↔ ∃ q, DueV5 ops sel r.pre.session m.topic id F q) ∧
          (∃ F, DueV5 ops sel r.pre.session m.topic id F q) ∧
          ∀ F q', DueV5 ops sel r.pre.session m.topic id F q' → q' ≤ q) := by
  have h := isRun_of_run hrun
  rw [hsplit, isRun_append] at h
  obtain ⟨hA, hpre, hst, _⟩ := h
  rw [← hpre] at hst
  obtain ⟨t, hrun', hsi, hri⟩ := run_noRejoin ops hops
  rw [htab] at hrun'; cases hrun'
  obtain ⟨s2, l, hid, hsub, hl, hq⟩ := queued_v5 hst hm
  refine ⟨selOf r.before.route r.env.pick, selects hsi _, ?_⟩
  have hdue : ∀ id F q, (id, F, q) ∈ l ↔
      DueV5 ops (selOf r.before.route r.env.pick) r.pre.session m.topic id F q := by
    intro id F q
    rw [causes_iff hsi hri hv hl]
    unfold DueV5 NotOwn
    rw [hid, hsub]
  have hnd := nodup_causes hl (contentsOk hsi hri hv)
  intro id
  obtain ⟨hq1, hq2⟩ := hq id
  have hmem : ∀ F q, (id, F, q) ∈ ofClient id l ↔
      DueV5 ops (selOf r.before.route r.env.pick) r.pre.session m.topic id F q := by
    intro F q; rw [mem_ofClient, hdue]; exact ⟨fun h => h.1, fun h => ⟨h, rfl⟩⟩
  rcases get_addAll l id with ⟨g1, g2⟩ | ⟨q, g1, ⟨e, g2, g2'⟩, g3⟩
  · have hno : ∀ F q, ¬ DueV5 ops (selOf r.before.route r.env.pick) r.pre.session m.topic id F q := by
      intro F q hd
      rw [← hmem, g1] at hd; cases hd
    constructor
    · intro _
      by_cases hr : Reachable r.before.registered r.pre.session id
      · rw [hq1 hr, g2]; simp
      · exact hq2 hr
    · rintro _ ⟨F, q, hd⟩
      exact absurd hd (hno F q)
  · obtain ⟨k, F0, q0⟩ := e
    have hk : k = id := (mem_ofClient.mp g2).2
    subst hk
    simp only at g2'
    subst g2'
    constructor
    · rintro (hr | hno)
      · exact hq2 hr
      · exact absurd ((hmem F0 q0).mp g2) (hno F0 q0)
    · intro hr _
      refine ⟨_, q0, by rw [hq1 hr, g1], ?_, ?_, ⟨F0, (hmem F0 q0).mp g2⟩, ?_⟩
      · have hsubl := (List.filter_sublist (l := l) (p := fun e => decide (e.1 = k))).map Cause.key
        have := hsubl.nodup hnd
        change ((ofClient k l).map Cause.key).Nodup at this
        unfold List.Nodup at this ⊢
        rw [List.pairwise_map] at this ⊢
        refine this.imp_of_mem ?_
        intro a b ha hb hab e
        refine hab ?_
        simp only [Cause.key, Prod.mk.injEq]
        exact ⟨by rw [(mem_ofClient.mp ha).2, (mem_ofClient.mp hb).2], e⟩
      · intro F
        rw [List.mem_map]
        constructor
        · rintro ⟨⟨k', F', q'⟩, he, rfl⟩
          have hk' : k' = k := (mem_ofClient.mp he).2
          subst hk'
          exact ⟨q', (hmem _ _).mp he⟩
        · rintro ⟨q', hd⟩
          exact ⟨_, (hmem _ _).mpr hd, rfl⟩
      · intro F q' hd
        exact g3 _ ((hmem _ _).mpr hd)

/-- **C26, MQTT 5 publisher, plain subscriptions.**  For every history of subscriptions the broker
survives: a reachable client with a matching plain subscription (not the publisher's own no-local
one) gets exactly one copy, it names that filter and carries at least the QoS granted for it. -/
theorem C26_plain_v5 {cfg : Config} {ext : Ext} {p0 : Peer}
    {evs : List (Env × Global × SessEv)} {recs : List Rec}
    (hrun : p0.run cfg ext .v5 evs = some recs) {A B : List Rec} {r : Rec}
    (hsplit : recs = A ++ r :: B) {ops : List RouteOp}
    (htab : RouteTable.empty.run ops = some r.before.route)
    {m : SendPub} (hm : r.res.routed = [m]) (hv : ValidTopic m.topic)
    {id : ClientId} (hr : Reachable r.before.registered r.pre.session id) {F : Str} {q : QoS}
    (hsub : PlainMatch ops m.topic id F q) (hown : NotOwn r.pre.session id F) :
    ∃ Fs q', r.post.session.queued id = r.pre.session.queued id ++ [m.copyV5 Fs q'] ∧ F ∈ Fs ∧
      q ≤ q' := by
  have h := isRun_of_run hrun
  rw [hsplit, isRun_append] at h
  obtain ⟨hA, hpre, hst, _⟩ := h
  rw [← hpre] at hst
  have hri := RInv.empty.run htab
  obtain ⟨s2, l, hid, hsubs, hl, hq⟩ := queued_v5 hst hm
  have hown' : NotOwn s2 id F := by unfold NotOwn; rw [hid, hsubs]; exact hown
  obtain ⟨c, hc, f, h1, h2⟩ := (plainCause_iff (s := s2) hri hv).mpr ⟨hsub, hown'⟩
  have hmem : (id, F, q) ∈ l := (mem_causes hl).mpr ⟨c, hc, f, h1, .inl h2⟩
  have hmem' : (id, F, q) ∈ ofClient id l := mem_ofClient.mpr ⟨hmem, rfl⟩
  rcases get_addAll l id with ⟨g1, g2⟩ | ⟨q', g1, _, g3⟩
  · rw [g1] at hmem'; cases hmem'
  · exact ⟨_, q', by rw [(hq id).1 hr, g1], List.mem_map.mpr ⟨_, hmem', rfl⟩, g3 _ hmem'⟩

/-- **C26, MQTT 5 publisher, plain subscriptions, nothing undue.**  For every history of
subscriptions the broker survives: whatever a message adds to the queue of a client is at most one
copy, and every plain filter it names is a matching subscription of that client (not the publisher's
own no-local one). -/
theorem C26_plain_sound_v5 {cfg : Config} {ext : Ext} {p0 : Peer}
    {evs : List (Env × Global × SessEv)} {recs : List Rec}
    (hrun : p0.run cfg ext .v5 evs = some recs) {A B : List Rec} {r : Rec}
    (hsplit : recs = A ++ r :: B) {ops : List RouteOp}
    (htab : RouteTable.empty.run ops = some r.before.route)
    {m : SendPub} (hm : r.res.routed = [m]) (hv : ValidTopic m.topic) (id : ClientId) :
    r.post.session.queued id = r.pre.session.queued id ∨
    ∃ Fs q, r.post.session.queued id = r.pre.session.queued id ++ [m.copyV5 Fs q] ∧
      Reachable r.before.registered r.pre.session id ∧ Fs ≠ [] ∧
      ∀ F ∈ Fs, IsPlain F → (∃ q, PlainMatch ops m.topic id F q) ∧ NotOwn r.pre.session id F := by
  have h := isRun_of_run hrun
  rw [hsplit, isRun_append] at h
  obtain ⟨hA, hpre, hst, _⟩ := h
  rw [← hpre] at hst
  have hri := RInv.empty.run htab
  obtain ⟨s2, l, hid, hsubs, hl, hq⟩ := queued_v5 hst hm
  by_cases hr : Reachable r.before.registered r.pre.session id
  · rcases get_addAll l id with ⟨g1, g2⟩ | ⟨q', g1, ⟨e0, g2, _⟩, g3⟩
    · left; rw [(hq id).1 hr, g2]; simp
    · right
      refine ⟨_, q', by rw [(hq id).1 hr, g1], hr, ?_, ?_⟩
      · intro e
        dsimp only at e
        have := List.mem_map_of_mem (f := fun e : Cause => e.2.1) g2
        rw [e] at this; cases this
      intro F hF hp
      obtain ⟨⟨k, F', q⟩, he, rfl⟩ := List.mem_map.mp hF
      obtain ⟨he', hk⟩ := mem_ofClient.mp he
      simp only at hk
      subst hk
      obtain ⟨c, hc, f, hf, h | ⟨g, sc, h2, h3, h4⟩⟩ := (mem_causes hl).mp he'
      · have := (plainCause_iff (s := s2) hri hv).mp ⟨c, hc, f, hf, h⟩
        refine ⟨⟨q, this.1⟩, ?_⟩
        have h' := this.2
        unfold NotOwn at h' ⊢
        rw [hid, hsubs] at h'
        exact h'
      · exfalso
        have hn : sharedInfo F' = none := hp
        rw [h3] at hn
        exact fullFilter_shared g f hn
  · exact .inl ((hq id).2 hr)

/-- **C26, MQTT 3 publisher.**  For every history of subscriptions the broker survives: a reachable
client gets exactly one copy for each of its matching plain subscriptions, with that filter and the
QoS granted for it, and no client gets anything else. -/
theorem C26_receivers_v3 {cfg : Config} {ext : Ext} {p0 : Peer}
    {evs : List (Env × Global × SessEv)} {recs : List Rec}
    (hrun : p0.run cfg ext .v3 evs = some recs) {A B : List Rec} {r : Rec}
    (hsplit : recs = A ++ r :: B) {ops : List RouteOp}
    (htab : RouteTable.empty.run ops = some r.before.route)
    {m : SendPub} (hm : r.res.routed = [m]) (hv : ValidTopic m.topic) (id : ClientId) :
    (¬ Reachable r.before.registered r.pre.session id →
      r.post.session.queued id = r.pre.session.queued id) ∧
    (Reachable r.before.registered r.pre.session id →
      ∃ l : List (Str × QoS),
        r.post.session.queued id = r.pre.session.queued id ++ l.map m.copyV3 ∧
        (l.map (·.1)).Nodup ∧ ∀ F q, (F, q) ∈ l ↔ PlainMatch ops m.topic id F q) := by
  have h := isRun_of_run hrun
  rw [hsplit, isRun_append] at h
  obtain ⟨hA, hpre, hst, _⟩ := h
  rw [← hpre] at hst
  have hri := RInv.empty.run htab
  obtain ⟨s2, s', g', n, hsend, h1, h2, h3, h4⟩ := routed_queued hst hm
  simp only [sendOf, sendPublishV3] at hsend
  cases hl : collectV3 (r.before.route.getMatches m.topic) with
  | none => rw [hl] at hsend; cases hsend
  | some l =>
    rw [hl] at hsend
    simp only [Option.map_some, Option.some.injEq, Prod.mk.injEq] at hsend
    obtain ⟨rfl, _, _⟩ := hsend
    have hq := queued_pushCopies s2 r.before.registered (l.map fun e =>
      (e.1, NormalMsg.publishV3 m.retain m.qos m.topic m.payload e.2.1 e.2.2 m.encodeLen)) id
    rw [← reachable_congr h1, ← queued_congr h1, queued_congr h4]
    constructor
    · intro hr
      unfold Session.queued
      rw [hq.2 hr]
    · intro hr
      refine ⟨(ofClient id l).map (·.2), ?_, ?_, ?_⟩
      · rw [hq.1 hr, filter_copies l (fun e => NormalMsg.publishV3 m.retain m.qos m.topic m.payload
          e.2.1 e.2.2 m.encodeLen) id, List.map_map]
        rfl
      · have hnd := nodup_collectV3 hl (getMatches_once hri hv) (by
          intro c hc
          obtain ⟨f, e1, e2, e3, e4⟩ := (RouteTable.mem_getMatches hv hri.tf).mp hc
          rw [e2]; exact hri.wf _)
        have hsubl := (List.filter_sublist (l := l) (p := fun e => decide (e.1 = id))).map Cause.key
        have := hsubl.nodup hnd
        change ((ofClient id l).map Cause.key).Nodup at this
        rw [List.map_map]
        unfold List.Nodup at this ⊢
        rw [List.pairwise_map] at this ⊢
        refine this.imp_of_mem ?_
        intro a b ha hb hab e
        refine hab ?_
        simp only [Cause.key, Prod.mk.injEq]
        exact ⟨by rw [(mem_ofClient.mp ha).2, (mem_ofClient.mp hb).2], e⟩
      · intro F q
        rw [← collectV3_iff hri hv hl, List.mem_map]
        constructor
        · rintro ⟨⟨k, F', q'⟩, he, hx⟩
          cases hx
          obtain ⟨he', hk⟩ := mem_ofClient.mp he
          simp only at hk
          rw [← hk]; exact he'
        · intro he
          exact ⟨_, mem_ofClient.mpr ⟨he, rfl⟩, rfl⟩

/-- **C26.**  A step that hands nothing to routing queues no copy for anybody (a new connection
starts with empty queues, and copies leave the queues as they are passed on). -/
theorem C26_nothing_else {cfg : Config} {ext : Ext} {pr : Proto} {p0 : Peer}
    {evs : List (Env × Global × SessEv)} {recs : List Rec}
    (hrun : p0.run cfg ext pr evs = some recs) {A B : List Rec} {r : Rec}
    (hsplit : recs = A ++ r :: B) (hm : r.res.routed = []) (id : ClientId) :
    r.post.session.queued id =
      match r.ev with
      | .resume _ => []
      | .passed bcast _ => (bcast.get id).getD []
      | _ => r.pre.session.queued id := by
  have h := isRun_of_run hrun
  rw [hsplit, isRun_append] at h
  obtain ⟨hA, hpre, hst, _⟩ := h
  rw [← hpre] at hst
  have key : ∀ a b : Session, a.copies = b.copies → a.queued id = b.queued id := by
    intro a b e
    have : a.bcast = b.bcast := congrArg (·.1) e
    exact queued_congr this id
  cases hr : r.received with
  | some pkt =>
    obtain ⟨n, r0, st⟩ := step_received hst hr
    rw [st.routed] at hm
    obtain ⟨after, hev⟩ := st.isEv
    rw [hev]
    exact key _ _ (st.copies.trans (copies_handlePacket st.handled hm))
  | none =>
    obtain ⟨ev, env, before, pre, post, res⟩ := r
    cases ev with
    | packet after n p =>
      unfold Rec.received at hr
      simp only [Peer.step] at hst
      by_cases hon : (pre.online && !pre.session.disconnected) = true
      · simp only [hon, if_true] at hr; cases hr
      · rw [if_neg hon] at hst
        cases hst; rfl
    | normal m =>
      simp only [Peer.step] at hst
      split at hst
      · cases hst; exact key _ _ (copies_onNormal ..)
      · cases hst; rfl
    | offline m =>
      simp only [Peer.step] at hst
      split at hst
      · cases hst; rfl
      · cases hst; exact key _ _ (copies_normal ..)
    | passed b n =>
      simp only [Peer.step, Option.some.injEq, Prod.mk.injEq] at hst
      obtain ⟨rfl, _⟩ := hst
      rfl
    | lost =>
      simp only [Peer.step, Option.some.injEq, Prod.mk.injEq] at hst
      obtain ⟨rfl, _⟩ := hst
      rfl
    | resume c =>
      simp only [Peer.step, Option.some.injEq, Prod.mk.injEq] at hst
      obtain ⟨rfl, _⟩ := hst
      refine (key _ _ (copies_pendings ..)).trans ?_
      cases pr <;> rfl

/-! ## C27 -/

/-- **C27 (partial).**  See `C26_receivers_v5_partial`, of which this is the part about overlapping
subscriptions: a client with several matching plain subscriptions gets one copy of a message
published over MQTT 5, naming each of the filters once, and its QoS is the highest granted for any
filter named.

Missing: as in `C26_receivers_v5_partial`. -/
theorem C27_one_copy_partial {cfg : Config} {ext : Ext} {p0 : Peer}
    {evs : List (Env × Global × SessEv)} {recs : List Rec}
    (hrun : p0.run cfg ext .v5 evs = some recs) {A B : List Rec} {r : Rec}
    (hsplit : recs = A ++ r :: B) {ops : List RouteOp} (hops : NoRejoin ops)
    (htab : RouteTable.empty.run ops = some r.before.route)
    {m : SendPub} (hm : r.res.routed = [m]) (hv : ValidTopic m.topic)
    {id : ClientId} (hr : Reachable r.before.registered r.pre.session id)
    (hid : id ≠ r.pre.session.clientId) {F : Str} {q : QoS}
    (hsub : PlainMatch ops m.topic id F q) :
    ∃ Fs q, r.post.session.queued id = r.pre.session.queued id ++ [m.copyV5 Fs q] ∧ Fs.Nodup ∧
      (∀ F, IsPlain F → (F ∈ Fs ↔ ∃ q, PlainMatch ops m.topic id F q)) ∧
      (∃ F ∈ Fs, subscribed ops F id = some q) ∧
      ∀ F ∈ Fs, ∀ q', subscribed ops F id = some q' → q' ≤ q := by
  obtain ⟨sel, hsel, h⟩ := C26_receivers_v5_partial hrun hsplit hops htab hm hv
  have hnot : ∀ F, NotOwn r.pre.session id F := fun F e => absurd e hid
  obtain ⟨Fs, q', h1, h2, h3, ⟨F', h4⟩, h5⟩ := (h id).2 hr ⟨F, q, .inl ⟨hsub, hnot F⟩⟩
  have hsubd : ∀ F q, DueV5 ops sel r.pre.session m.topic id F q → subscribed ops F id = some q := by
    rintro F q (⟨h, _⟩ | ⟨g, f, hg, rfl, _, hs⟩)
    · exact h.2.2
    · exact (hsel g f hg).1 id q hs
  refine ⟨Fs, q', h1, h2, ?_, ⟨F', (h3 F').mpr ⟨q', h4⟩, hsubd _ _ h4⟩, ?_⟩
  · intro F hp
    rw [h3]
    constructor
    · rintro ⟨q, h | ⟨g, f, hg, rfl, _⟩⟩
      · exact ⟨q, h.1⟩
      · exact absurd hp (share_not_plain hg f)
    · rintro ⟨q, h⟩; exact ⟨q, .inl ⟨h, hnot F⟩⟩
  · intro F hF q0 hs
    obtain ⟨q1, hd⟩ := (h3 F).mp hF
    have := hsubd _ _ hd
    rw [hs] at this
    cases this
    exact h5 F q0 hd

/-- The publisher (client 7, MQTT 5) has subscribed to `a/+` with no-local and to `#` without;
client 1 has three overlapping subscriptions; clients 3 and 4 form a group. -/
def exFanOps : List RouteOp :=
  [.sub (str "a/+") 7 2, .sub (str "#") 7 0, .sub (str "a/+") 1 1, .sub (str "a/#") 1 2,
   .sub (str "a/b") 1 0, .sub (str "x") 1 1, .sub (str "$share/g/a/b") 3 1,
   .sub (str "$share/g/a/b") 4 2, .sub (str "a/b") 9 1]

/-- The publishing session. -/
def exFanSession : Session :=
  { Session.start {} .v5 (str "me") 7 {} with
    subscribes := [(str "a/+", { opts := { maxQos := 2, noLocal := true } }),
      (str "#", { opts := { maxQos := 0 } })] }

/-- Client 9 is not registered any more. -/
def exFanGlobal : Global := { exRouted exFanOps with registered := fun id => decide (id ≠ 9) }

example : ValidTopic (str "a/b") ∧ RouteTable.empty.run exFanOps = some exFanGlobal.route :=
  ⟨by unfold ValidTopic; decide, rfl⟩

/-- The copies queued by a PUBLISH to `a/b` in that situation (member 4 is chosen). -/
example : ((({ session := exFanSession } : Peer).run {} exExt .v5
      [({ pick := fun _ _ => 1 }, (exPub1 exFanGlobal "a/b" 5).2)]).map fun recs =>
      recs.map fun r => (r.res.routed.map (·.topic),
        [1, 3, 4, 7, 9].map fun id => (r.post.session.queued id))) =
    some [([str "a/b"],
      [[.publishV5 false 1 (str "a/b") [1] [str "a/b", str "a/#", str "a/+"] 2 {} 10],
       [],
       [.publishV5 false 1 (str "a/b") [1] [str "$share/g/a/b"] 2 {} 10],
       [.publishV5 false 1 (str "a/b") [1] [str "#"] 0 {} 10],
       []])] := by decide

/-- The same over MQTT 3: one copy per filter, no shared group. -/
example : ((({ session := exFanSession } : Peer).run {} exExt .v3
      [exPub1 exFanGlobal "a/b" 5]).map fun recs =>
      recs.map fun r => [1, 4, 9].map fun id => (r.post.session.queued id)) =
    some [
      [[.publishV3 false 1 (str "a/b") [1] (str "a/b") 0 10,
        .publishV3 false 1 (str "a/b") [1] (str "a/#") 2 10,
        .publishV3 false 1 (str "a/b") [1] (str "a/+") 1 10],
       [], []]] := by decide

/-- **C26 is false for shared groups in general** (and with it C27): clients 1 and 2 are members of
a group, client 2 leaves and (superfluously) leaves again; client 1 is still subscribed, but a
message published over MQTT 5 is queued for nobody. -/
theorem C26_shared_false : ∃ (recs : List Rec) (r : Rec) (m : SendPub),
    (exPeer .v5).run {} exExt .v5 [exPub1 (exRouted exLeaveTwice) "x" 5] = some recs ∧
    recs = [r] ∧ RouteTable.empty.run exLeaveTwice = some r.before.route ∧
    r.before.registered 1 = true ∧ r.res.routed = [m] ∧ m.topic = str "x" ∧
    subscribed exLeaveTwice (shareFilter (str "g") (str "x")) 1 = some 0 ∧
    Matches (str "x") m.topic ∧ ∀ id, r.post.session.queued id = [] :=
  ⟨_, _, _, rfl, rfl, rfl, rfl, rfl, rfl, by decide, ⟨.same _ .done, by decide⟩, fun _ => rfl⟩

/-! ## C28, live messages -/

/-- **C28, live.**  For every history of subscriptions the broker survives: when a client publishes
over MQTT 5, either nothing is queued for the client itself, or one copy which names at least one
filter, and every plain filter it names is a current subscription of the client without the no-local
option. -/
theorem C28_no_echo_live {cfg : Config} {ext : Ext} {p0 : Peer}
    {evs : List (Env × Global × SessEv)} {recs : List Rec}
    (hrun : p0.run cfg ext .v5 evs = some recs) {A B : List Rec} {r : Rec}
    (hsplit : recs = A ++ r :: B) {ops : List RouteOp}
    (htab : RouteTable.empty.run ops = some r.before.route)
    {m : SendPub} (hm : r.res.routed = [m]) (hv : ValidTopic m.topic) {me : ClientId}
    (hme : me = r.pre.session.clientId) :
    r.post.session.queued me = r.pre.session.queued me ∨
    ∃ F Fs q, r.post.session.queued me = r.pre.session.queued me ++ [m.copyV5 (F :: Fs) q] ∧
      ∀ F' ∈ F :: Fs, IsPlain F' →
        Matches F' m.topic ∧
        ∃ d, r.pre.session.subscribes.get F' = some d ∧ d.opts.noLocal = false := by
  rcases C26_plain_sound_v5 hrun hsplit htab hm hv me with h | ⟨Fs, q, h1, _, h2, h3⟩
  · exact .inl h
  · right
    cases Fs with
    | nil => exact absurd rfl h2
    | cons F Fs =>
      refine ⟨F, Fs, q, h1, ?_⟩
      intro F' hF' hp
      obtain ⟨⟨q', hp'⟩, hn⟩ := h3 F' hF' hp
      exact ⟨hp'.2.1, hn hme⟩

/-- A client whose only matching subscription is no-local gets nothing; with a second subscription
without the option it gets one copy, for that filter. -/
example : ((({ session := { exFanSession with subscribes := exFanSession.subscribes.take 1 } } :
      Peer).run {} exExt .v5
        [exPub1 (exRouted [.sub (str "a/+") 7 2]) "a/b" 5]).map fun recs =>
      recs.map fun r => r.post.session.queued 7) = some [[]] ∧
    ((({ session := exFanSession } : Peer).run {} exExt .v5
        [exPub1 (exRouted [.sub (str "a/+") 7 2, .sub (str "#") 7 0]) "a/b" 5]).map fun recs =>
      recs.map fun r => r.post.session.queued 7) =
      some [[.publishV5 false 1 (str "a/b") [1] [str "#"] 0 {} 10]] := by decide

end Akasa

import Verif.Proof.SubscribeStep
import Verif.Props.Deliver
/-!
# C32: SUBACK and the effect of SUBSCRIBE; UNSUBACK (part of C33)
-/
namespace Akasa

section
variable {cfg : Config} {ext : Ext} {pr : Proto} {p0 : Peer} {evs : List (Env × Global × SessEv)}
  {recs : List Rec}

theorem answers_of {r : Rec} {l rest : List OutPkt} (h : r.res.out = l ++ rest)
    (hr : ∀ o ∈ rest, o.isDelivery = true) {l1 l2 : List OutPkt} (hl : l = l1 ++ l2)
    (h1 : ∀ o ∈ l1, o.isDelivery = true) (h2 : ∀ o ∈ l2, o.isDelivery = false) :
    r.answers = l2 := by
  unfold Rec.answers
  rw [h, hl, List.filter_append, List.filter_append]
  have a1 : l1.filter (fun p => !p.isDelivery) = [] := by
    rw [List.filter_eq_nil_iff]; intro o ho; simp [h1 o ho]
  have a2 : rest.filter (fun p => !p.isDelivery) = [] := by
    rw [List.filter_eq_nil_iff]; intro o ho; simp [hr o ho]
  have a3 : l2.filter (fun p => !p.isDelivery) = l2 := by
    rw [List.filter_eq_self]; intro o ho; simp [h2 o ho]
  rw [a1, a2, a3]
  simp

theorem step_processed {r : Rec} {pkt : InPkt}
    (hst : r.pre.step cfg ext pr r.env r.before r.ev = some (r.post, r.res))
    (hp : r.processed cfg = some pkt) :
    ∃ n r0, Step1 cfg ext pr r pkt n r0 ∧ n ≤ cfg.maxPacketSizeServer := by
  unfold Rec.processed at hp
  split at hp
  · rename_i after n p hev
    split at hp
    · rename_i hc
      cases hp
      simp only [Bool.and_eq_true, decide_eq_true_eq] at hc
      have hr : r.received = some pkt := by
        simp only [Rec.received, hev]
        rw [if_pos (by simp [hc.1.1, hc.1.2])]
      obtain ⟨n', r0, h1⟩ := step_received hst hr
      obtain ⟨after', he⟩ := h1.isEv
      rw [hev] at he
      cases he
      exact ⟨n, r0, h1, hc.2⟩
    · cases hp
  · cases hp

/-- **C32**, MQTT 5: a SUBSCRIBE is answered with exactly one SUBACK that lists one code per
requested filter, in the order of the request: the granted QoS, which is the minimum of the requested
and the configured one, or the reason for refusing. -/
theorem C32_suback_v5 (hrun : p0.run cfg ext .v5 evs = some recs) {A B : List Rec} {r : Rec}
    (hsplit : recs = A ++ r :: B) {pid : Pid} {topics : List (Str × SubOpts)} {id : Option Nat}
    (hr : r.processed cfg = some (.subscribe pid topics id)) (hid : id ≠ some 0) :
    r.answers = [.suback pid (topics.map fun t => codeFor cfg id t.1 t.2)] := by
  have h := isRun_of_run hrun
  rw [hsplit, isRun_append] at h
  obtain ⟨hA, hpre, hst, _⟩ := h
  rw [← hpre] at hst
  obtain ⟨n, r0, h1, hn⟩ := step_processed hst hr
  obtain ⟨rest, ho, hrest⟩ := h1.out
  have h0 := h1.handled
  simp only [handlePacket, handlePacketV5, if_neg (show ¬ n > cfg.maxPacketSizeServer by omega),
    handleSubscribeV5, if_neg hid] at h0
  by_cases href : RefusesId cfg id
  · rw [if_pos (by simp only [RefusesId] at href; simp [href.1, Option.isSome_iff_ne_none, href.2])]
      at h0
    cases h0
    refine answers_of ho hrest (l1 := []) ?_ (by simp) (by simp [OutPkt.isDelivery])
    simp [codeFor, href]
  · rw [if_neg (by simp only [RefusesId] at href; simpa [Option.isSome_iff_ne_none] using href),
      Option.map_eq_some_iff] at h0
    obtain ⟨a, ha, rfl⟩ := h0
    obtain ⟨_, h3, h4⟩ := subscribeLoopV5_effect href ha
    refine answers_of ho hrest rfl h4 ?_ |>.trans ?_
    · simp [OutPkt.isDelivery]
    · rw [h3]

/-- **C32**, MQTT 5: a SUBSCRIBE with subscription identifier 0 ends the connection. -/
theorem C32_identifier_zero_v5 (hrun : p0.run cfg ext .v5 evs = some recs) {A B : List Rec} {r : Rec}
    (hsplit : recs = A ++ r :: B) {pid : Pid} {topics : List (Str × SubOpts)}
    (hr : r.processed cfg = some (.subscribe pid topics (some 0))) :
    r.res.out = [.disconnect .protocolError] ∧ r.post.session.disconnected = true ∧
      r.post.session.subs = r.pre.session.subs ∧ r.res.global = r.before := by
  have h := isRun_of_run hrun
  rw [hsplit, isRun_append] at h
  obtain ⟨hA, hpre, hst, _⟩ := h
  rw [← hpre] at hst
  obtain ⟨n, r0, h1, hn⟩ := step_processed hst hr
  have h0 := h1.handled
  simp only [handlePacket, handlePacketV5, if_neg (show ¬ n > cfg.maxPacketSizeServer by omega),
    handleSubscribeV5, if_true] at h0
  cases h0
  have hc := h1.core
  refine ⟨h1.outFail (.inr ⟨rfl, by simp [Session.disconnected]⟩), ?_, ?_, h1.glob⟩
  · rw [ident_disc (ident_of_core hc)]
    simp [Session.disconnected]
  · exact congrArg FMap.get ((core_subs hc :).trans rfl)

/-- **C32**, MQTT 3: a SUBSCRIBE without shared filters is answered with one SUBACK that lists the
granted QoS of each filter in the order of the request. -/
theorem C32_suback_v3 (hrun : p0.run cfg ext .v3 evs = some recs) {A B : List Rec} {r : Rec}
    (hsplit : recs = A ++ r :: B) {pid : Pid} {topics : List (Str × SubOpts)} {id : Option Nat}
    (hr : r.processed cfg = some (.subscribe pid topics id)) (hpl : ∀ t ∈ topics, IsPlain t.1) :
    r.answers = [.suback pid (topics.map fun t => .grantedQos (min t.2.maxQos cfg.maxAllowedQos))] := by
  have h := isRun_of_run hrun
  rw [hsplit, isRun_append] at h
  obtain ⟨hA, hpre, hst, _⟩ := h
  rw [← hpre] at hst
  obtain ⟨n, r0, h1, hn⟩ := step_processed hst hr
  obtain ⟨rest, ho, hrest⟩ := h1.out
  have h0 := h1.handled
  simp only [handlePacket, handlePacketV3, if_neg (show ¬ n > cfg.maxPacketSizeServer by omega),
    handleSubscribeV3, Option.map_eq_some_iff] at h0
  obtain ⟨a, ha, rfl⟩ := h0
  obtain ⟨_, h3, h4, h5⟩ := subscribeLoopV3_effect ha
  have hf := h4.mpr hpl
  rw [hf] at ho
  refine answers_of ho hrest rfl h5 ?_ |>.trans ?_
  · simp [OutPkt.isDelivery]
  · rw [h3 hf]

/-- **C32**, MQTT 3: a SUBSCRIBE with a shared filter is not answered, the connection is closed. -/
theorem C32_shared_v3 (hrun : p0.run cfg ext .v3 evs = some recs) {A B : List Rec} {r : Rec}
    (hsplit : recs = A ++ r :: B) {pid : Pid} {topics : List (Str × SubOpts)} {id : Option Nat}
    (hr : r.processed cfg = some (.subscribe pid topics id)) {F : Str} {o : SubOpts}
    (hF : (F, o) ∈ topics) (hs : ¬ IsPlain F) : r.res.out = [] ∧ r.post.online = false := by
  have h := isRun_of_run hrun
  rw [hsplit, isRun_append] at h
  obtain ⟨hA, hpre, hst, _⟩ := h
  rw [← hpre] at hst
  obtain ⟨n, r0, h1, hn⟩ := step_processed hst hr
  have h0 := h1.handled
  simp only [handlePacket, handlePacketV3, if_neg (show ¬ n > cfg.maxPacketSizeServer by omega),
    handleSubscribeV3, Option.map_eq_some_iff] at h0
  obtain ⟨a, ha, rfl⟩ := h0
  obtain ⟨_, h3, h4, h5⟩ := subscribeLoopV3_effect ha
  have hf : a.2.2.2.2 = true := by
    cases hb : a.2.2.2.2 with
    | true => rfl
    | false => exact absurd (h4.mp hb _ hF) hs
  rw [hf] at h1
  exact ⟨h1.outFail (.inl rfl), h1.online⟩

/-- **C32**: the effect of any step on the subscriptions, in the session and in the routing table:
exactly the accepted filters of a SUBSCRIBE are entered, with the granted QoS, in the order of the
packet, and exactly the filters of an UNSUBSCRIBE are removed; nothing else changes either. -/
theorem C32_effect (hrun : p0.run cfg ext pr evs = some recs) {A B : List Rec} {r : Rec}
    (hsplit : recs = A ++ r :: B) :
    r.post.session.subs = r.pre.session.subs.after (r.changes cfg pr) ∧
    r.before.route.run ((r.changes cfg pr).map (·.op r.pre.session.clientId)) =
      some r.res.global.route ∧
    r.post.session.clientId = r.pre.session.clientId := by
  have h := isRun_of_run hrun
  rw [hsplit, isRun_append] at h
  obtain ⟨hA, hpre, hst, _⟩ := h
  rw [← hpre] at hst
  have hm := moves_step hst
  exact ⟨hm.subs, hm.route, hm.client⟩

/-- **C32**, MQTT 5: a filter that no entry of the packet is granted for (it is refused, or the
identifier is) keeps its place in the session, and no call on the routing table is about it. -/
theorem C32_refused (hrun : p0.run cfg ext .v5 evs = some recs) {A B : List Rec} {r : Rec}
    (hsplit : recs = A ++ r :: B) {pid : Pid} {topics : List (Str × SubOpts)} {id : Option Nat}
    (hr : r.received = some (.subscribe pid topics id)) {F : Str}
    (hF : ∀ o, (F, o) ∈ topics → ∀ q, codeFor cfg id F o ≠ .grantedQos q) :
    r.post.session.subs F = r.pre.session.subs F ∧
    ∃ ops, r.before.route.run ops = some r.res.global.route ∧ ∀ op ∈ ops, op.filter ≠ F := by
  obtain ⟨h1, h2, _⟩ := C32_effect hrun hsplit
  have hc : ∀ c ∈ r.changes cfg .v5, c.filter ≠ F := by
    intro c hc hcF
    have hp : r.processed cfg = some (.subscribe pid topics id) ∨ r.processed cfg = none := by
      unfold Rec.received at hr
      unfold Rec.processed
      split at hr
      · rename_i hev
        rw [hev]
        simp only
        split at hr
        · cases hr
          split
          · exact .inl rfl
          · exact .inr rfl
        · cases hr
      · cases hr
    rcases hp with hp | hp
    · simp only [Rec.changes, hp, InPkt.changes, List.mem_map] at hc
      obtain ⟨⟨F', d⟩, hd, rfl⟩ := hc
      simp only [SubChange.filter] at hcF
      subst hcF
      simp only [acceptedSubs] at hd
      split at hd
      · cases hd
      · rename_i hid
        simp only [List.mem_map, List.mem_filter, decide_eq_true_eq, Prod.mk.injEq] at hd
        obtain ⟨⟨F2, o⟩, ⟨h3, h4⟩, rfl, _⟩ := hd
        exact hF o h3 _ ((accepts_code (fun h => hid (.inr h)) _ o).mp h4)
    · simp [Rec.changes, hp] at hc
  refine ⟨?_, _, h2, ?_⟩
  · rw [h1, Subs.after_other _ hc]
  · intro op hop
    obtain ⟨c, h3, rfl⟩ := List.mem_map.mp hop
    have := hc c h3
    cases c <;> exact this

/-- **C33** (UNSUBACK), MQTT 5: an UNSUBSCRIBE is answered with one UNSUBACK whose codes, in order,
are success exactly for the filters the session was subscribed to (and that were not named before in
the same packet). -/
theorem C33_unsuback_v5 (hrun : p0.run cfg ext .v5 evs = some recs) {A B : List Rec} {r : Rec}
    (hsplit : recs = A ++ r :: B) {pid : Pid} {topics : List Str}
    (hr : r.processed cfg = some (.unsubscribe pid topics)) :
    ∃ codes, r.answers = [.unsuback pid codes] ∧ codes.length = topics.length ∧
      ∀ (k : Nat) (F : Str), topics[k]? = some F → codes[k]? = some
        (if (r.pre.session.subs F).isSome ∧ F ∉ topics.take k then .success
         else .noSubscriptionExisted) := by
  have h := isRun_of_run hrun
  rw [hsplit, isRun_append] at h
  obtain ⟨hA, hpre, hst, _⟩ := h
  rw [← hpre] at hst
  obtain ⟨n, r0, h1, hn⟩ := step_processed hst hr
  obtain ⟨rest, ho, hrest⟩ := h1.out
  have h0 := h1.handled
  simp only [handlePacket, handlePacketV5, if_neg (show ¬ n > cfg.maxPacketSizeServer by omega),
    handleUnsubscribeV5, Option.map_eq_some_iff] at h0
  obtain ⟨a, ha, rfl⟩ := h0
  obtain ⟨_, h3, h4⟩ := unsubscribeLoopV5_effect ha
  refine ⟨a.2.2, ?_, h3, h4⟩
  exact answers_of ho hrest (l1 := []) rfl (by simp) (by simp [OutPkt.isDelivery])

/-- **C33** (UNSUBACK), MQTT 3: an UNSUBSCRIBE is answered with one UNSUBACK. -/
theorem C33_unsuback_v3 (hrun : p0.run cfg ext .v3 evs = some recs) {A B : List Rec} {r : Rec}
    (hsplit : recs = A ++ r :: B) {pid : Pid} {topics : List Str}
    (hr : r.processed cfg = some (.unsubscribe pid topics)) : r.answers = [.unsuback pid []] := by
  have h := isRun_of_run hrun
  rw [hsplit, isRun_append] at h
  obtain ⟨hA, hpre, hst, _⟩ := h
  rw [← hpre] at hst
  obtain ⟨n, r0, h1, hn⟩ := step_processed hst hr
  obtain ⟨rest, ho, hrest⟩ := h1.out
  have h0 := h1.handled
  simp only [handlePacket, handlePacketV3, if_neg (show ¬ n > cfg.maxPacketSizeServer by omega),
    handleUnsubscribeV3, Option.map_eq_some_iff] at h0
  obtain ⟨a, ha, rfl⟩ := h0
  exact answers_of ho hrest (l1 := []) rfl (by simp) (by simp [OutPkt.isDelivery])

/-- A configuration that grants QoS 1 and refuses shared and wildcard subscriptions. -/
def exStrict : Config :=
  { maxAllowedQos := 1, sharedAvailable := false, wildcardAvailable := false }

/-- A SUBSCRIBE with a granted, a refused shared, a refused wildcard and a reduced entry, then an
UNSUBSCRIBE of a known, an unknown and a repeated filter: the answers and the subscriptions. -/
example : ((exPeer .v5).run exStrict exExt .v5
      [exAt (.packet (Clock.const 100) 10 (.subscribe 1 [(str "a", { maxQos := 2 }),
        (str "$share/g/a", { maxQos := 1 }), (str "b/#", { maxQos := 1 }),
        (str "c", { maxQos := 0 })] (some 7))),
       exAt (.packet (Clock.const 100) 10 (.unsubscribe 2 [str "a", str "b/#", str "a"]))]).map
      (fun recs => recs.map fun r => (r.answers, r.post.session.subscribes)) =
    some [([.suback 1 [.grantedQos 1, .sharedSubscriptionNotSupported,
              .wildcardSubscriptionsNotSupported, .grantedQos 0]],
            [(str "c", { opts := { maxQos := 0 }, id := some 7 }),
             (str "a", { opts := { maxQos := 1 }, id := some 7 })]),
          ([.unsuback 2 [.success, .noSubscriptionExisted, .noSubscriptionExisted]],
            [(str "c", { opts := { maxQos := 0 }, id := some 7 })])] := by decide +kernel

/-- MQTT 3: answered without shared filters, closed with one. -/
example : ((exPeer .v3).run exStrict exExt .v3
      [exAt (.packet (Clock.const 100) 10 (.subscribe 1 [(str "a", { maxQos := 2 }),
        (str "b/#", { maxQos := 0 })] none)),
       exAt (.packet (Clock.const 100) 10 (.subscribe 2 [(str "$share/g/a", { maxQos := 1 })] none))]).map
      (fun recs => recs.map fun r => (r.res.out, r.post.online)) =
    some [([.suback 1 [.grantedQos 1, .grantedQos 0]], true), ([], false)] := by decide +kernel

end

end Akasa

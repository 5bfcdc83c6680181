import Verif.Spec.Publish
import Verif.Props.IncomingTopic
/-!
# Which PUBLISH packets are accepted, and what becomes of them (C60, C54, C06 for publishers)
-/
namespace Akasa

section
variable {cfg : Config} {ext : Ext} {pr : Proto}

theorem size_of_step {r : Rec} {pkt : InPkt} {n : Nat} {r0 : Res}
    (st : Step1 cfg ext pr r pkt n r0) : r.size = n := by
  obtain ⟨after, h⟩ := st.isEv
  simp [Rec.size, h]

/-- Refusal by the handler is refusal in the step. -/
theorem refused_of_fail {r : Rec} {pkt : InPkt} {n : Nat} {r0 : Res}
    (st : Step1 cfg ext pr r pkt n r0)
    (h : (pr = .v3 ∧ r0 = failV3 r.pre.session r.before) ∨
      (pr = .v5 ∧ ∃ s code, r0 = failV5 s r.before code)) : r.refused pr := by
  rcases h with ⟨rfl, rfl⟩ | ⟨rfl, s, code, rfl⟩
  · exact ⟨st.routed, st.glob, st.outFail (.inl rfl), by rw [st.online]; rfl⟩
  · have hd : (failV5 s r.before code).session.disconnected = true := by
      simp [failV5, Session.disconnected]
    refine ⟨st.routed, st.glob, ⟨code, st.outFail (.inr ⟨rfl, hd⟩)⟩, ?_⟩
    rw [ident_disc (ident_of_core st.core)]; exact hd

/-- The state at a step of a run, in terms of its history. -/
theorem at_step {identifier : Str} {id : ClientId} {cp : ConnParams}
    {evs : List (Env × Global × SessEv)} {recs : List Rec}
    (hrun : ({ session := Session.start cfg pr identifier id cp } : Peer).run cfg ext pr evs =
      some recs) {a c : List Rec} {r : Rec} (hsplit : recs = a ++ r :: c) {pkt : InPkt}
    (hr : r.received = some pkt) :
    ∃ n r0, Step1 cfg ext pr r pkt n r0 ∧ r.pre.session.qos2.keys = unreleased a ∧
      (pr = .v5 → ∀ x, r.pre.session.aliases.get x = boundTopic a x) := by
  have h := isRun_of_run hrun
  rw [hsplit, isRun_append] at h
  obtain ⟨hA, hpre, hst, _⟩ := h
  rw [← hpre] at hst
  obtain ⟨n, r0, st⟩ := step_received hst hr
  refine ⟨n, r0, st, ?_, ?_⟩
  · rw [hpre]
    exact unreleased_eq (start_qos2 ..) hA
  · rintro rfl
    have hinv := aliasInv_run (start_aliases cfg .v5 identifier id cp) hA
    rw [← hpre] at hinv
    exact hinv st.on st.connected

theorem resolve_iff {s : Session} {a : List Rec} (hal : ∀ x, s.aliases.get x = boundTopic a x)
    (p : Publish) (t : Str) :
    topicOf cfg .v5 a p = some t ↔ ∃ s1, resolveAlias cfg s p = .ok (s1, t) := by
  unfold topicOf resolveAlias
  cases p.props.topicAlias with
  | none =>
    simp only
    by_cases ht : p.topic = [] <;> simp [ht]
  | some x =>
    simp only
    by_cases h0 : x = 0
    · simp [h0]
    · by_cases h1 : cfg.topicAliasMax < x
      · simp [h0, h1]
      · by_cases ht : p.topic = []
        · simp only [if_pos ht, if_neg h0, if_neg (show ¬ x > cfg.topicAliasMax from h1), hal x]
          rw [if_neg (by rintro (h | h) <;> contradiction)]
          cases boundTopic a x <;> simp
        · simp only [if_neg ht, if_neg h0, if_neg (show ¬ x > cfg.topicAliasMax from h1)]
          rw [if_neg (by rintro (h | h) <;> contradiction)]
          simp

end

/-! ## C60 -/

/-- **C60, refusal.**  A PUBLISH that MQTT forbids, or that is larger than the broker's limit, is
refused: nothing is passed on or retained, and the connection is over. -/
theorem C60_refused {cfg : Config} {ext : Ext} {pr : Proto} {identifier : Str} {id : ClientId}
    {cp : ConnParams} {evs : List (Env × Global × SessEv)} {recs : List Rec}
    (hrun : ({ session := Session.start cfg pr identifier id cp } : Peer).run cfg ext pr evs =
      some recs) {a c : List Rec} {r : Rec} (hsplit : recs = a ++ r :: c) {p : Publish}
    (hp : r.publish? = some p)
    (hbad : (∀ t, ¬ WellFormed cfg pr a p t) ∨ cfg.maxPacketSizeServer < r.size) :
    r.refused pr := by
  obtain ⟨n, r0, st, hq, hal⟩ := at_step hrun hsplit (received_of_publish? hp)
  apply refused_of_fail st
  have hh := st.handled
  rw [size_of_step st] at hbad
  cases pr with
  | v3 =>
    left
    refine ⟨rfl, ?_⟩
    simp only [handlePacket, handlePacketV3] at hh
    by_cases hn : n > cfg.maxPacketSizeServer
    · rw [if_pos hn] at hh
      cases hh; rfl
    · rw [if_neg hn] at hh
      have hbad : ∀ t, ¬ WellFormed cfg .v3 a p t := hbad.resolve_right hn
      simp only [handlePublishV3] at hh
      by_cases h1 : p.topic = []
      · rw [if_pos h1] at hh; cases hh; rfl
      · rw [if_neg h1] at hh
        by_cases h2 : p.topic.head? = some '$'
        · rw [if_pos h2] at hh; cases hh; rfl
        · rw [if_neg h2] at hh
          by_cases h3 : p.qosPid = .level0 ∧ p.dup = true
          · rw [if_pos h3] at hh; cases hh; rfl
          · exfalso
            refine hbad p.topic ⟨by simp [topicOf, h1], h2, ?_, by simp⟩
            intro h0
            cases hd : p.dup with
            | false => rfl
            | true => exact absurd ⟨h0, hd⟩ h3
  | v5 =>
    right
    refine ⟨rfl, ?_⟩
    simp only [handlePacket, handlePacketV5] at hh
    by_cases hn : n > cfg.maxPacketSizeServer
    · rw [if_pos hn] at hh
      cases hh; exact ⟨_, _, rfl⟩
    · rw [if_neg hn] at hh
      have hbad : ∀ t, ¬ WellFormed cfg .v5 a p t := hbad.resolve_right hn
      simp only [handlePublishV5] at hh
      by_cases h2 : p.topic.head? = some '$'
      · rw [if_pos h2] at hh; cases hh; exact ⟨_, _, rfl⟩
      · rw [if_neg h2] at hh
        by_cases h3 : p.qosPid = .level0 ∧ p.dup = true
        · rw [if_pos h3] at hh; cases hh; exact ⟨_, _, rfl⟩
        · rw [if_neg h3] at hh
          cases hres : resolveAlias cfg r.pre.session p with
          | error code => rw [hres] at hh; cases hh; exact ⟨_, _, rfl⟩
          | ok st1 =>
            obtain ⟨s1, t⟩ := st1
            rw [hres] at hh
            simp only at hh
            by_cases h4 : p.props.subscriptionIds ≠ []
            · rw [if_pos h4] at hh; cases hh; exact ⟨_, _, rfl⟩
            · exfalso
              refine hbad t ⟨(resolve_iff (hal rfl) p t).mpr ⟨s1, hres⟩, h2, ?_, fun _ => by simpa using h4⟩
              intro h0
              cases hd : p.dup with
              | false => rfl
              | true => exact absurd ⟨h0, hd⟩ h3

/-- **C60, acceptance.**  A PUBLISH that MQTT allows, that is not too large and that begins a new
message is passed on as the client sent it, under its topic, exactly once. -/
theorem C60_accepted {cfg : Config} {ext : Ext} {pr : Proto} {identifier : Str} {id : ClientId}
    {cp : ConnParams} {evs : List (Env × Global × SessEv)} {recs : List Rec}
    (hrun : ({ session := Session.start cfg pr identifier id cp } : Peer).run cfg ext pr evs =
      some recs) {a c : List Rec} {r : Rec} (hsplit : recs = a ++ r :: c) {p : Publish}
    (hp : r.publish? = some p) {t : Str} (hwf : WellFormed cfg pr a p t)
    (hsize : r.size ≤ cfg.maxPacketSizeServer) (hbeg : BeginsMessage cfg pr a p) :
    r.res.routed = [p.message ext pr t] := by
  obtain ⟨n, r0, st, hq, hal⟩ := at_step hrun hsplit (received_of_publish? hp)
  rw [st.routed]
  have hh := st.handled
  rw [size_of_step st] at hsize
  have h3 : ¬ (p.qosPid = .level0 ∧ p.dup = true) := by
    rintro ⟨h0, hd⟩
    rw [hwf.dup h0] at hd; cases hd
  have hdup : ¬ (p.dup = true ∧ p.qosPid.qos = 2) := by
    rintro ⟨hd, h2⟩
    cases hl : p.qosPid with
    | level0 => exact h3 ⟨hl, hd⟩
    | level1 pid => rw [hl] at h2; exact absurd h2 (qos_level1_ne pid)
    | level2 pid => rw [(hbeg pid hl).1] at hd; cases hd
  have hkey : ∀ pid, p.qosPid = .level2 pid → r.pre.session.qos2.get pid = none := by
    intro pid hl
    rw [FMap.get_eq_none_iff, hq]
    exact (hbeg pid hl).2.1
  cases pr with
  | v3 =>
    simp only [handlePacket, handlePacketV3] at hh
    rw [if_neg (by omega)] at hh
    have ht : p.topic ≠ [] ∧ t = p.topic := by
      have := hwf.topic
      simp only [topicOf] at this
      by_cases h1 : p.topic = []
      · simp [h1] at this
      · simp [h1] at this
        exact ⟨h1, this.symm⟩
    simp only [handlePublishV3] at hh
    rw [if_neg ht.1, if_neg hwf.notReserved, if_neg h3] at hh
    have hc : ∃ s, checkQos2V3 ext r.pre.session p = some s := by
      unfold checkQos2V3
      cases hl : p.qosPid with
      | level0 => exact ⟨_, rfl⟩
      | level1 => exact ⟨_, rfl⟩
      | level2 pid => simp [hkey pid hl]
    obtain ⟨s, hc⟩ := hc
    rw [hc] at hh
    simp only at hh
    rw [if_neg hdup] at hh
    split at hh
    · cases hh
    · cases hh
      rw [ht.2]; rfl
  | v5 =>
    simp only [handlePacket, handlePacketV5] at hh
    rw [if_neg (by omega)] at hh
    obtain ⟨s1, hres⟩ := (resolve_iff (hal rfl) p t).mp hwf.topic
    simp only [handlePublishV5] at hh
    rw [if_neg hwf.notReserved, if_neg h3, hres] at hh
    simp only at hh
    rw [if_neg (by simpa using hwf.noIds rfl)] at hh
    have hq1 : s1.qos2 = r.pre.session.qos2 := by
      rw [resolveAlias_ident hres]
    have hc : ∃ s, checkQos2V5 cfg ext s1 p = .proceed s := by
      unfold checkQos2V5
      cases hl : p.qosPid with
      | level0 => exact ⟨_, rfl⟩
      | level1 => exact ⟨_, rfl⟩
      | level2 pid =>
        have hlen := (hbeg pid hl).2.2 rfl
        rw [← hq] at hlen
        simp only [FMap.keys, List.length_map] at hlen
        simp only [hq1, hkey pid hl]
        rw [if_neg (by omega)]
        exact ⟨_, rfl⟩
    obtain ⟨s, hc⟩ := hc
    rw [hc] at hh
    simp only at hh
    rw [if_neg hdup] at hh
    split at hh
    · cases hh
    · cases hh; rfl

/-- **C60, nothing else.**  A message passed on belongs to a PUBLISH received in the same step that
is allowed, small enough and begins a new message. -/
theorem C60_only {cfg : Config} {ext : Ext} {pr : Proto} {identifier : Str} {id : ClientId}
    {cp : ConnParams} {evs : List (Env × Global × SessEv)} {recs : List Rec}
    (hrun : ({ session := Session.start cfg pr identifier id cp } : Peer).run cfg ext pr evs =
      some recs) {a c : List Rec} {r : Rec} (hsplit : recs = a ++ r :: c)
    (hr : r.res.routed ≠ []) :
    ∃ p t, r.publish? = some p ∧ WellFormed cfg pr a p t ∧ r.size ≤ cfg.maxPacketSizeServer ∧
      BeginsMessage cfg pr a p ∧ r.res.routed = [p.message ext pr t] := by
  cases hp : r.publish? with
  | none =>
    exfalso
    apply hr
    have h := isRun_of_run hrun
    rw [hsplit, isRun_append] at h
    obtain ⟨hA, hpre, hst, _⟩ := h
    rw [← hpre] at hst
    cases hrec : r.received with
    | none => exact (step_idle hst hrec).1
    | some pkt =>
      obtain ⟨n, r0, st⟩ := step_received hst hrec
      rw [st.routed]
      refine (handle_other ?_ st.handled).1
      rintro p rfl
      rw [publish?_of hrec] at hp; cases hp
  | some p =>
    have hbad : ¬ ((∀ t, ¬ WellFormed cfg pr a p t) ∨ cfg.maxPacketSizeServer < r.size) :=
      fun hb => hr (C60_refused hrun hsplit hp hb).1
    simp only [not_or, Nat.not_lt, Classical.not_forall, Classical.not_not] at hbad
    obtain ⟨⟨t, hwf⟩, hsize⟩ := hbad
    have hbeg : BeginsMessage cfg pr a p := by
      intro pid hl
      obtain ⟨n, r0, st, hq, hal⟩ := at_step hrun hsplit (received_of_publish? hp)
      rw [← hq]
      rw [st.routed] at hr
      have hc := handle_publish_cases st.handled
      clear st
      cases hc with
      | rejectV5 hpr s' hs' code => exact absurd rfl hr
      | rejectV3 hpr => exact absurd rfl hr
      | inUse hpr s1 topic pid' prev hres hl hg hne => exact absurd rfl hr
      | repeated s1 topic pid' hres hl hd hg => exact absurd rfl hr
      | lostFirst s1 topic pid' hres hl hd hg hlen => exact absurd rfl hr
      | route2 s1 topic pid' s' g' n hres hl' hd hg hlen hsend =>
        rw [hl] at hl'
        cases hl'
        exact ⟨hd, (FMap.get_eq_none_iff _ _).mp hg, by simpa [FMap.keys] using hlen⟩
      | route01 s1 topic s' g' n hres hl' hsend =>
        rw [hl] at hl'
        exact absurd rfl hl'
    exact ⟨p, t, rfl, hwf, hsize, hbeg, C60_accepted hrun hsplit hp hwf hsize hbeg⟩

/-- A QoS 0 PUBLISH with the DUP flag. -/
def exDup0 (topic : String) : InPkt :=
  .publish { dup := true, qosPid := .level0, retain := false, topic := str topic, payload := [1] }

/-- A message is accepted; DUP on QoS 0 is refused in both protocols. -/
example : ((exPeer .v3).run {} exExt .v3 [exPkt (exPub2 "a" 1 false [1]), exPkt (exDup0 "a")]).map
      (fun recs => recs.map fun r => (r.res.routed.map (·.topic), r.res.out, r.post.online)) =
    some [([str "a"], [.pubrec 1 .success], true), ([], [], false)] ∧
    ((exPeer .v5).run {} exExt .v5 [exPkt (exPub2 "a" 1 false [1]), exPkt (exDup0 "a")]).map
      (fun recs => recs.map fun r => (r.res.routed.map (·.topic), r.res.out)) =
    some [([str "a"], [.pubrec 1 .noMatchingSubscribers]), ([], [.disconnect .protocolError])] := by
  decide

/-! ## C06 for publishers -/

/-- **C06, through a client.**  The messages that packets of a client add to the history of the
retained store are exactly the messages passed on with the RETAIN flag, under the name of the
client; every other step (messages without the flag, refused packets, all other packets) leaves the
store as it is. -/
theorem C06_by_publish {cfg : Config} {ext : Ext} {pr : Proto} {identifier : Str} {id : ClientId}
    {cp : ConnParams} {evs : List (Env × Global × SessEv)} {recs : List Rec}
    (hrun : ({ session := Session.start cfg pr identifier id cp } : Peer).run cfg ext pr evs =
      some recs) {a c : List Rec} {r : Rec} (hsplit : recs = a ++ r :: c) :
    (∀ m, r.res.routed = [m] → m.retain = true →
      r.res.global.retain = r.before.retain.run [m.toRetain pr r.pre.session.identifier]) ∧
    ((∀ m ∈ r.res.routed, m.retain = false) → r.res.global.retain = r.before.retain) := by
  have h := isRun_of_run hrun
  rw [hsplit, isRun_append] at h
  obtain ⟨hA, hpre, hst, _⟩ := h
  rw [← hpre] at hst
  have hret := step_retain hst
  constructor
  · intro m hm hf
    rw [hret, hm]
    simp [hf]
  · intro hm
    rw [hret, List.filter_eq_nil_iff.mpr (fun x hx => by simp [hm x hx])]
    rfl

/-- With the flag the message is stored, without it the store keeps the old message. -/
example : ((exPeer .v5).run {} exExt .v5 [exPkt (exAlias "a" none true)]).map (fun recs =>
      recs.map fun r => (r.res.global.retain.getMatches (str "a")).map (·.map (·.payload))) =
      some [some [[1]]] ∧
    ((exPeer .v5).run {} exExt .v5 [exPkt (exAlias "a" none false)]).map (fun recs =>
      recs.map fun r => (r.res.global.retain.getMatches (str "a")).map (·.map (·.payload))) =
      some [some []] := by decide +kernel

/-! ## C54 -/

/-- **C54, refusal.**  Any packet larger than the limit announced by the broker ends the connection
and has no other effect: in MQTT 5 with DISCONNECT "packet too large", in MQTT 3 silently.  Nothing
else of the session changes. -/
theorem C54_too_large {cfg : Config} {ext : Ext} {pr : Proto} {p : Peer}
    {evs : List (Env × Global × SessEv)} {recs : List Rec} (hrun : p.run cfg ext pr evs = some recs)
    {r : Rec} (hr : r ∈ recs) {pkt : InPkt} (hrec : r.received = some pkt)
    (hsize : cfg.maxPacketSizeServer < r.size) :
    r.res.routed = [] ∧ r.res.global = r.before ∧
    match pr with
    | .v3 => r.res.out = [] ∧ r.post = { r.pre with online := false }
    | .v5 => r.res.out = [.disconnect .packetTooLarge] ∧
        r.post = { r.pre with session := { r.pre.session with serverDisconnected := true } } := by
  obtain ⟨a, b, e⟩ := List.append_of_mem hr
  have h := isRun_of_run hrun
  rw [e, isRun_append] at h
  obtain ⟨_, hpre, hst, _⟩ := h
  rw [← hpre] at hst
  obtain ⟨after, n, hev, hon, hdis⟩ := received_ev hrec
  have hn : n > cfg.maxPacketSizeServer := by
    simpa [Rec.size, hev] using hsize
  rw [hev] at hst
  simp only [Peer.step, hon, hdis, Bool.not_false, Bool.and_self, if_true, onPacket] at hst
  cases pr with
  | v3 =>
    simp only [handlePacket, handlePacketV3, if_pos hn, failV3, if_true, Option.map_some,
      Option.some.injEq, Prod.mk.injEq] at hst
    obtain ⟨h1, h2⟩ := hst
    rw [← h1, ← h2]
    exact ⟨rfl, rfl, rfl, rfl⟩
  | v5 =>
    simp only [handlePacket, handlePacketV5, if_pos hn, failV5, Option.map_some, afterPacket,
      Session.disconnected, Bool.or_true, if_true, Bool.false_eq_true, if_false, Option.some.injEq,
      Prod.mk.injEq, List.append_nil] at hst
    obtain ⟨h1, h2⟩ := hst
    rw [← h1, ← h2]
    refine ⟨rfl, rfl, rfl, ?_⟩
    cases hpp : r.pre
    rw [hpp] at hon
    simp only at hon ⊢
    simp [hon]

/-- **C54, otherwise.**  The size of a packet that respects the limit makes no difference to what
the broker does with it. -/
theorem C54_within_limit (cfg : Config) (ext : Ext) (pr : Proto) (p : Peer) (env : Env) (g : Global)
    (after : Clock) (n n' : Nat) (pkt : InPkt) (hn : n ≤ cfg.maxPacketSizeServer)
    (hn' : n' ≤ cfg.maxPacketSizeServer) :
    p.step cfg ext pr env g (.packet after n pkt) = p.step cfg ext pr env g (.packet after n' pkt) := by
  have h1 : ¬ n > cfg.maxPacketSizeServer := by omega
  have h2 : ¬ n' > cfg.maxPacketSizeServer := by omega
  simp only [Peer.step, onPacket]
  cases pr <;> simp only [handlePacket, handlePacketV3, handlePacketV5, if_neg h1, if_neg h2]

/-- The limit is inclusive. -/
example : ((exPeer .v5).run { maxPacketSizeServer := 9 } exExt .v5 [exPkt .pingreq]).map
      (fun recs => recs.map (·.res.out)) = some [[.disconnect .packetTooLarge]] ∧
    ((exPeer .v5).run { maxPacketSizeServer := 10 } exExt .v5 [exPkt .pingreq]).map
      (fun recs => recs.map (·.res.out)) = some [[.pingresp]] := by decide

end Akasa

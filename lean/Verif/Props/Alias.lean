import Verif.Proof.Alias
import Verif.Props.IncomingTopic
/-!
# Outgoing topic aliases (C24)
-/
namespace Akasa

theorem start_ok (cfg : Config) (identifier : Str) (id : ClientId) (cp : ConnParams) :
    PeerOk [] { session := Session.start cfg .v5 identifier id cp } :=
  ⟨[], ⟨rfl, AInv.empty _, by intro p hp; cases hp⟩, fun _ => rfl⟩

/-- **C24, decoding.**  A client that follows the rules for topic aliases understands the packets of
every connection of an MQTT 5 session: it reads exactly the packets that the same session would
have sent to a client that does not want aliases, each with its full topic name.  For every sequence
of packets, messages, disconnects and reconnects; messages that enter the session have a topic name
and carry no alias (`C24_source`). -/
theorem C24_decodes {cfg : Config} {ext : Ext} {identifier : Str} {id : ClientId}
    {cp : ConnParams} {evs : List (Env × Global × SessEv)} {recs : List Rec}
    (hrun : ({ session := Session.start cfg .v5 identifier id cp } : Peer).run cfg ext .v5 evs =
      some recs) (hnamed : ∀ e ∈ evs, EvWellNamed e) :
    ∃ recs0, ({ session := Session.start cfg .v5 identifier id cp.noAlias } : Peer).run cfg ext .v5
        (evs.map fun e => (e.1, e.2.1, e.2.2.noAlias)) = some recs0 ∧
      clientView [] recs = some (recs0.map (·.res.out)) := by
  obtain ⟨recs0, h1, h2, _⟩ := sim_run (start_ok cfg identifier id cp) hnamed hrun
  exact ⟨recs0, h1, h2⟩

/-- **C24, range.**  Every alias sent is between 1 and the maximum announced for the connection, and
no more than that many aliases are remembered. -/
theorem C24_alias_in_range {cfg : Config} {ext : Ext} {identifier : Str} {id : ClientId}
    {cp : ConnParams} {evs : List (Env × Global × SessEv)} {recs : List Rec}
    (hrun : ({ session := Session.start cfg .v5 identifier id cp } : Peer).run cfg ext .v5 evs =
      some recs) (hnamed : ∀ e ∈ evs, EvWellNamed e) {r : Rec} (hr : r ∈ recs) :
    (∀ p alias, .publish p ∈ r.res.out → p.props.topicAlias = some alias →
      1 ≤ alias ∧ alias ≤ r.post.session.aliasMax) ∧
    r.post.session.outAliases.byAlias.length ≤ r.post.session.aliasMax := by
  obtain ⟨_, _, _, h⟩ := sim_run (start_ok cfg identifier id cp) hnamed hrun
  exact h r hr

theorem boundTopic_ne {recs : List Rec} {alias : Nat} {t : Str}
    (h : boundTopic recs alias = some t) : t ≠ [] := by
  unfold boundTopic at h
  suffices ∀ (l : List Rec) (b : Option Str), (∀ t, b = some t → t ≠ []) → ∀ t,
      l.foldl (fun b r =>
        match r.ev with
        | .resume _ => none
        | _ =>
          match r.publish? with
          | some p => if p.props.topicAlias = some alias ∧ p.topic ≠ [] then some p.topic else b
          | none => b) b = some t → t ≠ [] from this recs none (by simp) t h
  intro l
  induction l with
  | nil => intro b hb t ht; exact hb t ht
  | cons r l ih =>
    intro b hb t ht
    refine ih _ ?_ t ht
    intro t' ht'
    dsimp only at ht'
    split at ht'
    · cases ht'
    · split at ht'
      · split at ht'
        · rename_i hc; cases ht'; exact hc.2
        · exact hb _ ht'
      · exact hb _ ht'

/-- Where a message handed to routing comes from. -/
theorem routed_cases {cfg : Config} {ext : Ext} {pr : Proto} {r : Rec}
    (hs : r.pre.step cfg ext pr r.env r.before r.ev = some (r.post, r.res)) :
    r.res.routed = [] ∨ ∃ p s1 topic s2 s' g' n, r.publish? = some p ∧
      Resolved cfg pr r.pre.session p s1 topic ∧
      r.res.routed = [toSend ext pr p topic] ∧
      s2.core = { s1 with qos2 := s2.qos2 }.core ∧ s2.sender = s1.sender ∧
      sendOf pr r.env r.before s2 (toSend ext pr p topic) = some (s', g', n) ∧
      r.res.global = g' := by
  cases hr : r.received with
  | none => exact .inl (step_idle hs hr).1
  | some pkt =>
    obtain ⟨n, r0, st⟩ := step_received hs hr
    rw [st.routed, st.glob]
    by_cases hpub : ∃ p, pkt = .publish p
    · obtain ⟨p, rfl⟩ := hpub
      have hp := publish?_of hr
      have hc := handle_publish_cases st.handled
      cases hc with
      | rejectV5 hpr s' hs' code => exact .inl rfl
      | rejectV3 hpr => exact .inl rfl
      | inUse hpr s1 topic pid prev hres hl hg hne => exact .inl rfl
      | repeated s1 topic pid hres hl hd hg => exact .inl rfl
      | lostFirst s1 topic pid hres hl hd hg hlen => exact .inl rfl
      | route2 s1 topic pid s' g' n hres hl hd hg hlen hsend =>
        exact .inr ⟨p, s1, topic, { s1 with qos2 := r.pre.session.qos2.insert pid (ext.hash p) },
          s', g', n, hp, hres, rfl, rfl, rfl, hsend, rfl⟩
      | route01 s1 topic s' g' n hres hl hsend =>
        exact .inr ⟨p, s1, topic, _, s', g', n, hp, hres, rfl, rfl, rfl, hsend, rfl⟩
    · exact .inl (handle_other (fun p h => hpub ⟨p, h⟩) st.handled).1

/-- **C24, source.**  Every message that a session hands to routing has a topic name and carries no
alias: the copies for other sessions and the retained messages are as `C24_decodes` assumes. -/
theorem C24_source {cfg : Config} {ext : Ext} {pr : Proto} {identifier : Str} {id : ClientId}
    {cp : ConnParams} {evs : List (Env × Global × SessEv)} {recs : List Rec}
    (hrun : ({ session := Session.start cfg pr identifier id cp } : Peer).run cfg ext pr evs =
      some recs) {r : Rec} (hr : r ∈ recs) {m : SendPub} (hm : m ∈ r.res.routed) :
    WellNamed m.topic m.props := by
  obtain ⟨a, c, hsplit⟩ := List.append_of_mem hr
  have h := isRun_of_run hrun
  rw [hsplit, isRun_append] at h
  obtain ⟨hA, hpre, hst, _⟩ := h
  rw [← hpre] at hst
  rcases routed_cases hst with h | ⟨p, s1, topic, s2, s', g', n, hp, hres, hrt, _⟩
  · rw [h] at hm; cases hm
  · have hm' := hm
    rw [hrt, List.mem_singleton] at hm'
    subst hm'
    cases pr with
    | v3 =>
      obtain ⟨_, _, h1, h2⟩ := hres
      exact ⟨by rw [toSend_topic, h1]; exact h2, rfl⟩
    | v5 =>
      refine ⟨?_, rfl⟩
      rcases C23_alias_resolves hrun hsplit hp hm with ⟨h1, h2⟩ | ⟨_, al, _, _, _, h3⟩
      · rw [h2]; exact h1
      · exact boundTopic_ne h3

/-- Two messages on one topic, one on another (which takes over the only alias), and the first topic
again; then a reconnect. -/
def exAliasEvs : List (Env × Global × SessEv) :=
  let msg := fun (t : String) (q : QoS) =>
    (({ clk := fun _ => Clock.const 100 } : Env), exGlobal,
      SessEv.normal (.publishV5 false q (str t) [1] [str "#"] q {} 10))
  [exPkt (.subscribe 1 [(str "#", { maxQos := 1 })] none), msg "a/b" 0, msg "a/b" 1, msg "c" 0,
   msg "a/b" 0, ({ clk := fun _ => Clock.const 200 }, exGlobal, .resume { aliasMax := 1 }),
   msg "c" 0]

theorem exAliasEvs_named : ∀ e ∈ exAliasEvs, EvWellNamed e := by
  have hret : ∀ f cs, exGlobal.retain.getMatches f = some cs → ∀ c ∈ cs,
      WellNamed c.topic (c.props.getD {}) := by
    intro f cs h c hc
    exfalso
    change RetainNode.new.getMatches _ _ _ = some cs at h
    unfold RetainNode.getMatches at h
    split at h
    · split at h
      · cases h
      · cases h; cases hc
    · split at h
      · split at h
        · cases h; cases hc
        · cases h; cases hc
      · have hn : ∀ k, FMap.get RetainNode.new.nodes k = none := fun _ => rfl
        rw [hn] at h
        cases h; cases hc
  intro e he
  refine ⟨?_, ?_⟩
  · have : e.2.1.retain = exGlobal.retain := by
      simp only [exAliasEvs, List.mem_cons, List.not_mem_nil, or_false] at he
      rcases he with rfl | rfl | rfl | rfl | rfl | rfl | rfl <;> rfl
    rw [this]; exact hret
  · simp only [exAliasEvs, List.mem_cons, List.not_mem_nil, or_false] at he
    rcases he with rfl | rfl | rfl | rfl | rfl | rfl | rfl <;> intro m hm <;>
      rcases hm with hm | hm <;> cases hm <;> exact ⟨by decide, rfl⟩

/-- The topics and aliases on the wire, and what the client reads. -/
example : (({ session := Session.start {} .v5 (str "me") 7 { aliasMax := 1 } } : Peer).run {} exExt
      .v5 exAliasEvs).map (fun recs =>
      (recs.flatMap fun r => r.res.out.filterMap fun o => match o with
        | .publish p => some (p.topic, p.props.topicAlias)
        | _ => none,
       (clientView [] recs).map fun v => v.flatMap fun out => out.filterMap fun o => match o with
        | .publish p => some (p.topic, p.props.topicAlias)
        | _ => none)) =
    some ([(str "a/b", some 1), ([], some 1), (str "c", some 1), (str "a/b", some 1),
           (str "a/b", none), (str "c", some 1)],
      some [(str "a/b", none), (str "a/b", none), (str "c", none), (str "a/b", none),
            (str "a/b", none), (str "c", none)]) := by decide

end Akasa

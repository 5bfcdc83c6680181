import Verif.Props.Incoming
/-!
# Topics of received messages (C22, C23) and acknowledgements (C25)
-/
namespace Akasa

section
variable {cfg : Config} {ext : Ext} {pr : Proto}

/-- No recorded alias stands for a '$' topic. -/
def AliasOk (s : Session) : Prop := ∀ a t, s.aliases.get a = some t → t.head? ≠ some '$'

theorem aliasOk_resolved {s s1 : Session} {p : Publish} {t : Str} (h : Resolved cfg pr s p s1 t)
    (hs : AliasOk s) : AliasOk s1 := by
  cases pr
  · obtain ⟨_, rfl, _⟩ := h; exact hs
  · intro a t' ha
    rw [resolved_aliases h] at ha
    split at ha
    · cases ha; exact h.1
    · exact hs a t' ha

theorem aliasOk_core {a b : Session} (h : a.core = b.core) (hb : AliasOk b) : AliasOk a := by
  intro x t hx
  rw [ident_aliases (ident_of_core h)] at hx
  exact hb x t hx

theorem resolved_not_dollar {s s1 : Session} {p : Publish} {t : Str}
    (h : Resolved cfg pr s p s1 t) (hs : AliasOk s) : t.head? ≠ some '$' := by
  rcases resolved_topic h with ⟨_, h, hd⟩ | ⟨_, _, _, a, _, _, _, ha⟩
  · rw [h]; exact hd
  · exact hs a t ha

theorem toSend_topic (p : Publish) (t : Str) : (toSend ext pr p t).topic = t := by
  cases pr <;> rfl

/-- One step: the topics passed on and the aliases recorded do not begin with '$'. -/
theorem step_not_dollar {r : Rec}
    (hs : r.pre.step cfg ext pr r.env r.before r.ev = some (r.post, r.res))
    (ha : AliasOk r.pre.session) :
    AliasOk r.post.session ∧ ∀ m ∈ r.res.routed, m.topic.head? ≠ some '$' := by
  cases hr : r.received with
  | none =>
    obtain ⟨h1, _, _, _, h5⟩ := step_idle hs hr
    rw [h1]
    refine ⟨?_, by simp⟩
    by_cases hres : ∃ c, r.ev = .resume c
    · obtain ⟨c, hc⟩ := hres
      rw [hc] at hs
      simp only [Peer.step, Option.some.injEq, Prod.mk.injEq] at hs
      rw [← hs.1]
      apply aliasOk_core (core_pendings ..)
      intro a t h
      rw [resume_aliases] at h; cases h
    · exact aliasOk_core (h5 (fun c hc => hres ⟨c, hc⟩)).1 ha
  | some pkt =>
    obtain ⟨n, r0, st⟩ := step_received hs hr
    rw [st.routed]
    suffices AliasOk r0.session ∧ ∀ m ∈ r0.routed, m.topic.head? ≠ some '$' from
      ⟨aliasOk_core st.core this.1, this.2⟩
    by_cases hpub : ∃ p, pkt = .publish p
    · obtain ⟨p, rfl⟩ := hpub
      have hc := handle_publish_cases st.handled
      clear st hr hs
      cases hc with
      | rejectV5 hpr s' hs' code =>
        refine ⟨?_, by simp [failV5]⟩
        rcases hs' with rfl | ⟨t, h⟩
        · exact ha
        · exact fun a t hx => aliasOk_resolved h ha a t hx
      | rejectV3 hpr => exact ⟨ha, by simp [failV3]⟩
      | inUse hpr s1 topic pid prev hres hl hg hne => exact ⟨fun a t hx => aliasOk_resolved hres ha a t hx, by simp⟩
      | repeated s1 topic pid hres hl hd hg => exact ⟨fun a t hx => aliasOk_resolved hres ha a t hx, by simp⟩
      | lostFirst s1 topic pid hres hl hd hg hlen => exact ⟨fun a t hx => aliasOk_resolved hres ha a t hx, by simp⟩
      | route2 s1 topic pid s' g' n hres hl hd hg hlen hsend =>
        refine ⟨aliasOk_core (core_sendOf hsend)
          (fun a t hx => aliasOk_resolved hres ha a t hx), ?_⟩
        intro m hm; simp at hm; subst hm
        rw [toSend_topic]; exact resolved_not_dollar hres ha
      | route01 s1 topic s' g' n hres hl hsend =>
        refine ⟨aliasOk_core (core_sendOf hsend)
          (fun a t hx => aliasOk_resolved hres ha a t hx), ?_⟩
        intro m hm; simp at hm; subst hm
        rw [toSend_topic]; exact resolved_not_dollar hres ha
    · obtain ⟨h1, _, _, h4⟩ := handle_other (fun p h => hpub ⟨p, h⟩) st.handled
      refine ⟨?_, by rw [h1]; simp⟩
      intro a t h
      rw [h4] at h
      exact ha a t h

theorem run_not_dollar {p : Peer} {l : List Rec} (hrun : IsRun cfg ext pr p l)
    (ha : AliasOk p.session) : ∀ r ∈ l, ∀ m ∈ r.res.routed, m.topic.head? ≠ some '$' := by
  induction l generalizing p with
  | nil => simp
  | cons r rs ih =>
    obtain ⟨hpre, hst, hrest⟩ := hrun
    subst hpre
    obtain ⟨h1, h2⟩ := step_not_dollar hst ha
    intro x hx
    rcases List.mem_cons.mp hx with rfl | h
    · exact h2
    · exact ih hrest h1 x h

theorem sendOf_retain {env : Env} {g : Global} {s : Session} {m : SendPub} {s' : Session}
    {g' : Global} {n : Nat} (h : sendOf pr env g s m = some (s', g', n)) :
    g'.retain = g.retain.run (([m].filter (·.retain)).map (·.toRetain pr s.identifier)) ∧
      g'.route = g.route ∧ g'.registered = g.registered := by
  have key : ∀ props, storeRetained s g.retain m props = g.retain.run
      (([m].filter (·.retain)).map fun m => { m.toRetain pr s.identifier with props }) := by
    intro props
    unfold storeRetained
    cases hm : m.retain
    · simp [hm, RetainTable.run]
    · simp [hm, RetainTable.run]; rfl
  cases pr
  · simp only [sendOf, Option.map_eq_some_iff] at h
    obtain ⟨⟨a, b⟩, h1, h2⟩ := h
    unfold sendPublishV3 at h1
    simp only at h1
    split at h1
    · cases h1
    · simp only [Option.some.injEq, Prod.mk.injEq] at h1 h2
      rw [← h2.2.1, ← h1.2]
      refine ⟨(key _).trans ?_, rfl, rfl⟩
      cases hm : m.retain <;> simp [hm, SendPub.toRetain]
  · unfold sendOf sendPublishV5 at h
    simp only at h
    split at h
    · cases h
    · simp only [Option.some.injEq, Prod.mk.injEq] at h
      rw [← h.2.1]
      refine ⟨(key _).trans ?_, rfl, rfl⟩
      cases hm : m.retain <;> simp [hm, SendPub.toRetain]

/-- What a step does to the retained store. -/
theorem step_retain {r : Rec}
    (hs : r.pre.step cfg ext pr r.env r.before r.ev = some (r.post, r.res)) :
    r.res.global.retain = r.before.retain.run
      ((r.res.routed.filter (·.retain)).map (·.toRetain pr r.pre.session.identifier)) := by
  cases hr : r.received with
  | none =>
    obtain ⟨h1, h2, _⟩ := step_idle hs hr
    rw [h1, h2]; rfl
  | some pkt =>
    obtain ⟨n, r0, st⟩ := step_received hs hr
    rw [st.routed, st.glob]
    by_cases hpub : ∃ p, pkt = .publish p
    · obtain ⟨p, rfl⟩ := hpub
      have hc := handle_publish_cases st.handled
      clear st hr hs
      cases hc with
      | rejectV5 hpr s' hs' code => rfl
      | rejectV3 hpr => rfl
      | inUse hpr s1 topic pid prev hres hl hg hne => rfl
      | repeated s1 topic pid hres hl hd hg => rfl
      | lostFirst s1 topic pid hres hl hd hg hlen => rfl
      | route2 s1 topic pid s' g' n hres hl hd hg hlen hsend =>
        have := (sendOf_retain hsend).1
        have e : s1.identifier = r.pre.session.identifier := by rw [resolved_ident hres]
        simp only [e] at this
        exact this
      | route01 s1 topic s' g' n hres hl hsend =>
        have := (sendOf_retain hsend).1
        have e : s1.identifier = r.pre.session.identifier := by rw [resolved_ident hres]
        rw [e] at this
        exact this
    · obtain ⟨h1, h2, _⟩ := handle_other (fun p h => hpub ⟨p, h⟩) st.handled
      rw [h1, h2]; rfl

end

/-! ## C22 -/

/-- **C22 (PUBLISH packets).**  Nothing a client publishes, directly or by a topic alias, is handed
to routing under a topic that begins with '$'. -/
theorem C22_no_dollar_publish {cfg : Config} {ext : Ext} {pr : Proto} {identifier : Str}
    {id : ClientId} {cp : ConnParams} {evs : List (Env × Global × SessEv)} {recs : List Rec}
    (hrun : ({ session := Session.start cfg pr identifier id cp } : Peer).run cfg ext pr evs =
      some recs) {r : Rec} (hr : r ∈ recs) {m : SendPub} (hm : m ∈ r.res.routed) :
    m.topic.head? ≠ some '$' := by
  refine run_not_dollar (isRun_of_run hrun) ?_ r hr m hm
  intro a t h
  have h : (Session.start cfg pr identifier id cp).aliases.get a = some t := h
  rw [start_aliases] at h; cases h

/-- **C22 (retained store).**  No packet a client sends changes the retained message of a topic that
begins with '$'. -/
theorem C22_no_dollar_retained {cfg : Config} {ext : Ext} {pr : Proto} {identifier : Str}
    {id : ClientId} {cp : ConnParams} {evs : List (Env × Global × SessEv)} {recs : List Rec}
    (hrun : ({ session := Session.start cfg pr identifier id cp } : Peer).run cfg ext pr evs =
      some recs) {r : Rec} (hr : r ∈ recs) {h : List RetainContent}
    (hbefore : r.before.retain = RetainTable.empty.run h) {topic : Str}
    (hd : topic.head? = some '$') (hv : ValidTopic topic) :
    r.res.global.retain.getMatches topic = r.before.retain.getMatches topic := by
  obtain ⟨a, b, e⟩ := List.append_of_mem hr
  have hrun' := isRun_of_run hrun
  rw [e, isRun_append] at hrun'
  obtain ⟨_, hpre, hst, _⟩ := hrun'
  rw [← hpre] at hst
  have hret := step_retain hst
  have hall : ∀ m ∈ r.res.routed, m.topic.head? ≠ some '$' :=
    fun m hm => C22_no_dollar_publish hrun hr hm
  rw [hret, hbefore]
  generalize hl : (r.res.routed.filter (·.retain)).map (·.toRetain pr r.pre.session.identifier) = l
  have hl' : ∀ c ∈ l, c.topic ≠ topic := by
    intro c hc
    rw [← hl, List.mem_map] at hc
    obtain ⟨m, hm, rfl⟩ := hc
    intro he
    exact hall m (List.mem_filter.mp hm).1 (by
      have : m.topic = topic := he
      rw [this]; exact hd)
  clear hl hret hbefore
  induction l generalizing h with
  | nil => rfl
  | cons c cs ih =>
    rw [show (RetainTable.empty.run h).run (c :: cs) = (RetainTable.empty.run (h ++ [c])).run cs by
      simp [RetainTable.run]]
    rw [ih (fun x hx => hl' x (by simp [hx])), C06_other_topics _ _ hv (hl' c (by simp))]

/-- A PUBLISH with an alias. -/
def exAlias (topic : String) (alias : Option Nat) (retain : Bool) : InPkt :=
  .publish { dup := false, qosPid := .level0, retain, topic := str topic, payload := [1],
             props := { topicAlias := alias } }

/-- Ordinary topics are routed, '$' topics end the connection. -/
example : ((exPeer .v5).run {} exExt .v5
      [exPkt (exAlias "a" (some 3) true), exPkt (exAlias "" (some 3) false),
       exPkt (exAlias "$SYS/x" (some 3) true)]).map (fun recs =>
      (recs.map fun r => r.res.routed.map (·.topic), recs.map (·.res.out))) =
    some ([[str "a"], [str "a"], []], [[], [], [.disconnect .topicNameInvalid]]) := by decide

/-! ## C23 -/

section
variable {cfg : Config} {ext : Ext}

theorem boundTopic_snoc (l : List Rec) (r : Rec) (a : Nat) :
    boundTopic (l ++ [r]) a =
      match r.ev with
      | .resume _ => none
      | _ =>
        match r.publish? with
        | some p => if p.props.topicAlias = some a ∧ p.topic ≠ [] then some p.topic
            else boundTopic l a
        | none => boundTopic l a := by
  unfold boundTopic
  rw [List.foldl_append]; rfl

/-- While connected, the recorded aliases are the bound topics. -/
def AliasInv (p : Peer) (l : List Rec) : Prop :=
  p.online = true → p.session.disconnected = false → ∀ a, p.session.aliases.get a = boundTopic l a

theorem received_ev {r : Rec} {pkt : InPkt} (h : r.received = some pkt) :
    ∃ after n, r.ev = .packet after n pkt ∧ r.pre.online = true ∧
      r.pre.session.disconnected = false := by
  unfold Rec.received at h
  split at h
  · rename_i after n p hev
    split at h
    · rename_i hon
      cases h
      simp only [Bool.and_eq_true, Bool.not_eq_true'] at hon
      exact ⟨after, n, hev, hon⟩
    · cases h
  · cases h

theorem received_of_publish? {r : Rec} {p : Publish} (h : r.publish? = some p) :
    r.received = some (.publish p) := by
  unfold Rec.publish? at h
  split at h
  · cases h; assumption
  · cases h

theorem aliasInv_step {l : List Rec} {r : Rec}
    (hs : r.pre.step cfg ext .v5 r.env r.before r.ev = some (r.post, r.res))
    (ih : AliasInv r.pre l) : AliasInv r.post (l ++ [r]) := by
  intro hon hdis a
  rw [boundTopic_snoc]
  cases hr : r.received with
  | none =>
    obtain ⟨_, _, _, _, h5⟩ := step_idle hs hr
    have hp : r.publish? = none := by simp [Rec.publish?, hr]
    by_cases hres : ∃ c, r.ev = .resume c
    · obtain ⟨c, hc⟩ := hres
      rw [hc] at hs
      simp only [Peer.step, Option.some.injEq, Prod.mk.injEq] at hs
      rw [hc, ← hs.1]
      simp only
      rw [ident_aliases (ident_of_core (core_pendings ..)), resume_aliases]; rfl
    · have hne : ∀ c, r.ev ≠ .resume c := fun c hc => hres ⟨c, hc⟩
      obtain ⟨h6, h7⟩ := h5 hne
      rw [ident_aliases (ident_of_core h6), ih (h7 hon) (by rw [← ident_disc (ident_of_core h6)]; exact hdis), hp]
      split
      · rename_i c hc; exact absurd hc (hne c)
      · rfl
  | some pkt =>
    obtain ⟨n, r0, st⟩ := step_received hs hr
    obtain ⟨after, n', hev, hon', hdis'⟩ := received_ev hr
    have hali := ih hon' hdis' a
    rw [hev, ident_aliases (ident_of_core st.core)]
    simp only
    rw [ident_disc (ident_of_core st.core)] at hdis
    by_cases hpub : ∃ p, pkt = .publish p
    · obtain ⟨p, rfl⟩ := hpub
      rw [publish?_of hr, ← hali]
      simp only
      have hc := handle_publish_cases st.handled
      clear st hr hs hev hali
      cases hc with
      | rejectV5 hpr s' hs' code => simp [failV5, Session.disconnected] at hdis
      | rejectV3 hpr => cases hpr
      | inUse hpr s1 topic pid prev hres hl hg hne => exact resolved_aliases hres a
      | repeated s1 topic pid hres hl hd hg => exact resolved_aliases hres a
      | lostFirst s1 topic pid hres hl hd hg hlen => exact resolved_aliases hres a
      | route2 s1 topic pid s' g' n hres hl hd hg hlen hsend =>
        rw [ident_aliases (ident_of_core (core_sendOf hsend))]
        exact resolved_aliases hres a
      | route01 s1 topic s' g' n hres hl hsend =>
        rw [ident_aliases (ident_of_core (core_sendOf hsend))]
        exact resolved_aliases hres a
    · have hnp : ∀ p, pkt ≠ .publish p := fun p h => hpub ⟨p, h⟩
      obtain ⟨_, _, _, h4⟩ := handle_other hnp st.handled
      rw [h4, publish?_none hr hnp]
      exact hali

theorem aliasInv_run {p : Peer} (h0 : p.session.aliases = []) {l : List Rec}
    (hrun : IsRun cfg ext .v5 p l) : AliasInv (endOf p l) l := by
  induction l using snoc_induction with
  | nil =>
    intro _ _ a
    show p.session.aliases.get a = none
    rw [h0]; rfl
  | snoc l r ih =>
    rw [isRun_append] at hrun
    obtain ⟨hl, hpre, hst, _⟩ := hrun
    have := ih hl
    rw [← hpre] at this hst
    rw [endOf_append]
    exact aliasInv_step hst this

end

/-- **C23, resolution.**  A message of an MQTT 5 client is passed on under the topic of the packet
if it has one, and otherwise under the topic last bound, on the same connection, to the alias of
the packet, which lies between 1 and the advertised maximum. -/
theorem C23_alias_resolves {cfg : Config} {ext : Ext} {identifier : Str} {id : ClientId}
    {cp : ConnParams} {evs : List (Env × Global × SessEv)} {recs : List Rec}
    (hrun : ({ session := Session.start cfg .v5 identifier id cp } : Peer).run cfg ext .v5 evs =
      some recs) {a c : List Rec} {r : Rec} (hsplit : recs = a ++ r :: c) {p : Publish}
    (hp : r.publish? = some p) {m : SendPub} (hm : m ∈ r.res.routed) :
    (p.topic ≠ [] ∧ m.topic = p.topic) ∨
    (p.topic = [] ∧ ∃ alias, p.props.topicAlias = some alias ∧ 0 < alias ∧
      alias ≤ cfg.topicAliasMax ∧ boundTopic a alias = some m.topic) := by
  have h := isRun_of_run hrun
  rw [hsplit, isRun_append] at h
  obtain ⟨hA, hpre, hst, _⟩ := h
  have hinv := aliasInv_run (start_aliases cfg .v5 identifier id cp) hA
  rw [← hpre] at hst hinv
  have hrec := received_of_publish? hp
  obtain ⟨_, _, _, hon, hdis⟩ := received_ev hrec
  have hali := hinv hon hdis
  obtain ⟨n, r0, st⟩ := step_received hst hrec
  rw [st.routed] at hm
  have key : ∀ s1 topic, Resolved cfg .v5 r.pre.session p s1 topic → m.topic = topic →
      (p.topic ≠ [] ∧ m.topic = p.topic) ∨
      (p.topic = [] ∧ ∃ alias, p.props.topicAlias = some alias ∧ 0 < alias ∧
        alias ≤ cfg.topicAliasMax ∧ boundTopic a alias = some m.topic) := by
    intro s1 topic hres ht
    rcases resolved_topic hres with ⟨h1, h2, _⟩ | ⟨_, h1, _, x, h2, h3, h4, h5⟩
    · exact .inl ⟨h1, ht.trans h2⟩
    · exact .inr ⟨h1, x, h2, h3, h4, by rw [← hali, ht]; exact h5⟩
  have hc := handle_publish_cases st.handled
  clear st
  cases hc with
  | rejectV5 hpr s' hs' code => simp [failV5] at hm
  | rejectV3 hpr => cases hpr
  | inUse hpr s1 topic pid prev hres hl hg hne => simp at hm
  | repeated s1 topic pid hres hl hd hg => simp at hm
  | lostFirst s1 topic pid hres hl hd hg hlen => simp at hm
  | route2 s1 topic pid s' g' n hres hl hd hg hlen hsend =>
    simp at hm; exact key s1 topic hres (by rw [hm, toSend_topic])
  | route01 s1 topic s' g' n hres hl hsend =>
    simp at hm; exact key s1 topic hres (by rw [hm, toSend_topic])

/-- **C23, rejection.**  Alias 0, an alias above the advertised maximum, an alias without topic that
is not bound, and an empty topic without alias end the connection with a DISCONNECT and nothing is
passed on. -/
theorem C23_bad_alias_rejected {cfg : Config} {ext : Ext} {identifier : Str} {id : ClientId}
    {cp : ConnParams} {evs : List (Env × Global × SessEv)} {recs : List Rec}
    (hrun : ({ session := Session.start cfg .v5 identifier id cp } : Peer).run cfg ext .v5 evs =
      some recs) {a c : List Rec} {r : Rec} (hsplit : recs = a ++ r :: c) {p : Publish}
    (hp : r.publish? = some p)
    (hbad : (∃ x, p.props.topicAlias = some x ∧
        (x = 0 ∨ cfg.topicAliasMax < x ∨ (p.topic = [] ∧ boundTopic a x = none))) ∨
      (p.topic = [] ∧ p.props.topicAlias = none)) : r.rejects := by
  have h := isRun_of_run hrun
  rw [hsplit, isRun_append] at h
  obtain ⟨hA, hpre, hst, _⟩ := h
  have hinv := aliasInv_run (start_aliases cfg .v5 identifier id cp) hA
  rw [← hpre] at hst hinv
  have hrec := received_of_publish? hp
  obtain ⟨_, _, _, hon, hdis⟩ := received_ev hrec
  have hali := hinv hon hdis
  obtain ⟨n, r0, st⟩ := step_received hst hrec
  have hnot : ∀ s1 topic, ¬ Resolved cfg .v5 r.pre.session p s1 topic := by
    intro s1 topic hres
    have hr := hres.2
    simp only [resolveAlias] at hr
    rcases hbad with ⟨x, hx, hb⟩ | ⟨ht, hx⟩
    · rw [hx] at hr
      simp only at hr
      rcases hb with rfl | hb | ⟨ht, hb⟩
      · simp at hr
      · split at hr
        · cases hr
        · cases hr
      · rw [← hali] at hb
        split at hr
        · cases hr
        · split at hr
          · cases hr
          · rw [hb] at hr; cases hr
    · rw [hx] at hr
      simp [ht] at hr
  have hc := handle_publish_cases st.handled
  have h1 := st.routed
  have h2 := st.outFail
  have h3 := st.core
  cases hc with
  | rejectV5 hpr s' hs' code =>
    refine ⟨h1, ⟨code, h2 (.inr ⟨rfl, ?_⟩)⟩, ?_⟩
    · simp [failV5, Session.disconnected]
    · rw [ident_disc (ident_of_core h3)]; simp [failV5, Session.disconnected]
  | rejectV3 hpr => cases hpr
  | inUse hpr s1 topic pid prev hres hl hg hne => exact absurd hres (hnot _ _)
  | repeated s1 topic pid hres hl hd hg => exact absurd hres (hnot _ _)
  | lostFirst s1 topic pid hres hl hd hg hlen => exact absurd hres (hnot _ _)
  | route2 s1 topic pid s' g' n hres hl hd hg hlen hsend => exact absurd hres (hnot _ _)
  | route01 s1 topic s' g' n hres hl hsend => exact absurd hres (hnot _ _)

/-- Binding, use, rebinding, use, and a use after a reconnect, which is rejected. -/
example : ((exPeer .v5).run {} exExt .v5
      [exPkt (exAlias "a" (some 3) false), exPkt (exAlias "" (some 3) false),
       exPkt (exAlias "b" (some 3) false), exPkt (exAlias "" (some 3) false),
       exEv (.resume {}), exPkt (exAlias "" (some 3) false)]).map (fun recs =>
      (recs.map fun r => r.res.routed.map (·.topic), recs.map (·.res.out),
       boundTopic (recs.take 3) 3, boundTopic (recs.take 5) 3)) =
    some ([[str "a"], [str "a"], [str "b"], [str "b"], [], []],
      [[], [], [], [], [], [.disconnect .protocolError]], some (str "b"), none) := by decide

end Akasa

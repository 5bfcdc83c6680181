import Verif.Proof.Step
/-! Case analysis of the handling of a received packet. -/
namespace Akasa

/-- The topic under which a PUBLISH is passed on and the session after recording an alias. -/
def Resolved (cfg : Config) (pr : Proto) (s : Session) (p : Publish) (s1 : Session)
    (topic : Str) : Prop :=
  p.topic.head? ≠ some '$' ∧
  match pr with
  | .v5 => resolveAlias cfg s p = .ok (s1, topic)
  | .v3 => s1 = s ∧ topic = p.topic ∧ p.topic ≠ []

/-- The acknowledgement of a PUBLISH. -/
def replyOf (pr : Proto) (p : Publish) (n : Nat) : List OutPkt :=
  match pr with
  | .v5 => ackV5 p n
  | .v3 => ackV3 p

/-- The message handed to routing. -/
def toSend (ext : Ext) (pr : Proto) (p : Publish) (topic : Str) : SendPub :=
  match pr with
  | .v5 => { qos := p.qosPid.qos, retain := p.retain, topic, payload := p.payload,
             props := { p.props with topicAlias := none }, encodeLen := ext.encLen p }
  | .v3 => { qos := p.qosPid.qos, retain := p.retain, topic, payload := p.payload,
             encodeLen := ext.encLen p }

/-- `send_publish` of the protocol. -/
def sendOf (pr : Proto) (env : Env) (g : Global) (s : Session) (m : SendPub) :
    Option (Session × Global × Nat) :=
  match pr with
  | .v5 => sendPublishV5 env g s m
  | .v3 => (sendPublishV3 g s m).map fun r => (r.1, r.2, 0)

theorem core_sendOf {pr : Proto} {env : Env} {g : Global} {s : Session} {m : SendPub} {s' : Session}
    {g' : Global} {n : Nat} (h : sendOf pr env g s m = some (s', g', n)) : s'.core = s.core := by
  cases pr
  · simp only [sendOf, Option.map_eq_some_iff] at h
    obtain ⟨⟨a, b⟩, h1, h2⟩ := h
    cases h2; exact core_sendV3 h1
  · exact core_sendV5 h

/-- What the broker does with a received PUBLISH. -/
inductive PubCase (cfg : Config) (ext : Ext) (pr : Proto) (env : Env) (g : Global) (s : Session)
    (p : Publish) : Res → Prop
  | rejectV5 (hpr : pr = .v5) (s' : Session)
      (hs : s' = s ∨ ∃ topic, Resolved cfg pr s p s' topic)
      (code : Reason) : PubCase cfg ext pr env g s p (failV5 s' g code)
  | rejectV3 (hpr : pr = .v3) : PubCase cfg ext pr env g s p (failV3 s g)
  | inUse (hpr : pr = .v5) (s1 : Session) (topic : Str) (pid : Pid) (prev : Nat)
      (hres : Resolved cfg pr s p s1 topic) (hp : p.qosPid = .level2 pid)
      (hg : s.qos2.get pid = some prev) (hne : ext.hash p ≠ prev) :
      PubCase cfg ext pr env g s p
        { session := s1, global := g, out := [.pubrec pid .packetIdentifierInUse] }
  | repeated (s1 : Session) (topic : Str) (pid : Pid) (hres : Resolved cfg pr s p s1 topic)
      (hp : p.qosPid = .level2 pid) (hd : p.dup = true) (hg : s.qos2.get pid = some (ext.hash p)) :
      PubCase cfg ext pr env g s p { session := s1, global := g, out := [.pubrec pid .success] }
  | lostFirst (s1 : Session) (topic : Str) (pid : Pid) (hres : Resolved cfg pr s p s1 topic)
      (hp : p.qosPid = .level2 pid) (hd : p.dup = true) (hg : s.qos2.get pid = none)
      (hlen : pr = .v5 → s.qos2.length < cfg.maxInflightServer) :
      PubCase cfg ext pr env g s p
        { session := { s1 with qos2 := s.qos2.insert pid (ext.hash p) }, global := g,
          out := [.pubrec pid .success] }
  | route2 (s1 : Session) (topic : Str) (pid : Pid) (s' : Session) (g' : Global) (n : Nat)
      (hres : Resolved cfg pr s p s1 topic)
      (hp : p.qosPid = .level2 pid) (hd : p.dup = false) (hg : s.qos2.get pid = none)
      (hlen : pr = .v5 → s.qos2.length < cfg.maxInflightServer)
      (hs : sendOf pr env g { s1 with qos2 := s.qos2.insert pid (ext.hash p) }
        (toSend ext pr p topic) = some (s', g', n)) :
      PubCase cfg ext pr env g s p
        { session := s', global := g', out := replyOf pr p n, routed := [toSend ext pr p topic] }
  | route01 (s1 : Session) (topic : Str) (s' : Session) (g' : Global) (n : Nat)
      (hres : Resolved cfg pr s p s1 topic) (hp : p.qosPid.qos ≠ 2)
      (hs : sendOf pr env g s1 (toSend ext pr p topic) = some (s', g', n)) :
      PubCase cfg ext pr env g s p
        { session := s', global := g', out := replyOf pr p n, routed := [toSend ext pr p topic] }

theorem resolveAlias_ident {cfg : Config} {s : Session} {p : Publish} {s1 : Session} {t : Str}
    (h : resolveAlias cfg s p = .ok (s1, t)) :
    s1 = { s with aliases := s1.aliases } := by
  unfold resolveAlias at h
  split at h
  · split at h
    · cases h
    · split at h
      · cases h
      · split at h
        · split at h
          · cases h; rfl
          · cases h
        · cases h; rfl
  · split at h
    · cases h
    · cases h; rfl

theorem resolved_ident {cfg : Config} {pr : Proto} {s : Session} {p : Publish} {s1 : Session}
    {t : Str} (h : Resolved cfg pr s p s1 t) : s1 = { s with aliases := s1.aliases } := by
  cases pr
  · obtain ⟨_, rfl, _⟩ := h; rfl
  · exact resolveAlias_ident h.2

theorem resolved_qos2 {cfg : Config} {pr : Proto} {s : Session} {p : Publish} {s1 : Session}
    {t : Str} (h : Resolved cfg pr s p s1 t) : s1.qos2 = s.qos2 := by
  rw [resolved_ident h]

theorem resolved_subs {cfg : Config} {pr : Proto} {s : Session} {p : Publish} {s1 : Session}
    {t : Str} (h : Resolved cfg pr s p s1 t) : s1.subscribes = s.subscribes := by
  rw [resolved_ident h]

theorem resolved_disc {cfg : Config} {pr : Proto} {s : Session} {p : Publish} {s1 : Session}
    {t : Str} (h : Resolved cfg pr s p s1 t) : s1.disconnected = s.disconnected := by
  rw [resolved_ident h]; rfl

theorem qos_level1_ne (pid : Pid) : (QosPid.level1 pid).qos ≠ 2 := by
  show (1 : QoS) ≠ 2; decide

theorem resolvedOr_eq {cfg : Config} {pr : Proto} {s : Session} {p : Publish} {s1 : Session}
    (h : s1 = s ∨ ∃ topic, Resolved cfg pr s p s1 topic) :
    s1 = { s with aliases := s1.aliases } := by
  rcases h with rfl | ⟨t, h⟩
  · rfl
  · exact resolved_ident h

/-- The topic is the one of the packet, or the one recorded for its alias. -/
theorem resolved_topic {cfg : Config} {pr : Proto} {s : Session} {p : Publish} {s1 : Session}
    {t : Str} (h : Resolved cfg pr s p s1 t) :
    (p.topic ≠ [] ∧ t = p.topic ∧ p.topic.head? ≠ some '$') ∨
    (pr = .v5 ∧ p.topic = [] ∧ s1 = s ∧ ∃ a, p.props.topicAlias = some a ∧ 0 < a ∧
      a ≤ cfg.topicAliasMax ∧ s.aliases.get a = some t) := by
  cases pr
  · obtain ⟨h0, _, h1, h2⟩ := h; exact .inl ⟨h2, h1, h0⟩
  · obtain ⟨h0, h⟩ := h
    simp only [resolveAlias] at h
    split at h
    · rename_i a ha
      split at h
      · cases h
      · split at h
        · cases h
        · split at h
          · split at h
            · cases h
              exact .inr ⟨rfl, ‹_›, rfl, a, ha, by omega, by omega, ‹_›⟩
            · cases h
          · cases h; exact .inl ⟨‹_›, rfl, h0⟩
    · split at h
      · cases h
      · cases h; exact .inl ⟨‹_›, rfl, h0⟩

/-- The aliases recorded. -/
theorem resolved_aliases {cfg : Config} {s : Session} {p : Publish} {s1 : Session}
    {t : Str} (h : Resolved cfg .v5 s p s1 t) (a : Nat) :
    s1.aliases.get a =
      if p.props.topicAlias = some a ∧ p.topic ≠ [] then some p.topic else s.aliases.get a := by
  obtain ⟨h0, h⟩ := h
  simp only [resolveAlias] at h
  split at h
  · rename_i b hb
    split at h
    · cases h
    · split at h
      · cases h
      · split at h
        · rename_i ht
          split at h
          · cases h; simp [ht]
          · cases h
        · rename_i ht
          cases h
          simp only [FMap.get_insert, hb, Option.some.injEq]
          simp [ht]
  · rename_i hb
    split at h
    · cases h
    · cases h; simp [hb]

section
variable {cfg : Config} {ext : Ext} {env : Env} {g : Global} {s : Session} {p : Publish} {r : Res}

theorem publishV5_cases (h : handlePublishV5 cfg ext env g s p = some r) :
    PubCase cfg ext .v5 env g s p r := by
  unfold handlePublishV5 at h
  split at h
  · cases h; exact .rejectV5 rfl s (.inl rfl) _
  rename_i hd
  split at h
  · cases h; exact .rejectV5 rfl s (.inl rfl) _
  split at h
  · cases h; exact .rejectV5 rfl s (.inl rfl) _
  rename_i s1 topic hr
  have hres : Resolved cfg .v5 s p s1 topic := ⟨hd, hr⟩
  split at h
  · cases h; exact .rejectV5 rfl s1 (.inr ⟨_, hres⟩) _
  unfold checkQos2V5 at h
  cases hq : p.qosPid with
  | level2 pid =>
    rw [hq] at h
    simp only [resolved_qos2 hres] at h
    cases hg : s.qos2.get pid with
    | some prev =>
      rw [hg] at h
      simp only at h
      by_cases hh : ext.hash p = prev
      · subst hh
        rw [if_neg (by simp)] at h
        by_cases hdup : p.dup = true
        · rw [if_neg (by simp [hdup])] at h
          simp only [QosPid.qos, hdup, and_self, if_true] at h
          cases h
          have : ackV5 p 1 = [.pubrec pid .success] := by simp [ackV5, hq]
          rw [this]
          exact .repeated s1 topic pid hres hq hdup hg
        · rw [if_pos (by simp [hdup])] at h
          cases h
          exact .rejectV5 rfl s1 (.inr ⟨_, hres⟩) _
      · rw [if_pos hh] at h
        cases h
        exact .inUse rfl s1 topic pid prev hres hq hg hh
    | none =>
      rw [hg] at h
      simp only at h
      by_cases hl : s.qos2.length ≥ cfg.maxInflightServer
      · rw [if_pos hl] at h
        cases h
        exact .rejectV5 rfl s1 (.inr ⟨_, hres⟩) _
      · rw [if_neg hl] at h
        simp only at h
        have hl' : Proto.v5 = .v5 → s.qos2.length < cfg.maxInflightServer := fun _ => by omega
        by_cases hdup : p.dup = true
        · simp only [QosPid.qos, hdup, and_self, if_true] at h
          cases h
          have : ackV5 p 1 = [.pubrec pid .success] := by simp [ackV5, hq]
          rw [this]
          exact .lostFirst s1 topic pid hres hq hdup hg hl'
        · rw [if_neg (by simp [hdup])] at h
          split at h
          · cases h
          · rename_i s' g' n hs
            cases h
            have e : (QosPid.level2 pid).qos = p.qosPid.qos := by rw [hq]
            rw [e] at hs ⊢
            exact .route2 s1 topic pid s' g' n hres hq (by simpa using hdup) hg hl' hs
  | level0 =>
    rw [hq] at h
    dsimp only at h
    rw [if_neg (by intro h; exact absurd h.2 (by decide))] at h
    split at h
    · cases h
    · rename_i s' g' n hs
      cases h
      have e : QosPid.level0.qos = p.qosPid.qos := by rw [hq]
      rw [e] at hs ⊢
      exact .route01 s1 topic s' g' n hres (by rw [hq]; decide) hs
  | level1 pid =>
    rw [hq] at h
    dsimp only at h
    rw [if_neg (by intro h; exact absurd h.2 (qos_level1_ne pid))] at h
    split at h
    · cases h
    · rename_i s' g' n hs
      cases h
      have e : (QosPid.level1 pid).qos = p.qosPid.qos := by rw [hq]
      rw [e] at hs ⊢
      exact .route01 s1 topic s' g' n hres (by rw [hq]; exact qos_level1_ne pid) hs

theorem publishV3_cases (env : Env) (h : handlePublishV3 ext g s p = some r) :
    PubCase cfg ext .v3 env g s p r := by
  unfold handlePublishV3 at h
  split at h
  · cases h; exact .rejectV3 rfl
  rename_i ht
  split at h
  · cases h; exact .rejectV3 rfl
  rename_i hd
  split at h
  · cases h; exact .rejectV3 rfl
  have hres : Resolved cfg .v3 s p s p.topic := ⟨hd, rfl, rfl, ht⟩
  unfold checkQos2V3 at h
  cases hq : p.qosPid with
  | level2 pid =>
    rw [hq] at h
    simp only at h
    cases hg : s.qos2.get pid with
    | some prev =>
      rw [hg] at h
      simp only at h
      by_cases hh : ext.hash p = prev
      · subst hh
        rw [if_neg (by simp)] at h
        by_cases hdup : p.dup = true
        · rw [if_neg (by simp [hdup])] at h
          simp only [QosPid.qos, hdup, and_self, if_true] at h
          cases h
          have : ackV3 p = [.pubrec pid .success] := by simp [ackV3, hq]
          rw [this]
          exact .repeated s p.topic pid hres hq hdup hg
        · rw [if_pos (by simp [hdup])] at h
          cases h
          exact .rejectV3 rfl
      · rw [if_pos hh] at h
        cases h
        exact .rejectV3 rfl
    | none =>
      rw [hg] at h
      simp only at h
      by_cases hdup : p.dup = true
      · simp only [QosPid.qos, hdup, and_self, if_true] at h
        cases h
        have : ackV3 p = [.pubrec pid .success] := by simp [ackV3, hq]
        rw [this]
        exact .lostFirst s p.topic pid hres hq hdup hg (by intro h; cases h)
      · rw [if_neg (by simp [hdup])] at h
        split at h
        · cases h
        · rename_i s' g' hs
          cases h
          have e : (QosPid.level2 pid).qos = p.qosPid.qos := by rw [hq]
          rw [e] at hs ⊢
          exact .route2 (pr := .v3) s p.topic pid s' g' 0 hres hq (by simpa using hdup) hg (by intro h; cases h)
            (by simp only [sendOf, toSend, hs, Option.map_some])
  | level0 =>
    rw [hq] at h
    dsimp only at h
    rw [if_neg (by intro h; exact absurd h.2 (by decide))] at h
    split at h
    · cases h
    · rename_i s' g' hs
      cases h
      have e : QosPid.level0.qos = p.qosPid.qos := by rw [hq]
      rw [e] at hs ⊢
      exact .route01 (pr := .v3) s p.topic s' g' 0 hres (by rw [hq]; decide)
        (by simp only [sendOf, toSend, hs, Option.map_some])
  | level1 pid =>
    rw [hq] at h
    dsimp only at h
    rw [if_neg (by intro h; exact absurd h.2 (qos_level1_ne pid))] at h
    split at h
    · cases h
    · rename_i s' g' hs
      cases h
      have e : (QosPid.level1 pid).qos = p.qosPid.qos := by rw [hq]
      rw [e] at hs ⊢
      exact .route01 (pr := .v3) s p.topic s' g' 0 hres (by rw [hq]; exact qos_level1_ne pid)
        (by simp only [sendOf, toSend, hs, Option.map_some])

end

section
variable {cfg : Config} {ext : Ext} {pr : Proto} {env : Env} {g : Global} {s : Session} {r : Res}
  {n : Nat}

theorem handle_publish_cases {p : Publish}
    (h : handlePacket cfg ext pr env g s n (.publish p) = some r) :
    PubCase cfg ext pr env g s p r := by
  cases pr
  · simp only [handlePacket, handlePacketV3] at h
    split at h
    · cases h; exact .rejectV3 rfl
    · exact publishV3_cases env h
  · simp only [handlePacket, handlePacketV5] at h
    split at h
    · cases h; exact .rejectV5 rfl s (.inl rfl) _
    · exact publishV5_cases h

theorem retain_acceptV5 {i : Nat} {f : Str} {opts : SubOpts} {id : Option Nat} {s' : Session}
    {g' : Global} {out : List OutPkt} (h : acceptV5 cfg env i g s f opts id = some (s', g', out)) :
    g'.retain = g.retain := by
  unfold acceptV5 at h
  simp only at h
  split at h
  · cases h
  · split at h
    · split at h
      · cases h
      · split at h <;> cases h <;> rfl
    · cases h; rfl

theorem retain_acceptV3 {i : Nat} {f : Str} {q : QoS} {s' : Session}
    {g' : Global} {out : List OutPkt} (h : acceptV3 cfg env i g s f q = some (s', g', out)) :
    g'.retain = g.retain := by
  unfold acceptV3 at h
  simp only at h
  split at h
  · cases h
  · split at h
    · cases h
    · split at h <;> cases h <;> rfl

theorem retain_subscribeLoopV5 {id : Option Nat}
    {ts : List (Str × SubOpts)} {i : Nat} {g : Global} {s : Session}
    {r : Session × Global × List OutPkt × List Reason}
    (h : subscribeLoopV5 cfg env id i g s ts = some r) : r.2.1.retain = g.retain := by
  induction ts generalizing i g s r with
  | nil => simp only [subscribeLoopV5, Option.some.injEq] at h; subst h; rfl
  | cons t ts ih =>
    obtain ⟨f, opts⟩ := t
    rw [subscribeLoopV5] at h
    split at h
    · split at h
      · cases h
      · rename_i ha
        rw [Option.map_eq_some_iff] at h
        obtain ⟨r', h1, rfl⟩ := h
        exact (ih h1).trans (retain_acceptV5 ha)
    · rw [Option.map_eq_some_iff] at h
      obtain ⟨r', h1, rfl⟩ := h
      exact (ih h1 : r'.2.1.retain = g.retain)

theorem retain_subscribeLoopV3
    {ts : List (Str × QoS)} {i : Nat} {g : Global} {s : Session}
    {r : Session × Global × List OutPkt × List Reason × Bool}
    (h : subscribeLoopV3 cfg env i g s ts = some r) : r.2.1.retain = g.retain := by
  induction ts generalizing i g s r with
  | nil => simp only [subscribeLoopV3, Option.some.injEq] at h; subst h; rfl
  | cons t ts ih =>
    obtain ⟨f, q⟩ := t
    rw [subscribeLoopV3] at h
    split at h
    · cases h; rfl
    · split at h
      · cases h
      · rename_i ha
        rw [Option.map_eq_some_iff] at h
        obtain ⟨r', h1, rfl⟩ := h
        exact (ih h1).trans (retain_acceptV3 ha)

theorem retain_unsubscribeLoopV5 {ts : List Str} {g : Global} {s : Session}
    {r : Session × Global × List Reason}
    (h : unsubscribeLoopV5 g s ts = some r) : r.2.1.retain = g.retain := by
  induction ts generalizing g s r with
  | nil => simp only [unsubscribeLoopV5, Option.some.injEq] at h; subst h; rfl
  | cons t ts ih =>
    rw [unsubscribeLoopV5] at h
    split at h
    · cases h
    · simp only [Option.map_eq_some_iff] at h
      obtain ⟨r', h1, rfl⟩ := h
      exact (ih h1).trans rfl

theorem retain_unsubscribeLoopV3 {ts : List Str} {g : Global} {s : Session}
    {r : Session × Global}
    (h : unsubscribeLoopV3 g s ts = some r) : r.2.retain = g.retain := by
  induction ts generalizing g s r with
  | nil => simp only [unsubscribeLoopV3, Option.some.injEq] at h; subst h; rfl
  | cons t ts ih =>
    rw [unsubscribeLoopV3] at h
    split at h
    · cases h
    · exact (ih h).trans rfl

theorem handleDisconnectV5_frame (g : Global) (s : Session) (reason : Reason)
    (expiry : Option Nat) :
    (handleDisconnectV5 g s reason expiry).routed = [] ∧
      (handleDisconnectV5 g s reason expiry).global.retain = g.retain ∧
      (handleDisconnectV5 g s reason expiry).session.qos2 = s.qos2 ∧
      (handleDisconnectV5 g s reason expiry).session.aliases = s.aliases := by
  unfold handleDisconnectV5
  split
  · split <;> exact ⟨rfl, rfl, rfl, rfl⟩
  · exact ⟨rfl, rfl, rfl, rfl⟩

theorem handleSubscribeV5_frame {pid : Pid} {ts : List (Str × SubOpts)} {id : Option Nat}
    (h : handleSubscribeV5 cfg env g s pid ts id = some r) :
    r.routed = [] ∧ r.global.retain = g.retain ∧ r.session.qos2 = s.qos2 ∧
      r.session.aliases = s.aliases := by
  unfold handleSubscribeV5 at h
  split at h
  · cases h; exact ⟨rfl, rfl, rfl, rfl⟩
  · split at h
    · cases h; exact ⟨rfl, rfl, rfl, rfl⟩
    · rw [Option.map_eq_some_iff] at h
      obtain ⟨r', h1, rfl⟩ := h
      have := ident_subscribeLoopV5 h1
      exact ⟨rfl, retain_subscribeLoopV5 h1, ident_qos2 this, ident_aliases this⟩

theorem handleSubscribeV3_frame {pid : Pid} {ts : List (Str × QoS)}
    (h : handleSubscribeV3 cfg env g s pid ts = some r) :
    r.routed = [] ∧ r.global.retain = g.retain ∧ r.session.qos2 = s.qos2 ∧
      r.session.aliases = s.aliases := by
  unfold handleSubscribeV3 at h
  rw [Option.map_eq_some_iff] at h
  obtain ⟨r', h1, h2⟩ := h
  have := ident_subscribeLoopV3 h1
  have h3 := retain_subscribeLoopV3 h1
  split at h2 <;> subst h2 <;> exact ⟨rfl, h3, ident_qos2 this, ident_aliases this⟩

theorem handleUnsubscribeV5_frame {pid : Pid} {ts : List Str}
    (h : handleUnsubscribeV5 g s pid ts = some r) :
    r.routed = [] ∧ r.global.retain = g.retain ∧ r.session.qos2 = s.qos2 ∧
      r.session.aliases = s.aliases := by
  unfold handleUnsubscribeV5 at h
  rw [Option.map_eq_some_iff] at h
  obtain ⟨r', h1, rfl⟩ := h
  have := ident_unsubscribeLoopV5 h1
  exact ⟨rfl, retain_unsubscribeLoopV5 h1, ident_qos2 this, ident_aliases this⟩

theorem handleUnsubscribeV3_frame {pid : Pid} {ts : List Str}
    (h : handleUnsubscribeV3 g s pid ts = some r) :
    r.routed = [] ∧ r.global.retain = g.retain ∧ r.session.qos2 = s.qos2 ∧
      r.session.aliases = s.aliases := by
  unfold handleUnsubscribeV3 at h
  rw [Option.map_eq_some_iff] at h
  obtain ⟨r', h1, rfl⟩ := h
  have := ident_unsubscribeLoopV3 h1
  exact ⟨rfl, retain_unsubscribeLoopV3 h1, ident_qos2 this, ident_aliases this⟩

/-- Packets other than PUBLISH hand nothing to routing and keep the retained store; the stored
incoming identifiers change only by PUBREL. -/
theorem handle_other {pkt : InPkt} (hp : ∀ p, pkt ≠ .publish p)
    (h : handlePacket cfg ext pr env g s n pkt = some r) :
    r.routed = [] ∧ r.global.retain = g.retain ∧
      ((∀ pid, pkt ≠ .pubrel pid) → r.session.qos2 = s.qos2) ∧
      r.session.aliases = s.aliases := by
  have weaken : (r.routed = [] ∧ r.global.retain = g.retain ∧ r.session.qos2 = s.qos2 ∧
      r.session.aliases = s.aliases) → (r.routed = [] ∧ r.global.retain = g.retain ∧
      ((∀ pid, pkt ≠ .pubrel pid) → r.session.qos2 = s.qos2) ∧
      r.session.aliases = s.aliases) := fun ⟨a, b, c, d⟩ => ⟨a, b, fun _ => c, d⟩
  cases pr
  · simp only [handlePacket, handlePacketV3] at h
    split at h
    · cases h; exact weaken ⟨rfl, rfl, rfl, rfl⟩
    · cases pkt <;> simp only at h
      case publish p => exact absurd rfl (hp p)
      case subscribe => exact weaken (handleSubscribeV3_frame h)
      case unsubscribe => exact weaken (handleUnsubscribeV3_frame h)
      case pubrel pid =>
        cases h
        unfold handlePubrelV3
        split <;> exact ⟨rfl, rfl, fun hr => absurd rfl (hr pid), rfl⟩
      all_goals (cases h; exact weaken ⟨rfl, rfl, rfl, rfl⟩)
  · simp only [handlePacket, handlePacketV5] at h
    split at h
    · cases h; exact weaken ⟨rfl, rfl, rfl, rfl⟩
    · cases pkt <;> simp only at h
      case publish p => exact absurd rfl (hp p)
      case subscribe => exact weaken (handleSubscribeV5_frame h)
      case unsubscribe => exact weaken (handleUnsubscribeV5_frame h)
      case pubrel pid => cases h; exact ⟨rfl, rfl, fun hr => absurd rfl (hr pid), rfl⟩
      case disconnect =>
        cases h; exact weaken (handleDisconnectV5_frame ..)
      all_goals (cases h; exact weaken ⟨rfl, rfl, rfl, rfl⟩)

/-- PUBREL: either the identifier is erased and PUBCOMP sent, or nothing is changed and the
connection ends. -/
theorem handle_pubrel {pid : Pid}
    (h : handlePacket cfg ext pr env g s n (.pubrel pid) = some r) :
    (r.session.qos2 = s.qos2.erase pid ∧ (∃ code, r.out = [.pubcomp pid code]) ∧ r.closed = false ∧
      r.session.disconnected = s.disconnected) ∨
    (r.session.qos2 = s.qos2 ∧ (∀ o ∈ r.out, ∃ c, o = .disconnect c) ∧
      (r.closed = true ∨ r.session.disconnected = true)) := by
  cases pr
  · simp only [handlePacket, handlePacketV3] at h
    split at h
    · cases h; exact .inr ⟨rfl, by simp [failV3], .inl rfl⟩
    · cases h
      unfold handlePubrelV3
      split
      · exact .inl ⟨rfl, ⟨_, rfl⟩, rfl, rfl⟩
      · exact .inr ⟨rfl, by simp [failV3], .inl rfl⟩
  · simp only [handlePacket, handlePacketV5] at h
    split at h
    · cases h; exact .inr ⟨rfl, by simp [failV5], .inr (by simp [failV5, Session.disconnected])⟩
    · cases h
      exact .inl ⟨rfl, ⟨_, rfl⟩, rfl, rfl⟩

end
end Akasa

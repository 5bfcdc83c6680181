import Verif.Props.Connect
/-!
# C52, C61–C64, C66: what the broker tells a client that connects
-/
namespace Akasa

variable {c : ServerConfig} {x : ConnExt} {ext : Ext} {acts : List FrontAct} {f f' : Front}
  {evs e : List FrontEvent}

theorem handleConnect_open {uuid random : Str} {p : ConnectPkt} {o : Opening}
    (h : (∃ final, handleConnect c x uuid random p = .go o final) ∨
      ∃ m r, handleConnect c x uuid random p = .challenge o m r) :
    (p.level.proto = .v3 → o.keepAlive = p.keepAlive) ∧
      (p.level.proto = .v5 → o = openV5 c uuid p) := by
  refine ⟨fun hp => ?_, (handleConnect_in h).2.2.2.2.2.2⟩
  unfold handleConnect at h
  rw [hp] at h
  simp only [handleConnectV3, refuse] at h
  repeat' split at h
  all_goals first
    | (rcases h with ⟨_, h⟩ | ⟨_, _, h⟩ <;> cases h; done)
    | skip
  all_goals
    rcases h with ⟨_, h⟩ | ⟨_, _, h⟩ <;> cases h
    rfl

theorem mem_connacksOn {k : ConnId} {r : Reply} (h : r ∈ connacksOn k evs) : .reply k r ∈ evs := by
  obtain ⟨e, h1, h2⟩ := List.mem_filterMap.1 h
  split at h2
  · split at h2
    · rename_i hk; subst hk; cases h2; exact h1
    · cases h2
  · cases h2

/-- To evaluate an example. -/
theorem run_of {α : Type} (g : Front → List FrontEvent → α) {v : α}
    (h : (Front.run c x ext {} acts).map (fun r => g r.1 r.2) = some v) :
    ∃ f evs, FrontReaches c x ext acts f evs ∧ g f evs = v := by
  cases hr : Front.run c x ext {} acts with
  | none => rw [hr] at h; cases h
  | some r =>
    rw [hr] at h
    simp only [Option.map_some, Option.some.injEq] at h
    exact ⟨r.1, r.2, hr, h⟩

/-- To evaluate an example. -/
theorem acks_of {k : ConnId} {l : List Reply}
    (h : (Front.run c x ext {} acts).map (fun r => connacksOn k r.2) = some l) :
    ∃ f evs, FrontReaches c x ext acts f evs ∧ connacksOn k evs = l :=
  run_of (fun _ evs => connacksOn k evs) h

/-- What is known of a CONNACK that was sent. -/
theorem connack_of (h : FrontReaches c x ext acts f evs) {k : ConnId} {present : Bool}
    {code : ConnCode} {props : ConnackProps}
    (hm : .connack present code props ∈ connacksOn k evs) :
    ∃ p uuid random, (hellos acts)[k]? = some (p, uuid, random) ∧
      ((code ≠ .success ∧ present = false ∧ props = {} ∧ (∃ o, f.conns.get k = some ⟨p, o, .over⟩)) ∨
        ∃ cfg o t final, c.limits = some cfg ∧ f.conns.get k = some ⟨p, o, .task t final⟩ ∧
          .connack present code props = o.connack c cfg final present ∧
          ((∃ final, handleConnect c x uuid random p = .go o final) ∨
            ∃ m r, handleConnect c x uuid random p = .challenge o m r)) := by
  obtain ⟨⟨p, o, st⟩, hn, h1⟩ := (ackInv h).told _ _ (mem_connacksOn hm)
  obtain ⟨uuid, random, h2, h3⟩ := (frontInv h).story _ _ hn
  refine ⟨p, uuid, random, h2, ?_⟩
  rcases h1 with ⟨h1, ⟨code', h4, h5⟩ | ⟨rs, h5⟩⟩ | ⟨m, d, h4, _⟩ | ⟨cfg, t, final, b, h4, h5, h6⟩
  · cases h5
    simp only at h1
    subst h1
    exact .inl ⟨h4, rfl, rfl, o, hn⟩
  · cases h5
  · cases h4
  · simp only at h5 h6
    subst h5
    obtain ⟨code', props', h7, _⟩ := connack_is c cfg o final b
    have hb : present = b := by rw [h7] at h6; cases h6; rfl
    subst hb
    refine .inr ⟨cfg, o, t, final, h4, hn, h6, ?_⟩
    rcases h3 with h3 | ⟨m, r, a, env, wr, h3, _⟩
    · exact .inl ⟨_, h3⟩
    · exact .inr ⟨_, _, h3⟩

/-! ## C52 -/

theorem qosLimit_eq (h : c.maxAllowedQos ≤ 2) :
    ∃ q, c.qosLimit = some q ∧ q.val = c.maxAllowedQos := by
  unfold ServerConfig.qosLimit
  revert h
  generalize c.maxAllowedQos = n
  intro h
  match n, h with
  | 0, _ => exact ⟨0, rfl, rfl⟩
  | 1, _ => exact ⟨1, rfl, rfl⟩
  | 2, _ => exact ⟨2, rfl, rfl⟩

theorem qosLimit_val {q : QoS} (h : c.qosLimit = some q) : q.val = c.maxAllowedQos := by
  unfold ServerConfig.qosLimit at h
  revert h
  generalize c.maxAllowedQos = n
  intro h
  match n, h with
  | 0, h => cases h; rfl
  | 1, h => cases h; rfl
  | 2, h => cases h; rfl

/-- **C52.**  With a valid configuration the broker always knows its limits (this is where it would
panic), and the maximum QoS is the configured number. -/
theorem C52_qos (h : c.isValid = true) :
    ∃ cfg, c.limits = some cfg ∧ cfg.maxAllowedQos.val = c.maxAllowedQos := by
  unfold ServerConfig.isValid at h
  split at h
  · cases h
  · split at h
    · cases h
    · rename_i hq
      obtain ⟨q, h1, h2⟩ := qosLimit_eq (c := c) (Nat.not_lt.1 hq)
      exact ⟨_, by unfold ServerConfig.limits; rw [h1]; rfl, h2⟩

example : exServer.isValid = true := by decide +kernel

/-- The numbers in a CONNACK are in the ranges MQTT 5 requires: 3.2.2.3. -/
structure ConnackProps.InRange (p : ConnackProps) : Prop where
  sessionExpiry : ∀ v, p.sessionExpiry = some v → v < 4294967296
  receiveMax : ∀ v, p.receiveMax = some v → 0 < v ∧ v < 65536
  maxQos : ∀ q, p.maxQos = some q → q = 0 ∨ q = 1
  maxPacketSize : ∀ v, p.maxPacketSize = some v → 0 < v ∧ v < 4294967296
  topicAliasMax : ∀ v, p.topicAliasMax = some v → v < 65536
  serverKeepAlive : ∀ v, p.serverKeepAlive = some v → v < 65536

/-- **C52** (partial).  With a valid configuration, and `max_inflight_server` not 0, the limits in
every CONNACK are in the ranges MQTT requires.  Missing: a valid configuration may have
`max_inflight_server` = 0, see `C52_false`. -/
theorem C52_ranges_partial (hv : c.isValid = true) (ht : c.Typed) (h0 : c.maxInflightServer ≠ 0)
    (h : FrontReaches c x ext acts f evs) {k : ConnId} {present : Bool} {code : ConnCode}
    {props : ConnackProps} (hm : .connack present code props ∈ connacksOn k evs) :
    props.InRange := by
  have empty : ConnackProps.InRange {} := by
    constructor <;> intro v h <;> cases h
  obtain ⟨p, uuid, random, h1, ⟨_, _, rfl, _⟩ | ⟨cfg, o, t, final, h2, h3, h4, h5⟩⟩ :=
    connack_of h hm
  · exact empty
  unfold Opening.connack at h4
  split at h4
  · cases h4; exact empty
  · rename_i hp
    cases h4
    have ho := (handleConnect_open h5).2 (by rw [← (handleConnect_in h5).2.2.2.2.1]; exact hp)
    have hsz : c.maxPacketSizeServer ≠ 0 := by
      intro hz
      unfold ServerConfig.isValid at hv
      rw [hz] at hv
      revert hv
      repeat' split
      all_goals simp_all
    constructor
    · intro v hv
      simp only [connackProps] at hv
      split at hv
      · cases hv; exact ht.maxSessionExpiry
      · cases hv
    · intro v hv
      simp only [connackProps] at hv
      split at hv
      · cases hv; exact ⟨Nat.pos_of_ne_zero h0, ht.maxInflightServer⟩
      · cases hv
    · intro q hq
      simp only [connackProps] at hq
      split at hq
      · rename_i hlt
        cases hq
        revert hlt
        generalize cfg.maxAllowedQos = q
        revert q
        decide
      · cases hq
    · intro v hv
      simp only [connackProps] at hv
      split at hv
      · cases hv; exact ⟨Nat.pos_of_ne_zero hsz, ht.maxPacketSizeServer⟩
      · cases hv
    · intro v hv
      simp only [connackProps] at hv
      split at hv
      · cases hv; exact ht.topicAliasMax
      · cases hv
    · intro v hv
      simp only [connackProps, ho, openV5] at hv
      split at hv
      · rename_i hne
        cases hv
        have hne : clampKeepAlive c p.keepAlive ≠ p.keepAlive := by simpa using hne
        unfold clampKeepAlive at hne ⊢
        split
        · exact ht.maxKeepAlive
        · split
          · exact ht.minKeepAlive
          · rename_i h1 h2
            rw [if_neg h1, if_neg h2] at hne
            exact absurd rfl hne
      · cases hv

example : exServer.isValid = true ∧ exServer.Typed ∧ exServer.maxInflightServer ≠ 0 ∧
    ∃ f evs, FrontReaches exServer exConnExt exExt exKnock f evs ∧
      connacksOn 1 evs = [.connack false .success
        { receiveMax := some 10, maxPacketSize := some 268435460, assignedClientId := some (str "u1")
          topicAliasMax := some 65535 }] :=
  ⟨by decide +kernel, by constructor <;> decide, by decide, acks_of (by decide +kernel)⟩

/-- **C52, the missing part.**  This configuration is valid, and the broker announces a receive
maximum of 0, which MQTT 5 forbids. -/
theorem C52_false : ∃ c : ServerConfig, c.isValid = true ∧ c.Typed ∧
    ∃ x ext acts f evs props, FrontReaches c x ext acts f evs ∧
      .connack false .success props ∈ connacksOn 0 evs ∧ props.receiveMax = some 0 := by
  refine ⟨{ maxInflightServer := 0 }, by decide, by constructor <;> decide, ?_⟩
  obtain ⟨f, evs, h1, h2⟩ := acks_of (c := { maxInflightServer := 0 }) (x := exConnExt)
    (ext := exExt) (acts := [.hello { level := .v500, clientId := str "c" } [] [] {} true]) (k := 0)
    (l := [.connack false .success { receiveMax := some 0, maxPacketSize := some 268435460
                                     topicAliasMax := some 65535 }]) (by decide +kernel)
  exact ⟨_, _, _, f, evs, _, h1, by rw [h2]; exact List.mem_singleton.2 rfl, rfl⟩

/-! ## C61 -/

/-- **C61** (partial).  A CONNACK that reports an error says that no session is present, unless it
refuses the will.  Missing: see `C61_false`. -/
theorem C61_error_partial (h : FrontReaches c x ext acts f evs) {k : ConnId} {present : Bool}
    {code : ConnCode} {props : ConnackProps}
    (hm : .connack present code props ∈ connacksOn k evs) (he : code ≠ .success) :
    present = false ∨
    ∃ p uuid random m, (hellos acts)[k]? = some (p, uuid, random) ∧ p.level = .v500 ∧
      p.will = some m ∧
      ((code = .retainNotSupported ∧ m.retain = true ∧ c.retainAvailable = false) ∨
        (code = .qosNotSupported ∧ c.maxAllowedQos < m.qos.val)) := by
  obtain ⟨p, uuid, random, h1, ⟨_, h2, _⟩ | ⟨cfg, o, t, final, h2, h3, h4, h5⟩⟩ := connack_of h hm
  · exact .inl h2
  · right
    obtain ⟨-, -, hw, -, hl, -, -⟩ := handleConnect_in h5
    unfold Opening.connack at h4
    split at h4
    · cases h4; exact absurd rfl he
    · rename_i hp
      rw [hl] at hp
      rw [hw] at h4
      simp only [Reply.connack.injEq, true_and] at h4
      have hlevel : p.level = .v500 := by
        cases hl : p.level <;> rw [hl] at hp <;> first | rfl | cases hp
      cases hm : p.will with
      | none => rw [h4.1, hm] at he; exact absurd rfl he
      | some m =>
        refine ⟨p, uuid, random, m, h1, hlevel, hm, ?_⟩
        rw [hm] at h4
        obtain ⟨h6, _⟩ := h4
        unfold ServerConfig.limits at h2
        obtain ⟨q, h7, rfl⟩ := Option.map_eq_some_iff.1 h2
        unfold willCode at h6
        simp only at h6
        split at h6
        · rename_i hr
          simp only [Bool.and_eq_true, Bool.not_eq_true'] at hr
          exact .inl ⟨h6, hr.1, hr.2⟩
        · split at h6
          · rename_i hq
            refine .inr ⟨h6, ?_⟩
            rw [← qosLimit_val h7]
            exact hq
          · exact absurd h6 he

/-- A client with a session connects again, with a will the broker does not allow. -/
def exBadWill : List FrontAct :=
  [.hello { level := .v500, clientId := str "c", sessionExpiry := some 100 } [] [] {} true,
   .hello { level := .v500, clientId := str "c", clean := false
            will := some { topic := str "w", payload := [], qos := 0, retain := true } } [] [] {} true,
   .act (.control 0 {}), .act (.accept 1 {} true)]

example : ∃ f evs, FrontReaches { retainAvailable := false } exConnExt exExt exBadWill f evs ∧
    connacksOn 1 evs = [.connack true .retainNotSupported
      { receiveMax := some 10, retainAvailable := some false, maxPacketSize := some 268435460
        topicAliasMax := some 65535 }] := acks_of (by decide +kernel)

/-- **C61, the missing part.**  A CONNACK that refuses the will may say that a session is present
(and this although the session is lost with it). -/
theorem C61_false : ∃ (c : ServerConfig) (x : ConnExt) (ext : Ext) (acts : List FrontAct) (f : Front)
    (evs : List FrontEvent) (k : ConnId) (code : ConnCode) (props : ConnackProps),
    c.isValid = true ∧ FrontReaches c x ext acts f evs ∧ code ≠ .success ∧
    .connack true code props ∈ connacksOn k evs := by
  obtain ⟨f, evs, h1, h2⟩ := acks_of (c := { retainAvailable := false }) (x := exConnExt)
    (ext := exExt) (acts := exBadWill) (k := 1)
    (l := [.connack true .retainNotSupported
      { receiveMax := some 10, retainAvailable := some false, maxPacketSize := some 268435460
        topicAliasMax := some 65535 }]) (by decide +kernel)
  exact ⟨_, _, _, _, f, evs, 1, .retainNotSupported, _, by decide, h1, by decide, by
    rw [h2]; exact List.mem_singleton.2 rfl⟩

/-! ## C62 -/

/-- **C62.**  The keep-alive interval the broker uses for a connection is the one the client knows:
that of its CONNECT, unless CONNACK names another. -/
theorem C62_known (h : FrontReaches c x ext acts f evs) {k : ConnId} {present : Bool}
    {code : ConnCode} {props : ConnackProps} {p : ConnectPkt} {uuid random : Str} {ka : Nat}
    (hm : .connack present code props ∈ connacksOn k evs)
    (hp : (hellos acts)[k]? = some (p, uuid, random)) (hk : f.keepAlive k = some ka) :
    ka = props.serverKeepAlive.getD p.keepAlive := by
  obtain ⟨p', uuid', random', h1, h2⟩ := connack_of h hm
  rw [hp] at h1
  cases h1
  unfold Front.keepAlive at hk
  rcases h2 with ⟨_, _, _, o, h2⟩ | ⟨cfg, o, t, final, h2, h3, h4, h5⟩
  · rw [h2] at hk; cases hk
  · rw [h3] at hk
    cases hk
    have hl := (handleConnect_in h5).2.2.2.2.1
    obtain ⟨hv3, hv5⟩ := handleConnect_open h5
    unfold Opening.connack at h4
    rw [hl] at h4
    split at h4
    · rename_i hp
      cases h4
      exact hv3 hp
    · rename_i hp
      cases h4
      rw [hv5 hp]
      simp only [connackProps, openV5]
      by_cases hne : clampKeepAlive c p.keepAlive = p.keepAlive <;> simp [hne]

example : ∃ f evs, FrontReaches {} exConnExt exExt
      [.hello { level := .v500, clientId := str "c", keepAlive := 3 } [] [] {} true] f evs ∧
    connacksOn 0 evs = [.connack false .success
      { receiveMax := some 10, maxPacketSize := some 268435460, topicAliasMax := some 65535
        serverKeepAlive := some 10 }] := acks_of (by decide +kernel)

/-- **C62** (partial).  For MQTT 5 it is in the configured range if the range is not empty; for
MQTT 3 it is the client's. -/
theorem C62_range_partial (h : FrontReaches c x ext acts f evs) {k : ConnId} {p : ConnectPkt}
    {uuid random : Str} {ka : Nat} (hp : (hellos acts)[k]? = some (p, uuid, random))
    (hk : f.keepAlive k = some ka) :
    (p.level ≠ .v500 → ka = p.keepAlive) ∧
    (p.level = .v500 → c.minKeepAlive ≤ c.maxKeepAlive → c.minKeepAlive ≤ ka ∧ ka ≤ c.maxKeepAlive) := by
  unfold Front.keepAlive at hk
  cases hn : f.conns.get k with
  | none => rw [hn] at hk; cases hk
  | some n =>
    obtain ⟨p', o, st⟩ := n
    rw [hn] at hk
    obtain ⟨uuid', random', h1, h2⟩ := (frontInv h).story _ _ hn
    rw [hp] at h1
    simp only [Option.some.injEq, Prod.mk.injEq] at h1
    obtain ⟨rfl, rfl, rfl⟩ := h1
    cases st with
    | over => cases hk
    | authorizing => cases hk
    | task t final =>
      cases hk
      have h5 : (∃ final, handleConnect c x uuid random p = .go o final) ∨
          ∃ m r, handleConnect c x uuid random p = .challenge o m r := by
        rcases h2 with h2 | ⟨m, r, a, env, wr, h2, _⟩
        · exact .inl ⟨_, h2⟩
        · exact .inr ⟨_, _, h2⟩
      obtain ⟨hv3, hv5⟩ := handleConnect_open h5
      refine ⟨fun hl => hv3 ?_, fun hl hle => ?_⟩
      · cases hl' : p.level <;> rw [hl'] at hl <;> first | rfl | exact absurd rfl hl
      · rw [hv5 (by rw [hl]; rfl)]
        simp only [openV5, clampKeepAlive]
        split
        · exact ⟨hle, Nat.le_refl _⟩
        · split
          · exact ⟨Nat.le_refl _, hle⟩
          · exact ⟨by omega, by omega⟩

example : (hellos exKnock)[1]? = some ({ exAnn .v500 with clientId := [] }, str "u1", str "r1") ∧
    ∃ f evs, FrontReaches exServer exConnExt exExt exKnock f evs ∧ f.keepAlive 1 = some 60 := by
  exact ⟨rfl, run_of (fun f _ => f.keepAlive 1) (by decide +kernel)⟩

/-- **C62, the missing part.**  A configuration whose range is empty is valid; the interval used is
then above the maximum. -/
theorem C62_range_false : ∃ (c : ServerConfig) (x : ConnExt) (ext : Ext) (acts : List FrontAct)
    (f : Front) (evs : List FrontEvent) (ka : Nat), c.isValid = true ∧
    FrontReaches c x ext acts f evs ∧ f.keepAlive 0 = some ka ∧ c.maxKeepAlive < ka := by
  obtain ⟨f, evs, h1, h2⟩ := run_of (c := { minKeepAlive := 10, maxKeepAlive := 5 })
    (x := exConnExt) (ext := exExt)
    (acts := [.hello { level := .v500, clientId := str "c", keepAlive := 3 } [] [] {} true])
    (fun f _ => f.keepAlive 0) (v := some 10) (by decide +kernel)
  exact ⟨_, _, _, _, f, evs, 10, by decide, h1, h2, by decide⟩

end Akasa

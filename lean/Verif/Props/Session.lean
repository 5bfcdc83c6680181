import Verif.Props.ConnAck
import Verif.Props.Will
import Verif.Proof.WorldTopic
/-!
# C22, C63, C64, C66, C67: the session a client gets, over the whole broker
-/
namespace Akasa

variable {cfg : Config} {c : ServerConfig} {x : ConnExt} {ext : Ext} {f f' : Front}
  {evs e : List FrontEvent}

/-! ## C66 -/

/-- **C66.**  At most one CONNACK is sent on a connection. -/
theorem C66_once {acts : List FrontAct} (h : FrontReaches c x ext acts f evs) (k : ConnId) :
    (connacksOn k evs).length ≤ 1 := (ackInv h).once k

theorem connacksOn_world (k : ConnId) (l : List Event) : connacksOn k (l.map .event) = [] := by
  unfold connacksOn
  rw [List.filterMap_map]
  induction l with
  | nil => rfl
  | cons a l ih => rw [List.filterMap_cons]; exact ih

/-- **C66.**  Nothing is sent to the client of a connection, and nothing is accepted from it, before
its CONNACK, and the CONNACK then reports success. -/
theorem C66_first {acts : List FrontAct} (h : FrontReaches c x ext acts f evs) {a : FrontAct}
    (hs : f.step c x ext a = some (f', e)) {k : ConnId} {p : ConnectPkt} {t : TaskId}
    (hk : f'.served k p t) {e1 e2 : List FrontEvent} {ev : Event} (ht : ev.traffic t = true)
    (he : e = e1 ++ .event ev :: e2) :
    ∃ present props, connacksOn k (evs ++ e1) = [.connack present .success props] := by
  have h' : FrontReaches c x ext (acts ++ [a]) f' (evs ++ e) :=
    run_snoc_front.mpr ⟨_, _, _, h, hs, rfl⟩
  obtain ⟨o, final, hk⟩ := hk
  -- the step is one of the rest of the broker
  have key : ∀ (cfg : Config) (b : Act) (wevs : List Event),
      f.world.step cfg ext b = some (f'.world, wevs) →
      (∃ l, e = l ++ wevs.map .event ∧ ∀ r ∈ l, ∃ k' rep, r = .reply k' rep) →
      ∃ present props, connacksOn k (evs ++ e1) = [.connack present .success props] := by
    rintro cfg b wevs hw ⟨l, hl, hrep⟩
    have hmem : ev ∈ wevs := by
      have : FrontEvent.event ev ∈ l ++ wevs.map .event := by rw [← hl, he]; simp
      rcases List.mem_append.1 this with h1 | h1
      · obtain ⟨_, _, h2⟩ := hrep _ h1
        cases h2
      · obtain ⟨e', h2, h3⟩ := List.mem_map.1 h1
        cases h3
        exact h2
    obtain ⟨present, props, h1⟩ := (ackInv h').settled k _ t final hk rfl
      (traffic_settled (step_cases hw) hmem ht)
    refine ⟨present, props, ?_⟩
    rw [← h1]
    rw [hl] at he
    rcases List.append_eq_append_iff.1 he with ⟨as, h2, h3⟩ | ⟨bs, h2, h3⟩
    · -- all replies are in `e1`
      have h4 : connacksOn k as = [] ∧ connacksOn k (.event ev :: e2) = [] := by
        have := connacksOn_world k wevs
        rw [h3, connacksOn_append] at this
        exact List.append_eq_nil_iff.1 this
      rw [hl, he, h2]
      simp only [connacksOn_append] at h4 ⊢
      rw [h4.1, h4.2]
      simp
    · cases bs with
      | nil =>
        rw [List.append_nil] at h2
        rw [hl]
        subst h2
        simp only [connacksOn_append, connacksOn_world]
        simp
      | cons b bs =>
        exfalso
        rw [List.cons_append] at h3
        have h5 : b ∈ l := by rw [h2]; simp
        obtain ⟨_, _, h6⟩ := hrep _ h5
        rw [h6] at h3
        cases h3
  have hconn : ∀ (cfg : Config) (conns : FMap ConnId Conn) (l : List (TaskId × Bool)),
      ∀ r ∈ connacks c cfg conns l, ∃ k' rep, r = .reply k' rep := by
    intro cfg conns l r hr
    obtain ⟨a, _, h2⟩ := List.mem_flatMap.1 hr
    obtain ⟨n, _, h4⟩ := List.mem_filterMap.1 h2
    split at h4
    · split at h4
      · cases h4; exact ⟨_, _, rfl⟩
      · cases h4
    · cases h4
  have hbad : ∀ {l : List FrontEvent}, e = l → (∀ r ∈ l, ∃ k' rep, r = FrontEvent.reply k' rep) →
      False := by
    intro l hl hr
    obtain ⟨_, _, h1⟩ := hr (.event ev) (by rw [← hl, he]; simp)
    cases h1
  cases fcases hs with
  | idle => exact (hbad rfl (by simp)).elim
  | helloOver p uuid random env wr out ho =>
    refine (hbad rfl ?_).elim
    rcases ho with ⟨r, _, rfl⟩ | ⟨_, rfl⟩ <;> simp
  | helloChallenge => exact (hbad rfl (by simp)).elim
  | helloGo cfg hcfg p uuid random env wr o final hr w wevs hw =>
    exact key cfg _ wevs hw ⟨_, rfl, hconn _ _ _⟩
  | authOver => exact (hbad rfl (by simp)).elim
  | authGo cfg hcfg k b env wr p o m hm final hr w wevs hw =>
    exact key cfg _ wevs hw ⟨_, rfl, hconn _ _ _⟩
  | stray => exact (hbad rfl (by simp)).elim
  | leave => exact (hbad rfl (by simp)).elim
  | act cfg hcfg b hb w wevs hw => exact key cfg _ wevs hw ⟨_, rfl, hconn _ _ _⟩

/-- The first connection sends a PUBLISH. -/
example : ∃ f evs f' e1 ev e2, FrontReaches exServer exConnExt exExt (exKnock.take 1) f evs ∧
    f.step exServer exConnExt exExt (.act (.packet 0 {} (Clock.const 0) 9
      (.publish { dup := false, retain := false, qosPid := .level1 3, topic := str "t"
                  payload := [1] }))) = some (f', e1 ++ .event ev :: e2) ∧
    f'.served 0 (exAnn .v311) 0 ∧ ev.traffic 0 = true :=
  ⟨_, _, _, [], _, _, rfl, rfl, ⟨_, _, rfl⟩, rfl⟩

/-! ## C64 -/

theorem opening_of {acts : List FrontAct} (h : FrontReaches c x ext acts f evs) {k : ConnId}
    {p : ConnectPkt} {o : Opening} {t : TaskId} {final : Option Str}
    (hk : f.conns.get k = some ⟨p, o, .task t final⟩) :
    ∃ uuid random, (hellos acts)[k]? = some (p, uuid, random) ∧
      ((∃ final, handleConnect c x uuid random p = .go o final) ∨
        ∃ m r, handleConnect c x uuid random p = .challenge o m r) := by
  obtain ⟨uuid, random, h1, h2⟩ := (frontInv h).story _ _ hk
  refine ⟨uuid, random, h1, ?_⟩
  rcases h2 with h2 | ⟨m, r, a, env, wr, h2, _⟩
  · exact .inl ⟨_, h2⟩
  · exact .inr ⟨_, _, h2⟩

/-- **C64.**  The client identifier of a connection that is served, and of the session it has, is
the one in its CONNECT, or the one made for it if that is empty. -/
theorem C64_identifier {acts : List FrontAct} (h : FrontReaches c x ext acts f evs)
    (hv : c.isValid = true) {k : ConnId} {p : ConnectPkt} {t : TaskId} (hk : f.served k p t) :
    ∃ uuid random req, (hellos acts)[k]? = some (p, uuid, random) ∧
      f.world.request t = some req ∧
      req.identifier = (if p.clientId = [] then uuid else p.clientId) ∧
      ∀ s, f.world.owned t = some s → s.identifier = req.identifier := by
  obtain ⟨o, final, hk⟩ := hk
  obtain ⟨uuid, random, h1, h2⟩ := opening_of h hk
  have hreq := ((frontInv h).serves _ _ _ _ hk rfl).1
  refine ⟨uuid, random, _, h1, hreq, (handleConnect_in h2).2.2.2.1, ?_⟩
  intro s hs
  obtain ⟨cfg, hcfg, _⟩ := C52_qos hv
  obtain ⟨wacts, hr, _⟩ := (frontInv h).reaches cfg hcfg
  obtain ⟨req, h3, h4⟩ := C38_identifier hr hs
  rw [hreq] at h3
  cases h3
  exact h4

example : exServer.isValid = true ∧ ∃ f evs, FrontReaches exServer exConnExt exExt exKnock f evs ∧
    f.served 1 { exAnn .v500 with clientId := [] } 1 :=
  ⟨by decide +kernel, served_of (final := none) (by decide +kernel)⟩

/-- **C64.**  An MQTT 5 client is told the identifier made for it, and no other client is told one. -/
theorem C64_told {acts : List FrontAct} (h : FrontReaches c x ext acts f evs) {k : ConnId}
    {present : Bool} {props : ConnackProps}
    (hm : .connack present .success props ∈ connacksOn k evs) :
    ∃ p uuid random, (hellos acts)[k]? = some (p, uuid, random) ∧
      props.assignedClientId =
        if p.level = .v500 ∧ p.clientId = [] then some uuid else none := by
  obtain ⟨p, uuid, random, h1, ⟨h2, _⟩ | ⟨cfg, o, t, final, h2, h3, h4, h5⟩⟩ := connack_of h hm
  · exact absurd rfl h2
  · refine ⟨p, uuid, random, h1, ?_⟩
    obtain ⟨-, -, -, -, hl, -, ho⟩ := handleConnect_in h5
    unfold Opening.connack at h4
    rw [hl] at h4
    split at h4
    · rename_i hp
      cases h4
      rw [if_neg]
      rintro ⟨h6, _⟩
      rw [h6] at hp
      cases hp
    · rename_i hp
      simp only [Reply.connack.injEq] at h4
      rw [h4.2.2]
      have hlevel : p.level = .v500 := by
        cases hl : p.level <;> rw [hl] at hp <;> first | rfl | cases hp
      simp only [connackProps, ho hp, openV5, hlevel, true_and]
      by_cases hc : p.clientId = [] <;> simp [hc]

example : ∃ f evs, FrontReaches exServer exConnExt exExt exKnock f evs ∧
    connacksOn 1 evs = [.connack false .success
      { receiveMax := some 10, maxPacketSize := some 268435460, assignedClientId := some (str "u1")
        topicAliasMax := some 65535 }] := acks_of (by decide +kernel)

/-- **C64.**  An MQTT 3.1 client must give an identifier, an MQTT 3.1.1 client that does not want a
clean session too: otherwise the connection is not served. -/
theorem C64_required {acts : List FrontAct} (h : FrontReaches c x ext acts f evs) {k : ConnId}
    {p : ConnectPkt} {t : TaskId} (hk : f.served k p t) (he : p.clientId = []) :
    p.level = .v500 ∨ (p.level = .v311 ∧ p.clean = true) := by
  obtain ⟨o, final, hk⟩ := hk
  obtain ⟨uuid, random, -, h2⟩ := opening_of h hk
  cases hl : p.level with
  | v500 => exact .inl rfl
  | v310 =>
    exfalso
    simp only [handleConnect, hl, Level.proto, handleConnectV3, he, refuse] at h2
    simp at h2
  | v311 =>
    right
    refine ⟨rfl, ?_⟩
    cases hc : p.clean with
    | true => rfl
    | false =>
      exfalso
      simp only [handleConnect, hl, Level.proto, handleConnectV3, he, refuse, hc] at h2
      simp at h2

example : ∃ f evs, FrontReaches {} exConnExt exExt
      [.hello { level := .v311, clientId := [] } (str "u") [] {} true] f evs ∧
    f.served 0 { level := .v311, clientId := [] } 0 := served_of (final := none) (by decide +kernel)

/-- **C64.**  With the check of the length switched on, the identifier of an MQTT 3.1 client that is
served has at most 23 bytes. -/
theorem C64_length {acts : List FrontAct} (h : FrontReaches c x ext acts f evs) {k : ConnId}
    {p : ConnectPkt} {t : TaskId} (hk : f.served k p t) (hl : p.level = .v310)
    (hc : c.checkV310Length = true) : (Scram.utf8 p.clientId).length ≤ 23 := by
  obtain ⟨o, final, hk⟩ := hk
  obtain ⟨uuid, random, -, h2⟩ := opening_of h hk
  refine Classical.byContradiction fun hn => ?_
  have hn : (Scram.utf8 p.clientId).length > 23 := by omega
  simp only [handleConnect, hl, Level.proto, handleConnectV3, refuse, hc, hn] at h2
  simp at h2

example : ∃ f evs, FrontReaches { checkV310Length := true } exConnExt exExt
      [.hello { level := .v310, clientId := str "c" } (str "u") [] {} true] f evs ∧
    f.served 0 { level := .v310, clientId := str "c" } 0 :=
  served_of (final := none) (by decide +kernel)

/-! ## C63 -/

/-- **C63.**  The session expiry interval an MQTT 5 connection starts with is the one the client
knows: that of its CONNECT (0 if there is none), unless CONNACK names another; and it is at most the
configured maximum. -/
theorem C63_told {acts : List FrontAct} (h : FrontReaches c x ext acts f evs) {k : ConnId}
    {p : ConnectPkt} {t : TaskId} (hk : f.served k p t) (hv : p.level = .v500) {present : Bool}
    {props : ConnackProps} (hm : .connack present .success props ∈ connacksOn k evs) :
    ∃ req, f.world.request t = some req ∧
      req.params.expiryInterval = props.sessionExpiry.getD (p.sessionExpiry.getD 0) ∧
      req.params.expiryInterval ≤ c.maxSessionExpiry := by
  obtain ⟨p', uuid, random, h1, ⟨h2, _⟩ | ⟨cfg, o, t', final, h2, h3, h4, h5⟩⟩ := connack_of h hm
  · exact absurd rfl h2
  · obtain ⟨o', final', hk⟩ := hk
    rw [h3] at hk
    simp only [Option.some.injEq, Conn.mk.injEq, ConnStage.task.injEq] at hk
    obtain ⟨rfl, rfl, rfl, rfl⟩ := hk
    obtain ⟨-, -, -, -, hl, -, ho⟩ := handleConnect_in h5
    have hp : p'.level.proto = .v5 := by rw [hv]; rfl
    refine ⟨_, ((frontInv h).serves _ _ _ _ h3 rfl).1, ?_⟩
    simp only [Opening.request, Opening.connack, hl, hp, Reply.connack.injEq] at h4 ⊢
    rw [h4.2.2]
    simp only [connackProps, ho hp, openV5, Opening.expiryInForce]
    split
    · exact ⟨rfl, Nat.le_refl _⟩
    · rename_i h6
      exact ⟨rfl, Nat.le_of_not_lt h6⟩

example : ∃ f evs, FrontReaches { maxSessionExpiry := 100 } exConnExt exExt
      [.hello { level := .v500, clientId := str "c", sessionExpiry := some 200 } [] [] {} true]
      f evs ∧
    connacksOn 0 evs = [.connack false .success
      { sessionExpiry := some 100, receiveMax := some 10, maxPacketSize := some 268435460
        topicAliasMax := some 65535 }] := acks_of (by decide +kernel)

/-- **C63** (partial).  The interval of a session is the one its connection started with, until an
MQTT 5 client names another in DISCONNECT, which it can only if the interval is not 0.  Missing: the
new interval is not limited, see `C63_false`. -/
theorem C63_kept_partial {acts : List FrontAct} (h : FrontReaches c x ext acts f evs)
    (hv : c.isValid = true) {t : TaskId} {req : Request} {s : Session}
    (hreq : f.world.request t = some req)
    (hs : f.world.onlineSession t = some s ∨ f.world.offlineSession t = some s) :
    s.expiryInterval = req.params.expiryInterval ∨ ∃ env after size code v,
      .act (.packet t env after size (.disconnect code (some v))) ∈ acts ∧ s.expiryInterval = v ∧
      req.level = .v500 ∧ 0 < req.params.expiryInterval := by
  obtain ⟨cfg, hcfg, _⟩ := C52_qos hv
  obtain ⟨wacts, hr, hfrom⟩ := (frontInv h).reaches cfg hcfg
  have hl : ∃ k, Tasks.life f.world.tasks t = .conn k s.ending := by
    rcases hs with hs | hs
    · exact ⟨_, life_online hs⟩
    · obtain ⟨y, hx, hst⟩ := offline_stage hs
      exact ⟨_, by rw [Tasks.life_eq hx, hst]; rfl⟩
  obtain ⟨k, hl⟩ := hl
  rcases expiry_run hr hreq hl with h1 | ⟨env, after, size, code, v, h1, h2, h3, h4⟩
  · exact .inl h1
  · refine .inr ⟨env, after, size, code, v, ?_, h2, ?_, h4⟩
    · rcases hfrom _ h1 with h5 | ⟨_, _, _, h5⟩
      · exact h5
      · cases h5
    · cases hlv : req.level <;> rw [hlv] at h3 <;> first | rfl | cases h3

/-- A client asks for more than the maximum, gets the maximum, and asks again in DISCONNECT. -/
def exLonger : List FrontAct :=
  [.hello { level := .v500, clientId := str "c", sessionExpiry := some 200 } [] [] {} true,
   .act (.packet 0 {} (Clock.const 0) 5 (.disconnect .success (some 300))),
   .act (.lose 0), .act (.close 0 {} []), .act (.finish 0)]

example : ∃ f evs, FrontReaches { maxSessionExpiry := 100 } exConnExt exExt exLonger f evs ∧
    ((f.world.offlineSession 0).map (·.expiryInterval),
      (f.world.request 0).map (·.params.expiryInterval)) = (some 300, some 100) :=
  run_of (fun f _ => ((f.world.offlineSession 0).map (·.expiryInterval),
      (f.world.request 0).map (·.params.expiryInterval))) (by decide +kernel)

/-- **C63, the missing part.**  The interval in DISCONNECT is taken as it is, although the maximum is
lower. -/
theorem C63_false : ∃ (c : ServerConfig) (x : ConnExt) (ext : Ext) (acts : List FrontAct) (f : Front)
    (evs : List FrontEvent) (t : TaskId) (s : Session), c.isValid = true ∧
    FrontReaches c x ext acts f evs ∧ f.world.offlineSession t = some s ∧
    c.maxSessionExpiry < s.expiryInterval := by
  obtain ⟨f, evs, h1, h2⟩ := run_of (c := { maxSessionExpiry := 100 }) (x := exConnExt)
    (ext := exExt) (acts := exLonger) (v := some 300)
    (fun f _ => (f.world.offlineSession 0).map (·.expiryInterval)) (by decide +kernel)
  obtain ⟨s, h3, h4⟩ := Option.map_eq_some_iff.1 h2
  exact ⟨_, _, _, _, f, evs, 0, s, by decide, h1, h3, by rw [h4]; decide⟩

/-! ## C67 -/

/-- **C67.**  The retained store is at any time what the messages published so far with the retain
flag (by any client, directly or as will) make of it: a lookup of a topic finds the last one, unless
its payload was empty. -/
theorem C67_latest {w : World} {acts : List Act} {evs : List Event}
    (h : Reaches cfg ext acts w evs) {topic : Str} (hv : ValidTopic topic) :
    w.retain.getMatches topic = some (retained (w.retainWrites evs) topic).toList := by
  rw [(retain_run h).2]
  exact C06_retained_latest _ hv

/-- **C67.**  A lookup of a filter finds exactly the retained messages of the topics it matches, each
once. -/
theorem C67_lookup {w : World} {acts : List Act} {evs : List Event}
    (h : Reaches cfg ext acts w evs) {F : Str} (hv : ValidFilter F) :
    ∃ rs, w.retain.getMatches F = some rs ∧
      (∀ c, c ∈ rs ↔ retained (w.retainWrites evs) c.topic = some c ∧ Matches F c.topic) ∧
      rs.Pairwise (fun a b => a.topic ≠ b.topic) := by
  rw [(retain_run h).2]
  exact C07_retained_lookup _ hv

/-- **C67.**  Every published message is of a connection that asked to be let in. -/
theorem C67_known {w : World} {acts : List Act} {evs : List Event}
    (h : Reaches cfg ext acts w evs) {t : TaskId} {m : SendPub} (hm : (t, m) ∈ published evs) :
    ∃ req, w.request t = some req := (retain_run h).1 _ hm

/-- A client publishes two retained messages, its will is published with the retain flag. -/
def exKeeps : List Act :=
  [.connect { exReq .v500 false 100 0 with
      params := { will := some { topic := str "w", payload := [7], qos := 1, retain := true } } } {} true,
   .packet 0 {} (Clock.const 0) 9 (.publish
      { dup := false, retain := true, qosPid := .level0, topic := str "a", payload := [1] }),
   .packet 0 {} (Clock.const 0) 9 (.publish
      { dup := false, retain := true, qosPid := .level0, topic := str "a", payload := [2] }),
   .lose 0, .close 0 {} []]

example : ValidTopic (str "a") ∧ ∃ w evs, Reaches {} exExt exKeeps w evs ∧
    (w.retainWrites evs).map (fun c => (c.topic, c.payload)) =
      [(str "a", [1]), (str "a", [2]), (str "w", [7])] ∧
    (w.retain.getMatches (str "a")).map (·.map (·.payload)) = some [[2]] :=
  ⟨by unfold ValidTopic; decide, _, _, rfl, rfl, rfl⟩

/-! ## C22 -/

/-- **C22.**  Over the whole broker: no message that is passed on for a client, published directly,
by a topic alias or as will, has a topic that begins with '$'. -/
theorem C22_all {acts : List FrontAct} (h : FrontReaches c x ext acts f evs)
    (hv : c.isValid = true) {t : TaskId} {m : SendPub}
    (hm : (t, m) ∈ published (worldEvents evs)) : m.topic.head? ≠ some '$' := by
  obtain ⟨cfg, hcfg, _⟩ := C52_qos hv
  obtain ⟨wacts, hr, _⟩ := (frontInv h).reaches cfg hcfg
  obtain ⟨ev, h1, h2⟩ := List.mem_flatMap.1 hm
  cases ev with
  | routed t' ms =>
    obtain ⟨m', h3, h4⟩ := List.mem_map.1 h2
    simp only [Prod.mk.injEq] at h4
    obtain ⟨rfl, rfl⟩ := h4
    exact (routed_run hr).2 _ _ h1 _ h3
  | will t' m' =>
    simp only [List.mem_singleton, Prod.mk.injEq] at h2
    obtain ⟨rfl, rfl⟩ := h2
    have hmem : m ∈ willsOf t (worldEvents evs) :=
      List.mem_filterMap.2 ⟨_, h1, by simp⟩
    rcases C41_at_most_once hr t with h3 | ⟨req, wl, p, h3, h4, h5, h6⟩
    · rw [h3] at hmem; cases hmem
    · rw [h5, List.mem_singleton] at hmem
      subst hmem
      rw [h6.1]
      obtain ⟨k, p, ⟨o, final, h7⟩, _, _, _, h8, _⟩ := C50_all h h3
      obtain ⟨uuid, random, _, h9⟩ := opening_of h h7
      have := (handleConnect_in h9).2.1
      rw [← h8, h4] at this
      simp only [willTopicBad, Bool.or_eq_false_iff, decide_eq_false_iff_not] at this
      exact this.2
  | _ => cases h2

/-- **C22.**  No message is ever retained for a topic that begins with '$'. -/
theorem C22_store {acts : List FrontAct} (h : FrontReaches c x ext acts f evs)
    (hv : c.isValid = true) {topic : Str} (hd : topic.head? = some '$') (ht : ValidTopic topic) :
    f.world.retain.getMatches topic = some [] := by
  obtain ⟨cfg, hcfg, _⟩ := C52_qos hv
  obtain ⟨wacts, hr, _⟩ := (frontInv h).reaches cfg hcfg
  rw [C67_latest hr ht]
  have : (f.world.retainWrites (worldEvents evs)).filter (fun c => c.topic = topic) = [] := by
    rw [List.filter_eq_nil_iff]
    intro rc hrc
    obtain ⟨⟨t, m⟩, h1, h2⟩ := List.mem_filterMap.1 hrc
    simp only at h2
    split at h2
    · obtain ⟨req, _, rfl⟩ := Option.map_eq_some_iff.1 h2
      simp only [SendPub.toRetain]
      intro he
      exact C22_all h hv h1 (by rw [show m.topic = topic from of_decide_eq_true he]; exact hd)
    · cases h2
  unfold retained
  rw [this]
  rfl

/-- Two clients connect; the first one's will is published. -/
example : exServer.isValid = true ∧ ∃ f evs, FrontReaches exServer exConnExt exExt
      (exKnock.take 2 ++ [.act (.lose 0), .act (.close 0 {} [])]) f evs ∧
    (published (worldEvents evs)).map (fun e => (e.1, e.2.topic)) = [(0, str "w")] :=
  ⟨by decide +kernel, run_of (fun _ evs => (published (worldEvents evs)).map
    fun e => (e.1, e.2.topic)) (by decide +kernel)⟩
example : (str "$SYS/a").head? = some '$' ∧ ValidTopic (str "$SYS/a") :=
  ⟨rfl, by unfold ValidTopic; decide⟩

end Akasa

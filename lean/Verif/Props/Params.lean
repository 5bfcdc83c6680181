import Verif.Proof.Params
import Verif.Props.Origin
import Verif.Props.ConnAck
import Verif.Spec.Ending
/-!
# C74: what a client says in its CONNECT is what the broker applies
-/
namespace Akasa

variable {cfg : Config} {ext : Ext} {w : World} {evs : List Event}
variable {c : ServerConfig} {x : ConnExt} {f : Front} {fevs : List FrontEvent}

/-- **C74, taken over.**  A connection that is served has the protocol level, the clean flag and the
will of its CONNECT.  For MQTT 5 it has the receive maximum, the maximum packet size and the topic
alias maximum of its CONNECT (or the defaults), neither of the first two is 0, and the session expiry
interval, which the configuration may only make shorter. -/
theorem C74_request {acts : List FrontAct} (h : FrontReaches c x ext acts f fevs) {k : ConnId}
    {p : ConnectPkt} {t : TaskId} (hk : f.served k p t) :
    ∃ req, f.world.request t = some req ∧ req.level = p.level ∧ req.clean = p.clean ∧
      req.params.will = p.will ∧
      (p.level = .v500 →
        req.params.receiveMax = p.receiveMax.getD c.maxInflightClient ∧ p.receiveMax ≠ some 0 ∧
        req.params.maxPacketSize = p.maxPacketSize.getD c.maxPacketSizeClient ∧
        p.maxPacketSize ≠ some 0 ∧
        req.params.aliasMax = p.topicAliasMax.getD 0 ∧
        req.params.expiryInterval = min (p.sessionExpiry.getD 0) c.maxSessionExpiry) := by
  obtain ⟨o, final, hk⟩ := hk
  obtain ⟨uuid, random, -, h2⟩ := opening_of h hk
  obtain ⟨-, -, h3, -, h4, h5, h6⟩ := handleConnect_in h2
  refine ⟨_, ((frontInv h).serves _ _ _ _ hk rfl).1, h4, h5, ?_, fun hv => ?_⟩
  · unfold Opening.request
    simp only
    split <;> exact h3
  · have hp : p.level.proto = .v5 := by rw [hv]; rfl
    have hnz : p.receiveMax ≠ some 0 ∧ p.maxPacketSize ≠ some 0 := by
      constructor
      all_goals
        intro hz
        simp only [handleConnect, hp, handleConnectV5, refuse, hz, Option.getD_some] at h2
        repeat' split at h2
        all_goals first
          | (rcases h2 with ⟨_, h2⟩ | ⟨_, _, h2⟩ <;> cases h2; done)
          | (rename_i hn _ _ _ _; exact absurd trivial hn)
          | simp_all
    have ho := h6 hp
    unfold Opening.request
    simp only [h4, hp]
    rw [ho]
    refine ⟨rfl, hnz.1, rfl, hnz.2, rfl, ?_⟩
    unfold Opening.expiryInForce openV5
    simp only
    split
    · rw [Nat.min_eq_right (by omega)]
    · rw [Nat.min_eq_left (by omega)]

/-- An MQTT 5 client announces all its limits, and asks for a longer session than is allowed. -/
def exSays : ConnectPkt :=
  { level := .v500, clientId := str "c", receiveMax := some 2, maxPacketSize := some 200
    topicAliasMax := some 3, sessionExpiry := some 4000000000 }

example : ∃ f evs, FrontReaches { maxSessionExpiry := 100 } exConnExt exExt
      [.hello exSays (str "u") [] {} true] f evs ∧ f.served 0 exSays 0 :=
  served_of (final := none) (by decide +kernel)

/-- **C74, in force.**  While a connection has its session, what its own CONNECT said is what was
said last in the life of the session: nothing of an earlier connection is left. -/
theorem C74_now {acts : List Act} (hrun : Reaches cfg ext acts w evs) {t : TaskId} {s : Session}
    {req : Request} (hs : w.connSession t = some s) (hreq : w.request t = some req) :
    connIn (lifeOf w req.identifier evs) = some req.params := by
  unfold World.connSession at hs
  unfold World.request at hreq
  cases hx : w.tasks.get t with
  | none => rw [hx] at hs; cases hs
  | some y =>
    rw [hx] at hs hreq
    cases hreq
    simp only at hs
    cases hst : y.stage <;> rw [hst] at hs <;> cases hs <;>
      exact life_conn hrun hx (by rw [hst]; rfl) (by rw [hst]; rfl)

/-- A client connects again, with other limits, and the session is handed over. -/
def exSmaller : List Act :=
  [.connect { level := .v500, identifier := str "c", clean := true
              params := { aliasMax := 3, receiveMax := 5, expiryInterval := 100 } } {} true,
   .packet 0 {} (Clock.const 0) 10 (.subscribe 1 [(str "a", { maxQos := 1 })] none),
   .connect { level := .v500, identifier := str "c", clean := false
              params := { aliasMax := 0, receiveMax := 1 } } {} true,
   .control 0 {}, .accept 1 {} true,
   .connect { level := .v311, identifier := str "d", clean := true } {} true,
   .packet 2 {} (Clock.const 0) 10 (.publish
    { dup := false, retain := false, qosPid := .level1 7, topic := str "a", payload := [1] }),
   .packet 2 {} (Clock.const 0) 10 (.publish
    { dup := false, retain := false, qosPid := .level1 8, topic := str "a", payload := [2] }),
   .push 2 0, .flush 2 0, .push 2 0, .flush 2 0,
   .normal 1 { clk := fun _ => Clock.const 100 }, .normal 1 { clk := fun _ => Clock.const 100 }]

example : ∃ w evs s req, Reaches {} exExt exSmaller w evs ∧ w.connSession 1 = some s ∧
    w.request 1 = some req ∧ req.level.proto = .v5 ∧ req.params.receiveMax = 1 ∧
    (connIn (lifeOf w req.identifier evs)).map (·.receiveMax) = some 1 ∧
    (takenIn (lifeOf w req.identifier evs)).length = 2 ∧
    unansweredIn (lifeOf w req.identifier evs) = [1] :=
  ⟨_, _, _, _, rfl, rfl, rfl, rfl, rfl, by decide +kernel, by decide +kernel, by decide +kernel⟩

/-- **C74, topic aliases.**  If the wills have topics: a topic alias is used towards an MQTT 5 client
only within the topic alias maximum of that connection. -/
theorem C74_alias {acts : List Act} (hrun : Reaches cfg ext acts w evs) (hw : w.willsNamed)
    {t : TaskId} {req : Request} (hreq : w.request t = some req) (hv : req.level.proto = .v5)
    {out : List OutPkt} (hev : .sent t out ∈ evs) {p : Publish} (hp : .publish p ∈ out) {a : Nat}
    (ha : p.props.topicAlias = some a) : 1 ≤ a ∧ a ≤ req.params.aliasMax := by
  obtain ⟨A, B, hev⟩ := List.append_of_mem hev
  obtain ⟨acts1, a', acts2, w1, w2, evs1, e, y, s, A2, rfl, h1, h2, rfl, hy, hs, hl, L, M, hlm, hM,
    hsub⟩ := life_at hrun hev rfl
  obtain ⟨_, hreq2⟩ := run_prefix h2 (acts2 := acts2) (by rw [List.append_assoc]; exact hrun)
  have hyr : w2.request t = some y.req := by
    unfold World.request
    rw [show w2.tasks.get t = some y from hy]; rfl
  have := hreq2 t _ hyr
  rw [hreq] at this
  cases this
  have hw2 : w2.willsNamed := fun u r wl h3 h4 => hw u r wl (hreq2 u r h3) h4
  have hm := hsub (.sent (.publish p)) (by
    unfold Event.obs
    rw [under_self hy]
    exact List.mem_map.2 ⟨_, hp, rfl⟩)
  obtain ⟨M1, M2, rfl⟩ := List.append_of_mem hm
  have hconn := life_conn h2 hy hs hl
  rw [hlm, connIn_append _ _ hM,
    ← connIn_append L M1 fun o ho => hM o (List.mem_append.2 (.inl ho))] at hconn
  obtain ⟨q, i, id, cp, sevs, recs, h3, h4, _, h5⟩ := (origin_life h2).lifeOf hy hs
  rw [hv] at h3
  rw [hlm, ← List.append_assoc] at h4
  obtain ⟨R1, r, R2, hrec, ho, hc⟩ := sent_conn h4.symm
  rw [hconn] at hc
  simp only [Option.some.injEq] at hc
  have hr : r ∈ recs := by rw [hrec]; simp
  have hin := (C24_alias_in_range h3 (fun e he =>
    origin_named (fun u m hm => published_named h2 hw2 hm) (h5.1 e he)) hr).1 p a ho ha
  have his := isRun_of_run h3
  rw [hrec, show R1 ++ r :: R2 = (R1 ++ [r]) ++ R2 by simp, isRun_append] at his
  have hal := aliasMax_run his.1
  rw [← hc, endOf_append] at hal
  rw [← hal]
  exact hin

example : ∃ w evs req out p, Reaches {} exExt exAliased w evs ∧ w.willsNamed ∧
    w.request 0 = some req ∧ req.level.proto = .v5 ∧ .sent 0 out ∈ evs ∧ .publish p ∈ out ∧
    p.props.topicAlias = some 1 ∧ req.params.aliasMax = 3 := by
  refine ⟨_, _, _, _, _, rfl, willsNamed_of (by decide +kernel), rfl, rfl,
    List.getLast_mem (by simp), List.mem_singleton.2 rfl, rfl, rfl⟩

/-- **C74, topic aliases.**  Over the whole broker with any valid configuration: towards an MQTT 5
client a topic alias is used only if its CONNECT allows topic aliases, and within the maximum it
names. -/
theorem C74_alias_all {acts : List FrontAct} (h : FrontReaches c x ext acts f fevs)
    (hc : c.isValid = true) {k : ConnId} {p : ConnectPkt} {t : TaskId} (hk : f.served k p t)
    (hv : p.level = .v500) {out : List OutPkt} (hev : .sent t out ∈ worldEvents fevs) {q : Publish}
    (hq : .publish q ∈ out) {a : Nat} (ha : q.props.topicAlias = some a) :
    ∃ v, p.topicAliasMax = some v ∧ 1 ≤ a ∧ a ≤ v := by
  obtain ⟨req, h1, h2, -, -, h3⟩ := C74_request h hk
  obtain ⟨-, -, -, -, h4, -⟩ := h3 hv
  obtain ⟨cfg, hcfg, _⟩ := C52_qos hc
  obtain ⟨wacts, hr, _⟩ := (frontInv h).reaches cfg hcfg
  obtain ⟨h5, h6⟩ := C74_alias hr (C75_wills h) h1 (by rw [h2, hv]; rfl) hev hq ha
  rw [h4] at h6
  cases hm : p.topicAliasMax with
  | none => rw [hm] at h6; simp only [Option.getD_none] at h6; omega
  | some v => rw [hm] at h6; exact ⟨v, rfl, h5, h6⟩

/-- The topic aliases among these packets. -/
def aliasesOf (l : List OutPkt) : List Nat :=
  l.filterMap fun o => match o with | .publish p => p.props.topicAlias | _ => none

example : ({} : ServerConfig).isValid = true ∧
    ∃ f fevs, FrontReaches {} exConnExt exExt exFrontAlias f fevs ∧
      ((worldEvents fevs).filterMap fun e =>
        match e with | .sent 0 out => some (aliasesOf out) | _ => none).flatten = [1, 1] :=
  ⟨by decide, run_of (fun _ fevs => ((worldEvents fevs).filterMap fun e =>
    match e with | .sent 0 out => some (aliasesOf out) | _ => none).flatten) (by decide +kernel)⟩

/-- **C74, the receive maximum** (partial).  If no message has an expiry interval: the PUBLISH packets
that an MQTT 5 client has got on its connection and not acknowledged are no more than its receive
maximum.  Missing: messages that expire, see `C10_false`. -/
theorem C74_window_partial {acts : List Act} (hrun : Reaches cfg ext acts w evs)
    (hexp : NoneExpires evs) {t : TaskId} {s : Session} {req : Request}
    (hs : w.connSession t = some s) (hreq : w.request t = some req) (hv : req.level.proto = .v5) :
    (unansweredIn (lifeOf w req.identifier evs)).length ≤ req.params.receiveMax := by
  have hconn := C74_now hrun hs hreq
  have ⟨y, hy, hso⟩ : ∃ y, w.tasks.get t = some y ∧ y.stage.owner? = some s := by
    unfold World.connSession at hs
    cases hx : w.tasks.get t with
    | none => rw [hx] at hs; cases hs
    | some y =>
      rw [hx] at hs
      simp only at hs
      refine ⟨y, rfl, ?_⟩
      cases hst : y.stage <;> rw [hst] at hs <;> cases hs <;> rfl
  unfold World.request at hreq
  rw [hy] at hreq
  cases hreq
  obtain ⟨q, i, id, cp, sevs, recs, h3, h4, _, h5⟩ := (origin_life hrun).lifeOf hy hso
  rw [hv] at h3
  rw [h4, connIn_recs] at hconn
  simp only [Option.some.injEq] at hconn
  rw [h4, unansweredIn_recs, ← hconn]
  refine window_v5 h3 fun r hr p hp => ?_
  obtain ⟨u, m, req, h6, h7, -, -, -, -, h8⟩ := messages_from
    (h5.1 _ (by rw [← rec_event h3]; exact List.mem_map.2 ⟨r, hr, rfl⟩)) hp
  rw [h8 rfl]
  simp only
  unfold SendPub.seenProps
  split
  · rfl
  · exact hexp _ h6

/-- To check an example. -/
theorem noneExpires_of (h : (published evs).all (fun e => decide (e.2.props.messageExpiry = none)) =
    true) : NoneExpires evs :=
  fun e he => of_decide_eq_true (List.all_eq_true.1 h e he)

example : ∃ w evs, Reaches {} exExt exSmaller w evs ∧ NoneExpires evs ∧
    (published evs).length = 2 :=
  ⟨_, _, rfl, noneExpires_of (by decide +kernel), by decide +kernel⟩

/-- **C74, the other direction.**  The limits that CONNACK tells an MQTT 5 client are those with which
the broker runs; a limit that is not named is the one that MQTT then assumes. -/
theorem C74_told {acts : List FrontAct} (h : FrontReaches c x ext acts f fevs) {k : ConnId}
    {p : ConnectPkt} {t : TaskId} (hk : f.served k p t) (hv : p.level = .v500) {present : Bool}
    {code : ConnCode} {props : ConnackProps}
    (hm : .connack present code props ∈ connacksOn k fevs) :
    ∃ cfg wacts, Reaches cfg ext wacts f.world (worldEvents fevs) ∧
      cfg.maxInflightServer = props.receiveMax.getD 65535 ∧
      cfg.maxAllowedQos = props.maxQos.getD 2 ∧
      cfg.topicAliasMax = props.topicAliasMax.getD 0 ∧
      cfg.retainAvailable = props.retainAvailable.getD true ∧
      cfg.wildcardAvailable = props.wildcardAvailable.getD true ∧
      cfg.subscriptionIdAvailable = props.subscriptionIdAvailable.getD true ∧
      cfg.sharedAvailable = props.sharedAvailable.getD true ∧
      (∀ v, props.maxPacketSize = some v → cfg.maxPacketSizeServer = v) ∧
      (props.maxPacketSize = none → 4294967295 ≤ cfg.maxPacketSizeServer) := by
  obtain ⟨o, final, hk⟩ := hk
  obtain ⟨p', uuid, random, h1, ⟨_, _, _, o', h2⟩ | ⟨cfg, o', t', final', h2, h3, h4, h5⟩⟩ :=
    connack_of h hm
  · rw [hk] at h2
    cases h2
  · rw [hk] at h3
    simp only [Option.some.injEq, Conn.mk.injEq, ConnStage.task.injEq] at h3
    obtain ⟨rfl, rfl, rfl, rfl⟩ := h3
    obtain ⟨wacts, hr, _⟩ := (frontInv h).reaches cfg h2
    have hl := (handleConnect_in h5).2.2.2.2.1
    unfold Opening.connack at h4
    rw [hl, hv] at h4
    simp only [Level.proto, Reply.connack.injEq] at h4
    obtain ⟨-, -, rfl⟩ := h4
    refine ⟨cfg, wacts, hr, ?_⟩
    unfold ServerConfig.limits at h2
    obtain ⟨q, h7, rfl⟩ := Option.map_eq_some_iff.1 h2
    simp only [connackProps]
    refine ⟨?_, ?_, ?_, ?_, ?_, ?_, ?_, ?_, ?_⟩
    · split
      · rfl
      · simp_all
    · split
      · rfl
      · rename_i hq
        clear h7 h2 hr hm
        revert q
        decide
    · split
      · rfl
      · simp_all
    · cases c.retainAvailable <;> rfl
    · cases c.wildcardAvailable <;> rfl
    · cases c.subscriptionIdAvailable <;> rfl
    · cases c.sharedAvailable <;> rfl
    · intro v hv
      split at hv
      · cases hv; rfl
      · cases hv
    · intro hv
      split at hv
      · cases hv
      · omega

example : ∃ f evs, FrontReaches exServer exConnExt exExt exKnock f evs ∧
    f.served 1 { exAnn .v500 with clientId := [] } 1 := served_of (final := none) (by decide +kernel)
example : ∃ f evs, FrontReaches exServer exConnExt exExt exKnock f evs ∧
    connacksOn 1 evs = [.connack false .success
      { receiveMax := some 10, maxPacketSize := some 268435460, assignedClientId := some (str "u1")
        topicAliasMax := some 65535 }] := acks_of (by decide +kernel)

end Akasa

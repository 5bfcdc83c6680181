import Verif.Spec.Hook
import Verif.Props.Incoming
/-!
# C51, C69, C70: hooks
-/
namespace Akasa

variable {cfg : Config} {hooks : HookConfig} {ext : HookExt} {env : Env} {h : HookAns}
  {after : Clock} {g : Global} {s : Session} {size : Nat}

theorem ignored_of {out : List OutPkt} {pr : Proto} (hsz : size ≤ cfg.maxPacketSizeServer) :
    Ignored cfg ext.toExt pr env after g s size out
      { session := (afterPacket pr after s).1, global := g, out := out ++ (afterPacket pr after s).2 } := by
  have hn : ¬ size > cfg.maxPacketSizeServer := Nat.not_lt.mpr hsz
  have hf : ∀ (f : Session → Session × List OutPkt), (f = handlePendingsV3 after ∨
      f = handlePendingsV5 after) →
      (f s).1.subscribes = s.subscribes ∧ (f s).1.qos2 = s.qos2 ∧ (f s).1.bcast = s.bcast ∧
      (f s).1.aliases = s.aliases ∧ (f s).1.will = s.will ∧
      (f s).1.disconnected = s.disconnected := by
    rintro f (rfl | rfl)
    · exact ⟨rfl, rfl, rfl, rfl, rfl, rfl⟩
    · exact ⟨rfl, rfl, rfl, rfl, rfl, rfl⟩
  have ha : (afterPacket pr after s).1.subscribes = s.subscribes ∧
      (afterPacket pr after s).1.qos2 = s.qos2 ∧ (afterPacket pr after s).1.bcast = s.bcast ∧
      (afterPacket pr after s).1.aliases = s.aliases ∧
      (afterPacket pr after s).1.will = s.will ∧
      (afterPacket pr after s).1.disconnected = s.disconnected := by
    cases pr with
    | v3 => exact hf _ (.inl rfl)
    | v5 =>
      unfold afterPacket
      simp only
      split
      · exact ⟨rfl, rfl, rfl, rfl, rfl, rfl⟩
      · exact hf _ (.inr rfl)
  obtain ⟨h1, h2, h3, h4, h5, h6⟩ := ha
  refine ⟨rfl, rfl, h1, h2, h3, h4, h5, ⟨rfl, h6⟩, _, rfl, ?_⟩
  unfold onPacket handlePacket handlePacketV3 handlePacketV5
  cases pr <;> simp only [if_neg hn, List.singleton_append, Bool.false_eq_true, if_false]

/-- **C51, PUBLISH, MQTT 5**: if the hook for PUBLISH refuses a packet, nothing is changed and the
client gets PUBACK or PUBREC with the code of the hook, or nothing if it is a packet with QoS 0.
(`p'` is the packet as the hook left it.) -/
theorem C51_publish_v5 (hh : hooks.publish = true) (hsz : size ≤ cfg.maxPacketSizeServer)
    {p p' : Publish} {code : HookPublishCode} (hc : code ≠ .success)
    (hb : h.beforePublish p = some (code, p')) :
    ∃ r, onPacketHook cfg hooks ext .v5 env h after g s size (.publish p) = some r ∧
      Ignored cfg ext.toExt .v5 env after g s size
        (match p'.qosPid with
          | .level0 => []
          | .level1 pid => [.puback pid code.reason]
          | .level2 pid => [.pubrec pid code.reason]) r := by
  have hn : ¬ size > cfg.maxPacketSizeServer := Nat.not_lt.mpr hsz
  refine ⟨_, ?_, ignored_of hsz⟩
  unfold onPacketHook handlePacketHook
  simp only [if_neg hn, hh, if_true, requestPublishV5, hb]
  cases code <;> first | exact absurd rfl hc | rfl

/-- **C51, SUBSCRIBE, MQTT 5**: if the hook for SUBSCRIBE refuses a packet, nothing is changed and
the client gets SUBACK with the code of the hook for every filter. -/
theorem C51_subscribe_v5 (hh : hooks.subscribe = true) (hsz : size ≤ cfg.maxPacketSizeServer)
    {p p' : SubscribePkt} {code : HookSubscribeCode} (hc : code ≠ .success)
    (hb : h.beforeSubscribe p = some (code, p')) :
    ∃ r, onPacketHook cfg hooks ext .v5 env h after g s size
        (.subscribe p.pid p.topics p.subscriptionId) = some r ∧
      Ignored cfg ext.toExt .v5 env after g s size
        [.suback p'.pid (List.replicate p'.topics.length code.reason)] r := by
  have hn : ¬ size > cfg.maxPacketSizeServer := Nat.not_lt.mpr hsz
  refine ⟨_, ?_, ignored_of hsz⟩
  unfold onPacketHook handlePacketHook
  simp only [if_neg hn, hh, if_true, requestSubscribeV5, hb, List.map_const']
  cases code <;> first | exact absurd rfl hc | rfl

/-- **C51, UNSUBSCRIBE, MQTT 5**: if the hook for UNSUBSCRIBE refuses a packet, nothing is changed
and the client gets UNSUBACK with the code of the hook for every filter. -/
theorem C51_unsubscribe_v5 (hh : hooks.unsubscribe = true) (hsz : size ≤ cfg.maxPacketSizeServer)
    {p p' : UnsubscribePkt} {code : HookUnsubscribeCode} (hc : code ≠ .success)
    (hb : h.beforeUnsubscribe p = some (code, p')) :
    ∃ r, onPacketHook cfg hooks ext .v5 env h after g s size (.unsubscribe p.pid p.topics) = some r ∧
      Ignored cfg ext.toExt .v5 env after g s size
        [.unsuback p'.pid (List.replicate p'.topics.length code.reason)] r := by
  have hn : ¬ size > cfg.maxPacketSizeServer := Nat.not_lt.mpr hsz
  refine ⟨_, ?_, ignored_of hsz⟩
  unfold onPacketHook handlePacketHook
  simp only [if_neg hn, hh, if_true, requestUnsubscribeV5, hb, List.map_const']
  cases code <;> first | exact absurd rfl hc | rfl

/-- **C51, the codes of MQTT 5**: a refusal reaches the client as an error (128 or more), with the
number MQTT 5 gives to what the hook answered. -/
theorem C51_codes :
    (∀ c : HookPublishCode, c ≠ .success → c.reason.number ≥ 128 ∧ c.reason.number = c.number) ∧
    (∀ c : HookSubscribeCode, c ≠ .success → c.reason.number ≥ 128 ∧ c.reason.number = c.number) ∧
    (∀ c : HookUnsubscribeCode, c ≠ .success →
      c.reason.number ≥ 128 ∧ c.reason.number = c.number) := by
  refine ⟨?_, ?_, ?_⟩ <;> intro c hc <;> cases c <;>
    first | exact absurd rfl hc | exact ⟨by decide, rfl⟩

example : (HookPublishCode.quotaExceeded).reason.number = 151 := rfl

/-- A hook that refuses everything. -/
def exRefusing : HookAns :=
  { beforePublish := fun p => some (.notAuthorized, p)
    beforeSubscribe := fun p => some (.quotaExceeded, p)
    beforeUnsubscribe := fun p => some (.topicFilterInvalid, p) }

/-- Functions for the examples. -/
def exHookExt : HookExt := { exExt with fits := fun _ => true }

example : ∃ r, onPacketHook {} {} exHookExt .v5 {} exRefusing (Clock.const 0) exGlobal
      (exPeer .v5).session 10 (exPub2 "a" 3 false [1]) = some r ∧
    r.out = [.pubrec 3 (.other 135)] ∧ r.session.qos2 = [] :=
  ⟨_, rfl, rfl, rfl⟩

example : ∃ r, onPacketHook {} {} exHookExt .v5 {} exRefusing (Clock.const 0) exGlobal
      (exPeer .v5).session 10 (.subscribe 4 [(str "a", { maxQos := 1 }), (str "b", { maxQos := 2 })]
        none) = some r ∧
    r.out = [.suback 4 [.other 151, .other 151]] ∧ r.session.subscribes = [] :=
  ⟨_, rfl, rfl, rfl⟩

example : ∃ r, onPacketHook {} {} exHookExt .v5 {} exRefusing (Clock.const 0) exGlobal
      { (exPeer .v5).session with subscribes := [(str "a", { opts := { maxQos := 1 } })] } 10
      (.unsubscribe 5 [str "a"]) = some r ∧
    r.out = [.unsuback 5 [.other 143]] ∧ r.session.subscribes.keys = [str "a"] :=
  ⟨_, rfl, rfl, rfl⟩

/-- The hook that is called for the packet does not answer "success": it refuses the packet
(`some`), or fails (`none`). -/
def HookAns.declines (h : HookAns) (hooks : HookConfig) : InPkt → Prop
  | .publish p => hooks.publish = true ∧ ∀ p', h.beforePublish p ≠ some (.success, p')
  | .subscribe pid topics id =>
    hooks.subscribe = true ∧ ∀ p', h.beforeSubscribe ⟨pid, topics, id⟩ ≠ some (.success, p')
  | .unsubscribe pid topics =>
    hooks.unsubscribe = true ∧ ∀ p', h.beforeUnsubscribe ⟨pid, topics⟩ ≠ some (.success, p')
  | _ => False

/-- **C51, MQTT 3**: if a hook refuses a packet or fails, nothing is changed or sent and the
connection is closed. -/
theorem C51_v3 (hsz : size ≤ cfg.maxPacketSizeServer) {pkt : InPkt} (hd : h.declines hooks pkt) :
    ∃ r, onPacketHook cfg hooks ext .v3 env h after g s size pkt = some r ∧ Dropped g s r := by
  have hn : ¬ size > cfg.maxPacketSizeServer := Nat.not_lt.mpr hsz
  unfold onPacketHook handlePacketHook
  cases pkt with
  | publish p =>
    obtain ⟨hh, hb⟩ := hd
    simp only [if_neg hn, hh, if_true, requestPublishV3]
    cases hx : h.beforePublish p with
    | none => exact ⟨_, rfl, rfl, rfl, rfl, rfl, rfl⟩
    | some cp =>
      obtain ⟨code, p'⟩ := cp
      cases code with
      | success => exact absurd hx (hb p')
      | _ => exact ⟨_, rfl, rfl, rfl, rfl, rfl, rfl⟩
  | subscribe pid topics id =>
    obtain ⟨hh, hb⟩ := hd
    simp only [if_neg hn, hh, if_true, requestSubscribeV3]
    cases hx : h.beforeSubscribe ⟨pid, topics, id⟩ with
    | none => exact ⟨_, rfl, rfl, rfl, rfl, rfl, rfl⟩
    | some cp =>
      obtain ⟨code, p'⟩ := cp
      cases code with
      | success => exact absurd hx (hb p')
      | _ => exact ⟨_, rfl, rfl, rfl, rfl, rfl, rfl⟩
  | unsubscribe pid topics =>
    obtain ⟨hh, hb⟩ := hd
    simp only [if_neg hn, hh, if_true, requestUnsubscribeV3]
    cases hx : h.beforeUnsubscribe ⟨pid, topics⟩ with
    | none => exact ⟨_, rfl, rfl, rfl, rfl, rfl, rfl⟩
    | some cp =>
      obtain ⟨code, p'⟩ := cp
      cases code with
      | success => exact absurd hx (hb p')
      | _ => exact ⟨_, rfl, rfl, rfl, rfl, rfl, rfl⟩
  | _ => exact hd.elim

example : exRefusing.declines {} (exPub2 "a" 3 false [1]) :=
  ⟨rfl, fun p' h => by simp [exRefusing] at h⟩

/-- The hook that is called for the packet fails. -/
def HookAns.fails (h : HookAns) (hooks : HookConfig) : InPkt → Prop
  | .publish p => hooks.publish = true ∧ h.beforePublish p = none
  | .subscribe pid topics id => hooks.subscribe = true ∧ h.beforeSubscribe ⟨pid, topics, id⟩ = none
  | .unsubscribe pid topics => hooks.unsubscribe = true ∧ h.beforeUnsubscribe ⟨pid, topics⟩ = none
  | _ => False

/-- **C51, failing hook, MQTT 5**: the connection is closed, nothing is changed or sent. -/
theorem C51_error_v5 (hsz : size ≤ cfg.maxPacketSizeServer) {pkt : InPkt} (hd : h.fails hooks pkt) :
    ∃ r, onPacketHook cfg hooks ext .v5 env h after g s size pkt = some r ∧ Dropped g s r := by
  have hn : ¬ size > cfg.maxPacketSizeServer := Nat.not_lt.mpr hsz
  unfold onPacketHook handlePacketHook
  cases pkt with
  | publish p =>
    obtain ⟨hh, hb⟩ := hd
    simp only [if_neg hn, hh, if_true, requestPublishV5, hb]
    exact ⟨_, rfl, rfl, rfl, rfl, rfl, rfl⟩
  | subscribe pid topics id =>
    obtain ⟨hh, hb⟩ := hd
    simp only [if_neg hn, hh, if_true, requestSubscribeV5, hb]
    exact ⟨_, rfl, rfl, rfl, rfl, rfl, rfl⟩
  | unsubscribe pid topics =>
    obtain ⟨hh, hb⟩ := hd
    simp only [if_neg hn, hh, if_true, requestUnsubscribeV5, hb]
    exact ⟨_, rfl, rfl, rfl, rfl, rfl, rfl⟩
  | _ => exact hd.elim

example : HookAns.fails { beforePublish := fun _ => none } {} (exPub2 "a" 3 false [1]) :=
  ⟨rfl, rfl⟩

/-- **C51, failing after-hook**: if the hook that is called after the packet fails, the packet has
had its effect as without hooks, and the connection is closed; nothing is sent to the client and no
action is applied.  (In MQTT 5 the hook is not called if the broker has already decided to
disconnect the client because of the packet.) -/
theorem C51_after_error {pr : Proto} {pkt : InPkt} {r0 : Res} (hk : pkt.hooked hooks = true)
    (hsz : size ≤ cfg.maxPacketSizeServer)
    (h0 : handlePacket cfg ext.toExt pr env g s size pkt = some r0)
    (hd : r0.session.disconnected = false) :
    ∃ r, onPacketHook cfg hooks ext pr env { after := none } after g s size pkt = some r ∧
      r.closed = true ∧ r.session = r0.session ∧ r.global = r0.global ∧ r.routed = r0.routed ∧
      (r0.closed = false → r.out = []) := by
  have hn : ¬ size > cfg.maxPacketSizeServer := Nat.not_lt.mpr hsz
  have hfol : ∀ r : Res, r.followed none = ({ r with closed := true, out := [] }, []) := fun _ => rfl
  have key : ∃ r', handlePacketHook cfg hooks ext.toExt pr env { after := none } g s size pkt =
      some (r', []) ∧ r'.closed = true ∧ r'.session = r0.session ∧ r'.global = r0.global ∧
      r'.routed = r0.routed ∧ (r0.closed = false → r'.out = []) := by
    unfold handlePacketHook
    simp only [if_neg hn]
    cases pkt with
    | publish p =>
      simp only [InPkt.hooked] at hk
      cases pr <;> simp only [handlePacket, handlePacketV3, handlePacketV5, if_neg hn] at h0 <;>
        simp only [hk, if_true, requestPublishV3, requestPublishV5, h0, hfol, hd, Bool.false_eq_true,
          if_false]
      · cases hc : r0.closed
        · exact ⟨_, rfl, rfl, rfl, rfl, rfl, fun _ => rfl⟩
        · exact ⟨_, rfl, hc, rfl, rfl, rfl, fun h => by cases h⟩
      · exact ⟨_, rfl, rfl, rfl, rfl, rfl, fun _ => rfl⟩
    | subscribe pid topics id =>
      simp only [InPkt.hooked] at hk
      cases pr <;> simp only [handlePacket, handlePacketV3, handlePacketV5, if_neg hn] at h0 <;>
        simp only [hk, if_true, requestSubscribeV3, requestSubscribeV5, h0, hfol, Option.map_some]
      · cases hc : r0.closed
        · exact ⟨_, rfl, rfl, rfl, rfl, rfl, fun _ => rfl⟩
        · exact ⟨_, rfl, hc, rfl, rfl, rfl, fun h => by cases h⟩
      · exact ⟨_, rfl, rfl, rfl, rfl, rfl, fun _ => rfl⟩
    | unsubscribe pid topics =>
      simp only [InPkt.hooked] at hk
      cases pr <;> simp only [handlePacket, handlePacketV3, handlePacketV5, if_neg hn] at h0 <;>
        simp only [hk, if_true, requestUnsubscribeV3, requestUnsubscribeV5, h0, hfol,
          Option.map_some] <;> exact ⟨_, rfl, rfl, rfl, rfl, rfl, fun _ => rfl⟩
    | _ => cases hk
  obtain ⟨r', h1, h2, h3, h4, h5⟩ := key
  refine ⟨r', ?_, h2, h3, h4, h5⟩
  unfold onPacketHook
  rw [h1]
  simp only [h2, if_true]

/-- A message that is passed on, and a hook that fails afterwards. -/
example : ∃ r0, handlePacket {} exHookExt.toExt .v5 {} exGlobal (exPeer .v5).session 10
      (exPub2 "a" 3 false [1]) = some r0 ∧ r0.session.disconnected = false ∧
      r0.routed.length = 1 ∧ (exPub2 "a" 3 false [1]).hooked {} = true :=
  ⟨_, rfl, rfl, rfl, rfl⟩

/-- Such a hook asks for no action after the handler of the packet. -/
theorem invisible_handled (pr : Proto) (pkt : InPkt) :
    handlePacketHook cfg hooks ext.toExt pr env {} g s size pkt =
      (handlePacket cfg ext.toExt pr env g s size pkt).map fun r => (r, []) := by
  unfold handlePacketHook
  by_cases hn : size > cfg.maxPacketSizeServer
  · simp only [if_pos hn]
  · simp only [if_neg hn]
    have hfol : ∀ r : Res, r.followed (some []) = (r, []) := fun _ => rfl
    cases pkt <;> try rfl
    · rename_i p
      cases hooks.publish
      · rfl
      · cases pr <;> simp only [if_true, requestPublishV3, requestPublishV5, handlePacket,
          handlePacketV3, handlePacketV5, if_neg hn, hfol, ite_self] <;> split <;> simp_all
    · rename_i pid topics id
      cases hooks.subscribe
      · rfl
      · cases pr <;> simp only [if_true, requestSubscribeV3, requestSubscribeV5, handlePacket,
          handlePacketV3, handlePacketV5, if_neg hn, hfol, ite_self] <;> split <;> simp_all
    · rename_i pid topics
      cases hooks.unsubscribe
      · rfl
      · cases pr <;> simp only [if_true, requestUnsubscribeV3, requestUnsubscribeV5, handlePacket,
          handlePacketV3, handlePacketV5, if_neg hn, hfol]

/-- **C69**: a hook that answers "success", leaves the packets as they are and asks for no action
cannot be noticed: every packet has the same effect as without hooks. -/
theorem C69_invisible (pr : Proto) (pkt : InPkt) :
    onPacketHook cfg hooks ext pr env {} after g s size pkt =
      onPacket cfg ext.toExt pr env after g s size pkt := by
  unfold onPacketHook onPacket
  rw [invisible_handled]
  cases handlePacket cfg ext.toExt pr env g s size pkt with
  | none => rfl
  | some r => simp only [Option.map_some]

/-- A packet with an effect. -/
example : ∃ r, onPacketHook {} {} exHookExt .v5 {} {} (Clock.const 0) exGlobal
      (exPeer .v5).session 10 (exPub2 "a" 3 false [1]) = some r ∧ r.session.qos2.keys = [3] ∧
      r.routed.length = 1 :=
  ⟨_, rfl, rfl, rfl⟩

/-- **C70, the packet itself**: whatever the hook asks for after a packet that it lets pass as it is,
if the connection goes on then the client gets first what it gets without hooks, and the messages
that are passed on without hooks are passed on first; so if the handler for the packet passes it on
and answers it, the actions change nothing of that. -/
theorem C70_packet_kept {pr : Proto} {pkt : InPkt} {actions : List HookAction} {r0 r : Res}
    (henv : Nat → Env) (meanwhile : Global → Global)
    (h0 : handlePacket cfg ext.toExt pr env g s size pkt = some r0)
    (h : onPacketHook cfg hooks ext pr env { after := some actions, env := henv, meanwhile } after g s
      size pkt = some r) (hc : r.closed = false) :
    (∃ rest, r.out = r0.out ++ rest) ∧ ∃ more, r.routed = r0.routed ++ more := by
  have key : ∃ acts', handlePacketHook cfg hooks ext.toExt pr env
      { after := some actions, env := henv, meanwhile } g s size pkt = some (r0, acts') := by
    have hfol : ∀ r : Res, r.followed (some actions) = (r, actions) := fun _ => rfl
    unfold handlePacketHook
    by_cases hn : size > cfg.maxPacketSizeServer
    · simp only [if_pos hn, h0]
      exact ⟨_, rfl⟩
    · simp only [if_neg hn]
      cases pkt <;> try (simp only [h0]; exact ⟨_, rfl⟩)
      · rename_i p
        cases hooks.publish
        · simp only [h0]; exact ⟨_, rfl⟩
        · cases pr <;> simp only [handlePacket, handlePacketV3, handlePacketV5, if_neg hn] at h0 <;>
            simp only [if_true, requestPublishV3, requestPublishV5, h0, hfol] <;> split <;>
            exact ⟨_, rfl⟩
      · rename_i pid topics id
        cases hooks.subscribe
        · simp only [h0]; exact ⟨_, rfl⟩
        · cases pr <;> simp only [handlePacket, handlePacketV3, handlePacketV5, if_neg hn] at h0 <;>
            simp only [if_true, requestSubscribeV3, requestSubscribeV5, h0, hfol, Option.map_some] <;>
            first | exact ⟨_, rfl⟩ | (split <;> exact ⟨_, rfl⟩)
      · rename_i pid topics
        cases hooks.unsubscribe
        · simp only [h0]; exact ⟨_, rfl⟩
        · cases pr <;> simp only [handlePacket, handlePacketV3, handlePacketV5, if_neg hn] at h0 <;>
            simp only [if_true, requestUnsubscribeV3, requestUnsubscribeV5, h0, hfol,
              Option.map_some] <;> exact ⟨_, rfl⟩
  obtain ⟨acts', key⟩ := key
  unfold onPacketHook at h
  rw [key] at h
  simp only at h
  split at h
  · cases h; exact ⟨⟨[], by simp⟩, [], by simp⟩
  · split at h
    · cases h; exact ⟨⟨_, rfl⟩, [], by simp⟩
    · split at h
      · cases h
      · split at h
        · rename_i hcl; cases h; exact absurd hcl (by simpa using hc)
        · cases h; exact ⟨⟨_, rfl⟩, _, rfl⟩

/-- A QoS 2 message is acknowledged although the hook publishes another one. -/
example : ∃ r, onPacketHook {} {} exHookExt .v5 {}
      { after := some [.publish { retain := false, qos := 0, topic := str "b", payload := [9] }]
        env := fun _ => {}, meanwhile := id }
      (Clock.const 0) exGlobal (exPeer .v5).session 10 (exPub2 "a" 3 false [1]) = some r ∧
    r.closed = false ∧ r.out = [.pubrec 3 .noMatchingSubscribers] ∧
    r.routed.map (·.topic) = [str "a", str "b"] := ⟨_, rfl, rfl, rfl, rfl⟩

/-! ## actions -/

/-- A session that differs in what does not matter for routing. -/
theorem collectV5_same {s s' : Session} (h1 : s'.clientId = s.clientId)
    (h2 : s'.subscribes = s.subscribes) (pick : Str → Str → Nat) (cs : List RouteContent)
    (rs : Receivers) : collectV5 s' pick cs rs = collectV5 s pick cs rs := by
  have hskip : ∀ id f, s'.skipOwn id f = s.skipOwn id f := by
    intro id f
    unfold Session.skipOwn
    rw [h1, h2]
  have hadd : ∀ f l r, addClients s' f l r = addClients s f l r := by
    intro f l
    induction l with
    | nil => intro r; rfl
    | cons e l ih => intro r; unfold addClients; rw [hskip, ih]
  induction cs generalizing rs with
  | nil => rfl
  | cons c cs ih =>
    unfold collectV5
    cases c.topicFilter with
    | none => rfl
    | some f =>
      simp only [hadd]
      cases addGroups pick f c.groups (addClients s f c.clients rs) with
      | none => rfl
      | some r => exact ih r

theorem pushCopies_same {s s' : Session} (h : s'.bcast = s.bcast) (h2 : s'.bcastCnt = s.bcastCnt)
    (reg : ClientId → Bool) (cs : List (ClientId × NormalMsg)) :
    (s'.pushCopies reg cs).bcast = (s.pushCopies reg cs).bcast := by
  unfold Session.pushCopies
  have : ∀ (a b : Session), a.bcast = b.bcast →
      (cs.foldl (fun s c => s.pushCopy reg c.1 c.2) a).bcast =
        (cs.foldl (fun s c => s.pushCopy reg c.1 c.2) b).bcast := by
    induction cs with
    | nil => intro a b hab; exact hab
    | cons c cs ih =>
      intro a b hab
      refine ih (a.pushCopy reg c.1 c.2) (b.pushCopy reg c.1 c.2) ?_
      unfold Session.pushCopy
      rw [hab]
      cases b.bcast.get c.1 with
      | some q => rfl
      | none =>
        simp only
        split <;> rfl
  exact this _ _ h

/-- The client could have sent this packet to publish the message of the action. -/
def SameMessage (ext : Ext) (pr : Proto) (a : PublishAction) (p : Publish) : Prop :=
  p.topic = a.topic ∧ p.payload = a.payload ∧ p.retain = a.retain ∧ p.qosPid.qos = a.qos ∧
    p.props = (a.packet pr).props ∧ ext.encLen p = ext.encLen (a.packet pr)

/-- **C70, publish**: a message that a hook publishes is passed on exactly as if the client had
published it: if a PUBLISH packet of the client with that message is passed on, then the same copies
are queued for the same clients and the retained messages are the same. -/
theorem C70_publish {pr : Proto} {a : PublishAction} {p : Publish}
    (hm : SameMessage ext.toExt pr a p) (hf : ext.fits (a.packet pr) = true) {r : Res}
    (hr : handlePacket cfg ext.toExt pr env g s size (.publish p) = some r) (hrt : r.routed ≠ []) :
    ∃ r', applyAction cfg ext pr env g s (.publish a) = some r' ∧ r'.closed = false ∧
      r'.routed = r.routed ∧ r'.global = r.global ∧ r'.session.bcast = r.session.bcast := by
  obtain ⟨h1, h2, h3, h4, h5, h6⟩ := hm
  have hal : p.props.topicAlias = none := by rw [h5]; cases pr <;> rfl
  have hpr : { p.props with topicAlias := none } = (a.packet pr).props := by
    rw [h5]; cases pr <;> rfl
  cases pr with
  | v3 =>
    have hs : ∀ s', checkQos2V3 ext.toExt s p = some s' →
        s'.clientId = s.clientId ∧ s'.bcast = s.bcast ∧ s'.bcastCnt = s.bcastCnt ∧
        s'.identifier = s.identifier := by
      intro s' h
      unfold checkQos2V3 at h
      repeat' split at h
      all_goals first | cases h; exact ⟨rfl, rfl, rfl, rfl⟩ | cases h
    simp only [handlePacket, handlePacketV3] at hr
    split at hr
    · cases hr; exact absurd rfl hrt
    · unfold handlePublishV3 at hr
      repeat' split at hr
      all_goals try (first | (cases hr; exact absurd rfl hrt) | cases hr)
      rename_i s1 hq hdup
      simp only at hr
      split at hr
      · cases hr
      rename_i s2 g2 hsend
      cases hr
      obtain ⟨q1, q2, q3, q4⟩ := hs s1 hq
      unfold applyAction
      simp only [hf, if_true]
      have hmsg : a.message ext.toExt .v3 =
          { qos := p.qosPid.qos, retain := p.retain, topic := p.topic, payload := p.payload
            encodeLen := ext.encLen p } := by
        unfold PublishAction.message
        rw [h1, h2, h3, h4, h6]
        rfl
      rw [hmsg]
      unfold sendPublishV3 at hsend ⊢
      have hst : ∀ m pr, storeRetained s1 g.retain m pr = storeRetained s g.retain m pr := by
        intro m pr; unfold storeRetained; rw [q4]
      simp only [hst] at hsend
      simp only
      split at hsend
      · cases hsend
      · cases hsend
        exact ⟨_, rfl, rfl, rfl, rfl, (pushCopies_same q2 q3 _ _).symm⟩
  | v5 =>
    have hs : ∀ s', checkQos2V5 cfg ext.toExt s p = .proceed s' →
        s'.clientId = s.clientId ∧ s'.bcast = s.bcast ∧ s'.bcastCnt = s.bcastCnt ∧
        s'.identifier = s.identifier ∧ s'.subscribes = s.subscribes := by
      intro s' h
      unfold checkQos2V5 at h
      repeat' split at h
      all_goals first | cases h; exact ⟨rfl, rfl, rfl, rfl, rfl⟩ | cases h
    have hres : ∀ s1 topic, resolveAlias cfg s p = .ok (s1, topic) → s1 = s ∧ topic = p.topic := by
      intro s1 topic h
      unfold resolveAlias at h
      rw [hal] at h
      simp only at h
      split at h
      · cases h
      · cases h; exact ⟨rfl, rfl⟩
    simp only [handlePacket, handlePacketV5] at hr
    split at hr
    · cases hr; exact absurd rfl hrt
    · unfold handlePublishV5 at hr
      repeat' split at hr
      all_goals try (first | (cases hr; exact absurd rfl hrt) | cases hr)
      rename_i s0 topic hra hids _ s1 hq hdup
      simp only at hr
      split at hr
      · cases hr
      rename_i s2 g2 n hsend
      cases hr
      obtain ⟨rfl, rfl⟩ := hres _ _ hra
      obtain ⟨q1, q2, q3, q4, q5⟩ := hs s1 hq
      unfold applyAction
      simp only [hf, if_true]
      have hmsg : a.message ext.toExt .v5 =
          { qos := p.qosPid.qos, retain := p.retain, topic := p.topic, payload := p.payload
            props := { p.props with topicAlias := none }, encodeLen := ext.encLen p } := by
        unfold PublishAction.message
        rw [h1, h2, h3, h4, h6, hpr]
      rw [hmsg]
      unfold sendPublishV5 at hsend ⊢
      have hst : ∀ m pr, storeRetained s1 g.retain m pr = storeRetained s0 g.retain m pr := by
        intro m pr; unfold storeRetained; rw [q4]
      simp only [hst, collectV5_same q1 q5] at hsend
      simp only
      split at hsend
      · cases hsend
      · cases hsend
        exact ⟨_, rfl, rfl, rfl, rfl, (pushCopies_same q2 q3 _ _).symm⟩

/-- A QoS 2 message for a subscriber, retained. -/
example : ∃ r r', SameMessage exHookExt.toExt .v5
      { retain := true, qos := 2, topic := str "a", payload := [1] }
      { dup := false, qosPid := .level2 9, retain := true, topic := str "a", payload := [1] } ∧
    handlePacket {} exHookExt.toExt .v5 {}
      { exGlobal with route := (RouteTable.empty.run [.sub (str "a") 4 1]).getD RouteTable.empty }
      (exPeer .v5).session 10 (.publish
        { dup := false, qosPid := .level2 9, retain := true, topic := str "a", payload := [1] }) =
      some r ∧ r.routed ≠ [] ∧
    applyAction {} exHookExt .v5 {}
      { exGlobal with route := (RouteTable.empty.run [.sub (str "a") 4 1]).getD RouteTable.empty }
      (exPeer .v5).session (.publish { retain := true, qos := 2, topic := str "a", payload := [1] }) =
      some r' ∧ r'.session.bcast.keys = [4] :=
  ⟨_, _, ⟨rfl, rfl, rfl, rfl, rfl, rfl⟩, rfl, by decide, rfl, rfl⟩

/-- **C70, several actions**: the actions of a hook are applied in order, each to what the ones
before it left behind, and all messages that they publish are passed on; an action that ends the
connection is the last one. -/
theorem C70_in_order {pr : Proto} {henv : Nat → Env} {as : List HookAction} {i : Nat} {r : Res}
    (h : applyActions cfg ext pr henv i g s as = some r) :
    OneByOne (fun i g s a => applyAction cfg ext pr (henv i) g s a) i g s as r := by
  induction as generalizing i g s r with
  | nil => cases h; exact .done rfl rfl rfl rfl
  | cons a as ih =>
    unfold applyActions at h
    split at h
    · cases h
    · rename_i r1 h1
      split at h
      · rename_i hc
        cases h
        exact .ends h1 hc
      · rename_i hc
        rw [Option.map_eq_some_iff] at h
        obtain ⟨r2, h2, rfl⟩ := h
        exact .next h1 (by simpa using hc) (ih h2) rfl rfl rfl rfl

/-- Two messages and a subscription. -/
example : ∃ r, applyActions {} exHookExt .v5 (fun _ => {}) 0 exGlobal (exPeer .v5).session
      [.publish { retain := false, qos := 1, topic := str "a", payload := [1] },
       .subscribe [(str "+", 1)],
       .publish { retain := true, qos := 0, topic := str "b", payload := [2] }] = some r ∧
    r.routed.map (·.topic) = [str "a", str "b"] ∧ r.session.subscribes.keys = [str "+"] :=
  ⟨_, rfl, rfl, rfl⟩

/-- A retained message with QoS 1. -/
def exKept : Global :=
  let m : RetainContent :=
    { publisher := str "x", qos := 1, topic := str "a", payload := [1], props := some {}
      encodeLen := 10 }
  { exGlobal with retain := RetainTable.empty.publish m }

/-- A subscription made by a hook queues nothing for the client. -/
def SubscribesSilently (pr : Proto) : Prop :=
  ∀ (cfg : Config) (ext : HookExt) (env : Env) (g : Global) (s : Session) (topics : List (Str × QoS))
    (r : Res), applyAction cfg ext pr env g s (.subscribe topics) = some r →
      r.out = [] ∧ r.session.sender = s.sender

/-- **C70, subscribe, partial**: in MQTT 5 no retained message is sent for a subscription made by a hook.
Missing: MQTT 3 (`C70_subscribe_v3_false`). -/
theorem C70_subscribe_v5_partial : SubscribesSilently .v5 := by
  intro cfg ext env g s topics r h
  unfold applyAction at h
  simp only at h
  rw [Option.map_eq_some_iff] at h
  obtain ⟨r0, h, rfl⟩ := h
  refine ⟨rfl, ?_⟩
  unfold handleSubscribeV5 at h
  rw [if_neg (by simp), if_neg (by simp), Option.map_eq_some_iff] at h
  obtain ⟨r1, h, rfl⟩ := h
  suffices ∀ i g s r, subscribeLoopV5 cfg env none i g s
      (topics.map fun t => (t.1, { maxQos := t.2, retainHandling := .doNotSend })) = some r →
      r.1.sender = s.sender from this _ _ _ _ h
  clear h
  induction topics with
  | nil => intro i g s r h; cases h; rfl
  | cons t ts ih =>
    intro i g s r h
    rw [List.map_cons] at h
    unfold subscribeLoopV5 at h
    split at h
    · split at h
      · cases h
      · rename_i s1 g1 out hacc
        rw [Option.map_eq_some_iff] at h
        obtain ⟨r', h, rfl⟩ := h
        refine (ih _ _ _ _ h).trans ?_
        unfold acceptV5 at hacc
        simp only at hacc
        split at hacc
        · cases hacc
        · rw [if_neg (by simp [sendsRetained])] at hacc
          cases hacc
          rfl
    · rw [Option.map_eq_some_iff] at h
      obtain ⟨r', h, rfl⟩ := h
      exact ih (i + 1) g s r' h

example : ∃ r, applyAction {} exHookExt .v5 {} exKept (exPeer .v5).session
    (.subscribe [(str "+", 1)]) = some r ∧ r.session.subscribes.keys = [str "+"] :=
  ⟨_, rfl, rfl⟩

/-- **C70 is false of the code for MQTT 3**: the retained messages with QoS 1 and 2 that match are
queued for the client, although the documentation of the action says that they are not sent. -/
theorem C70_subscribe_v3_false : ¬ SubscribesSilently .v3 := by
  intro h
  have h1 : ∃ r, applyAction {} exHookExt .v3 {} exKept (exPeer .v3).session
      (.subscribe [(str "+", 1)]) = some r ∧ r.session.sender.pending.packets.length = 1 :=
    ⟨_, rfl, rfl⟩
  obtain ⟨r, h1, h2⟩ := h1
  have h3 := (h {} exHookExt {} exKept (exPeer .v3).session _ r h1).2
  rw [h3] at h2
  cases h2

/-- The message is sent with the next packets. -/
example : ∃ r p, onPacketHook {} {} exHookExt .v3 {} { after := some [.subscribe [(str "+", 1)]] }
    (Clock.const 100) exKept (exPeer .v3).session 10 (exPub2 "b" 3 false [1]) = some r ∧
    r.out = [.pubrec 3 .success, .publish p] ∧ p.retain = true ∧ p.topic = str "a" :=
  ⟨_, _, rfl, rfl, rfl, rfl⟩

end Akasa

import Verif.Model.Online
/-!
# The hooks for PUBLISH, SUBSCRIBE and UNSUBSCRIBE (`hook.rs`, `online_loop.rs:147-166, 279-301`)

A hook is code of the user.  It sees the session and the packet, may change the packet, and answers;
here it is given by its answers for the packet at hand.  While a hook runs, the session does nothing
else (`online_loop.rs:147-159, 292-295`), but other sessions may change the shared tables.
-/
namespace Akasa

/-- `hook.rs:250-257` `HookPublishCode`. -/
inductive HookPublishCode where
  | success
  | unspecifiedError
  | notAuthorized
  | topicNameInvalid
  | quotaExceeded
deriving DecidableEq, Repr

/-- `hook.rs:259-266` `HookSubscribeCode`. -/
inductive HookSubscribeCode where
  | success
  | unspecifiedError
  | notAuthorized
  | topicFilterInvalid
  | quotaExceeded
deriving DecidableEq, Repr

/-- `hook.rs:268-274` `HookUnsubscribeCode`. -/
inductive HookUnsubscribeCode where
  | success
  | unspecifiedError
  | notAuthorized
  | topicFilterInvalid
deriving DecidableEq, Repr

/-- `hook.rs:329-347` `to_v5_puback_code`, `to_v5_pubrec_code`; the numbers are those of MQTT 5. -/
def HookPublishCode.reason : HookPublishCode → Reason
  | .success => .success
  | .unspecifiedError => .other 0x80
  | .notAuthorized => .other 0x87
  | .topicNameInvalid => .topicNameInvalid
  | .quotaExceeded => .other 0x97

/-- `hook.rs:350-360` `to_v5_code`. -/
def HookSubscribeCode.reason : HookSubscribeCode → Reason
  | .success => .grantedQos 2
  | .unspecifiedError => .other 0x80
  | .notAuthorized => .other 0x87
  | .topicFilterInvalid => .other 0x8F
  | .quotaExceeded => .other 0x97

/-- `hook.rs:362-371` `to_v5_code`. -/
def HookUnsubscribeCode.reason : HookUnsubscribeCode → Reason
  | .success => .success
  | .unspecifiedError => .other 0x80
  | .notAuthorized => .other 0x87
  | .topicFilterInvalid => .other 0x8F

/-- `hook.rs:283-293` `PublishAction`. -/
structure PublishAction where
  retain : Bool
  qos : QoS
  topic : Str
  payload : Bytes
  payloadIsUtf8 : Option Bool := none
  messageExpiry : Option Nat := none
  contentType : Option Str := none
deriving DecidableEq, Repr

/-- `hook.rs:276-301` `HookAction`. -/
inductive HookAction where
  | publish (a : PublishAction)
  | subscribe (topics : List (Str × QoS))
  | unsubscribe (topics : List Str)
deriving DecidableEq, Repr

/-- `config.rs:167-174`: which hooks are called. -/
structure HookConfig where
  publish : Bool := true
  subscribe : Bool := true
  unsubscribe : Bool := true
deriving DecidableEq, Repr

/-- The fields of a SUBSCRIBE packet. -/
structure SubscribePkt where
  pid : Pid
  topics : List (Str × SubOpts)
  subscriptionId : Option Nat := none
deriving DecidableEq, Repr

/-- The fields of an UNSUBSCRIBE packet. -/
structure UnsubscribePkt where
  pid : Pid
  topics : List Str
deriving DecidableEq, Repr

/-- The answers of a hook for the packet at hand (`hook.rs:39-219`); `none` = `Err(HookError)`.  The
default answers are those of the trait.  `meanwhile` is what the other sessions do to the shared
tables between the effect of the packet and the actions, `env i` the values read by the `i`-th
action. -/
structure HookAns where
  beforePublish : Publish → Option (HookPublishCode × Publish) := fun p => some (.success, p)
  beforeSubscribe : SubscribePkt → Option (HookSubscribeCode × SubscribePkt) :=
    fun p => some (.success, p)
  beforeUnsubscribe : UnsubscribePkt → Option (HookUnsubscribeCode × UnsubscribePkt) :=
    fun p => some (.success, p)
  after : Option (List HookAction) := some []
  meanwhile : Global → Global := id
  env : Nat → Env := fun _ => {}

/-- `fits p`: `encode_len` of the packet is not an error (`v3/message.rs:379-382`,
`v5/message.rs:566-569`). -/
structure HookExt extends Ext where
  fits : Publish → Bool

/-- The answer of the after-hook: the actions, or an error that ends the connection; the packets
that wait to be written are then lost (`online_loop.rs:147-166, 285-301` return at once). -/
def Res.followed (r : Res) (after : Option (List HookAction)) : Res × List HookAction :=
  match after with
  | some actions => (r, actions)
  | none => ({ r with closed := true, out := [] }, [])

/-- `hook.rs:532-555`: a PUBLISH refused by the hook (MQTT 5). -/
def refusePublish (code : HookPublishCode) (p : Publish) : List OutPkt :=
  match p.qosPid with
  | .level0 => []
  | .level1 pid => [.puback pid code.reason]
  | .level2 pid => [.pubrec pid code.reason]

/-- `hook.rs:507-561` `V5Publish`.  `Err` of `handle_publish` marks the session as disconnected; then
the after-hook is not called.  (The `.expect("packet too large")` of `v5/packet/publish.rs:164` is
left out: it can fail if the hook makes the packet too large.) -/
def requestPublishV5 (cfg : Config) (ext : Ext) (env : Env) (h : HookAns) (g : Global) (s : Session)
    (p : Publish) : Option (Res × List HookAction) :=
  match h.beforePublish p with
  | none => some ({ session := s, global := g, closed := true }, [])
  | some (.success, p) =>
    match handlePublishV5 cfg ext env g s p with
    | none => none
    | some r => if r.session.disconnected then some (r, []) else some (r.followed h.after)
  | some (code, p) => some ({ session := s, global := g, out := refusePublish code p }, [])

/-- `hook.rs:568-613` `V5Subscribe`. -/
def requestSubscribeV5 (cfg : Config) (env : Env) (h : HookAns) (g : Global) (s : Session)
    (p : SubscribePkt) : Option (Res × List HookAction) :=
  match h.beforeSubscribe p with
  | none => some ({ session := s, global := g, closed := true }, [])
  | some (.success, p) =>
    (handleSubscribeV5 cfg env g s p.pid p.topics p.subscriptionId).map (·.followed h.after)
  | some (code, p) =>
    some ({ session := s, global := g, out := [.suback p.pid (p.topics.map fun _ => code.reason)] },
      [])

/-- `hook.rs:614-645` `V5Unsubscribe`. -/
def requestUnsubscribeV5 (h : HookAns) (g : Global) (s : Session) (p : UnsubscribePkt) :
    Option (Res × List HookAction) :=
  match h.beforeUnsubscribe p with
  | none => some ({ session := s, global := g, closed := true }, [])
  | some (.success, p) => (handleUnsubscribeV5 g s p.pid p.topics).map (·.followed h.after)
  | some (code, p) =>
    some ({ session := s, global := g,
            out := [.unsuback p.pid (p.topics.map fun _ => code.reason)] }, [])

/-- `hook.rs:676-710` `V3Publish`. -/
def requestPublishV3 (ext : Ext) (h : HookAns) (g : Global) (s : Session) (p : Publish) :
    Option (Res × List HookAction) :=
  match h.beforePublish p with
  | none => some (failV3 s g, [])
  | some (.success, p) =>
    match handlePublishV3 ext g s p with
    | none => none
    | some r => if r.closed then some (r, []) else some (r.followed h.after)
  | some _ => some (failV3 s g, [])

/-- `hook.rs:711-761` `V3Subscribe`. -/
def requestSubscribeV3 (cfg : Config) (env : Env) (h : HookAns) (g : Global) (s : Session)
    (p : SubscribePkt) : Option (Res × List HookAction) :=
  match h.beforeSubscribe p with
  | none => some (failV3 s g, [])
  | some (.success, p) =>
    match handleSubscribeV3 cfg env g s p.pid (p.topics.map fun t => (t.1, t.2.maxQos)) with
    | none => none
    | some r => if r.closed then some (r, []) else some (r.followed h.after)
  | some _ => some (failV3 s g, [])

/-- `hook.rs:762-788` `V3Unsubscribe`. -/
def requestUnsubscribeV3 (h : HookAns) (g : Global) (s : Session) (p : UnsubscribePkt) :
    Option (Res × List HookAction) :=
  match h.beforeUnsubscribe p with
  | none => some (failV3 s g, [])
  | some (.success, p) => (handleUnsubscribeV3 g s p.pid p.topics).map (·.followed h.after)
  | some _ => some (failV3 s g, [])

/-- `handle_packet` with hooks (`v3/message.rs:281-360`, `v5/message.rs:427-528`) and
`handle_request`: the effect of the packet, and the actions of the hook. -/
def handlePacketHook (cfg : Config) (hooks : HookConfig) (ext : Ext) (pr : Proto) (env : Env)
    (h : HookAns) (g : Global) (s : Session) (encodeLen : Nat) (pkt : InPkt) :
    Option (Res × List HookAction) :=
  let plain := (handlePacket cfg ext pr env g s encodeLen pkt).map fun r => (r, [])
  if encodeLen > cfg.maxPacketSizeServer then plain
  else
    match pkt with
    | .publish p =>
      if hooks.publish then
        match pr with
        | .v3 => requestPublishV3 ext h g s p
        | .v5 => requestPublishV5 cfg ext env h g s p
      else plain
    | .subscribe pid topics id =>
      if hooks.subscribe then
        match pr with
        | .v3 => requestSubscribeV3 cfg env h g s ⟨pid, topics, id⟩
        | .v5 => requestSubscribeV5 cfg env h g s ⟨pid, topics, id⟩
      else plain
    | .unsubscribe pid topics =>
      if hooks.unsubscribe then
        match pr with
        | .v3 => requestUnsubscribeV3 h g s ⟨pid, topics⟩
        | .v5 => requestUnsubscribeV5 h g s ⟨pid, topics⟩
      else plain
    | _ => plain

/-- The PUBLISH packet of a publish action (`v3/message.rs:364-376`, `v5/message.rs:540-563`; MQTT 3
has no properties).  `Pid::default()` is 1. -/
def PublishAction.packet (pr : Proto) (a : PublishAction) : Publish :=
  { dup := false, retain := a.retain, topic := a.topic, payload := a.payload
    qosPid := if a.qos = 0 then .level0 else if a.qos = 1 then .level1 1 else .level2 1
    props :=
      match pr with
      | .v3 => {}
      | .v5 => { payloadIsUtf8 := a.payloadIsUtf8, messageExpiry := a.messageExpiry
                 contentType := a.contentType } }

/-- The message of a publish action. -/
def PublishAction.message (ext : Ext) (pr : Proto) (a : PublishAction) : SendPub :=
  let p := a.packet pr
  { qos := a.qos, retain := a.retain, topic := a.topic, payload := a.payload, props := p.props
    encodeLen := ext.encLen p }

/-- `apply_action`: `v3/message.rs:362-433`, `v5/message.rs:538-627`.  What the handlers of SUBSCRIBE
and UNSUBSCRIBE want to send is dropped, and so is the error of the former.  `none` = panic;
`closed` = the action ends the connection. -/
def applyAction (cfg : Config) (ext : HookExt) (pr : Proto) (env : Env) (g : Global) (s : Session) :
    HookAction → Option Res
  | .publish a =>
    if ext.fits (a.packet pr) then
      let m := a.message ext.toExt pr
      match pr with
      | .v3 => (sendPublishV3 g s m).map fun r => { session := r.1, global := r.2, routed := [m] }
      | .v5 => (sendPublishV5 env g s m).map fun r =>
          { session := r.1, global := r.2.1, routed := [m] }
    else some { session := s, global := g, closed := true }
  | .subscribe topics =>
    match pr with
    | .v3 => (handleSubscribeV3 cfg env g s 1 topics).map fun r =>
        { session := r.session, global := r.global }
    | .v5 => (handleSubscribeV5 cfg env g s 1
          (topics.map fun t => (t.1, { maxQos := t.2, retainHandling := .doNotSend })) none).map
        fun r => { session := r.session, global := r.global }
  | .unsubscribe topics =>
    match pr with
    | .v3 => (handleUnsubscribeV3 g s 1 topics).map fun r =>
        { session := r.session, global := r.global }
    | .v5 => (handleUnsubscribeV5 g s 1 topics).map fun r =>
        { session := r.session, global := r.global }

/-- The loop over the actions (`online_loop.rs:160-164, 297-301`); `i` numbers them. -/
def applyActions (cfg : Config) (ext : HookExt) (pr : Proto) (env : Nat → Env) :
    Nat → Global → Session → List HookAction → Option Res
  | _, g, s, [] => some { session := s, global := g }
  | i, g, s, a :: as =>
    match applyAction cfg ext pr (env i) g s a with
    | none => none
    | some r =>
      if r.closed then some r
      else (applyActions cfg ext pr env (i + 1) r.global r.session as).map fun r' =>
        { r' with routed := r.routed ++ r'.routed }

/-- `online_loop.rs:147-166, 268-305`: one received packet, with hooks. -/
def onPacketHook (cfg : Config) (hooks : HookConfig) (ext : HookExt) (pr : Proto) (env : Env)
    (h : HookAns) (after : Clock) (g : Global) (s : Session) (encodeLen : Nat) (pkt : InPkt) :
    Option Res :=
  match handlePacketHook cfg hooks ext.toExt pr env h g s encodeLen pkt with
  | none => none
  | some (r, actions) =>
    if r.closed then some r
    else
      match actions with
      | [] =>
        let p := afterPacket pr after r.session
        some { r with session := p.1, out := r.out ++ p.2 }
      | actions =>
        match applyActions cfg ext pr h.env 0 (h.meanwhile r.global) r.session actions with
        | none => none
        | some r' =>
          if r'.closed then
            some { r' with out := [], routed := r.routed ++ r'.routed }
          else
            let p := afterPacket pr after r'.session
            some { session := p.1, global := r'.global, out := r.out ++ p.2
                   routed := r.routed ++ r'.routed }

end Akasa

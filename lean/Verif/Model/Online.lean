import Verif.Model.PublishIn
import Verif.Model.Subscribe
/-!
# One session over its whole life: packets, messages from other sessions, reconnects

Hooks are switched off here (`config.hook.enable_*` false); see `Model/Hook.lean`.
-/
namespace Akasa

/-- The two protocol families. -/
inductive Proto where
  | v3
  | v5
deriving DecidableEq, Repr

/-- `disconnected()`: `v3/message.rs:225-227`, `v5/message.rs:343-351`. -/
def Session.disconnected (s : Session) : Bool := s.clientDisconnected || s.serverDisconnected

/-- `v5/packet/connect.rs:349-371` `handle_disconnect`. -/
def handleDisconnectV5 (g : Global) (s : Session) (reason : Reason) (expiry : Option Nat) : Res :=
  match expiry with
  | some value =>
    if s.expiryInterval = 0 ∧ value > 0 then failV5 s g .protocolError
    else
      { session := { s with expiryInterval := value, clientDisconnected := true,
                            will := if reason = .success then none else s.will }
        global := g }
  | none =>
    { session := { s with clientDisconnected := true,
                          will := if reason = .success then none else s.will }
      global := g }

/-- `v3/packet/connect.rs:170-174` `handle_disconnect`. -/
def handleDisconnectV3 (g : Global) (s : Session) : Res :=
  { session := { s with will := none, clientDisconnected := true }, global := g }

/-- `v5/message.rs:427-528` `handle_packet` (no hooks).  `encodeLen` is the size of the received
packet. -/
def handlePacketV5 (cfg : Config) (ext : Ext) (env : Env) (g : Global) (s : Session)
    (encodeLen : Nat) (pkt : InPkt) : Option Res :=
  if encodeLen > cfg.maxPacketSizeServer then some (failV5 s g .packetTooLarge)
  else match pkt with
  | .disconnect reason expiry => some (handleDisconnectV5 g s reason expiry)
  | .publish p => handlePublishV5 cfg ext env g s p
  | .puback pid => some (handleComplete g s pid 1)
  | .pubrec pid => some (handlePubrecV5 env g s pid)
  | .pubrel pid => some (handlePubrelV5 g s pid)
  | .pubcomp pid => some (handleComplete g s pid 2)
  | .subscribe pid topics id => handleSubscribeV5 cfg env g s pid topics id
  | .unsubscribe pid topics => handleUnsubscribeV5 g s pid topics
  | .pingreq => some { session := s, global := g, out := [.pingresp] }
  | .invalid => some { session := s, global := g, closed := true }

/-- `v3/message.rs:281-360` `handle_packet` (no hooks). -/
def handlePacketV3 (cfg : Config) (ext : Ext) (env : Env) (g : Global) (s : Session)
    (encodeLen : Nat) (pkt : InPkt) : Option Res :=
  if encodeLen > cfg.maxPacketSizeServer then some (failV3 s g)
  else match pkt with
  | .disconnect _ _ => some (handleDisconnectV3 g s)
  | .publish p => handlePublishV3 ext g s p
  | .puback pid => some (handleComplete g s pid 1)
  | .pubrec pid => some (handlePubrecV3 env g s pid)
  | .pubrel pid => some (handlePubrelV3 g s pid)
  | .pubcomp pid => some (handleComplete g s pid 2)
  | .subscribe pid topics _ =>
    handleSubscribeV3 cfg env g s pid (topics.map fun t => (t.1, t.2.maxQos))
  | .unsubscribe pid topics => handleUnsubscribeV3 g s pid topics
  | .pingreq => some { session := s, global := g, out := [.pingresp] }
  | .invalid => some { session := s, global := g, closed := true }

/-- `handle_packet` of the protocol of the session. -/
def handlePacket (cfg : Config) (ext : Ext) (pr : Proto) (env : Env) (g : Global) (s : Session)
    (encodeLen : Nat) (pkt : InPkt) : Option Res :=
  match pr with
  | .v3 => handlePacketV3 cfg ext env g s encodeLen pkt
  | .v5 => handlePacketV5 cfg ext env g s encodeLen pkt

/-- `handle_pendings` of the protocol of the session. -/
def handlePendingsOf (pr : Proto) (clk : Clock) (s : Session) : Session × List OutPkt :=
  match pr with
  | .v3 => handlePendingsV3 clk s
  | .v5 => handlePendingsV5 clk s

/-- `handle_normal` of the protocol of the session. -/
def handleNormalOf (cfg : Config) (pr : Proto) (now : Nat) (s : Session) (m : NormalMsg) :
    Session × Option (QoS × Option OutPkt) :=
  match pr with
  | .v3 => handleNormalV3 now s m
  | .v5 => handleNormalV5 cfg now s m

/-- `after_handle_packet`: `v3/message.rs:435-438`, `v5/message.rs:530-536`. -/
def afterPacket (pr : Proto) (clk : Clock) (s : Session) : Session × List OutPkt :=
  match pr with
  | .v3 => handlePendingsV3 clk s
  | .v5 => if s.disconnected then (s, []) else handlePendingsV5 clk s

/-- `online_loop.rs:268-305`: one received packet.  The readings `env.clk 0 …` are used by a
SUBSCRIBE, `after` by the final `handle_pendings`. -/
def onPacket (cfg : Config) (ext : Ext) (pr : Proto) (env : Env) (after : Clock) (g : Global)
    (s : Session) (encodeLen : Nat) (pkt : InPkt) : Option Res :=
  match handlePacket cfg ext pr env g s encodeLen pkt with
  | none => none
  | some r =>
    if r.closed then some r
    else
      let p := afterPacket pr after r.session
      some { r with session := p.1, out := r.out ++ p.2 }

/-- `online_loop.rs:381-391`: one message from another session. -/
def onNormal (cfg : Config) (pr : Proto) (env : Env) (g : Global) (s : Session) (m : NormalMsg) :
    Res :=
  let r := handleNormalOf cfg pr (env.now 0 0) s m
  match r.2 with
  | none => { session := r.1, global := g }
  | some (finalQos, out) =>
    if finalQos ≠ 0 then
      let p := handlePendingsOf pr (env.clk 0) r.1
      { session := p.1, global := g, out := out.toList ++ p.2 }
    else { session := r.1, global := g, out := out.toList }

/-- What a new connection brings (fields of CONNECT and of the configuration). -/
structure ConnParams where
  aliasMax : Nat := 0
  maxPacketSize : Nat := 65536
  /-- MQTT 5 only -/
  receiveMax : Nat := 10
  will : Option Will := none
  expiryInterval : Nat := 0
deriving DecidableEq, Repr

/-- `Session::new` (`v3/session.rs:56-85`, `v5/session.rs:92-139`) and the fields set from CONNECT
(`v3/packet/connect.rs:90-109`, `v5/packet/connect.rs:76-158`). -/
def Session.fresh (cfg : Config) (identifier : Str) (clientId : ClientId) (c : ConnParams) :
    Session :=
  { clientId, identifier
    sender := Sender.new cfg.maxInflightClient cfg.maxInMemPending cfg.inflightTimeout
    aliasMax := c.aliasMax, maxPacketSize := c.maxPacketSize, will := c.will
    expiryInterval := c.expiryInterval }

/-- `v5/packet/connect.rs:263-265` (MQTT 5 only). -/
def Session.limitInflight (pr : Proto) (c : ConnParams) (s : Session) : Session :=
  match pr with
  | .v3 => s
  | .v5 => { s with sender := { s.sender with
                                pending := s.sender.pending.setMaxInflight c.receiveMax } }

/-- A session resumed by a new connection: `v3/packet/connect.rs:116-127`,
`v5/packet/connect.rs:230-241, 263-265`. -/
def Session.resume (cfg : Config) (pr : Proto) (c : ConnParams) (old : Session) : Session :=
  Session.limitInflight pr c
    { Session.fresh cfg old.identifier old.clientId c with
      sender := { pending := old.sender.pending.resetLastSent, nextPid := old.sender.nextPid }
      qos2 := old.qos2
      subscribes := old.subscribes }

/-- A session started by a new connection. -/
def Session.start (cfg : Config) (pr : Proto) (identifier : Str) (clientId : ClientId)
    (c : ConnParams) : Session :=
  Session.limitInflight pr c (Session.fresh cfg identifier clientId c)

/-- A session together with the state of its connection. -/
structure Peer where
  session : Session
  online : Bool := true

/-- What happens to a session.  `packet` and `normal` are steps of the online loop, `offline` is a
step of the task that keeps an offline session (`v3/message.rs:490-493`, `v5/message.rs:685-688`),
`passed` is the passing of copies to other sessions (`online_loop.rs:462-564`, in `Model/World.lean`;
here the queues may become anything), `lost` is the end of the connection, `resume` a new connection
of the same client. -/
inductive SessEv where
  | packet (after : Clock) (encodeLen : Nat) (p : InPkt)
  | normal (m : NormalMsg)
  | offline (m : NormalMsg)
  | passed (bcast : FMap ClientId (List NormalMsg)) (bcastCnt : Nat)
  | lost
  | resume (c : ConnParams)

/-- One step of a session; the shared tables `g` are whatever they are at that moment.  The online
loop takes no further packet or message once the session is marked disconnected
(`online_loop.rs:239-241, 352-354`). `none` = panic. -/
def Peer.step (cfg : Config) (ext : Ext) (pr : Proto) (p : Peer) (env : Env) (g : Global) :
    SessEv → Option (Peer × Res)
  | .packet after n pkt =>
    if p.online && !p.session.disconnected then
      (onPacket cfg ext pr env after g p.session n pkt).map fun r =>
        ({ session := r.session, online := !r.closed }, r)
    else some (p, { session := p.session, global := g })
  | .normal m =>
    if p.online && !p.session.disconnected then
      let r := onNormal cfg pr env g p.session m
      some ({ p with session := r.session }, r)
    else some (p, { session := p.session, global := g })
  | .offline m =>
    if p.online then some (p, { session := p.session, global := g })
    else
      let s := (handleNormalOf cfg pr (env.now 0 0) p.session m).1
      some ({ p with session := s }, { session := s, global := g })
  | .passed bcast bcastCnt =>
    let s := { p.session with bcast, bcastCnt }
    some ({ p with session := s }, { session := s, global := g })
  | .lost => some ({ p with online := false }, { session := p.session, global := g })
  | .resume c =>
    let s := p.session.resume cfg pr c
    -- `v3/message.rs:148-150`, `v5/message.rs:276-278`
    let r := handlePendingsOf pr (env.clk 0) s
    some ({ session := r.1, online := true }, { session := r.1, global := g, out := r.2 })

/-- A recorded step: the event, the shared tables before it, and its result. -/
structure Rec where
  ev : SessEv
  env : Env
  before : Global
  pre : Peer
  post : Peer
  res : Res

/-- All steps of a session for a list of events with the shared tables at those moments; `none` =
panic. -/
def Peer.run (cfg : Config) (ext : Ext) (pr : Proto) :
    Peer → List (Env × Global × SessEv) → Option (List Rec)
  | _, [] => some []
  | p, (env, g, ev) :: evs =>
    match p.step cfg ext pr env g ev with
    | none => none
    | some (p', r) =>
      (Peer.run cfg ext pr p' evs).map fun l =>
        { ev, env, before := g, pre := p, post := p', res := r } :: l

end Akasa

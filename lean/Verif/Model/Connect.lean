import Verif.Model.World
import Verif.Model.Auth
import Verif.Model.Scram
/-!
# From CONNECT to the session: configuration, passwords, SCRAM, CONNACK

Models `config.rs` (the fields used by the protocol code), `handle_connect` of both protocol
families, `session_connect`, `handle_auth` and `scram_client_first` (`v5/packet/connect.rs`), and
the part of `handle_online` before the online loop (`v3/message.rs:80-150`, `v5/message.rs:123-278`).

Simplified:
* Hooks are off (`hook.enable_before_connect` false).
* Reason strings and user properties are left out; `username` is used for the check only.
* Packets are decoded already; a CONNECT that cannot be decoded never gets here.
* A failing write in the handshake is the loss of the connection (`FrontAct.leave`).
* A fresh UUID and the random characters of the SCRAM nonce are arguments of the act.
-/
namespace Akasa

/-- `config.rs` `SaslMechanism`. -/
inductive SaslMechanism where
  | scramSha256
  | scramSha256Plus
deriving DecidableEq, Repr

/-- `config.rs:309-319` `SaslMechanism::from_str`. -/
def SaslMechanism.parse (s : Str) : Option SaslMechanism :=
  if s = "SCRAM-SHA-256".toList then some .scramSha256
  else if s = "SCRAM-SHA-256-PLUS".toList then some .scramSha256Plus
  else none

/-- `config.rs` `ScramPasswordInfo`. -/
structure ScramUser where
  hashedPassword : Bytes
  iterations : Nat
  salt : Bytes
deriving DecidableEq, Repr

/-- `config.rs:12-50` `Config` as read from the configuration file, and the password table loaded at
the start.  Left out: what is not used by the protocol code, the hooks, and all of the listeners but
whether there is one. -/
structure ServerConfig where
  anyListener : Bool := true
  authEnable : Bool := false
  /-- `auth.password_file.is_some()` -/
  passwordFile : Bool := false
  /-- `GlobalState::auth_passwords` -/
  passwords : Auth.Table := []
  scramUsers : FMap Str ScramUser := []
  saslMechanisms : List SaslMechanism := [.scramSha256]
  checkV310Length : Bool := false
  maxAllowedQos : Nat := 2
  inflightTimeout : Nat := 15
  maxInflightClient : Nat := 10
  maxInflightServer : Nat := 10
  maxInMemPending : Nat := 256
  minKeepAlive : Nat := 10
  maxKeepAlive : Nat := 65535
  maxSessionExpiry : Nat := 4294967295
  maxPacketSizeClient : Nat := 268435460
  maxPacketSizeServer : Nat := 268435460
  topicAliasMax : Nat := 65535
  retainAvailable : Bool := true
  sharedAvailable : Bool := true
  subscriptionIdAvailable : Bool := true
  wildcardAvailable : Bool := true

/-- The numbers fit the Rust types (u8, u16, u32) of `config.rs:12-50`. -/
structure ServerConfig.Typed (c : ServerConfig) : Prop where
  maxAllowedQos : c.maxAllowedQos < 256
  maxInflightClient : c.maxInflightClient < 65536
  maxInflightServer : c.maxInflightServer < 65536
  minKeepAlive : c.minKeepAlive < 65536
  maxKeepAlive : c.maxKeepAlive < 65536
  maxSessionExpiry : c.maxSessionExpiry < 4294967296
  maxPacketSizeClient : c.maxPacketSizeClient < 4294967296
  maxPacketSizeServer : c.maxPacketSizeServer < 4294967296
  topicAliasMax : c.topicAliasMax < 65536

/-- `config.rs:250-297` `is_valid`. -/
def ServerConfig.isValid (c : ServerConfig) : Bool :=
  if c.authEnable && !c.passwordFile then false
  else if c.maxAllowedQos > 2 then false
  else if c.maxPacketSizeClient = 0 then false
  else if c.maxPacketSizeServer = 0 then false
  else if c.saslMechanisms.any (fun m => decide (m ≠ .scramSha256)) then false
  else if c.scramUsers.any (fun e => decide (e.2.iterations < 4096)) then false
  else c.anyListener

/-- `config.rs:299-306` `max_allowed_qos`; `none` = panic. -/
def ServerConfig.qosLimit (c : ServerConfig) : Option QoS :=
  match c.maxAllowedQos with
  | 0 => some 0
  | 1 => some 1
  | 2 => some 2
  | _ => none

/-- The fields the packet handlers read; `none` = panic of `max_allowed_qos` (which the code calls
later, when it answers a CONNECT or a SUBSCRIBE). -/
def ServerConfig.limits (c : ServerConfig) : Option Config :=
  c.qosLimit.map fun q =>
    { maxAllowedQos := q
      inflightTimeout := c.inflightTimeout
      maxInflightClient := c.maxInflightClient
      maxInflightServer := c.maxInflightServer
      maxInMemPending := c.maxInMemPending
      maxPacketSizeClient := c.maxPacketSizeClient
      maxPacketSizeServer := c.maxPacketSizeServer
      topicAliasMax := c.topicAliasMax
      retainAvailable := c.retainAvailable
      sharedAvailable := c.sharedAvailable
      subscriptionIdAvailable := c.subscriptionIdAvailable
      wildcardAvailable := c.wildcardAvailable }

/-- External functions used before the session exists; `utf8` is `String::from_utf8`. -/
structure ConnExt where
  auth : Auth.Ext
  scram : Scram.Ext
  utf8 : Bytes → Option Str

/-- `mqtt_proto::v3::Connect`, `mqtt_proto::v5::Connect` with the properties the broker reads (MQTT
5 only). -/
structure ConnectPkt where
  level : Level
  clean : Bool := true
  keepAlive : Nat := 60
  clientId : Str
  username : Option Str := none
  password : Option Bytes := none
  will : Option Will := none
  sessionExpiry : Option Nat := none
  receiveMax : Option Nat := none
  maxPacketSize : Option Nat := none
  topicAliasMax : Option Nat := none
  authMethod : Option Str := none
  authData : Option Bytes := none
deriving DecidableEq, Repr

/-- `mqtt_proto::v5::AuthReasonCode`. -/
inductive AuthCode where
  | success
  | continueAuthentication
  | reAuthentication
deriving DecidableEq, Repr

/-- `mqtt_proto::v5::Auth`. -/
structure AuthPkt where
  code : AuthCode
  method : Option Str
  data : Option Bytes
deriving DecidableEq, Repr

/-- `mqtt_proto::v5::ConnectReasonCode`, `mqtt_proto::v3::ConnectReturnCode` (whose `Accepted` is
`success`). -/
inductive ConnCode where
  | success
  | identifierRejected
  | malformedPacket
  | protocolError
  | badUserNameOrPassword
  | notAuthorized
  | badAuthMethod
  | retainNotSupported
  | qosNotSupported
deriving DecidableEq, Repr

/-- `mqtt_proto::v5::ConnackProperties`. -/
structure ConnackProps where
  sessionExpiry : Option Nat := none
  receiveMax : Option Nat := none
  maxQos : Option QoS := none
  retainAvailable : Option Bool := none
  maxPacketSize : Option Nat := none
  assignedClientId : Option Str := none
  topicAliasMax : Option Nat := none
  wildcardAvailable : Option Bool := none
  subscriptionIdAvailable : Option Bool := none
  sharedAvailable : Option Bool := none
  serverKeepAlive : Option Nat := none
  authMethod : Option Str := none
  authData : Option Str := none
deriving DecidableEq, Repr

/-- A packet sent before the session is connected.  An MQTT 3 CONNACK has no properties. -/
inductive Reply where
  | connack (present : Bool) (code : ConnCode) (props : ConnackProps)
  | auth (method : Str) (data : Str)
  | disconnect (reason : Reason)
deriving DecidableEq, Repr

/-- The fields of the session stored by `handle_connect` before a client is added
(`v3/packet/connect.rs:90-109`, `v5/packet/connect.rs:76-158`). -/
structure Opening where
  level : Level
  clean : Bool
  identifier : Str
  /-- `assigned_client_id` -/
  assigned : Bool
  keepAlive : Nat
  /-- `server_keep_alive` -/
  serverKeepAlive : Bool := false
  /-- `session_expiry_interval` as requested -/
  expiry : Nat := 0
  receiveMax : Nat := 10
  maxPacketSize : Nat := 65536
  aliasMax : Nat := 0
  authMethod : Option Str := none
  will : Option Will := none
deriving DecidableEq, Repr

/-- What comes of a packet in the handshake. -/
inductive Answer where
  /-- the packet is sent and the connection closed -/
  | refuse (r : Reply)
  /-- the connection is closed -/
  | fail
  /-- the server's part of the SCRAM exchange is sent, an AUTH packet is expected -/
  | challenge (o : Opening) (machine : Scram.Server) (r : Reply)
  /-- a client is added; `final` is sent as authentication data -/
  | go (o : Opening) (final : Option Str)
deriving DecidableEq, Repr

/-- An error CONNACK: `build_error_connack`, `v5/packet/common.rs:31-69`; `Connack::new` of MQTT 3. -/
def refuse (code : ConnCode) : Answer := .refuse (.connack false code {})

/-- `v3/packet/connect.rs:67-84`, `v5/packet/connect.rs:50-66`: is the CONNECT let in? -/
def passwordOk (c : ServerConfig) (x : ConnExt) (p : ConnectPkt) : Bool :=
  if c.authEnable then
    match p.username, p.password with
    | some u, some pw => Auth.checkPassword x.auth c.passwords u pw
    | _, _ => false
  else true

/-- `v3/packet/connect.rs:102-107`, `v5/packet/connect.rs:146-157`: the will must not be sent. -/
def willTopicBad : Option Will → Bool
  | none => false
  | some m => decide (m.topic = []) || decide (m.topic.head? = some '$')

/-- `v3/packet/connect.rs:17-109` `handle_connect` before `add_client`; `len()` counts bytes. -/
def handleConnectV3 (c : ServerConfig) (x : ConnExt) (uuid : Str) (p : ConnectPkt) : Answer :=
  if p.level = .v310 ∧ (p.clientId = [] ∨
      c.checkV310Length = true ∧ (Scram.utf8 p.clientId).length > 23) then
    refuse .identifierRejected
  else if p.level = .v311 ∧ p.clientId = [] ∧ p.clean = false then refuse .identifierRejected
  else if passwordOk c x p = false then refuse .badUserNameOrPassword
  else if willTopicBad p.will then .fail
  else .go
    { level := p.level, clean := p.clean
      identifier := if p.clientId = [] then uuid else p.clientId
      assigned := decide (p.clientId = [])
      keepAlive := p.keepAlive, will := p.will } none

/-- `v5/packet/connect.rs:85-91`. -/
def clampKeepAlive (c : ServerConfig) (k : Nat) : Nat :=
  if k > c.maxKeepAlive then c.maxKeepAlive
  else if k < c.minKeepAlive then c.minKeepAlive
  else k

/-- `v5/packet/connect.rs:76-158`: the fields stored. -/
def openV5 (c : ServerConfig) (uuid : Str) (p : ConnectPkt) : Opening :=
  { level := p.level, clean := p.clean
    identifier := if p.clientId = [] then uuid else p.clientId
    assigned := decide (p.clientId = [])
    keepAlive := clampKeepAlive c p.keepAlive
    serverKeepAlive := decide (clampKeepAlive c p.keepAlive ≠ p.keepAlive)
    expiry := p.sessionExpiry.getD 0
    receiveMax := p.receiveMax.getD c.maxInflightClient
    maxPacketSize := p.maxPacketSize.getD c.maxPacketSizeClient
    aliasMax := p.topicAliasMax.getD 0
    authMethod := p.authMethod, will := p.will }

/-- `v5/packet/connect.rs:549-646` `scram_client_first` (not connected): the state of the exchange
and the server's message; `none` = CONNACK with "not authorized". -/
def scramClientFirst (c : ServerConfig) (x : ConnExt) (random : Str) (data : Option Bytes) :
    Option (Scram.Server × Str) :=
  match data.bind x.utf8 with
  | none => none
  | some first =>
    match Scram.Server.clientFirst .new first with
    | (.waitingForPassword authcid authzid nonce, true) =>
      match c.scramUsers.get authcid with
      | none => none
      | some user =>
        match Scram.Server.serverFirst x.scram (.waitingForPassword authcid authzid nonce)
            user.hashedPassword user.salt user.iterations random with
        | (m, some serverFirst) => some (m, serverFirst)
        | (_, none) => none
    | _ => none

/-- `v5/packet/connect.rs:24-214` `handle_connect` before `session_connect`. -/
def handleConnectV5 (c : ServerConfig) (x : ConnExt) (uuid random : Str) (p : ConnectPkt) :
    Answer :=
  if passwordOk c x p = false then refuse .badUserNameOrPassword
  else if p.receiveMax = some 0 then refuse .protocolError
  else if p.maxPacketSize.getD c.maxPacketSizeClient = 0 then refuse .protocolError
  else if p.authData.isSome ∧ p.authMethod = none then refuse .protocolError
  else if willTopicBad p.will then .fail
  else
    match p.authMethod with
    | none => .go (openV5 c uuid p) none
    | some method =>
      match SaslMechanism.parse method with
      | none => refuse .badAuthMethod
      | some m =>
        if c.saslMechanisms.contains m then
          match scramClientFirst c x random p.authData with
          | none => refuse .notAuthorized
          | some (machine, serverFirst) =>
            .challenge (openV5 c uuid p) machine (.auth method serverFirst)
        else refuse .badAuthMethod

/-- `handle_connect` of the protocol family. -/
def handleConnect (c : ServerConfig) (x : ConnExt) (uuid random : Str) (p : ConnectPkt) : Answer :=
  match p.level.proto with
  | .v3 => handleConnectV3 c x uuid p
  | .v5 => handleConnectV5 c x uuid random p

/-- `v5/packet/connect.rs:376-545` `handle_auth` for a session that is not connected and
`authorizing`: its only call (`v5/message.rs:233`) is in the loop over the AUTH packets of the
handshake.  No answer of it continues the loop, so `round_quota` (`v5/message.rs:184-186`) is never
used up. -/
def handleAuth (x : ConnExt) (o : Opening) (machine : Scram.Server) (a : AuthPkt) : Answer :=
  match o.authMethod with
  | none => .refuse (.disconnect .protocolError)
  | some method =>
    if a.method ≠ some method then refuse .protocolError
    else
      match a.code with
      | .success => refuse .protocolError
      | .reAuthentication => refuse .protocolError
      | .continueAuthentication =>
        match a.data.bind x.utf8 with
        | none => refuse .notAuthorized
        | some final =>
          match (machine.clientFinal x.scram final).2 with
          | some (.authenticated, serverFinal) => .go o (some serverFinal)
          | _ => refuse .notAuthorized

/-- The session expiry interval in force: `v5/packet/connect.rs:273-276`. -/
def Opening.expiryInForce (c : ServerConfig) (o : Opening) : Nat :=
  if o.expiry > c.maxSessionExpiry then c.maxSessionExpiry else o.expiry

/-- What the rest of the broker gets. -/
def Opening.request (c : ServerConfig) (o : Opening) : Request :=
  { level := o.level, identifier := o.identifier, clean := o.clean
    params :=
      match o.level.proto with
      | .v3 => { will := o.will }
      | .v5 =>
        { aliasMax := o.aliasMax, maxPacketSize := o.maxPacketSize, receiveMax := o.receiveMax
          will := o.will, expiryInterval := o.expiryInForce c } }

/-- `v5/packet/connect.rs:272-313`: the properties of CONNACK. -/
def connackProps (c : ServerConfig) (cfg : Config) (o : Opening) (final : Option Str) :
    ConnackProps :=
  { sessionExpiry := if o.expiry > c.maxSessionExpiry then some c.maxSessionExpiry else none
    receiveMax := if c.maxInflightServer ≠ 65535 then some c.maxInflightServer else none
    maxQos := if cfg.maxAllowedQos < 2 then some cfg.maxAllowedQos else none
    retainAvailable := if c.retainAvailable then none else some false
    maxPacketSize :=
      if c.maxPacketSizeServer < 4294967295 then some c.maxPacketSizeServer else none
    assignedClientId := if o.assigned then some o.identifier else none
    topicAliasMax := if c.topicAliasMax > 0 then some c.topicAliasMax else none
    wildcardAvailable := if c.wildcardAvailable then none else some false
    subscriptionIdAvailable := if c.subscriptionIdAvailable then none else some false
    sharedAvailable := if c.sharedAvailable then none else some false
    serverKeepAlive := if o.serverKeepAlive then some o.keepAlive else none
    authMethod := if final.isSome then o.authMethod else none
    authData := final }

/-- `v5/packet/connect.rs:315-325`. -/
def willCode (cfg : Config) : Option Will → ConnCode
  | none => .success
  | some m =>
    if m.retain && !cfg.retainAvailable then .retainNotSupported
    else if cfg.maxAllowedQos < m.qos then .qosNotSupported
    else .success

/-- The CONNACK sent once the client is added: `v3/packet/connect.rs:162`,
`v5/packet/connect.rs:272-331`. -/
def Opening.connack (c : ServerConfig) (cfg : Config) (o : Opening) (final : Option Str)
    (present : Bool) : Reply :=
  match o.level.proto with
  | .v3 => .connack present .success {}
  | .v5 => .connack present (willCode cfg o.will) (connackProps c cfg o final)

/-- A connection of the network. -/
abbrev ConnId := Nat

/-- Where a connection is in the handshake. -/
inductive ConnStage where
  /-- an AUTH packet is expected -/
  | authorizing (machine : Scram.Server)
  /-- a client is added; this task is the connection in `Model/World.lean` -/
  | task (t : TaskId) (final : Option Str)
  /-- refused or lost in the handshake -/
  | over
deriving DecidableEq, Repr

/-- A connection that has sent CONNECT. -/
structure Conn where
  pkt : ConnectPkt
  opening : Opening
  stage : ConnStage

/-- The broker with the connections that are in the handshake. -/
structure Front where
  world : World := {}
  conns : FMap ConnId Conn := []
  nextConn : ConnId := 0

/-- What happens next. -/
inductive FrontAct where
  /-- a new connection sends CONNECT; `env` and `written` are for `Act.connect` -/
  | hello (p : ConnectPkt) (uuid random : Str) (env : Env) (written : Bool)
  /-- an AUTH packet in the handshake -/
  | auth (k : ConnId) (a : AuthPkt) (env : Env) (written : Bool)
  /-- another packet in the handshake, or one that cannot be decoded -/
  | stray (k : ConnId) (malformed : Bool)
  /-- the connection is lost or the time is up in the handshake -/
  | leave (k : ConnId)
  /-- an act of the rest of the broker (`Act.connect` is excluded) -/
  | act (a : Act)

/-- What can be observed. -/
inductive FrontEvent where
  | reply (k : ConnId) (r : Reply)
  | event (e : Event)

/-- The task is about to be set up and its will is refused: this session-present flag is sent
(`v5/packet/connect.rs:315-331`). -/
def World.refusing (cfg : Config) (w : World) : Act → Option (TaskId × Bool)
  | .connect req _ true =>
    if req.willRefused cfg then
      match w.registry.add req.identifier with
      | some (_, .new _) => some (w.nextTask, false)
      | _ => none
    else none
  | .accept t _ true =>
    match w.tasks.get t with
    | some x =>
      match x.stage with
      | .granted old level =>
        if x.req.willRefused cfg then some (t, (x.req.session cfg old level).2) else none
      | _ => none
    | none => none
  | _ => none

/-- The tasks that get CONNACK in a step, and the session-present flag. -/
def acked (refusing : Option (TaskId × Bool)) (evs : List Event) : List (TaskId × Bool) :=
  refusing.toList ++ evs.filterMap fun e =>
    match e with
    | .accepted t present => some (t, present)
    | _ => none

/-- The CONNACK packets sent to the connections of those tasks. -/
def connacks (c : ServerConfig) (cfg : Config) (conns : FMap ConnId Conn)
    (l : List (TaskId × Bool)) : List FrontEvent :=
  l.flatMap fun a => conns.filterMap fun e =>
    match e.2.stage with
    | .task t final =>
      if t = a.1 then some (.reply e.1 (e.2.opening.connack c cfg final a.2)) else none
    | _ => none

/-- A step of the rest of the broker; `conns` are the connections after it. -/
def Front.world' (c : ServerConfig) (cfg : Config) (ext : Ext) (f : Front)
    (conns : FMap ConnId Conn) (a : Act) : Option (Front × List FrontEvent) :=
  match f.world.step cfg ext a with
  | none => none
  | some (w, evs) =>
    some ({ f with world := w, conns },
      connacks c cfg conns (acked (f.world.refusing cfg a) evs) ++ evs.map .event)

/-- The effect of an answer on the connection `k`. -/
def Front.answer (c : ServerConfig) (cfg : Config) (ext : Ext) (f : Front) (k : ConnId)
    (p : ConnectPkt) (o : Opening) (env : Env) (written : Bool) :
    Answer → Option (Front × List FrontEvent)
  | .refuse r =>
    some ({ f with conns := f.conns.insert k ⟨p, o, .over⟩ }, [.reply k r])
  | .fail => some ({ f with conns := f.conns.insert k ⟨p, o, .over⟩ }, [])
  | .challenge o machine r =>
    some ({ f with conns := f.conns.insert k ⟨p, o, .authorizing machine⟩ }, [.reply k r])
  | .go o final =>
    f.world' c cfg ext (f.conns.insert k ⟨p, o, .task f.world.nextTask final⟩)
      (.connect (o.request c) env written)

/-- One step of the broker; `none` = panic. -/
def Front.step (c : ServerConfig) (x : ConnExt) (ext : Ext) (f : Front) :
    FrontAct → Option (Front × List FrontEvent)
  | .hello p uuid random env written =>
    match c.limits with
    | none => none
    | some cfg =>
      { f with nextConn := f.nextConn + 1 }.answer c cfg ext f.nextConn p (openV5 c uuid p) env
        written (handleConnect c x uuid random p)
  | .auth k a env written =>
    match c.limits, f.conns.get k with
    | none, _ => none
    | some cfg, some ⟨p, o, .authorizing machine⟩ =>
      f.answer c cfg ext k p o env written (handleAuth x o machine a)
    | _, _ => some (f, [])
  | .stray k malformed =>
    match f.conns.get k with
    | some ⟨p, o, .authorizing _⟩ =>
      some ({ f with conns := f.conns.insert k ⟨p, o, .over⟩ },
        [.reply k (.connack false (if malformed then .malformedPacket else .protocolError) {})])
    | _ => some (f, [])
  | .leave k =>
    match f.conns.get k with
    | some ⟨p, o, .authorizing _⟩ =>
      some ({ f with conns := f.conns.insert k ⟨p, o, .over⟩ }, [])
    | _ => some (f, [])
  | .act a =>
    match c.limits, a with
    | none, _ => none
    | some _, .connect _ _ _ => some (f, [])
    | some cfg, a => f.world' c cfg ext f.conns a

/-- A sequence of steps and everything observed; `none` = panic. -/
def Front.run (c : ServerConfig) (x : ConnExt) (ext : Ext) :
    Front → List FrontAct → Option (Front × List FrontEvent)
  | f, [] => some (f, [])
  | f, a :: as =>
    match f.step c x ext a with
    | none => none
    | some (f, evs) => (Front.run c x ext f as).map fun r => (r.1, evs ++ r.2)

end Akasa

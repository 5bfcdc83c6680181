import Verif.Model.Accept
import Verif.Model.Connect
/-!
# The start of the server (`akasa/src/main.rs:102-126`, `server/rt.rs`, `server/mod.rs:207-298`)

The configuration is checked, the passwords are loaded, the TLS contexts are built, and every
listener gets its tasks, which open a socket, accept connections and start again when something
fails.

External: reading files and the YAML and PEM formats, `rustls` (loading of a key and a chain, the
verifier for certificates of clients), the sockets of the operating system.  Simplified: an address
is an opaque number; the errors are not told apart; log output is left out; SO_REUSEPORT is
available (Unix); a connection accepted is one step and its task is that of `Model/Accept.lean`.
-/
namespace Akasa.Start

/-- A path of a file. -/
abbrev Path := Str

/-- `std::net::SocketAddr`. -/
abbrev Addr := Nat

/-- A certificate as it is in a PEM file or shown by a client. -/
abbrev Cert := Bytes

/-- `config.rs:69-74` `Listener`. -/
structure PlainListener where
  addr : Addr
  reusePort : Bool
  proxyMode : Option Accept.ProxyMode
deriving DecidableEq, Repr

/-- `config.rs:77-89` `TlsListener`. -/
structure TlsListener where
  addr : Addr
  reusePort : Bool
  proxy : Bool
  caFile : Option Path
  keyFile : Path
  certFile : Path
  verifyPeer : Bool
  failIfNoPeerCert : Bool
deriving DecidableEq, Repr

/-- `config.rs:55-66` `Listeners`; of the HTTP listener only its address. -/
structure Listeners where
  mqtt : Option PlainListener := none
  mqtts : Option TlsListener := none
  ws : Option PlainListener := none
  wss : Option TlsListener := none
  http : Option Addr := none
deriving DecidableEq, Repr

/-- `config.rs:12-50` `Config`: the listeners, `auth.password_file` and all the rest. -/
structure Settings where
  listeners : Listeners
  passwordFile : Option Path
  rest : ServerConfig

/-- The pattern of `config.rs:285-295`, negated. -/
def Listeners.any (l : Listeners) : Bool :=
  l.mqtt.isSome || l.mqtts.isSome || l.ws.isSome || l.wss.isSome || l.http.isSome

/-- `Config` and the passwords as `GlobalState` holds them (`akasa/src/main.rs:122-124`). -/
def Settings.config (s : Settings) (passwords : Auth.Table) : ServerConfig :=
  { s.rest with
    anyListener := s.listeners.any
    passwordFile := s.passwordFile.isSome
    passwords := passwords }

/-- The files and the functions of `rustls` and of the hashes. -/
structure World where
  /-- the certificates of a PEM file; `none` if it cannot be read -/
  certs : Path → Option (List Cert)
  /-- the private key of a PEM file -/
  key : Path → Option Bytes
  /-- the text of a file -/
  text : Path → Option Str
  /-- `RootCertStore::add` succeeds -/
  anchor : Cert → Bool
  /-- `with_single_cert` succeeds: the key belongs to the chain -/
  pair : List Cert → Bytes → Bool
  /-- the certificate leads to one of the roots and is valid -/
  issuedBy : List Cert → Cert → Bool
  auth : Auth.Ext

/-- What a TLS context asks of clients: `with_no_client_auth`, `allow_unauthenticated`, or neither
(`server/mod.rs:254-285`). -/
inductive ClientAuth where
  | none
  | optional (roots : List Cert)
  | required (roots : List Cert)
deriving DecidableEq, Repr

/-- `TlsAcceptor`. -/
structure TlsContext where
  chain : List Cert
  key : Bytes
  clients : ClientAuth
deriving DecidableEq, Repr

/-- `server/mod.rs:236-269`: the verifier.  `WebPkiClientVerifier::build` fails without roots. -/
def buildVerifier (w : World) (l : TlsListener) : Option ClientAuth :=
  if l.verifyPeer then
    match l.caFile with
    | none => none
    | some ca =>
      match w.certs ca with
      | none => none
      | some roots =>
        if roots.all w.anchor && !roots.isEmpty then
          some (if l.failIfNoPeerCert then .required roots else .optional roots)
        else none
  else some .none

/-- `server/mod.rs:207-288` `build_tls_context`; `none` = error. -/
def buildTls (w : World) (l : TlsListener) : Option TlsContext :=
  if l.verifyPeer && l.caFile.isNone then none
  else
    match w.certs l.certFile with
    | none => none
    | some chain =>
      match w.key l.keyFile with
      | none => none
      | some key =>
        match buildVerifier w l with
        | none => none
        | some clients => if w.pair chain key then some { chain, key, clients } else none

/-- Does the TLS handshake of a client succeed that shows this certificate, or none?  (`rustls`:
without client authentication no certificate is asked for.) -/
def TlsContext.admits (w : World) (c : TlsContext) (shown : Option Cert) : Bool :=
  match c.clients, shown with
  | .none, _ => true
  | .optional _, none => true
  | .optional roots, some cert => w.issuedBy roots cert
  | .required _, none => false
  | .required roots, some cert => w.issuedBy roots cert

/-- `server/mod.rs:290-298` `ConnectionArgs` of a listener, with all that is used. -/
structure Entry where
  addr : Addr
  reusePort : Bool
  listener : Accept.Listener
  tls : Option TlsContext
deriving DecidableEq, Repr

/-- `server/rt.rs:50-111`: what is to be listened on. -/
def Listeners.entries (l : Listeners) (mqtts wss : Option TlsContext) : List Entry :=
  [l.mqtt.map fun p => { addr := p.addr, reusePort := p.reusePort
                         listener := .mqtt p.proxyMode, tls := none },
   l.mqtts.map fun p => { addr := p.addr, reusePort := p.reusePort
                          listener := .mqtts p.proxy, tls := mqtts },
   l.ws.map fun p => { addr := p.addr, reusePort := p.reusePort
                       listener := .ws p.proxyMode, tls := none },
   l.wss.map fun p => { addr := p.addr, reusePort := p.reusePort
                        listener := .wss p.proxy, tls := wss }].filterMap id

/-- `server/rt.rs:112-118`: four tasks if the port may be shared. -/
def tasksOf (es : List Entry) : List Entry :=
  es.flatMap fun e => List.replicate (if e.reusePort then 4 else 1) e

/-- `server/rt.rs:18-38`: `Option::map` and `transpose`; the outer `none` = error. -/
def buildFor (w : World) : Option TlsListener → Option (Option TlsContext)
  | none => some none
  | some l => (buildTls w l).map some

/-- What becomes of the command `start`. -/
inductive Outcome where
  /-- it ends with an error before any socket is opened -/
  | refused
  | panic
  | running (config : ServerConfig) (tasks : List Entry) (http : Option Addr)

/-- `akasa/src/main.rs:114-121`: the passwords; `none` = error, `some none` = panic. -/
def loadTable (w : World) (s : Settings) : Option (Option Auth.Table) :=
  if s.rest.authEnable then
    match s.passwordFile with
    | none => some none
    | some path =>
      match w.text path with
      | none => none
      | some text => (Auth.loadPasswords w.auth text).map some
  else some (some [])

/-- `akasa/src/main.rs:102-126` the command `start` once the configuration file is parsed, and
`server/rt.rs:12-150`. -/
def start (w : World) (s : Settings) : Outcome :=
  if (s.config []).isValid then
    match loadTable w s with
    | none => .refused
    | some none => .panic
    | some (some passwords) =>
      match buildFor w s.listeners.mqtts with
      | none => .refused
      | some mqtts =>
        match buildFor w s.listeners.wss with
        | none => .refused
        | some wss =>
          .running (s.config passwords) (tasksOf (s.listeners.entries mqtts wss)) s.listeners.http
  else .refused

/-- A connection that a client has opened. -/
abbrev Conn := Nat

/-- Where the task of a listener is (`server/rt.rs:122-133, 159-210`): opening its socket, waiting for
connections, with those that the operating system has set up, or in its pause after an error. -/
inductive Phase where
  | opening
  | listening (queue : List Conn)
  | pausing
deriving DecidableEq, Repr

/-- The task of the HTTP listener (`server/rt.rs:142-150`, `server/http_api.rs:7-39`; the feature
`http` is on). -/
inductive HttpPhase where
  | opening
  | serving
  | ended
deriving DecidableEq, Repr

/-- The server once it is started.  `served` are the connections whose task has been started, with
the number of the listener task, in order. -/
structure Server where
  phase : Nat → Phase
  http : Option HttpPhase
  served : List (Nat × Conn)

/-- What happens. -/
inductive Event where
  /-- socket, bind and listen succeed or not -/
  | opened (i : Nat) (ok : Bool)
  /-- a client connects -/
  | arrives (i : Nat) (k : Conn)
  /-- `accept` succeeds or not -/
  | accepts (i : Nat) (ok : Bool)
  /-- the second is over -/
  | wakes (i : Nat)
  | httpOpened (ok : Bool)
  /-- `axum::serve` returns -/
  | httpEnds
deriving DecidableEq, Repr

/-- `server/rt.rs:47-150` at the start. -/
def Server.init (http : Option Addr) : Server :=
  { phase := fun _ => .opening, http := http.map fun _ => .opening, served := [] }

/-- The same server with another phase of one task. -/
def Server.set (s : Server) (i : Nat) (p : Phase) : Server :=
  { s with phase := fun j => if j = i then p else s.phase j }

/-- How many connections the operating system keeps (`server/rt.rs:182` `listen(1024)`). -/
def backlog : Nat := 1024

/-- One event (`server/rt.rs:122-133, 159-210`, `server/http_api.rs:7-39`).  If `accept` fails, the
listener is dropped and the connections not accepted yet with it; the next attempt is made after a
second. -/
def Server.step (s : Server) : Event → Server
  | .opened i ok =>
    match s.phase i with
    | .opening => s.set i (if ok then .listening [] else .pausing)
    | _ => s
  | .arrives i k =>
    match s.phase i with
    | .listening queue => if queue.length < backlog then s.set i (.listening (queue ++ [k])) else s
    | _ => s
  | .accepts i ok =>
    match s.phase i with
    | .listening queue =>
      if ok then
        match queue with
        | [] => s
        | k :: queue => { s.set i (.listening queue) with served := s.served ++ [(i, k)] }
      else s.set i .pausing
    | _ => s
  | .wakes i =>
    match s.phase i with
    | .pausing => s.set i .opening
    | _ => s
  | .httpOpened ok =>
    match s.http with
    | some .opening => { s with http := some (if ok then .serving else .ended) }
    | _ => s
  | .httpEnds =>
    match s.http with
    | some .serving => { s with http := some .ended }
    | _ => s

/-- A sequence of events. -/
def Server.run (s : Server) (evs : List Event) : Server := evs.foldl Server.step s

/-- `server/rt.rs:152-156`: `start` returns, and the process ends, when all tasks have ended; `n` is
the number of tasks for clients. -/
def Server.returned (s : Server) (n : Nat) : Bool :=
  n == 0 && (match s.http with | some .ended => true | none => true | _ => false)

end Akasa.Start

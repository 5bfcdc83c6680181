import Verif.Model.Proxy
/-!
# Accepting a connection (`server/mod.rs:43-205`, `server/rt.rs:46-112`)

The task of a new connection goes through the layers of its listener (PROXY header, TLS, WebSocket),
reads the CONNECT packet and, in MQTT 5, AUTH packets; a timer started with the task limits the time
for what the client has to send.  Modelled is what one poll of the task does.  What the futures of
the layers return when they are polled is an arbitrary input: `parse_header` (modelled in
`Model/Proxy.lean`), `TlsAcceptor::accept`, `accept_hdr_async`, the decoders of `mqtt_proto`, writing
to the client.

Simplified: hooks are off; what is done with an accepted CONNECT (`session_connect`, waiting for the
session of an earlier connection included) is not part of the task here, it ends with `handed`
(see `Model/Connect.lean` and `Model/World.lean`); log output and the SNI are left out.
-/
namespace Akasa.Accept

/-- `config.rs:91-95` `ProxyMode`. -/
inductive ProxyMode where
  | normal
  | tlsTermination
deriving DecidableEq, Repr

/-- The listeners of `config.rs:55-89` for clients, with the settings that are used for every
connection. -/
inductive Listener where
  | mqtt (proxy : Option ProxyMode)
  | mqtts (proxy : Bool)
  | ws (proxy : Option ProxyMode)
  | wss (proxy : Bool)
deriving DecidableEq, Repr

/-- `server/mod.rs:290-298` `ConnectionArgs`; of the TLS acceptor only whether there is one. -/
structure Args where
  proxy : Bool
  proxyTls : Bool
  websocket : Bool
  tls : Bool
deriving DecidableEq, Repr

/-- `server/rt.rs:50-112`: the arguments for the connections of a listener.  (If the TLS context
cannot be built the server does not start: `server/rt.rs:18-38`.) -/
def Listener.args : Listener → Args
  | .mqtt mode => { proxy := mode.isSome, proxyTls := mode == some .tlsTermination, websocket := false
                    tls := false }
  | .mqtts proxy => { proxy, proxyTls := false, websocket := false, tls := true }
  | .ws mode => { proxy := mode.isSome, proxyTls := mode == some .tlsTermination, websocket := true
                  tls := false }
  | .wss proxy => { proxy, proxyTls := false, websocket := true, tls := true }

/-- `mqtt_proto::Protocol`. -/
inductive Version where
  | v310
  | v311
  | v500
deriving DecidableEq, Repr

/-- What a future returns when it is polled; `failed` = `Err`. -/
inductive Poll (α : Type) where
  | pending
  | ready (a : α)
  | failed
  | panic
deriving DecidableEq, Repr

/-- What becomes of a CONNECT or AUTH packet of MQTT 5 (`v5/message.rs:137-255`): the client is
accepted, an error CONNACK is written, or an AUTH packet is written and another one is awaited. -/
inductive Answer where
  | accept
  | refuse
  | challenge
deriving DecidableEq, Repr

/-- What the futures return in one poll of the task. -/
structure Io where
  /-- `parse_header`; `none` = LOCAL -/
  proxy : Poll (Option Proxy.Header) := .pending
  tls : Poll Unit := .pending
  /-- a valid handshake was read; the value of `Sec-WebSocket-Protocol` -/
  websocket : Poll (Option Str) := .pending
  /-- `decode_raw_header_async`: the first byte of the packet -/
  header : Poll UInt8 := .pending
  /-- `Protocol::decode_async` -/
  protocol : Poll Version := .pending
  /-- MQTT 3: CONNECT was decoded; accepted or refused with a CONNACK -/
  connectV3 : Poll Bool := .pending
  connectV5 : Poll Answer := .pending
  /-- AUTH, by the number of rounds that are left -/
  auth : Nat → Poll Answer := fun _ => .pending
  /-- `write_packet` for the refusal -/
  writeRefusal : Poll Unit := .pending
  /-- `write_packet` for AUTH, by the number of rounds that are left -/
  writeAuth : Nat → Poll Unit := fun _ => .pending

/-- Why the task ended. -/
inductive Why where
  | healthCheck
  | timeout
  | invalid
  | failed
  | refused
  | panicked
deriving DecidableEq, Repr

/-- Where the task is waiting. -/
inductive Stage where
  | proxy
  | tls
  | websocket
  | header
  | protocol
  | connectV3 (v : Version)
  | connectV5
  | refusal
  | challenge (left : Nat)
  | auth (left : Nat)
  | handed (v : Version)
  | ended (why : Why)
deriving DecidableEq, Repr

/-- `server/mod.rs:73-91`: an address; `socket` is the other end of the TCP connection. -/
inductive Peer where
  | socket
  | ipv4 (a : Vector UInt8 4) (port : UInt16)
  | ipv6 (a : Vector UInt8 16) (port : UInt16)
deriving DecidableEq

/-- The task.  `token`: the timer has run and its message has not been taken. -/
structure Task where
  args : Args
  stage : Stage
  peer : Peer := .socket
  token : Bool := false

/-- The stage after TLS (`server/mod.rs:122-154`). -/
def Args.afterTls (a : Args) : Stage := if a.websocket then .websocket else .header

/-- The stage after the PROXY header (`server/mod.rs:100-118`). -/
def Args.afterProxy (a : Args) : Stage := if a.tls then .tls else a.afterTls

/-- `server/mod.rs:43-64`: the first stage. -/
def Task.start (a : Args) : Task :=
  { args := a, stage := if a.proxy then .proxy else a.afterProxy }

/-- `future.or(timeout).await?`, or without timeout if not `guarded`: the future is polled first, the
timeout if it is not ready.  `none` = pending. -/
def await {α : Type} (t : Task) (guarded : Bool) (p : Poll α) (next : α → Task) : Option Task :=
  match p with
  | .ready a => some (next a)
  | .failed => some { t with stage := .ended .failed }
  | .panic => some { t with stage := .ended .panicked }
  | .pending =>
    if guarded && t.token then some { t with stage := .ended .timeout, token := false } else none

/-- `server/mod.rs:124-137`: the answer to the subprotocol of a WebSocket handshake. -/
def subprotocolOk : Option Str → Bool
  | none => true
  | some p => decide (p = "mqtt".toList)

/-- `server/mod.rs:64-98`: the PROXY header was read. -/
def Task.onProxy (t : Task) : Option Proxy.Header → Task
  | none => { t with stage := .ended .healthCheck }
  | some h =>
    match h.addresses with
    | .ipv4 a port _ _ => { t with peer := .ipv4 a port, stage := t.args.afterProxy }
    | .ipv6 a port _ _ => { t with peer := .ipv6 a port, stage := t.args.afterProxy }
    | .unix _ _ => { t with stage := .ended .invalid }

/-- An answer to CONNECT or AUTH (`v5/message.rs:173-255`); `left` is `round_quota`.  If it is used
up and the client is not accepted, the connection ends after the AUTH packet is written. -/
def Task.onAnswer (t : Task) (left : Nat) : Answer → Task
  | .accept => { t with stage := .handed .v500 }
  | .refuse => { t with stage := .refusal }
  | .challenge => { t with stage := .challenge left }

/-- One stage of the task (`server/mod.rs:43-205`, `v3/message.rs:115-137`, `v5/message.rs:137-262`);
`none` if it has to wait.  Waiting for the WebSocket handshake (`server/mod.rs:138`) and writing are
not guarded by the timeout. -/
def Task.stage1 (t : Task) (io : Io) : Option Task :=
  match t.stage with
  | .proxy => await t true io.proxy t.onProxy
  | .tls => await t true io.tls fun _ => { t with stage := t.args.afterTls }
  | .websocket => await t false io.websocket fun p =>
      { t with stage := if subprotocolOk p then .header else .ended .invalid }
  | .header => await t true io.header fun b =>
      { t with stage := if b = 0x10 then .protocol else .ended .invalid }
  | .protocol => await t true io.protocol fun v =>
      { t with stage := if v = .v500 then .connectV5 else .connectV3 v }
  | .connectV3 v => await t true io.connectV3 fun ok =>
      { t with stage := if ok then .handed v else .refusal }
  | .connectV5 => await t true io.connectV5 (t.onAnswer 2)
  | .refusal => await t false io.writeRefusal fun _ => { t with stage := .ended .refused }
  | .challenge left => await t false (io.writeAuth left) fun _ =>
      { t with stage := if left = 0 then .ended .invalid else .auth (left - 1) }
  | .auth left => await t true (io.auth left) (t.onAnswer left)
  | .handed _ => none
  | .ended _ => none

/-- An upper bound of the number of stages still to come. -/
def Stage.rank : Stage → Nat
  | .proxy => 20
  | .tls => 19
  | .websocket => 18
  | .header => 17
  | .protocol => 16
  | .connectV3 _ => 15
  | .connectV5 => 15
  | .challenge left => 2 * left + 3
  | .auth left => 2 * left + 4
  | .refusal => 1
  | .handed _ => 0
  | .ended _ => 0

/-- Stage after stage until the task has to wait; `fuel` bounds the number of stages. -/
def Task.stages (io : Io) : (fuel : Nat) → Task → Task
  | 0, t => t
  | fuel + 1, t =>
    match t.stage1 io with
    | none => t
    | some t' => t'.stages io fuel

/-- One poll of the task. -/
def Task.poll (t : Task) (io : Io) : Task := t.stages io (t.stage.rank + 1)

/-- What happens: five seconds after the start the timer runs (`server/mod.rs:53-60`), or the task is
polled. -/
inductive Act where
  | timer
  | poll (io : Io)

/-- One event. -/
def Task.act (t : Task) : Act → Task
  | .timer => { t with token := true }
  | .poll io => t.poll io

/-- A sequence of events. -/
def Task.run (t : Task) (acts : List Act) : Task := acts.foldl Task.act t

end Akasa.Accept

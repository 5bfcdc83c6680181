import Verif.Model.Connect
/-!
# The hooks for connections (`v3/message.rs:130-178, 645-702`, `v5/message.rs:174-306, 969-1031`)

The hook before a connection is asked when CONNECT has been decoded, the hook after a connection when
CONNACK has been written, and the hook after a disconnect when the online loop has ended.  A hook is
code of the user, here given by its answers.

Simplified: the actions that the hook after a connection may ask for are left out
(they are in `Model/HookConnect.lean`, for one session).  A hook is asked and answers in one step with
what comes before it; no other task runs in between.
-/
namespace Akasa

/-- `hook.rs:238-248` `HookConnectCode`. -/
inductive HookConnectCode where
  | success
  | unspecifiedError
  | clientIdentifierNotValid
  | badUserNameOrPassword
  | notAuthorized
  | serverUnavailable
  | quotaExceeded
  | connectionRateExceeded
deriving DecidableEq, Repr

/-- `hook.rs:304-315` `to_v5_code`; the numbers are those of MQTT 5. -/
def HookConnectCode.byte : HookConnectCode → Nat
  | .success => 0x00
  | .unspecifiedError => 0x80
  | .clientIdentifierNotValid => 0x85
  | .badUserNameOrPassword => 0x86
  | .notAuthorized => 0x87
  | .serverUnavailable => 0x88
  | .quotaExceeded => 0x97
  | .connectionRateExceeded => 0x9F

/-- `config.rs:166-174` `HookConfig`, the part for connections. -/
structure HookFlags where
  beforeConnect : Bool := true
  afterConnect : Bool := true
  afterDisconnect : Bool := true
deriving DecidableEq, Repr

/-- A call of a hook. -/
inductive HookCall where
  /-- `none`: the hook fails -/
  | beforeConnect (k : ConnId) (p : ConnectPkt) (answer : Option HookConnectCode)
  | afterConnect (t : TaskId) (present : Bool)
  | afterDisconnect (t : TaskId) (takenOver : Bool)
deriving DecidableEq, Repr

/-- What can be observed. -/
inductive HookedEvent where
  | front (e : FrontEvent)
  | called (h : HookCall)
  /-- a CONNACK with this reason code, without session (`v5/message.rs:986-989`) -/
  | refused (k : ConnId) (code : Nat)

/-- A step of the broker and the answers of the hooks asked in it. -/
structure HookTick where
  act : FrontAct
  /-- the hook before a connection; `none`: it fails -/
  before : Option HookConnectCode := some .success
  /-- the hook after a connection succeeds -/
  after : Bool := true
  /-- what is to be sent after that hook can be written -/
  written : Bool := true
  /-- the hook after a disconnect succeeds -/
  bye : Bool := true

/-- The connection that is accepted. -/
def FrontEvent.accepts : FrontEvent → Option (TaskId × Bool)
  | .event (.accepted t present) => some (t, present)
  | _ => none

/-- Packets sent by the session of the connection. -/
def FrontEvent.sends (t : TaskId) : FrontEvent → Bool
  | .event (.sent u _) => u == t
  | _ => false

/-- The task a step is about. -/
def Act.task? : Act → Option TaskId
  | .connect .. => none
  | .accept t .. => some t
  | .packet t .. => some t
  | .normal t _ => some t
  | .control t _ => some t
  | .lose t => some t
  | .close t .. => some t
  | .push t _ => some t
  | .flush t _ => some t
  | .giveUp t _ => some t
  | .finish t => some t
  | .fire _ => none
  | .kick _ => none

/-- The connection is in its online loop. -/
def World.isOnline (w : World) (t : TaskId) : Bool :=
  match w.tasks.get t with
  | some x => match x.stage with | .online _ => true | _ => false
  | none => false

/-- The task of the connection has ended. -/
def World.isGone (w : World) (t : TaskId) : Bool :=
  match w.tasks.get t with
  | some x => match x.stage with | .gone => true | _ => false
  | none => false

/-- The connection whose online loop ends in a step from `w` to `w'`, and whether its session was
handed to another connection (`taken_over`). -/
def loopEnds (w w' : World) : FrontAct → Option (TaskId × Bool)
  | .act a =>
    match a.task? with
    | some t => if w.isOnline t && !w'.isOnline t then some (t, w'.isGone t) else none
    | none => none
  | _ => none

/-- The task of a connection ends with an error: session and receivers are dropped, the client stays
registered (`?` at `v3/message.rs:145, 149, 174`, `v5/message.rs:273, 277, 302`). -/
def World.vanish (w : World) (t : TaskId) : World :=
  match w.tasks.get t with
  | some x =>
    match x.stage with
    | .online s => (w.setTask t { req := x.req, stage := .gone }).dropReceivers s.clientId
    | .closed s => (w.setTask t { req := x.req, stage := .gone }).dropReceivers s.clientId
    | _ => w
  | none => w

/-- After CONNACK (`v3/message.rs:143-150`, `v5/message.rs:271-278`).  The flag is the one of the hook
before a connection. -/
def afterConnected (flags : HookFlags) (x : HookTick) (f : Front) (evs : List FrontEvent)
    (t : TaskId) (present : Bool) : Front × List HookedEvent :=
  let first := (evs.filter fun e => !e.sends t).map HookedEvent.front ++
    if flags.beforeConnect then [.called (.afterConnect t present)] else []
  if (flags.beforeConnect && !x.after) || !x.written then
    ({ f with world := f.world.vanish t }, first)
  else (f, first ++ (evs.filter fun e => e.sends t).map .front)

/-- After the online loop (`v3/message.rs:173-178`, `v5/message.rs:301-306`). -/
def afterLoop (flags : HookFlags) (x : HookTick) (f : Front) (evs : List FrontEvent) (t : TaskId)
    (takenOver : Bool) : Front × List HookedEvent :=
  if flags.afterDisconnect then
    (if !x.bye && !takenOver then { f with world := f.world.vanish t } else f,
      evs.map .front ++ [.called (.afterDisconnect t takenOver)])
  else (f, evs.map .front)

/-- A step and what the hooks make of it. -/
def Front.hooked (flags : HookFlags) (c : ServerConfig) (x : ConnExt) (ext : Ext) (f : Front)
    (tick : HookTick) : Option (Front × List HookedEvent) :=
  match f.step c x ext tick.act with
  | none => none
  | some (f', evs) =>
    match evs.findSome? FrontEvent.accepts with
    | some (t, present) => some (afterConnected flags tick f' evs t present)
    | none =>
      match loopEnds f.world f'.world tick.act with
      | some (t, takenOver) => some (afterLoop flags tick f' evs t takenOver)
      | none => some (f', evs.map .front)

/-- `before_connect_hook` when the hook does not agree: `v3/message.rs:655-661`,
`v5/message.rs:982-991`. -/
def Front.turnAway (c : ServerConfig) (f : Front) (p : ConnectPkt) (uuid : Str)
    (answer : Option HookConnectCode) : Front × List HookedEvent :=
  ({ f with conns := f.conns.insert f.nextConn ⟨p, openV5 c uuid p, .over⟩
            nextConn := f.nextConn + 1 },
   match p.level.proto, answer with
   | .v5, some code => [.refused f.nextConn code.byte]
   | _, _ => [])

/-- One step of the broker with hooks; `none` = panic. -/
def Front.hookStep (flags : HookFlags) (c : ServerConfig) (x : ConnExt) (ext : Ext) (f : Front)
    (tick : HookTick) : Option (Front × List HookedEvent) :=
  match tick.act with
  | .hello p uuid _ _ _ =>
    if flags.beforeConnect then
      if tick.before = some .success then
        (f.hooked flags c x ext tick).map fun r =>
          (r.1, .called (.beforeConnect f.nextConn p tick.before) :: r.2)
      else
        let r := f.turnAway c p uuid tick.before
        some (r.1, .called (.beforeConnect f.nextConn p tick.before) :: r.2)
    else f.hooked flags c x ext tick
  | _ => f.hooked flags c x ext tick

/-- A sequence of steps and everything observed; `none` = panic. -/
def Front.hookRun (flags : HookFlags) (c : ServerConfig) (x : ConnExt) (ext : Ext) :
    Front → List HookTick → Option (Front × List HookedEvent)
  | f, [] => some (f, [])
  | f, a :: as =>
    match f.hookStep flags c x ext a with
    | none => none
    | some (f, evs) => (Front.hookRun flags c x ext f as).map fun r => (r.1, evs ++ r.2)

end Akasa

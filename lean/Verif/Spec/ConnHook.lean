import Verif.Model.ConnHook
import Verif.Spec.Connect
/-!
# Vocabulary for C87–C90
-/
namespace Akasa

/-- What can happen from the start of the broker on. -/
def HookReaches (flags : HookFlags) (c : ServerConfig) (x : ConnExt) (ext : Ext)
    (ticks : List HookTick) (f : Front) (log : List HookedEvent) : Prop :=
  Front.hookRun flags c x ext {} ticks = some (f, log)

/-- The connections shown to the hook before a connection, in this order. -/
def shownToHook (log : List HookedEvent) : List (ConnId × ConnectPkt) :=
  log.filterMap fun e =>
    match e with
    | .called (.beforeConnect k p _) => some (k, p)
    | _ => none

/-- The CONNECT packets in the order they came. -/
def connects (ticks : List HookTick) : List ConnectPkt :=
  ticks.filterMap fun x =>
    match x.act with
    | .hello p _ _ _ _ => some p
    | _ => none

/-- The calls of the hooks after a connection and after a disconnect for a connection. -/
def callsOf (t : TaskId) (log : List HookedEvent) : List HookCall :=
  log.filterMap fun e =>
    match e with
    | .called (.afterConnect u p) => if u = t then some (.afterConnect u p) else none
    | .called (.afterDisconnect u b) => if u = t then some (.afterDisconnect u b) else none
    | _ => none

/-- The CONNACK packets with success on a connection: the session-present flags. -/
def acceptedAs (t : TaskId) (log : List HookedEvent) : List Bool :=
  log.filterMap fun e =>
    match e with
    | .front (.event (.accepted u p)) => if u = t then some p else none
    | _ => none

/-- The packets sent in the handshake of a connection. -/
def repliesOn (k : ConnId) (log : List HookedEvent) : List Reply :=
  log.filterMap fun e =>
    match e with
    | .front (.reply k' r) => if k' = k then some r else none
    | _ => none

/-- The CONNACK packets by which the hook's answer is sent on a connection: the reason codes. -/
def refusalsOn (k : ConnId) (log : List HookedEvent) : List Nat :=
  log.filterMap fun e =>
    match e with
    | .refused k' code => if k' = k then some code else none
    | _ => none

/-- The reason codes of CONNACK in MQTT 5 (section 3.2.2.2 of the standard) for what the hook says. -/
def mqtt5Code : HookConnectCode → Nat
  | .success => 0
  | .unspecifiedError => 128
  | .clientIdentifierNotValid => 133
  | .badUserNameOrPassword => 134
  | .notAuthorized => 135
  | .serverUnavailable => 136
  | .quotaExceeded => 151
  | .connectionRateExceeded => 159

/-- What the broker does without regard to the hooks. -/
def frontEvents (log : List HookedEvent) : List FrontEvent :=
  log.filterMap fun e =>
    match e with
    | .front e => some e
    | _ => none

/-- The wills published for a connection. -/
def hookedWills (t : TaskId) (log : List HookedEvent) : List SendPub :=
  willsOf t (worldEvents (frontEvents log))

/-- In this step the hook after a connection does not fail and what follows can be written. -/
def HookTick.Goes (x : HookTick) : Prop := x.after = true ∧ x.written = true

/-- The hooks agree to everything. -/
def HookTick.Agrees (x : HookTick) : Prop :=
  x.before = some .success ∧ x.after = true ∧ x.written = true ∧ x.bye = true

/-- The session of a connection goes to another connection in the step from `w` to `w'`. -/
def HandedOver (w w' : World) (t : TaskId) : Prop :=
  ∃ s u y level, w.onlineSession t = some s ∧ w'.tasks.get u = some y ∧
    y.stage = .granted s level ∧ w'.owned t = none

/-- `w'` is `w` but for what belongs to this task and this client: its session and its two queues.
All other connections and queues, the routes, the retained messages, the registered clients and the
timers are the same. -/
structure World.LosesOnly (w w' : World) (t : TaskId) (id : ClientId) : Prop where
  registry : w'.registry = w.registry
  route : w'.route = w.route
  retain : w'.retain = w.retain
  nextTask : w'.nextTask = w.nextTask
  clock : w'.clock = w.clock
  timers : w'.timers = w.timers
  tasks : ∀ u, u ≠ t → w'.tasks.get u = w.tasks.get u
  queues : ∀ d, d ≠ id → w'.inbox.get d = w.inbox.get d ∧ w'.control.get d = w.control.get d

/-- No connection that presents this identifier is accepted any more, whatever happens and whatever
the hooks answer. -/
def Front.HookLockedOut (flags : HookFlags) (c : ServerConfig) (x : ConnExt) (ext : Ext) (f : Front)
    (name : Str) : Prop :=
  ∀ ticks f' log, Front.hookRun flags c x ext f ticks = some (f', log) →
    ∀ t p, .front (.event (.accepted t p)) ∈ log → ∀ req, f'.world.request t = some req →
      req.identifier ≠ name

end Akasa

import Verif.Model.Online
import Verif.Model.Registry
/-!
# All connections together

The tasks of the broker (one per connection, and one per offline session), the channels between
them, the shared tables and the timers.  Any task may act at any time; one act is one step.

Modelled: `add_client` with the take-over of a session (`state.rs:144-216`), the life of a
connection from CONNECT to its end and the life of an offline session (`v3/message.rs:42-215,
462-579`, `v5/message.rs:48-333, 658-791`), the control and message channels
(`online_loop.rs:170-220, 317-392`), passing of copies to other sessions (`online_loop.rs:462-564`,
`v5/message.rs:943-967`), wills, and the timers of session expiry and will delay.

Simplified:
* A handler is one step although other tasks run in parallel: the tables are locked per call, so a
  packet of another client may be handled between two calls of one handler.
* The control channel (capacity 1) is an unbounded queue: a sender that waits for room is in the
  queue already; senders are served in order (`flume`).
* What is written to a socket is an event; the socket may fail at any time (`lose`).
* Hooks are off.  Passwords and SCRAM are in `Model/Connect.lean`; `Request` is what an accepted
  CONNECT leaves.
* `Instant`s are numbers; two connections never have the same (`clock` grows with each).
* Timers may fire at any time (so also at the right one); a keep-alive kick may come at any time.
* A request that is in the channel when its owner removes the client waits forever, as in the code
  (the requester itself keeps the channel alive, `state.rs:149, 187-213`).  Requests that wait for
  room in the channel at that moment fail in the code; here they wait forever, too.
-/
namespace Akasa

/-- A connection, and the task that keeps its session afterwards. -/
abbrev TaskId := Nat

/-- `mqtt_proto::Protocol`. -/
inductive Level where
  | v310
  | v311
  | v500
deriving DecidableEq, Repr

/-- `protocol < Protocol::V500` (`state.rs:187`). -/
def Level.proto : Level → Proto
  | .v310 => .v3
  | .v311 => .v3
  | .v500 => .v5

/-- What an accepted CONNECT leaves: `clean` is clean session or clean start; the expiry interval
is the one in force (`v5/packet/connect.rs:273-276`). -/
structure Request where
  level : Level
  identifier : Str
  clean : Bool
  params : ConnParams := {}
deriving DecidableEq, Repr

/-- `state.rs:219-240` `ControlMessage`; the reply channel of a take-over request belongs to the
task `from`. -/
inductive Control where
  | online (pr : Proto) («from» : TaskId)
  | kick
  | sessionExpired (time : Nat)
  | willDelayReached (time : Nat)
deriving DecidableEq, Repr

/-- Where a task is. -/
inductive Stage where
  /-- in `add_client`, waiting for the session of this client (`state.rs:195-199, 209-213`) -/
  | waiting (id : ClientId)
  /-- the old session was received and CONNACK is not sent yet -/
  | granted (old : Session) (level : Level)
  /-- in the online loop -/
  | online (s : Session)
  /-- the online loop has returned -/
  | closed (s : Session)
  /-- the will is dealt with, the remaining copies are being sent -/
  | ending (s : Session)
  /-- in the offline loop -/
  | offline (s : Session)
  /-- the session has expired, the remaining copies are being sent -/
  | expired (s : Session)
  | gone
deriving DecidableEq, Repr

/-- A task; `sinks` holds the copies passed to a `SendSink` and not yet in the inbox
(`Model/Transfer.lean`). -/
structure Task where
  req : Request
  stage : Stage
  /-- `connected_time` -/
  connectedAt : Option Nat := none
  sinks : FMap ClientId NormalMsg := []
deriving DecidableEq, Repr

/-- A running timer: `v5/message.rs:75-89` (session expiry), `717-729` (will delay). -/
structure Timer where
  id : ClientId
  msg : Control
deriving DecidableEq, Repr

/-- Everything.  A client without entry in `inbox` and `control` has no receivers any more.  In an
inbox the sender is recorded as task; the code records its client id (for logging only). -/
structure World where
  registry : Registry := {}
  route : RouteTable := .empty
  retain : RetainTable := .empty
  tasks : FMap TaskId Task := []
  nextTask : TaskId := 0
  clock : Nat := 0
  inbox : FMap ClientId (List (TaskId × NormalMsg)) := []
  control : FMap ClientId (List Control) := []
  timers : List Timer := []

/-- What can be observed of a step. -/
inductive Event where
  /-- CONNACK with success and this session present flag -/
  | accepted (t : TaskId) (present : Bool)
  /-- the state of an old session is dropped by a new connection of its client (which does not want
  it, or fails before it is established) -/
  | discarded (t : TaskId) (old : Session)
  /-- a packet is read from the client -/
  | received (t : TaskId) (p : InPkt)
  | sent (t : TaskId) (out : List OutPkt)
  /-- PUBLISH packets accepted and routed -/
  | routed (t : TaskId) (ms : List SendPub)
  /-- the will is routed -/
  | will (t : TaskId) (m : SendPub)
  /-- copies queued, by receiver -/
  | queued (t : TaskId) (ms : ClientId → List NormalMsg)
  /-- copies that will not be passed on although the receiver may be there, by receiver -/
  | dropped (t : TaskId) (ms : ClientId → List NormalMsg)
  /-- a message from the task `src` is taken from the inbox of the client `d` -/
  | took (t : TaskId) (d : ClientId) (src : TaskId) (m : NormalMsg)
  /-- the session is removed -/
  | removed (t : TaskId) (id : ClientId)

/-- What happens next. -/
inductive Act where
  /-- a CONNECT is accepted up to `add_client`; if the client is new the connection is set up,
  `written` tells whether CONNACK and what follows can be written -/
  | connect (req : Request) (env : Env) (written : Bool)
  /-- the session asked for is there, the connection is set up -/
  | accept (t : TaskId) (env : Env) (written : Bool)
  | packet (t : TaskId) (env : Env) (after : Clock) (size : Nat) (p : InPkt)
  /-- the next message from the inbox -/
  | normal (t : TaskId) (env : Env)
  /-- the next control message -/
  | control (t : TaskId) (env : Env)
  /-- the online loop ends (end of stream, error, or after a DISCONNECT) -/
  | lose (t : TaskId)
  /-- the will is dealt with; messages held by the sinks for `lost` are dropped -/
  | close (t : TaskId) (env : Env) (lost : List ClientId)
  /-- the first copy queued for `d` is passed to its sink -/
  | push (t : TaskId) (d : ClientId)
  /-- the copy in the sink for `d` enters the inbox -/
  | flush (t : TaskId) (d : ClientId)
  /-- the receiver `d` is found to be gone -/
  | giveUp (t : TaskId) (d : ClientId)
  /-- all copies are sent: the session is removed or kept offline -/
  | finish (t : TaskId)
  /-- a timer fires -/
  | fire (i : Nat)
  /-- a keep-alive timer kicks a client (`common.rs:32-44`) -/
  | kick (id : ClientId)

/-- `bounded(8)` (`state.rs:171`). -/
def inboxSize : Nat := 8

/-- `broadcast_packets_max` (`v3/session.rs:81`, `v5/session.rs:123`). -/
def bcastMax : Nat := 10

/-- The tables as seen by the handlers. -/
def World.global (w : World) : Global :=
  { route := w.route, retain := w.retain, registered := fun id => w.registry.clients.contains id }

/-- The tables after a handler. -/
def World.setGlobal (w : World) (g : Global) : World := { w with route := g.route, retain := g.retain }

/-- Replace a task. -/
def World.setTask (w : World) (t : TaskId) (x : Task) : World :=
  { w with tasks := w.tasks.insert t x }

/-- The receivers of a client are dropped. -/
def World.dropReceivers (w : World) (id : ClientId) : World :=
  { w with inbox := w.inbox.erase id, control := w.control.erase id }

/-- The copies in the queue for a receiver. -/
def Session.queue (s : Session) (d : ClientId) : List NormalMsg := (s.bcast.get d).getD []

/-- The copies queued by a handler. -/
def newCopies (old new : Session) (d : ClientId) : List NormalMsg :=
  (new.queue d).drop (old.queue d).length

/-- All copies of a task on their way to a receiver and not yet in its inbox. -/
def Task.held (x : Task) (s : Session) (d : ClientId) : List NormalMsg :=
  (x.sinks.get d).toList ++ s.queue d

/-- CONNACK refuses the will (`v5/packet/connect.rs:315-325`; MQTT 5 only). -/
def Request.willRefused (cfg : Config) (r : Request) : Bool :=
  match r.level.proto with
  | .v3 => false
  | .v5 =>
    match r.params.will with
    | none => false
    | some m => (m.retain && !cfg.retainAvailable) || decide (cfg.maxAllowedQos < m.qos)

/-- From the receipt of `add_client` to the online loop: `v3/packet/connect.rs:153-166`,
`v3/message.rs:137-150`; `v5/packet/connect.rs:263-344`, `v5/message.rs:265-278`.  If the will is
refused or writing fails the function returns with an error: the receivers are dropped, the client
stays registered. -/
def World.setUp (cfg : Config) (w : World) (t : TaskId) (req : Request) (s : Session)
    (present : Bool) (env : Env) (written : Bool) : World × List Event :=
  if written && !req.willRefused cfg then
    let r := handlePendingsOf req.level.proto (env.clk 0) s
    ({ w with tasks := w.tasks.insert t { req, stage := .online r.1, connectedAt := some w.clock }
              clock := w.clock + 1 },
     [.accepted t present, .sent t r.2])
  else ((w.setTask t { req, stage := .gone }).dropReceivers s.clientId, [])

/-- `state.rs:144-216` `add_client`, and the connection set-up for a new client. -/
def World.connect (cfg : Config) (w : World) (req : Request) (env : Env) (written : Bool) :
    Option (World × List Event) :=
  let t := w.nextTask
  match w.registry.add req.identifier with
  | none => none
  | some (r, .new id) =>
    let w := { w with registry := r, nextTask := t + 1
                      inbox := w.inbox.insert id [], control := w.control.insert id [] }
    some (w.setUp cfg t req (Session.start cfg req.level.proto req.identifier id req.params) false
      env written)
  | some (r, .present id) =>
    let w := { w with registry := r, nextTask := t + 1 }
    match w.control.get id with
    | some q =>
      some ({ w with tasks := w.tasks.insert t { req, stage := .waiting id }
                     control := w.control.insert id (q ++ [.online req.level.proto t]) }, [])
    | none => some (w.setTask t { req, stage := .gone }, [])

/-- `v3/packet/connect.rs:116-138`, `v5/packet/connect.rs:230-255`: what the new connection makes of
the session it received. -/
def Request.session (cfg : Config) (req : Request) (old : Session) (level : Level) :
    Session × Bool :=
  if !req.clean && decide (req.level = level) then
    (old.resume cfg req.level.proto req.params, true)
  else (Session.start cfg req.level.proto req.identifier old.clientId req.params, false)

/-- `Session.resume` or a new session, and the connection set-up. -/
def World.accept (cfg : Config) (w : World) (t : TaskId) (env : Env) (written : Bool) :
    World × List Event :=
  match w.tasks.get t with
  | none => (w, [])
  | some x =>
    match x.stage with
    | .granted old level =>
      let s := x.req.session cfg old level
      let r := w.setUp cfg t x.req s.1 s.2 env written
      (r.1, if s.2 && written && !x.req.willRefused cfg then r.2 else .discarded t old :: r.2)
    | _ => (w, [])

/-- One received packet in the online loop (`online_loop.rs:238-313`): nothing is read while
`broadcast_packets_max` copies or more wait to be passed on.  That nothing is read while much waits
to be written to the socket is not modelled. -/
def World.packet (cfg : Config) (ext : Ext) (w : World) (t : TaskId) (env : Env) (after : Clock)
    (size : Nat) (p : InPkt) : Option (World × List Event) :=
  match w.tasks.get t with
  | none => some (w, [])
  | some x =>
    match x.stage with
    | .online s =>
      if s.disconnected || decide (bcastMax ≤ s.bcastCnt) then some (w, [])
      else
        match onPacket cfg ext x.req.level.proto env after w.global s size p with
        | none => none
        | some r =>
          some ((w.setGlobal r.global).setTask t
              { x with stage := if r.closed then .closed r.session else .online r.session },
            [.received t p, .routed t r.routed, .queued t (newCopies s r.session), .sent t r.out])
    | _ => some (w, [])

/-- `v3/message.rs:462-505`, `v5/message.rs:658-700`: nothing else is done while copies are being
sent. -/
def Task.idle (x : Task) (s : Session) : Bool := s.bcast.isEmpty && x.sinks.isEmpty

/-- The next message of the inbox, online (`online_loop.rs:351-392`) or offline
(`v3/message.rs:490-493`, `v5/message.rs:685-688`). -/
def World.normal (cfg : Config) (w : World) (t : TaskId) (env : Env) : World × List Event :=
  match w.tasks.get t with
  | none => (w, [])
  | some x =>
    match x.stage with
    | .online s =>
      match w.inbox.get s.clientId with
      | some ((src, m) :: rest) =>
        if s.disconnected then (w, [])
        else
          let r := onNormal cfg x.req.level.proto env w.global s m
          ({ w with tasks := w.tasks.insert t { x with stage := .online r.session }
                    inbox := w.inbox.insert s.clientId rest },
           [.took t s.clientId src m, .sent t r.out])
      | _ => (w, [])
    | .offline s =>
      match w.inbox.get s.clientId with
      | some ((src, m) :: rest) =>
        if x.idle s then
          let s' := (handleNormalOf cfg x.req.level.proto (env.now 0 0) s m).1
          ({ w with tasks := w.tasks.insert t { x with stage := .offline s' }
                    inbox := w.inbox.insert s.clientId rest },
           [.took t s.clientId src m])
        else (w, [])
      | _ => (w, [])
    | _ => (w, [])

/-- `v3/message.rs:472-474`: an offline MQTT 3 session takes all messages of its inbox before it is
handed over. -/
def drainInbox (cfg : Config) (pr : Proto) (env : Env) (s : Session) :
    List (TaskId × NormalMsg) → Session
  | [] => s
  | (_, m) :: rest => drainInbox cfg pr env (handleNormalOf cfg pr (env.now 0 0) s m).1 rest

/-- The message of a will: `v5/message.rs:895-941` `send_will`, `v3/message.rs:508-540`. -/
def Will.message (ext : Ext) (m : Will) : SendPub :=
  let props := { m.props with topicAlias := none, subscriptionIds := [] }
  let qosPid : QosPid :=
    if m.qos = 0 then .level0 else if m.qos = 1 then .level1 1 else .level2 1
  { qos := m.qos, retain := m.retain, topic := m.topic, payload := m.payload, props
    encodeLen := ext.encLen { dup := false, retain := false, qosPid, topic := m.topic
                              payload := m.payload, props } }

/-- The will is taken out of the session and routed: `v5/message.rs:895-941` `send_will`,
`v3/message.rs:508-540` `handle_will`.  `none` = panic of the routing. -/
def sendWill (ext : Ext) (pr : Proto) (env : Env) (g : Global) (s : Session) :
    Option (Session × Global × Option SendPub) :=
  match s.will with
  | none => some (s, g, none)
  | some wl =>
    let s := { s with will := none }
    let m := wl.message ext
    match pr with
    | .v3 => (sendPublishV3 g s m).map fun r => (r.1, r.2, some m)
    | .v5 => (sendPublishV5 env g s m).map fun r => (r.1, r.2.1, some m)

/-- Events of `sendWill`. -/
def willEvents (t : TaskId) (old new : Session) : Option SendPub → List Event
  | none => []
  | some m => [.will t m, .queued t (newCopies old new)]

/-- `handle_control`: `v3/message.rs:544-579`, `v5/message.rs:738-791`; handing the session over:
`online_loop.rs:170-220`, `v3/message.rs:468-483`, `v5/message.rs:664-674`.  `none` = the
`unreachable!()` of MQTT 3 or a panic of routing or registry. -/
def World.onControl (cfg : Config) (ext : Ext) (w : World) (t : TaskId) (env : Env) (x : Task)
    (s : Session) (offline : Bool) : Option (World × List Event) :=
  let pr := x.req.level.proto
  match w.control.get s.clientId with
  | some (c :: q) =>
    let w := { w with control := w.control.insert s.clientId q }
    match c with
    | .online pr' b =>
      match w.tasks.get b with
      | some y =>
        if pr' = pr then
          let msgs := if offline && decide (pr = .v3) then (w.inbox.get s.clientId).getD [] else []
          let old := drainInbox cfg pr env s msgs
          let inbox := if offline && decide (pr = .v3) then w.inbox.insert s.clientId [] else w.inbox
          some ({ w with
              tasks := (w.tasks.insert t { x with stage := .gone, sinks := [] }).insert b
                { y with stage := .granted old x.req.level }
              inbox },
            msgs.map (fun e => .took t s.clientId e.1 e.2) ++ [.dropped t (x.held s)])
        else some (w.setTask b { y with stage := .gone }, [])
      | none => some (w, [])
    | .kick =>
      if offline then some (w, [])
      else some (w.setTask t { x with stage := .closed s }, [])
    | .sessionExpired time =>
      match pr with
      | .v3 => none
      | .v5 =>
        if offline && decide (x.connectedAt = some time) then
          match sendWill ext pr env w.global s with
          | none => none
          | some (s', g, m) =>
            match removeClient w.registry g.route s.clientId s.subscribes.keys with
            | none => none
            | some (r, route) =>
              some ({ w with registry := r, route, retain := g.retain
                             tasks := w.tasks.insert t { x with stage := .expired s' } },
                willEvents t s s' m ++ [.removed t s.clientId])
        else some (w, [])
    | .willDelayReached time =>
      match pr with
      | .v3 => none
      | .v5 =>
        if offline && decide (x.connectedAt = some time) then
          match sendWill ext pr env w.global s with
          | none => none
          | some (s', g, m) =>
            some ((w.setGlobal g).setTask t { x with stage := .offline s' }, willEvents t s s' m)
        else some (w, [])
  | _ => some (w, [])

/-- The next control message, online or offline. -/
def World.handleControl (cfg : Config) (ext : Ext) (w : World) (t : TaskId) (env : Env) :
    Option (World × List Event) :=
  match w.tasks.get t with
  | none => some (w, [])
  | some x =>
    match x.stage with
    | .online s => w.onControl cfg ext t env x s false
    | .offline s => if x.idle s then w.onControl cfg ext t env x s true else some (w, [])
    | _ => some (w, [])

/-- The online loop returns. -/
def World.lose (w : World) (t : TaskId) : World :=
  match w.tasks.get t with
  | none => w
  | some x =>
    match x.stage with
    | .online s => w.setTask t { x with stage := .closed s }
    | _ => w

/-- Whether the will is sent at once, later, or at the expiry of the session: `v5/message.rs:703-735`
`handle_will`; at once for MQTT 3. -/
inductive WillPlan where
  | now
  | delayed
  | atExpiry
deriving DecidableEq, Repr

/-- `v5/message.rs:703-735`, `v3/message.rs:508-540`. -/
def willPlan (pr : Proto) (s : Session) : WillPlan :=
  match pr with
  | .v3 => .now
  | .v5 =>
    match s.will with
    | none => .now
    | some m =>
      if m.delay.getD 0 = 0 ∨ s.expiryInterval = 0 then .now
      else if m.delay.getD 0 < s.expiryInterval then .delayed
      else .atExpiry

/-- `v3/message.rs:180-183`, `v5/message.rs:308-316`: the will, unless the client disconnected. -/
def World.close (ext : Ext) (w : World) (t : TaskId) (env : Env) (lost : List ClientId) :
    Option (World × List Event) :=
  match w.tasks.get t with
  | none => some (w, [])
  | some x =>
    match x.stage with
    | .closed s =>
      let pr := x.req.level.proto
      let x' := { x with sinks := x.sinks.filter fun e => !lost.contains e.1 }
      let dropped : Event := .dropped t fun d =>
        if lost.contains d then (x.sinks.get d).toList else []
      if s.clientDisconnected then
        some (w.setTask t { x' with stage := .ending s }, [dropped])
      else
        match willPlan pr s with
        | .now =>
          match sendWill ext pr env w.global s with
          | none => none
          | some (s', g, m) =>
            some ((w.setGlobal g).setTask t { x' with stage := .ending s' },
              dropped :: willEvents t s s' m)
        | .delayed =>
          some ({ w with
              tasks := w.tasks.insert t { x' with stage := .ending s }
              timers := w.timers ++ (x.connectedAt.toList.map fun time =>
                { id := s.clientId, msg := .willDelayReached time }) }, [dropped])
        | .atExpiry => some (w.setTask t { x' with stage := .ending s }, [dropped])
    | _ => some (w, [])

/-- The session of a task that passes copies on. -/
def Stage.sending? : Stage → Option Session
  | .online s => some s
  | .ending s => some s
  | .offline s => some s
  | .expired s => some s
  | _ => none

/-- Replace the session of a task that passes copies on. -/
def Stage.setSession (st : Stage) (s : Session) : Stage :=
  match st with
  | .online _ => .online s
  | .ending _ => .ending s
  | .offline _ => .offline s
  | .expired _ => .expired s
  | st => st

/-- A copy goes from the queue to the sink (`online_loop.rs:502-534`, `v5/message.rs:943-967`). -/
def World.push (w : World) (t : TaskId) (d : ClientId) : World :=
  match w.tasks.get t with
  | none => w
  | some x =>
    match x.stage.sending? with
    | none => w
    | some s =>
      match s.queue d, x.sinks.get d with
      | m :: rest, none =>
        let bcast := if rest.isEmpty then s.bcast.erase d else s.bcast.insert d rest
        let s' := { s with bcast, bcastCnt := s.bcastCnt - 1 }
        w.setTask t { x with stage := x.stage.setSession s', sinks := x.sinks.insert d m }
      | _, _ => w

/-- The copy of the sink enters the inbox, if there is room. -/
def World.flush (w : World) (t : TaskId) (d : ClientId) : World :=
  match w.tasks.get t with
  | none => w
  | some x =>
    match x.sinks.get d, w.inbox.get d with
    | some m, some q =>
      if q.length < inboxSize then
        { w with tasks := w.tasks.insert t { x with sinks := x.sinks.erase d }
                 inbox := w.inbox.insert d (q ++ [(t, m)]) }
      else w
    | _, _ => w

/-- Sending fails because the receivers are dropped (`online_loop.rs:487-494, 509-516, 527-548`). -/
def World.giveUp (w : World) (t : TaskId) (d : ClientId) : World :=
  match w.tasks.get t with
  | none => w
  | some x =>
    match x.stage.sending? with
    | none => w
    | some s =>
      if w.inbox.contains d then w
      else
        let s' := { s with bcast := s.bcast.erase d, bcastCnt := s.bcastCnt - (s.queue d).length }
        w.setTask t { x with stage := x.stage.setSession s', sinks := x.sinks.erase d }

/-- The session is not kept: `v3/message.rs:201`, `v5/message.rs:318`. -/
def Request.endsSession (req : Request) (s : Session) : Bool :=
  match req.level.proto with
  | .v3 => req.clean
  | .v5 => decide (s.expiryInterval = 0)

/-- `remove_client` and the end of the task, whose receivers are dropped. -/
def World.remove (w : World) (t : TaskId) (x : Task) (s : Session) : Option (World × List Event) :=
  match removeClient w.registry w.route s.clientId s.subscribes.keys with
  | none => none
  | some (r, route) =>
    some (({ w with registry := r, route := route }.setTask t { x with stage := .gone }).dropReceivers
        s.clientId, [.removed t s.clientId])

/-- The end of the connection: `v3/message.rs:201-213`, `v5/message.rs:318-330` and the expiry timer
`v5/message.rs:72-89`; the end of an expired session: `v5/message.rs:696-698`. -/
def World.finish (w : World) (t : TaskId) : Option (World × List Event) :=
  match w.tasks.get t with
  | none => some (w, [])
  | some x =>
    match x.stage with
    | .ending s =>
      if x.idle s then
        if x.req.endsSession s then w.remove t x s
        else
          match w.registry.offline s.clientId with
          | none => none
          | some r =>
            let timers := match x.req.level.proto with
              | .v3 => []
              | .v5 => x.connectedAt.toList.map fun time =>
                  { id := s.clientId, msg := .sessionExpired time }
            some ({ w with registry := r
                           tasks := w.tasks.insert t { x with stage := .offline s }
                           timers := w.timers ++ timers }, [])
      else some (w, [])
    | .expired s => if x.idle s then w.remove t x s else some (w, [])
    | _ => some (w, [])

/-- A control message is sent to a client if it is registered and has receivers. -/
def World.tell (w : World) (id : ClientId) (c : Control) : World :=
  if w.registry.clients.contains id then
    match w.control.get id with
    | some q => { w with control := w.control.insert id (q ++ [c]) }
    | none => w
  else w

/-- A timer fires (`v5/message.rs:75-89, 717-729`). -/
def World.fire (w : World) (i : Nat) : World :=
  match w.timers[i]? with
  | none => w
  | some tm => { w with timers := w.timers.eraseIdx i }.tell tm.id tm.msg

/-- One step.  An act that is not possible in the present state changes nothing. -/
def World.step (cfg : Config) (ext : Ext) (w : World) : Act → Option (World × List Event)
  | .connect req env written => w.connect cfg req env written
  | .accept t env written => some (w.accept cfg t env written)
  | .packet t env after size p => w.packet cfg ext t env after size p
  | .normal t env => some (w.normal cfg t env)
  | .control t env => w.handleControl cfg ext t env
  | .lose t => some (w.lose t, [])
  | .close t env lost => w.close ext t env lost
  | .push t d => some (w.push t d, [])
  | .flush t d => some (w.flush t d, [])
  | .giveUp t d => some (w.giveUp t d, [])
  | .finish t => w.finish t
  | .fire i => some (w.fire i, [])
  | .kick id => some (w.tell id .kick, [])

/-- A sequence of steps and everything observed; `none` = panic. -/
def World.run (cfg : Config) (ext : Ext) : World → List Act → Option (World × List Event)
  | w, [] => some (w, [])
  | w, a :: as =>
    match w.step cfg ext a with
    | none => none
    | some (w, evs) => (World.run cfg ext w as).map fun r => (r.1, evs ++ r.2)

end Akasa

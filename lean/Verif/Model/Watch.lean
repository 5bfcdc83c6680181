import Verif.Model.World
import Verif.Model.KeepAlive
/-!
# The keep-alive timers of all connections (`protocols/mqtt/common.rs:9-55`)

`Model/World.lean` lets a kick come at any time.  Here the timer tasks are part of the broker, and
time passes: every connection that is set up starts a timer task (`v3/packet/connect.rs:153-158`,
`v5/packet/connect.rs:266-271`), which is not stopped when the connection ends.  It holds the
`last_packet_time` of its connection and sends its kick to whoever has the client then.

Simplified: a connection that fails before its CONNACK is written starts a timer, too, which reaches
nobody (its receivers are dropped) and is left out; `last_packet_time` is also set when a session
object is created, which is before the connection is accepted.
-/
namespace Akasa

/-- A timer task: `common.rs:15-51`. -/
structure Watch where
  /-- the connection that started it, whose `last_packet_time` it reads -/
  owner : TaskId
  id : ClientId
  keepAlive : Nat
  /-- end of the present sleep -/
  due : Nat
deriving DecidableEq, Repr

/-- The broker, the time (milliseconds), and the timer tasks. -/
structure Clocked where
  world : World := {}
  now : Nat := 0
  /-- `last_packet_time` (`v3/session.rs:22`, `v5/session.rs:32`) -/
  last : FMap TaskId Nat := []
  /-- `keep_alive` in force (`v3/packet/connect.rs:98`, `v5/packet/connect.rs:96-115`) -/
  keep : FMap TaskId Nat := []
  watches : List Watch := []

/-- What happens next. -/
inductive Tick where
  /-- a step of the broker; the interval belongs to a CONNECT and is ignored for other steps -/
  | act (a : Act) (keepAlive : Nat)
  /-- time passes -/
  | pass (ms : Nat)
  /-- the timer task `i` is woken -/
  | wake (i : Nat)

/-- What can be observed. -/
inductive Noted where
  | event (e : Event)
  /-- the timer of the connection `t` sends a kick to the client -/
  | kick (t : TaskId) (id : ClientId)
  /-- the connection `t` is closed because of a kick -/
  | closed (t : TaskId)

/-- The connection that is accepted in a step. -/
def Event.accepts : Event → Option TaskId
  | .accepted t _ => some t
  | _ => none

/-- The connection that is accepted in a step or whose packet is handled:
`last_packet_time.write()` in `after_handle_packet` (`v3/packet/common.rs:16-19`,
`v5/packet/common.rs:28-31`; called at `v3/message.rs:148`, `v5/message.rs:276`,
`online_loop.rs:165, 305`). -/
def Event.hears : Event → Option TaskId
  | .accepted t _ => some t
  | .received t _ => some t
  | _ => none

/-- The timer of a new connection: its first check is at once (`common.rs:13, 47-51`). -/
def Clocked.watch (c : Clocked) (w : World) (t : TaskId) : List Watch :=
  match w.tasks.get t, c.keep.get t with
  | some x, some k =>
    match x.stage with
    | .online s =>
      if k > 0 then [{ owner := t, id := s.clientId, keepAlive := k, due := c.now }] else []
    | _ => []
  | _, _ => []

/-- The connection that is closed by a kick in this step (`v3/message.rs:555-563`,
`v5/message.rs:750-758`, `online_loop.rs:346-348`). -/
def World.kickTaken (w : World) : Act → List TaskId
  | .control t _ =>
    match w.tasks.get t with
    | some x =>
      match x.stage with
      | .online s =>
        match w.control.get s.clientId with
        | some (.kick :: _) => [t]
        | _ => []
      | _ => []
    | none => []
  | _ => []

/-- The intervals after a step: a CONNECT brings its own. -/
def Clocked.keepAfter (c : Clocked) (keepAlive : Nat) : Act → FMap TaskId Nat
  | .connect .. => c.keep.insert c.world.nextTask keepAlive
  | _ => c.keep

/-- The times of the last packets after a step with these events. -/
def Clocked.lastAfter (c : Clocked) (evs : List Event) : FMap TaskId Nat :=
  match evs.findSome? Event.hears with
  | some t => c.last.insert t c.now
  | none => c.last

/-- The timers after a step with these events that leads to `w`. -/
def Clocked.watchesAfter (c : Clocked) (w : World) (evs : List Event) : List Watch :=
  match evs.findSome? Event.accepts with
  | some t => c.watches ++ c.watch w t
  | none => c.watches

/-- A step of the broker. -/
def Clocked.act (cfg : Config) (ext : Ext) (c : Clocked) (a : Act) (keepAlive : Nat) :
    Option (Clocked × List Noted) :=
  match c.world.step cfg ext a with
  | none => none
  | some (w, evs) =>
    let c := { c with keep := c.keepAfter keepAlive a }
    some ({ c with world := w, last := c.lastAfter evs, watches := c.watchesAfter w evs },
      evs.map .event ++ (c.world.kickTaken a).map .closed)

/-- A timer task is woken after its sleep: `common.rs:25-46`. -/
def Clocked.wake (c : Clocked) (i : Nat) : Clocked × List Noted :=
  match c.watches[i]? with
  | none => (c, [])
  | some v =>
    if c.now < v.due then (c, [])
    else if keepAliveOk v.keepAlive c.now ((c.last.get v.owner).getD 0) then
      ({ c with watches := c.watches.set i { v with due := c.now + halfInterval v.keepAlive } }, [])
    else
      ({ c with watches := c.watches.eraseIdx i, world := c.world.tell v.id .kick },
       [.kick v.owner v.id])

/-- One step.  Kicks come only from the timers. -/
def Clocked.step (cfg : Config) (ext : Ext) (c : Clocked) : Tick → Option (Clocked × List Noted)
  | .act (.kick _) _ => some (c, [])
  | .act a k => c.act cfg ext a k
  | .pass ms => some ({ c with now := c.now + ms }, [])
  | .wake i => some (c.wake i)

/-- A sequence of steps; what was observed, with the times.  `none` = panic. -/
def Clocked.run (cfg : Config) (ext : Ext) :
    Clocked → List Tick → Option (Clocked × List (Nat × Noted))
  | c, [] => some (c, [])
  | c, x :: xs =>
    match c.step cfg ext x with
    | none => none
    | some (c', log) =>
      (Clocked.run cfg ext c' xs).map fun r => (r.1, log.map (fun e => (c.now, e)) ++ r.2)

end Akasa

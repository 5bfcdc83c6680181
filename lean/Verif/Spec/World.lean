import Verif.Model.World
import Verif.Spec.Session
import Verif.Spec.Retain
/-!
# Vocabulary for the broker as a whole
-/
namespace Akasa

/-- What can happen from the start of the broker on: the acts, the state reached and everything
observed. -/
def Reaches (cfg : Config) (ext : Ext) (acts : List Act) (w : World) (evs : List Event) : Prop :=
  World.run cfg ext {} acts = some (w, evs)

/-- The session a connection (or the task it leaves behind) owns: from the moment it has it until it
hands it over or the session is removed. -/
def World.owned (w : World) (t : TaskId) : Option Session :=
  match w.tasks.get t with
  | none => none
  | some x =>
    match x.stage with
    | .granted s _ => some s
    | .online s => some s
    | .closed s => some s
    | .ending s => some s
    | .offline s => some s
    | _ => none

/-- The connection is established: CONNACK is sent and the online loop runs. -/
def World.onlineSession (w : World) (t : TaskId) : Option Session :=
  match w.tasks.get t with
  | none => none
  | some x =>
    match x.stage with
    | .online s => some s
    | _ => none

/-- The task keeps the session of a connection that is over. -/
def World.offlineSession (w : World) (t : TaskId) : Option Session :=
  match w.tasks.get t with
  | none => none
  | some x =>
    match x.stage with
    | .offline s => some s
    | _ => none

/-- The task will not do anything any more. -/
def World.stopped (w : World) (t : TaskId) : Prop := ∃ x, w.tasks.get t = some x ∧ x.stage = .gone

/-- The CONNECT of a connection. -/
def World.request (w : World) (t : TaskId) : Option Request := (w.tasks.get t).map (·.req)

/-- The wills published for a connection. -/
def willsOf (t : TaskId) (evs : List Event) : List SendPub :=
  evs.filterMap fun e =>
    match e with
    | .will t' m => if t' = t then some m else none
    | _ => none

/-- The session left by a connection is removed. -/
def Event.removes (t : TaskId) : Event → Bool
  | .removed t' _ => decide (t' = t)
  | _ => false

/-- The act is a DISCONNECT packet received on this connection. -/
def Act.disconnects (t : TaskId) : Act → Bool
  | .packet t' _ _ _ (.disconnect _ _) => decide (t' = t)
  | _ => false

/-- The act is a DISCONNECT packet with reason code 0 received on this connection (in MQTT 3 the
packet has no reason code). -/
def Act.disconnectsNormally (pr : Proto) (t : TaskId) : Act → Bool
  | .packet t' _ _ _ (.disconnect c _) => decide (t' = t ∧ (pr = .v3 ∨ c = .success))
  | _ => false

/-- The message is the will `m` given in CONNECT. -/
def IsWill (m : Will) (p : SendPub) : Prop :=
  p.topic = m.topic ∧ p.payload = m.payload ∧ p.qos = m.qos ∧ p.retain = m.retain ∧
    p.props = { m.props with topicAlias := none, subscriptionIds := [] }

/-- The task whose step shows as this event. -/
def Event.task : Event → TaskId
  | .accepted t _ => t
  | .discarded t _ => t
  | .received t _ => t
  | .sent t _ => t
  | .routed t _ => t
  | .will t _ => t
  | .queued t _ => t
  | .dropped t _ => t
  | .took t _ _ _ => t
  | .removed t _ => t

/-- When the connection was established; this marks its timers. -/
def World.connectedAt (w : World) (t : TaskId) : Option Nat := (w.tasks.get t).bind (·.connectedAt)

/-- The connection was established and is over. -/
def World.ended (w : World) (t : TaskId) : Prop :=
  ∃ x, w.tasks.get t = some x ∧ match x.stage with
    | .ending _ => True
    | .offline _ => True
    | .expired _ => True
    | .gone => True
    | _ => False

/-- The message a timer sends when it fires: the mark of a connection, and whether it is the timer
of the session expiry. -/
def Control.timer : Control → Option (Nat × Bool)
  | .sessionExpired time => some (time, true)
  | .willDelayReached time => some (time, false)
  | _ => none

/-- A timer of a connection of this client still runs, or its message waits. -/
def World.timerPending (w : World) (id : ClientId) (c : Control) : Prop :=
  { id := id, msg := c } ∈ w.timers ∨ ∃ q, w.control.get id = some q ∧ c ∈ q

/-- The next control message of a client. -/
def World.nextControl (w : World) (id : ClientId) : Option Control :=
  (w.control.get id).bind List.head?

/-- The broker after that message was taken from the queue and nothing else happened. -/
def World.dropControl (w : World) (id : ClientId) : World :=
  { w with control := w.control.insert id ((w.control.get id).getD []).tail }

/-- The connection was established and is now lost or closed; what remains is to deal with its
will. -/
def World.lost (w : World) (t : TaskId) : Prop :=
  ∃ x s, w.tasks.get t = some x ∧ x.stage = .closed s

/-- The client has a session and its list of subscriptions has the filter with this QoS. -/
def World.lists (w : World) (F : Str) (id : ClientId) (q : QoS) : Prop :=
  ∃ t s d, w.owned t = some s ∧ s.clientId = id ∧ s.subscribes.get F = some d ∧ d.opts.maxQos = q

/-- A lookup of the topic in the routing table finds the client under this filter. -/
def World.routes (w : World) (topic F : Str) (id : ClientId) (q : QoS) : Prop :=
  ∃ c ∈ w.route.getMatches topic, c.topicFilter = some F ∧ (id, q) ∈ c.clients

/-- No session with subscriptions was dropped by a new connection of its client. -/
def NoneDiscarded (evs : List Event) : Prop :=
  ∀ t old, Event.discarded t old ∈ evs → old.subscribes = []

/-- In these events a message is accepted from the client of a connection and passed on, or its will
is published. -/
def Publishes (t : TaskId) (m : SendPub) (evs : List Event) : Prop :=
  (∃ ms, Event.routed t ms ∈ evs ∧ m ∈ ms) ∨ Event.will t m ∈ evs

/-- The copies queued by a task for a client. -/
def queuedFor (t : TaskId) (d : ClientId) (evs : List Event) : List NormalMsg :=
  evs.flatMap fun e =>
    match e with
    | .queued t' ms => if t' = t then ms d else []
    | _ => []

/-- The copies that were dropped by a task although they were queued for a client. -/
def droppedFor (t : TaskId) (d : ClientId) (evs : List Event) : List NormalMsg :=
  evs.flatMap fun e =>
    match e with
    | .dropped t' ms => if t' = t then ms d else []
    | _ => []

/-- The messages a client's session took that a task sent. -/
def tookFrom (t : TaskId) (d : ClientId) (evs : List Event) : List NormalMsg :=
  evs.filterMap fun e =>
    match e with
    | .took _ d' src m => if d' = d ∧ src = t then some m else none
    | _ => none

/-- The client has a session. -/
def World.hasSession (w : World) (d : ClientId) : Prop := ∃ t s, w.owned t = some s ∧ s.clientId = d

/-- The task passes copies on: the connection is established, or it is over and its session is still
there or has just expired. -/
def World.passesOn (w : World) (t : TaskId) : Prop :=
  ∃ x s, w.tasks.get t = some x ∧
    (x.stage = .online s ∨ x.stage = .ending s ∨ x.stage = .offline s ∨ x.stage = .expired s)

/-- The messages a task has put into the inbox of a client and the client has not taken yet. -/
def World.inboxFrom (w : World) (t : TaskId) (d : ClientId) : List NormalMsg :=
  (((w.inbox.get d).getD []).filter fun e => decide (e.1 = t)).map (·.2)

/-- The copies a task holds for a client: at most one is in the sink, the others are queued. -/
def World.onTheWay (w : World) (t : TaskId) (d : ClientId) : List NormalMsg :=
  match w.tasks.get t with
  | none => []
  | some x =>
    (x.sinks.get d).toList ++
      match x.stage with
      | .online s => s.queue d
      | .closed s => s.queue d
      | .ending s => s.queue d
      | .offline s => s.queue d
      | .expired s => s.queue d
      | _ => []

/-- The messages accepted from clients and passed on, and the wills published, with the connection,
in order. -/
def published (evs : List Event) : List (TaskId × SendPub) :=
  evs.flatMap fun e =>
    match e with
    | .routed t ms => ms.map fun m => (t, m)
    | .will t m => [(t, m)]
    | _ => []

/-- Those with the retain flag, as the retained store keeps them. -/
def World.retainWrites (w : World) (evs : List Event) : List RetainContent :=
  (published evs).filterMap fun e =>
    if e.2.retain then
      (w.request e.1).map fun req => e.2.toRetain req.level.proto req.identifier
    else none

end Akasa

import Verif.Spec.World
import Verif.Spec.Deliver
/-!
# What can be seen of one session

The same things can be seen of a session that is alone (`Model/Online.lean`) and of a session among
others in the whole broker (`Model/World.lean`).
-/
namespace Akasa

/-- What can be seen of a session. -/
inductive Obs where
  /-- a connection with this session is accepted, with this session present flag -/
  | connected (present : Bool) (c : ConnParams)
  /-- a packet is read from the client -/
  | received (p : InPkt)
  /-- a message is taken from the inbox -/
  | took (m : NormalMsg)
  /-- a message of the client is passed on -/
  | routed (m : SendPub)
  /-- a packet is sent to the client -/
  | sent (o : OutPkt)

/-- The message taken from the inbox in a step. -/
def Rec.taken (r : Rec) : Option NormalMsg :=
  match r.ev with
  | .normal m => if r.pre.online && !r.pre.session.disconnected then some m else none
  | .offline m => if r.pre.online then none else some m
  | _ => none

/-- What can be seen of one step of a session that is alone. -/
def Rec.obs (r : Rec) : List Obs :=
  (match r.ev with
    | .resume c => [Obs.connected true c]
    | _ => []) ++
  (r.received.toList.map .received ++ (r.taken.toList.map .took ++
    (r.res.routed.map .routed ++ r.res.out.map .sent)))

/-- A new session, with the connection that starts it and everything seen since; it is now `p`. -/
def Lives (cfg : Config) (ext : Ext) (pr : Proto) (obs : List Obs) (p : Peer) : Prop :=
  ∃ i id c sevs recs, ({ session := Session.start cfg pr i id c } : Peer).run cfg ext pr sevs =
      some recs ∧
    obs = .connected false c :: recs.flatMap Rec.obs ∧
    p = endOf { session := Session.start cfg pr i id c } recs

/-- Some connections, with what their CONNECT packets said. -/
def Chain := TaskId → Option ConnParams

def Chain.get (chain : Chain) (t : TaskId) : Option ConnParams := chain t

/-- What an event shows of these connections. -/
def Event.obs (chain : Chain) (e : Event) : List Obs :=
  match chain.get e.task with
  | none => []
  | some c =>
    match e with
    | .accepted _ present => [.connected present c]
    | .received _ p => [.received p]
    | .took _ _ _ m => [.took m]
    | .routed _ ms => ms.map .routed
    | .sent _ out => out.map .sent
    | _ => []

/-- What is seen of these connections. -/
def obsOf (chain : Chain) (evs : List Event) : List Obs := evs.flatMap (Event.obs chain)

/-- All connections with this client identifier. -/
def World.under (w : World) (i : Str) : Chain :=
  fun t => (w.request t).bind fun r => if r.identifier = i then some r.params else none

/-- One more event: a connection with a new session makes what was seen before irrelevant. -/
def Obs.since (l : List Obs) : Obs → List Obs
  | .connected false c => [.connected false c]
  | o => l ++ [o]

/-- Only what was seen since a connection was last accepted with a new session. -/
def sinceNew (obs : List Obs) : List Obs := obs.foldl Obs.since []

/-- What was seen of the present session of a client identifier, on all its connections. -/
def lifeOf (w : World) (i : Str) (evs : List Event) : List Obs := sinceNew (obsOf (w.under i) evs)

/-- The packets sent to the client. -/
def sentIn (obs : List Obs) : List OutPkt :=
  obs.filterMap fun o =>
    match o with
    | .sent p => some p
    | _ => none

/-- The messages taken from the inbox. -/
def takenIn (obs : List Obs) : List NormalMsg :=
  obs.filterMap fun o =>
    match o with
    | .took m => some m
    | _ => none

/-- The packet identifiers of the PUBLISH packets that the client has got on the present connection
and not acknowledged by PUBACK or PUBCOMP: one more event. -/
def Obs.unanswered (l : List Pid) : Obs → List Pid
  | .connected _ _ => []
  | .received (.puback pid) => l.filter (· ≠ pid)
  | .received (.pubcomp pid) => l.filter (· ≠ pid)
  | .sent o => addSent l [o]
  | _ => l

/-- See `Obs.unanswered`. -/
def unansweredIn (obs : List Obs) : List Pid := obs.foldl Obs.unanswered []

/-- The messages passed on because of QoS 2 PUBLISH packets with the identifier, since the last
PUBREL with that identifier; and whether the last packet received is such a PUBLISH. -/
def Obs.qos2 (pid : Pid) (st : Bool × List SendPub) : Obs → Bool × List SendPub
  | .received (.publish p) => (decide (p.qosPid = .level2 pid), st.2)
  | .received (.pubrel q) => (false, if q = pid then [] else st.2)
  | .received _ => (false, st.2)
  | .routed m => (st.1, if st.1 then st.2 ++ [m] else st.2)
  | _ => st

/-- See `Obs.qos2`. -/
def sinceReleased (pid : Pid) (obs : List Obs) : List SendPub :=
  (obs.foldl (Obs.qos2 pid) (false, [])).2

/-- Two lists have the same length and their elements are related one by one. -/
inductive Along {α β : Type} (R : α → β → Prop) : List α → List β → Prop
  | nil : Along R [] []
  | cons {a : α} {b : β} {as : List α} {bs : List β} : R a b → Along R as bs →
      Along R (a :: as) (b :: bs)

/-- Where a PUBLISH sent to a client comes from: a copy of a message and the task that sent it, or
else the retained messages. -/
abbrev Origin := Option (TaskId × NormalMsg)

/-- The packet on an MQTT 3 connection is this message. -/
def ComesFrom : Origin → OutPkt → Prop
  | none, .publish w => w.retain = true
  | some (_, m), .publish w =>
    w.topic = m.topic ∧ w.payload = m.payload ∧ w.retain = m.retain ∧
      w.qosPid.qos = min m.qos m.granted
  | _, _ => False

/-- The copies from one task. -/
def copiesOf (u : TaskId) (src : List Origin) : List NormalMsg :=
  src.filterMap fun o => o.bind fun e => if e.1 = u then some e.2 else none

end Akasa

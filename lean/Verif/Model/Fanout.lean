import Verif.Model.Session
/-!
# Passing a message to the matching subscribers (`send_publish` of v3 and v5)
-/
namespace Akasa

/-- The receivers collected by `send_publish`: client, matching filters, granted QoS
(`v5/packet/publish.rs:349`). -/
abbrev Receivers := List (ClientId × List Str × QoS)

/-- `v5/packet/publish.rs:365-373` and `390-398`: add a filter to the entry of a client. -/
def addReceiver (id : ClientId) (f : Str) (q : QoS) : Receivers → Receivers
  | [] => [(id, [f], q)]
  | e :: es =>
    if e.1 = id then (e.1, e.2.1 ++ [f], max e.2.2 q) :: es else e :: addReceiver id f q es

/-- `v5/packet/publish.rs:355-364`: is the publisher's own subscription skipped (no-local, or no
longer in its own list)? -/
def Session.skipOwn (s : Session) (id : ClientId) (f : Str) : Bool :=
  if id = s.clientId then
    match s.subscribes.get f with
    | some sub => sub.opts.noLocal
    | none => true
  else false

/-- `v5/packet/publish.rs:354-374`: the loop over the plain subscribers of a filter. -/
def addClients (s : Session) (f : Str) : List (ClientId × QoS) → Receivers → Receivers
  | [], r => r
  | (id, q) :: cs, r => addClients s f cs (if s.skipOwn id f then r else addReceiver id f q r)

/-- `v5/packet/publish.rs:386-389`: the filter of a shared subscription as the client knows it
(`SHARED_PREFIX` is `$share/`). -/
def fullFilter (group filter : Str) : Str :=
  ['$', 's', 'h', 'a', 'r', 'e', '/'] ++ group ++ ['/'] ++ filter

/-- `v5/packet/publish.rs:375-399`: the loop over the shared groups of a filter; one member of each
is taken.  `none` = panic (`number % 0` for an empty group). -/
def addGroups (pick : Str → Str → Nat) (f : Str) :
    List (Str × SharedClients) → Receivers → Option Receivers
  | [], r => some r
  | (g, sc) :: gs, r =>
    match sc.getByNumber (pick g f) with
    | none => none
    | some (id, q) => addGroups pick f gs (addReceiver id (fullFilter g f) q r)

/-- `v5/packet/publish.rs:351-400`: the loop over the matching filters.  `none` = panic
(`topic_filter.as_ref().unwrap()` or an empty group). -/
def collectV5 (s : Session) (pick : Str → Str → Nat) :
    List RouteContent → Receivers → Option Receivers
  | [], r => some r
  | c :: cs, r =>
    match c.topicFilter with
    | none => none
    | some f =>
      match addGroups pick f c.groups (addClients s f c.clients r) with
      | none => none
      | some r => collectV5 s pick cs r

/-- `v3/packet/publish.rs:194-202`: the loop over the matching filters; groups are not looked at.
`none` = panic (`unwrap`). -/
def collectV3 : List RouteContent → Option (List (ClientId × Str × QoS))
  | [] => some []
  | c :: cs =>
    match c.topicFilter with
    | none => none
    | some f => (collectV3 cs).map fun r => c.clients.map (fun e => (e.1, f, e.2)) ++ r

/-- `v3/packet/publish.rs:215-231`, `v5/packet/publish.rs:414-430`: queue one copy for a receiver,
or give it up (and correct the count) if the receiver is not registered and has no queue yet. -/
def Session.pushCopy (s : Session) (registered : ClientId → Bool) (id : ClientId)
    (m : NormalMsg) : Session :=
  match s.bcast.get id with
  | some q => { s with bcast := s.bcast.insert id (q ++ [m]) }
  | none =>
    if registered id then { s with bcast := s.bcast.insert id [m] }
    else { s with bcastCnt := s.bcastCnt - 1 }

/-- `v3/packet/publish.rs:204-232`, `v5/packet/publish.rs:402-431`: count and queue all copies. -/
def Session.pushCopies (s : Session) (registered : ClientId → Bool)
    (copies : List (ClientId × NormalMsg)) : Session :=
  copies.foldl (fun s c => s.pushCopy registered c.1 c.2)
    { s with bcastCnt := s.bcastCnt + copies.length }

/-- `v3/packet/publish.rs:164-192`, `v5/packet/publish.rs:314-342`: the retained store. -/
def storeRetained (s : Session) (t : RetainTable) (m : SendPub) (props : Option PubProps) :
    RetainTable :=
  if m.retain then
    t.publish { publisher := s.identifier, qos := m.qos, topic := m.topic, payload := m.payload,
                props, encodeLen := m.encodeLen }
  else t

/-- `v5/packet/publish.rs:309-433` `send_publish`; the number is the count of matching filters.
`none` = panic. -/
def sendPublishV5 (env : Env) (g : Global) (s : Session) (m : SendPub) :
    Option (Session × Global × Nat) :=
  let g := { g with retain := storeRetained s g.retain m (some m.props) }
  let found := g.route.getMatches m.topic
  match collectV5 s env.pick found [] with
  | none => none
  | some rs =>
    let copies := rs.map fun e =>
      (e.1, NormalMsg.publishV5 m.retain m.qos m.topic m.payload e.2.1 e.2.2 m.props m.encodeLen)
    some (s.pushCopies g.registered copies, g, found.length)

/-- `v3/packet/publish.rs:163-233` `send_publish`.  `none` = panic. -/
def sendPublishV3 (g : Global) (s : Session) (m : SendPub) : Option (Session × Global) :=
  let g := { g with retain := storeRetained s g.retain m none }
  match collectV3 (g.route.getMatches m.topic) with
  | none => none
  | some rs =>
    let copies := rs.map fun e =>
      (e.1, NormalMsg.publishV3 m.retain m.qos m.topic m.payload e.2.1 e.2.2 m.encodeLen)
    some (s.pushCopies g.registered copies, g)

end Akasa

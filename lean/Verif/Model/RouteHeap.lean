import Verif.Model.Fanout
/-!
# The routing table as threads share it — `akasa-core/src/protocols/mqtt/route.rs`

`Model/Route.lean` has the content of a node inside the node.  In the code the content is an
`Arc<RwLock<RouteContent>>` (route.rs:18), and `get_matches` hands out clones of that reference
(route.rs:131, 143, 154): a publisher reads the contents only afterwards, one by one
(`v3/packet/publish.rs:196-198`, `v5/packet/publish.rs:354-356`), while other threads may already
have changed the table.  Here the references are explicit: the contents are the cells of a heap,
a node holds the number of its cell, and a lookup gives numbers.

What is atomic.  `subscribe_shared` (lines 79-84) and `unsubscribe_shared` (lines 101-108) hold the
write lock of the outermost map, and `get_matches` (line 42) its read lock, for the whole call, so
these calls do not overlap each other.  The read lock of one content is held while that content is
gone through (`v3/packet/publish.rs:197-201`, `v5/packet/publish.rs:355-401`), and a content is
changed only under its write lock (lines 174, 213), so reading one content is one step as well.
Between two such steps any calls of other threads may take place.

A cell whose `Arc` was dropped everywhere is not reused: numbers stand for identities, not for
addresses.
-/
namespace Akasa

/-- The contents behind the references, `Arc<RwLock<RouteContent>>` of route.rs:18. -/
abbrev Heap := List RouteContent

/-- Reading a content through a reference (`content.read()`). -/
def Heap.read (h : Heap) (r : Nat) : RouteContent := (h[r]?).getD RouteContent.empty

/-- route.rs:17-20 `RouteNode`: the reference to the content, and the children. -/
inductive RefNode where
  | mk (ref : Nat) (nodes : List (Str × RefNode)) : RefNode

/-- route.rs:12-15 `RouteTable`, with the contents. -/
structure RefTable where
  nodes : List (Str × RefNode)
  heap : Heap

namespace RefNode

def ref : RefNode → Nat
  | mk r _ => r

def nodes : RefNode → List (Str × RefNode)
  | mk _ ns => ns

/-- `if !content.is_empty() { filters.push(Arc::clone(&content)) }`, route.rs:130-132, 142-144,
150-154. -/
def push (n : RefNode) (h : Heap) : List Nat :=
  if (h.read n.ref).isEmpty then [] else [n.ref]

/-- route.rs:123-156 `RouteNode::get_matches`: the references pushed, in order. -/
@[semireducible] def getMatches (n : RefNode) (h : Heap) (prevItem : Str)
    (topicItems : Option Str) : List Nat :=
  if prevItem = matchAll then n.push h
  else match topicItems with
    | some s =>
      let item := (splitTopic s).1
      let rest := (splitTopic s).2
      (match FMap.get n.nodes item with
        | some c => getMatches c h item rest
        | none => []) ++
      (match FMap.get n.nodes matchAll with
        | some c => getMatches c h matchAll rest
        | none => []) ++
      (match FMap.get n.nodes matchOne with
        | some c => getMatches c h matchOne rest
        | none => [])
    | none =>
      n.push h ++
      (match FMap.get n.nodes matchAll with
        | some c => c.push h
        | none => [])
termination_by cursorLen topicItems
decreasing_by all_goals (simp only [cursorLen]; exact splitTopic_cursorLen s)

/-- `entry(item).or_insert_with(RouteNode::new)`, route.rs:82-83 and 171-172: the child, or a new
node (lines 111-121) with a new, empty content. -/
def entry (ns : List (Str × RefNode)) (h : Heap) (item : Str) : RefNode × Heap :=
  match FMap.get ns item with
  | some c => (c, h)
  | none => (mk h.length [], h ++ [RouteContent.empty])

/-- route.rs:158-188 `RouteNode::insert`. `none` = panic. -/
@[semireducible] def insert (n : RefNode) (h : Heap) (topicFilter : Str)
    (filterItems : Option Str) (id : ClientId) (qos : QoS) (group : Option Str) :
    Option (RefNode × Heap) :=
  match filterItems with
  | some s =>
    let item := (splitTopic s).1
    let e := entry n.nodes h item
    match insert e.1 e.2 topicFilter (splitTopic s).2 id qos group with
    | none => none
    | some (child, h') => some (mk n.ref (FMap.insert n.nodes item child), h')
  | none =>
    match (h.read n.ref).add topicFilter id qos group with
    | none => none
    | some c => some (n, h.set n.ref c)
termination_by cursorLen filterItems
decreasing_by all_goals (simp only [cursorLen]; exact splitTopic_cursorLen s)

/-- route.rs:190-233 `RouteNode::remove`: the node afterwards, the contents afterwards, and whether
the parent should drop the node.  `none` = panic. -/
@[semireducible] def remove (n : RefNode) (h : Heap) (filterItems : Option Str) (id : ClientId)
    (group : Option Str) : Option (RefNode × Heap × Bool) :=
  match filterItems with
  | some s =>
    let item := (splitTopic s).1
    match FMap.get n.nodes item with
    | none => some (n, h, false)
    | some child =>
      match remove child h (splitTopic s).2 id group with
      | none => none
      | some (_, h', true) =>
        let nodes := FMap.erase n.nodes item
        some (mk n.ref nodes, h', (h'.read n.ref).isEmpty && nodes.isEmpty)
      | some (child', h', false) => some (mk n.ref (FMap.insert n.nodes item child'), h', false)
  | none =>
    match (h.read n.ref).del id group with
    | none => none
    | some c => some (n, h.set n.ref c, c.isEmpty && n.nodes.isEmpty)
termination_by cursorLen filterItems
decreasing_by all_goals (simp only [cursorLen]; exact splitTopic_cursorLen s)

end RefNode

namespace RefTable

/-- `RouteTable::default()`. -/
def empty : RefTable := ⟨[], []⟩

/-- route.rs:38-56 `RouteTable::get_matches`. -/
def getMatches (t : RefTable) (topicName : Str) : List Nat :=
  let item := (splitTopic topicName).1
  let rest := (splitTopic topicName).2
  (match FMap.get t.nodes item with
    | some c => c.getMatches t.heap item rest
    | none => []) ++
  (if topicName.head? = some '$' then []
   else
    (match FMap.get t.nodes matchAll with
      | some c => c.getMatches t.heap matchAll rest
      | none => []) ++
    (match FMap.get t.nodes matchOne with
      | some c => c.getMatches t.heap matchOne rest
      | none => []))

/-- route.rs:70-84 `subscribe_shared`. -/
def subscribeShared (t : RefTable) (topicFilter : Str) (id : ClientId) (qos : QoS)
    (group : Option Str) : Option RefTable :=
  let item := (splitTopic topicFilter).1
  let e := RefNode.entry t.nodes t.heap item
  match e.1.insert e.2 topicFilter (splitTopic topicFilter).2 id qos group with
  | none => none
  | some (child, h) => some ⟨FMap.insert t.nodes item child, h⟩

/-- route.rs:58-69 `subscribe`. -/
def subscribe (t : RefTable) (topicFilter : Str) (id : ClientId) (qos : QoS) : Option RefTable :=
  match sharedInfo topicFilter with
  | some (group, filter) => t.subscribeShared filter id qos (some group)
  | none => t.subscribeShared topicFilter id qos none

/-- route.rs:97-108 `unsubscribe_shared`. -/
def unsubscribeShared (t : RefTable) (topicFilter : Str) (id : ClientId) (group : Option Str) :
    Option RefTable :=
  let item := (splitTopic topicFilter).1
  match FMap.get t.nodes item with
  | none => some t
  | some node =>
    match node.remove t.heap (splitTopic topicFilter).2 id group with
    | none => none
    | some (_, h, true) => some ⟨FMap.erase t.nodes item, h⟩
    | some (node', h, false) => some ⟨FMap.insert t.nodes item node', h⟩

/-- route.rs:86-96 `unsubscribe`. -/
def unsubscribe (t : RefTable) (topicFilter : Str) (id : ClientId) : Option RefTable :=
  match sharedInfo topicFilter with
  | some (group, filter) => t.unsubscribeShared filter id (some group)
  | none => t.unsubscribeShared topicFilter id none

/-- Execute one call. -/
def step (t : RefTable) : RouteOp → Option RefTable
  | .sub f id q => t.subscribe f id q
  | .unsub f id => t.unsubscribe f id

/-- Execute a history of calls, `none` if one of them panics. -/
def run (t : RefTable) : List RouteOp → Option RefTable
  | [] => some t
  | op :: ops => match t.step op with
    | none => none
    | some t' => t'.run ops

/-- The loop over the found contents, `for content in matches { let content = content.read(); … }`
(`v3/packet/publish.rs:196-202`, `v5/packet/publish.rs:354-401`): before each reference is read,
other threads make some calls.  The contents as they were read, and the table afterwards.
`none` = a call of another thread panics. -/
def readAll (t : RefTable) : List Nat → List (List RouteOp) → Option (List RouteContent × RefTable)
  | [], _ => some ([], t)
  | r :: rs, gaps =>
    match t.run (gaps.headD []) with
    | none => none
    | some t1 => (readAll t1 rs gaps.tail).map fun x => (t1.heap.read r :: x.1, x.2)

/-- `v3/packet/publish.rs:194-202`: who gets a message published over MQTT 3, while other threads
call the table.  The inner `none` = the publisher panics. -/
def routeV3 (t : RefTable) (topic : Str) (gaps : List (List RouteOp)) :
    Option (Option (List (ClientId × Str × QoS)) × RefTable) :=
  (t.readAll (t.getMatches topic) gaps).map fun x => (collectV3 x.1, x.2)

/-- `v5/packet/publish.rs:350-401`: who gets a message published over MQTT 5, while other threads
call the table.  The inner `none` = the publisher panics. -/
def routeV5 (t : RefTable) (s : Session) (pick : Str → Str → Nat) (topic : Str)
    (gaps : List (List RouteOp)) : Option (Option Receivers × RefTable) :=
  (t.readAll (t.getMatches topic) gaps).map fun x => (collectV5 s pick x.1 [], x.2)

end RefTable
end Akasa

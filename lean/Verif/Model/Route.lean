import Verif.Model.Topic
/-!
# Routing table — `akasa-core/src/protocols/mqtt/route.rs`

Locks are not modelled: every operation is one atomic step (`RouteTable` operations hold the
write lock of the root map for their whole duration, lines 79-84 and 101-108; `get_matches` holds
the read lock, line 42).  Panics (`items[idx]` / `swap_remove` out of bounds, `last().expect`) are
the value `none`.
-/
namespace Akasa

/-- route.rs:30-35 `SharedClients`.  `hash_builder` is omitted: `get_by_hash` is modelled by
`getByNumber` applied to an arbitrary number. -/
structure SharedClients where
  items : List (ClientId × QoS)
  index : FMap ClientId Nat
deriving DecidableEq, Repr

/-- route.rs:22-28 `RouteContent`. -/
structure RouteContent where
  topicFilter : Option Str
  clients : FMap ClientId QoS
  groups : FMap Str SharedClients
deriving DecidableEq, Repr

/-- route.rs:17-20 `RouteNode` (content + children by level name). -/
inductive RouteNode where
  | mk (content : RouteContent) (nodes : List (Str × RouteNode)) : RouteNode

/-- route.rs:12-15 `RouteTable`. -/
structure RouteTable where
  nodes : List (Str × RouteNode)

namespace SharedClients

/-- route.rs:30 `#[derive(Default)]`. -/
def empty : SharedClients := ⟨[], []⟩

/-- route.rs:255-257 `is_empty`. -/
def isEmpty (s : SharedClients) : Bool := s.items.isEmpty

/-- route.rs:248-253 `get_by_number` (and 243-246 `get_by_hash`, whose number is a hash).
`number % 0` panics in Rust, hence `none` for the empty group. -/
def getByNumber (s : SharedClients) (number : Nat) : Option (ClientId × QoS) :=
  s.items[number % s.items.length]?

/-- route.rs:259-266 `insert`. `none` = index out of bounds panic (line 261). -/
def insert (s : SharedClients) (item : ClientId × QoS) : Option SharedClients :=
  match s.index.get item.1 with
  | some idx =>
    match s.items[idx]? with
    | some old => some { s with items := s.items.set idx (old.1, item.2) }
    | none => none
  | none =>
    some { index := s.index.insert item.1 s.items.length, items := s.items ++ [item] }

/-- `Vec::swap_remove(idx)`: the last element takes the place of the removed one; panics
(`none`) when `idx` is out of bounds. -/
def swapRemove (l : List (ClientId × QoS)) (idx : Nat) : Option (List (ClientId × QoS)) :=
  if h : idx < l.length then
    some ((l.set idx (l.getLast (by intro e; simp [e] at h))).dropLast)
  else none

/-- route.rs:268-281 `remove` (capacity shrinking omitted). `none` = panic. -/
def remove (s : SharedClients) (key : ClientId) : Option SharedClients :=
  match s.index.get key with
  | none => some s
  | some idx =>
    let index := s.index.erase key
    if s.items.length = 1 then some ⟨[], index⟩
    else match s.items.getLast? with
      | none => none
      | some last =>
        match swapRemove s.items idx with
        | none => none
        | some items => some ⟨items, index.insert last.1 idx⟩

end SharedClients

namespace RouteContent

/-- Content of a fresh node, route.rs:114-118. -/
def empty : RouteContent := ⟨none, [], []⟩

/-- route.rs:236-240 `is_empty`. -/
def isEmpty (c : RouteContent) : Bool := c.clients.isEmpty && c.groups.isEmpty

/-- The leaf case of `RouteNode::insert`, route.rs:173-187. -/
def add (c : RouteContent) (topicFilter : Str) (id : ClientId) (qos : QoS) (group : Option Str) :
    Option RouteContent :=
  let tf := match c.topicFilter with
    | none => some topicFilter
    | some f => some f
  match group with
  | some name =>
    match ((c.groups.get name).getD SharedClients.empty).insert (id, qos) with
    | none => none
    | some sc => some { c with topicFilter := tf, groups := c.groups.insert name sc }
  | none => some { c with topicFilter := tf, clients := c.clients.insert id qos }

/-- The leaf case of `RouteNode::remove` on the content, route.rs:213-226. -/
def del (c : RouteContent) (id : ClientId) (group : Option Str) : Option RouteContent :=
  let c'? := match group with
    | some name =>
      match c.groups.get name with
      | none => some c
      | some sc =>
        match sc.remove id with
        | none => none
        | some sc' =>
          if sc'.isEmpty then some { c with groups := c.groups.erase name }
          else some { c with groups := c.groups.insert name sc' }
    | none => some { c with clients := c.clients.erase id }
  c'?.map fun c' => if c'.isEmpty then { c' with topicFilter := none } else c'

end RouteContent

namespace RouteNode

def content : RouteNode → RouteContent
  | mk c _ => c

def nodes : RouteNode → List (Str × RouteNode)
  | mk _ ns => ns

/-- route.rs:111-121 `RouteNode::new`. -/
def new : RouteNode := mk RouteContent.empty []

/-- `if !content.is_empty() { filters.push(content) }`, route.rs:130-132, 142-144, 150-154. -/
def pushContent (n : RouteNode) : List RouteContent :=
  if n.content.isEmpty then [] else [n.content]

/-- route.rs:123-156 `RouteNode::get_matches`: the list of pushed contents, in order. -/
@[semireducible] def getMatches (n : RouteNode) (prevItem : Str) (topicItems : Option Str) : List RouteContent :=
  if prevItem = matchAll then n.pushContent
  else match topicItems with
    | some s =>
      let item := (splitTopic s).1
      let rest := (splitTopic s).2
      (match FMap.get n.nodes item with
        | some c => getMatches c item rest
        | none => []) ++
      (match FMap.get n.nodes matchAll with
        | some c => getMatches c matchAll rest
        | none => []) ++
      (match FMap.get n.nodes matchOne with
        | some c => getMatches c matchOne rest
        | none => [])
    | none =>
      n.pushContent ++
      (match FMap.get n.nodes matchAll with
        | some c => c.pushContent
        | none => [])
termination_by cursorLen topicItems
decreasing_by all_goals (simp only [cursorLen]; exact splitTopic_cursorLen s)

/-- route.rs:158-188 `RouteNode::insert`. `none` = panic. -/
@[semireducible] def insert (n : RouteNode) (topicFilter : Str) (filterItems : Option Str) (id : ClientId)
    (qos : QoS) (group : Option Str) : Option RouteNode :=
  match filterItems with
  | some s =>
    let item := (splitTopic s).1
    match insert ((FMap.get n.nodes item).getD new) topicFilter (splitTopic s).2 id qos group with
    | none => none
    | some child => some (mk n.content (FMap.insert n.nodes item child))
  | none =>
    match n.content.add topicFilter id qos group with
    | none => none
    | some c => some (mk c n.nodes)
termination_by cursorLen filterItems
decreasing_by all_goals (simp only [cursorLen]; exact splitTopic_cursorLen s)

/-- route.rs:190-233 `RouteNode::remove`: the new node and whether the parent should drop it.
`none` = panic. -/
@[semireducible] def remove (n : RouteNode) (filterItems : Option Str) (id : ClientId) (group : Option Str) :
    Option (RouteNode × Bool) :=
  match filterItems with
  | some s =>
    let item := (splitTopic s).1
    match FMap.get n.nodes item with
    | none => some (n, false)
    | some child =>
      match remove child (splitTopic s).2 id group with
      | none => none
      | some (child', true) =>
        let nodes := FMap.erase n.nodes item
        let _ := child'
        some (mk n.content nodes, n.content.isEmpty && nodes.isEmpty)
      | some (child', false) => some (mk n.content (FMap.insert n.nodes item child'), false)
  | none =>
    match n.content.del id group with
    | none => none
    | some c => some (mk c n.nodes, c.isEmpty && n.nodes.isEmpty)
termination_by cursorLen filterItems
decreasing_by all_goals (simp only [cursorLen]; exact splitTopic_cursorLen s)

end RouteNode

namespace RouteTable

/-- `RouteTable::default()`. -/
def empty : RouteTable := ⟨[]⟩

/-- route.rs:38-56 `RouteTable::get_matches`. -/
def getMatches (t : RouteTable) (topicName : Str) : List RouteContent :=
  let item := (splitTopic topicName).1
  let rest := (splitTopic topicName).2
  (match FMap.get t.nodes item with
    | some c => c.getMatches item rest
    | none => []) ++
  (if topicName.head? = some '$' then []
   else
    (match FMap.get t.nodes matchAll with
      | some c => c.getMatches matchAll rest
      | none => []) ++
    (match FMap.get t.nodes matchOne with
      | some c => c.getMatches matchOne rest
      | none => []))

/-- route.rs:70-84 `subscribe_shared`. -/
def subscribeShared (t : RouteTable) (topicFilter : Str) (id : ClientId) (qos : QoS)
    (group : Option Str) : Option RouteTable :=
  let item := (splitTopic topicFilter).1
  match ((FMap.get t.nodes item).getD RouteNode.new).insert topicFilter (splitTopic topicFilter).2
      id qos group with
  | none => none
  | some child => some ⟨FMap.insert t.nodes item child⟩

/-- route.rs:58-69 `subscribe` (`shared_info` is external, see `sharedInfo`; the
`TopicFilter::try_from(..).expect("shared filter")` of line 61 is assumed to succeed on the filter
part of a valid shared filter). -/
def subscribe (t : RouteTable) (topicFilter : Str) (id : ClientId) (qos : QoS) :
    Option RouteTable :=
  match sharedInfo topicFilter with
  | some (group, filter) => t.subscribeShared filter id qos (some group)
  | none => t.subscribeShared topicFilter id qos none

/-- route.rs:97-108 `unsubscribe_shared`. -/
def unsubscribeShared (t : RouteTable) (topicFilter : Str) (id : ClientId) (group : Option Str) :
    Option RouteTable :=
  let item := (splitTopic topicFilter).1
  match FMap.get t.nodes item with
  | none => some t
  | some node =>
    match node.remove (splitTopic topicFilter).2 id group with
    | none => none
    | some (_, true) => some ⟨FMap.erase t.nodes item⟩
    | some (node', false) => some ⟨FMap.insert t.nodes item node'⟩

/-- route.rs:86-96 `unsubscribe`. -/
def unsubscribe (t : RouteTable) (topicFilter : Str) (id : ClientId) : Option RouteTable :=
  match sharedInfo topicFilter with
  | some (group, filter) => t.unsubscribeShared filter id (some group)
  | none => t.unsubscribeShared topicFilter id none

end RouteTable

/-- One call on the routing table. -/
inductive RouteOp where
  | sub (filter : Str) (id : ClientId) (qos : QoS)
  | unsub (filter : Str) (id : ClientId)

/-- Execute one call. -/
def RouteTable.step (t : RouteTable) : RouteOp → Option RouteTable
  | .sub f id q => t.subscribe f id q
  | .unsub f id => t.unsubscribe f id

/-- Execute a history of calls, `none` if one of them panics. -/
def RouteTable.run (t : RouteTable) : List RouteOp → Option RouteTable
  | [] => some t
  | op :: ops => match t.step op with
    | none => none
    | some t' => t'.run ops

end Akasa

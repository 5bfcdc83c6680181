import Verif.Model.Types
/-!
# Retained messages — `akasa-core/src/protocols/mqtt/retain.rs`

Locks are not modelled: every operation is one atomic step.  In the code each level is locked
separately, top-down, and the lock of a level is held while its children are visited
(`let nodes = self.nodes.read()`, lines 74, 86, 102, 122, 144), so an operation never overtakes
another on the same path.  The iteration order of `nodes.values()` is the order of the list here;
no theorem depends on it.  The returned old content (only logged by the callers) is left out.
-/
namespace Akasa

/-- retain.rs:24-33 `RetainContent`. -/
structure RetainContent where
  publisher : Str
  qos : QoS
  topic : Str
  payload : Bytes
  props : Option PubProps := none
  encodeLen : Nat := 0
deriving DecidableEq, Repr

/-- retain.rs:18-22 `RetainNode`. -/
inductive RetainNode where
  | mk (content : Option RetainContent) (nodes : List (Str × RetainNode)) : RetainNode

namespace RetainNode

def content : RetainNode → Option RetainContent
  | mk c _ => c

def nodes : RetainNode → List (Str × RetainNode)
  | mk _ ns => ns

/-- `RetainNode::default()`. -/
def new : RetainNode := mk none []

/-- retain.rs:60-62 `is_empty`. -/
def isEmpty (n : RetainNode) : Bool := n.content.isNone && n.nodes.isEmpty

/-- `if let Some(content) = .. && !(content.topic_name.starts_with('$') && wildcard_first)
{ retains.push(content) }`, retain.rs:79-83, 93-97, 106-110. -/
def push (wildcardFirst : Bool) (c : Option RetainContent) : List RetainContent :=
  match c with
  | some c => if c.topic.head? = some '$' ∧ wildcardFirst = true then [] else [c]
  | none => []

mutual
/-- retain.rs:72-84: the `MATCH_ALL_STR` case of `get_matches`, which visits the whole subtree,
children first. -/
def getAll (wildcardFirst : Bool) : RetainNode → List RetainContent
  | mk c ns => getAllNodes wildcardFirst ns ++ push wildcardFirst c
/-- The loop of retain.rs:75-77. -/
def getAllNodes (wildcardFirst : Bool) : List (Str × RetainNode) → List RetainContent
  | [] => []
  | x :: xs => getAllNode wildcardFirst x ++ getAllNodes wildcardFirst xs
/-- One iteration of that loop, retain.rs:76. -/
def getAllNode (wildcardFirst : Bool) : Str × RetainNode → List RetainContent
  | (_, n) => getAll wildcardFirst n
end

/-- Flatten the results of the visited nodes; a panic in one is a panic of the whole. -/
def concatOpt : List (Option (List RetainContent)) → Option (List RetainContent)
  | [] => some []
  | none :: _ => none
  | some l :: rest => match concatOpt rest with
    | none => none
    | some r => some (l ++ r)

/-- retain.rs:64-114 `RetainNode::get_matches`; `none` is the failing
`assert!(filter_items.is_none(), "invalid topic filter")` of line 73. -/
@[semireducible] def getMatches (n : RetainNode) (prevItem : Str) (filterItems : Option Str)
    (wildcardFirst : Bool) : Option (List RetainContent) :=
  if prevItem = matchAll then
    match filterItems with
    | some _ => none
    | none => some (n.getAll wildcardFirst)
  else if prevItem = matchOne then
    match filterItems with
    | some s => concatOpt (n.nodes.map fun x =>
        getMatches x.2 (splitTopic s).1 (splitTopic s).2 wildcardFirst)
    | none => some (n.nodes.flatMap fun x => push wildcardFirst x.2.content)
  else
    match FMap.get n.nodes prevItem with
    | none => some []
    | some node =>
      match filterItems with
      | some s => getMatches node (splitTopic s).1 (splitTopic s).2 wildcardFirst
      | none => some (push wildcardFirst node.content)
termination_by cursorLen filterItems
decreasing_by all_goals (simp only [cursorLen]; exact splitTopic_cursorLen s)

/-- retain.rs:116-139 `RetainNode::insert` (the new node for the existing and the missing child
differ only in where they start, lines 123-128 and 130-136). -/
@[semireducible] def insert (n : RetainNode) (prevItem : Str) (topicItems : Option Str)
    (c : RetainContent) : RetainNode :=
  let node := (FMap.get n.nodes prevItem).getD new
  let node' := match topicItems with
    | some s => insert node (splitTopic s).1 (splitTopic s).2 c
    | none => mk (some c) node.nodes
  mk n.content (FMap.insert n.nodes prevItem node')
termination_by cursorLen topicItems
decreasing_by all_goals (simp only [cursorLen]; exact splitTopic_cursorLen s)

/-- retain.rs:151-155: the changed child is put back, or dropped if it has become empty. -/
def putBack (n : RetainNode) (item : Str) (node : RetainNode) : RetainNode :=
  if node.isEmpty then mk n.content (FMap.erase n.nodes item)
  else mk n.content (FMap.insert n.nodes item node)

/-- retain.rs:141-157 `RetainNode::remove`. -/
@[semireducible] def remove (n : RetainNode) (prevItem : Str) (topicItems : Option Str) :
    RetainNode :=
  match FMap.get n.nodes prevItem with
  | none => n
  | some node =>
    n.putBack prevItem (match topicItems with
      | some s => remove node (splitTopic s).1 (splitTopic s).2
      | none => mk none node.nodes)
termination_by cursorLen topicItems
decreasing_by all_goals (simp only [cursorLen]; exact splitTopic_cursorLen s)

end RetainNode

/-- retain.rs:13-16 `RetainTable`. -/
structure RetainTable where
  inner : RetainNode

namespace RetainTable

/-- `RetainTable::default()`. -/
def empty : RetainTable := ⟨RetainNode.new⟩

/-- retain.rs:36-45 `RetainTable::get_matches`; `none` = panic. -/
def getMatches (t : RetainTable) (filter : Str) : Option (List RetainContent) :=
  let wildcardFirst := decide (filter.head? = some '+' ∨ filter.head? = some '#')
  t.inner.getMatches (splitTopic filter).1 (splitTopic filter).2 wildcardFirst

/-- retain.rs:47-51 `RetainTable::insert`. -/
def insert (t : RetainTable) (c : RetainContent) : RetainTable :=
  ⟨t.inner.insert (splitTopic c.topic).1 (splitTopic c.topic).2 c⟩

/-- retain.rs:53-56 `RetainTable::remove`. -/
def remove (t : RetainTable) (topic : Str) : RetainTable :=
  ⟨t.inner.remove (splitTopic topic).1 (splitTopic topic).2⟩

/-- A retained publish reaching the store: v5/packet/publish.rs:314-329 and
v3/packet/publish.rs:164-179 (the `retain` branch of `send_publish`): an empty payload removes, any
other payload replaces. -/
def publish (t : RetainTable) (c : RetainContent) : RetainTable :=
  if c.payload.isEmpty then t.remove c.topic else t.insert c

/-- A history of retained publishes. -/
def run (t : RetainTable) (h : List RetainContent) : RetainTable := h.foldl publish t

end RetainTable
end Akasa

import Verif.Model.Pending
import Verif.Model.FMap
/-!
# Outgoing topic aliases (`protocols/mqtt/v5/packet/common.rs:109-149`)
-/
namespace Akasa

/-- The fields `server_topic_aliases_by_topic`, `server_topic_aliases_by_alias` and
`server_alias_tick` of `v5/session.rs:68-70`. -/
structure AliasTable where
  byTopic : FMap Str Nat := []
  byAlias : FMap Nat (Str × Nat) := []
  tick : Nat := 0
deriving DecidableEq, Repr

namespace AliasTable

/-- `iter().min_by_key(|(_, (_, t))| *t)` (`v5/packet/common.rs:137-140`): the first entry with the
least tick. -/
def oldest : FMap Nat (Str × Nat) → Option (Nat × (Str × Nat))
  | [] => none
  | e :: es =>
    match oldest es with
    | none => some e
    | some m => if e.2.2 ≤ m.2.2 then some e else some m

/-- `v5/packet/common.rs:130-140`: the alias for a topic that has none. -/
def choose (t : AliasTable) (max : Nat) : Nat :=
  if t.byAlias.length < max then
    ((List.range' 1 max).find? fun a => !t.byAlias.contains a).getD 1
  else
    ((oldest t.byAlias).map (·.1)).getD 1

/-- `v5/packet/common.rs:142-144`: the topics after the alias has been taken from its previous
topic. -/
def release (t : AliasTable) (alias : Nat) : FMap Str Nat :=
  match t.byAlias.get alias with
  | some previous => t.byTopic.erase previous.1
  | none => t.byTopic

/-- `v5/packet/common.rs:109-149` `get_or_assign_server_topic_alias`: the new table, the alias (0 if
aliases are not used), and whether the mapping is new. -/
def assign (t : AliasTable) (max : Nat) (topic : Str) : AliasTable × Nat × Bool :=
  if max = 0 then (t, 0, false)
  else
    let tick := t.tick + 1
    match t.byTopic.get topic with
    | some alias =>
      match t.byAlias.get alias with
      | some entry =>
        ({ t with tick, byAlias := t.byAlias.insert alias (entry.1, tick) }, alias, false)
      | none => ({ t with tick }, alias, false)
    | none =>
      let alias := t.choose max
      ({ byTopic := (t.release alias).insert topic alias
         byAlias := (t.byAlias.erase alias).insert alias (topic, tick)
         tick }, alias, true)

/-- The use of an alias for an outgoing PUBLISH: `v5/packet/publish.rs:483-497` and
`v5/packet/common.rs:194-208`.  Result: table, topic on the wire, `properties.topic_alias`. -/
def apply (t : AliasTable) (max : Nat) (topic : Str) (alias? : Option Nat) :
    AliasTable × Str × Option Nat :=
  if max > 0 then
    let r := t.assign max topic
    if r.2.1 > 0 then (r.1, if r.2.2 then topic else [], some r.2.1)
    else (r.1, topic, alias?)
  else (t, topic, alias?)

end AliasTable

/-- `v5/packet/common.rs:186-219`, `222-228`: the wire form of a packet produced by
`handle_pendings` (MQTT 5), as a PUBLISH or (`none`) the PUBREL of the given identifier. -/
def toWireV5 (max : Nat) (t : AliasTable) : Sent PubPacket → AliasTable × (Publish ⊕ Pid)
  | .publish pid p dup expiry =>
    let props := { p.props with messageExpiry := expiry }
    let r := if !dup then t.apply max p.topic props.topicAlias else (t, p.topic, props.topicAlias)
    (r.1, .inl {
      dup
      qosPid := match p.qos with
        | 0 => .level0
        | 1 => .level1 pid
        | _ => .level2 pid
      retain := p.retain
      topic := r.2.1
      payload := p.payload
      props := { props with topicAlias := r.2.2 } })
  | .pubrel pid => (t, .inr pid)

/-- `v3/packet/common.rs:36-57`: the wire form of a packet produced by `handle_pendings`
(MQTT 3). -/
def toWireV3 : Sent PubPacket → Publish ⊕ Pid
  | .publish pid p dup _ => .inl {
      dup
      qosPid := match p.qos with
        | 0 => .level0
        | 1 => .level1 pid
        | _ => .level2 pid
      retain := p.retain
      topic := p.topic
      payload := p.payload }
  | .pubrel pid => .inr pid

/-- `toWireV5` for the packets of one `handle_pendings` call, in order. -/
def toWireAllV5 (max : Nat) : AliasTable → List (Sent PubPacket) →
    AliasTable × List (Publish ⊕ Pid)
  | t, [] => (t, [])
  | t, x :: xs =>
    let r := toWireV5 max t x
    let rest := toWireAllV5 max r.1 xs
    (rest.1, r.2 :: rest.2)

end Akasa

import Verif.Model.Route
/-!
# Registry of clients — `akasa-core/src/state.rs`

The three maps and the counter of `GlobalState` (lines 19-40).  `add_client`, `remove_client` and
`offline_client` hold the mutex `next_client_id` while they touch them (lines 103, 118, 150), hence
each is one step here.  The channels are in `Model/World.lean`; here a client only has or has not a
sender.  Panics (`assert_ne!`, `unwrap`) are the value `none`.
-/
namespace Akasa

/-- `state.rs:19-40` `GlobalState` without configuration, passwords and the two tables. -/
structure Registry where
  /-- `next_client_id` -/
  nextId : ClientId := 0
  /-- `online_clients` -/
  online : Nat := 0
  /-- `client_id_map`: identifier and whether marked online -/
  idMap : FMap ClientId (Str × Bool) := []
  /-- `client_identifier_map` -/
  identMap : FMap Str ClientId := []
  /-- `clients`: who has senders -/
  clients : FMap ClientId Unit := []
deriving DecidableEq, Repr

/-- The two outcomes of the locked part of `add_client`: a new id, or the id under which the
identifier is registered (whose owner is then asked for the session). -/
inductive Added where
  | new (id : ClientId)
  | present (id : ClientId)
deriving DecidableEq, Repr

namespace Registry

/-- `state.rs:158-160, 120-122`: set the mark of a registered client. -/
def mark (r : Registry) (id : ClientId) (on : Bool) : FMap ClientId (Str × Bool) :=
  match r.idMap.get id with
  | some e => r.idMap.insert id (e.1, on)
  | none => r.idMap

/-- `state.rs:144-184`: the locked part of `add_client`.  `none` = the `unwrap` of line 161 fails. -/
def add (r : Registry) (name : Str) : Option (Registry × Added) :=
  match r.identMap.get name with
  | some old =>
    if r.clients.contains old then
      some ({ r with online := r.online + 1, idMap := r.mark old true }, .present old)
    else none
  | none =>
    some ({ nextId := r.nextId + 1
            online := r.online + 1
            idMap := r.idMap.insert r.nextId (name, true)
            identMap := r.identMap.insert name r.nextId
            clients := r.clients.insert r.nextId () }, .new r.nextId)

/-- `state.rs:97-110`: `remove_client` without the routing table.  `none` = the assertion of line
107 fails. -/
def remove (r : Registry) (id : ClientId) : Option Registry :=
  match r.idMap.get id with
  | some (name, on) =>
    if on && r.online == 0 then none
    else some { r with online := if on then r.online - 1 else r.online
                       idMap := r.idMap.erase id
                       identMap := r.identMap.erase name
                       clients := r.clients.erase id }
  | none => some { r with clients := r.clients.erase id }

/-- `state.rs:117-123` `offline_client`.  `none` = the assertion fails. -/
def offline (r : Registry) (id : ClientId) : Option Registry :=
  if r.online = 0 then none
  else some { r with online := r.online - 1, idMap := r.mark id false }

end Registry

/-- `state.rs:97-114` `remove_client`; `filters` are the subscriptions of the session.  `none` =
panic. -/
def removeClient (r : Registry) (t : RouteTable) (id : ClientId) (filters : List Str) :
    Option (Registry × RouteTable) :=
  match r.remove id with
  | none => none
  | some r => (t.run (filters.map fun f => .unsub f id)).map fun t => (r, t)

/-- A call to the registry. -/
inductive RegCall where
  | add (name : Str)
  | remove (id : ClientId)
  | offline (id : ClientId)
deriving DecidableEq, Repr

/-- One call: the registry afterwards and what `add_client` found. -/
def Registry.call (r : Registry) : RegCall → Option (Registry × List Added)
  | .add name => (r.add name).map fun x => (x.1, [x.2])
  | .remove id => (r.remove id).map fun r => (r, [])
  | .offline id => (r.offline id).map fun r => (r, [])

/-- A sequence of calls, with all outcomes of `add_client` in order; `none` = panic. -/
def Registry.run : Registry → List RegCall → Option (Registry × List Added)
  | r, [] => some (r, [])
  | r, c :: cs =>
    match r.call c with
    | none => none
    | some (r, out) => (Registry.run r cs).map fun x => (x.1, out ++ x.2)

end Akasa

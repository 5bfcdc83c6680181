import Verif.Model.Route
import Verif.Model.Retain
/-!
# The calls of several tasks on the two shared tables

Each call on the routing table and on the table of retained messages is one atomic step: it holds
the lock of the outermost map from beginning to end (route.rs:42, 79-84, 101-108; retain.rs:71-111,
118-138, 144-160, where `self` is the root).  The calls of different tasks interleave; the calls of
one task come in the order in which its code makes them.
-/
namespace Akasa

/-- One call on the shared tables. -/
inductive TableCall where
  /-- `route_table.subscribe` / `unsubscribe` -/
  | route (op : RouteOp)
  /-- `retain_table.insert`, or `remove` for an empty payload -/
  | store (c : RetainContent)
  /-- `route_table.get_matches` -/
  | findSubscribers (topic : Str)
  /-- `retain_table.get_matches` -/
  | findRetained (filter : Str)

/-- `send_publish` of a message with the retain flag (`v3/packet/publish.rs:164-194`,
`v5/packet/publish.rs:314-347`): first the store, then the lookup of subscribers. -/
def publishCalls (c : RetainContent) : List TableCall := [.store c, .findSubscribers c.topic]

/-- One filter of a SUBSCRIBE that is granted and for which retained messages are sent
(`v3/packet/subscribe.rs:39-44`, `v5/packet/subscribe.rs:73-86`): first the routing table, then the
lookup of retained messages. -/
def subscribeCalls (f : Str) (id : ClientId) (q : QoS) : List TableCall :=
  [.route (.sub f id q), .findRetained f]

/-- The two tables, route.rs:12-15 and retain.rs:13-16. -/
structure Tables where
  route : RouteTable
  retain : RetainTable

namespace Tables

/-- Empty tables. -/
def empty : Tables := ⟨RouteTable.empty, RetainTable.empty⟩

/-- One call; the lookups change nothing.  `none` = panic. -/
def step (t : Tables) : TableCall → Option Tables
  | .route op => (t.route.step op).map fun r => { t with route := r }
  | .store c => some { t with retain := t.retain.publish c }
  | .findSubscribers _ => some t
  | .findRetained _ => some t

/-- Many calls. -/
def run (t : Tables) : List TableCall → Option Tables
  | [] => some t
  | c :: cs => match t.step c with
    | none => none
    | some t' => t'.run cs

end Tables
end Akasa

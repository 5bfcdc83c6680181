import Verif.Spec.Session
import Verif.Spec.Route
/-!
# Vocabulary for who gets a copy of a published message
-/
namespace Akasa

/-- The copies waiting in a session to be passed to the session of another (or the same) client. -/
def Session.queued (s : Session) (id : ClientId) : List NormalMsg := (s.bcast.get id).getD []

/-- A copy for the client can be queued: the client is registered with the broker, or was when an
earlier copy still waiting was queued. -/
def Reachable (registered : ClientId → Bool) (s : Session) (id : ClientId) : Prop :=
  registered id = true ∨ ∃ q, s.bcast.get id = some q

/-- A choice of one member for every shared group `$share/g/f` that has members (with the QoS
granted to that member). -/
def SelectsMembers (ops : List RouteOp) (sel : Str → Str → Option (ClientId × QoS)) : Prop :=
  ∀ g f, '/' ∉ g →
    (∀ id q, sel g f = some (id, q) → subscribed ops (shareFilter g f) id = some q) ∧
    (sel g f = none → ∀ id, subscribed ops (shareFilter g f) id = none)

/-- The client subscribed to the plain filter `F` with granted QoS `q`, and `F` matches. -/
def PlainMatch (ops : List RouteOp) (topic : Str) (id : ClientId) (F : Str) (q : QoS) : Prop :=
  IsPlain F ∧ Matches F topic ∧ subscribed ops F id = some q

/-- For the publishing session itself a subscription counts only if it is in its own list without
the no-local option. -/
def NotOwn (publisher : Session) (id : ClientId) (F : Str) : Prop :=
  id = publisher.clientId → ∃ d, publisher.subscribes.get F = some d ∧ d.opts.noLocal = false

/-- A message published over MQTT 5 by the session is due to the client because of its filter
`F`. -/
def DueV5 (ops : List RouteOp) (sel : Str → Str → Option (ClientId × QoS)) (publisher : Session)
    (topic : Str) (id : ClientId) (F : Str) (q : QoS) : Prop :=
  (PlainMatch ops topic id F q ∧ NotOwn publisher id F) ∨
  ∃ g f, '/' ∉ g ∧ F = shareFilter g f ∧ Matches f topic ∧ sel g f = some (id, q)

/-- The copy of a message published over MQTT 5. -/
def SendPub.copyV5 (m : SendPub) (filters : List Str) (q : QoS) : NormalMsg :=
  .publishV5 m.retain m.qos m.topic m.payload filters q m.props m.encodeLen

/-- The copy of a message published over MQTT 3. -/
def SendPub.copyV3 (m : SendPub) (e : Str × QoS) : NormalMsg :=
  .publishV3 m.retain m.qos m.topic m.payload e.1 e.2 m.encodeLen

/-- A copy of the message because of the filter, with at least this QoS. -/
def IsCopyFor (m : SendPub) (F : Str) (q : QoS) (c : NormalMsg) : Prop :=
  c = m.copyV3 (F, q) ∨ ∃ Fs q', c = m.copyV5 Fs q' ∧ F ∈ Fs ∧ q ≤ q'

end Akasa

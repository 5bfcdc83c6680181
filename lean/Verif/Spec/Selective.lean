import Verif.Spec.OrderV5
import Verif.Spec.Subscribe
/-!
# Vocabulary for which messages a client has asked for
-/
namespace Akasa

/-- The filter of a SUBSCRIBE covers the topic: the topic matches it, or, for a shared
subscription, the filter behind the name of the group. -/
def Covers (F topic : Str) : Prop :=
  (IsPlain F ∧ Matches F topic) ∨ ∃ g f, '/' ∉ g ∧ F = shareFilter g f ∧ Matches f topic

/-- One more thing seen of a session: the filters that the client has asked for and not given up,
and the filters that it is about to give up.  It asks for filters by a SUBSCRIBE, and has given
filters up when the UNSUBSCRIBE is answered by UNSUBACK. -/
def Obs.asked (st : List Str × List Str) : Obs → List Str × List Str
  | .received (.subscribe _ topics _) => (st.1 ++ topics.map (·.1), [])
  | .received (.unsubscribe _ fs) => (st.1, fs)
  | .received _ => (st.1, [])
  | .sent (.unsuback _ _) => (st.1.filter (· ∉ st.2), [])
  | _ => st

/-- The filters that the client has asked for and not given up. -/
def askedFor (obs : List Obs) : List Str := (obs.foldl Obs.asked ([], [])).1

/-- This is not a packet from the client or a message from another one, nor a new connection. -/
def Obs.byBroker : Obs → Prop
  | .routed _ => True
  | .sent _ => True
  | _ => False

/-- The PUBLISH is sent because of this: a message was taken from the inbox, and the client had asked
for it (`asked`); or the client subscribed to a filter, and the message was retained and matches. -/
def SentFor (evs : List Event) (asked : List Str) (p : Publish) : Obs → Prop
  | .took m => p.about m.topic ∧ p.payload = m.payload ∧
      ∃ F ∈ m.filters, F ∈ asked ∧ Covers F m.topic
  | .received (.subscribe _ topics _) => ∃ F ∈ topics.map (·.1), ∃ e ∈ published evs,
      e.2.retain = true ∧ p.about e.2.topic ∧ p.payload = e.2.payload ∧
      (ValidFilter F → Covers F e.2.topic)
  | _ => False

end Akasa

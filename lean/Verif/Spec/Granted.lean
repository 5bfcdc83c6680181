import Verif.Spec.Life
/-!
# What a client knows of its subscriptions

Read off the packets that went between the client and the broker, nothing else.
-/
namespace Akasa

/-- What a client holds: for a filter the QoS it was granted and the options it asked for. -/
abbrev Held := Str → Option (QoS × SubOpts)

/-- Held subscriptions, and the filters of the SUBSCRIBE that is not answered yet. -/
structure Grants where
  held : Held := fun _ => none
  asked : List (Str × SubOpts) := []

/-- The client counts on these filters no more. -/
def Held.forget (h : Held) (fs : List Str) : Held := fun F => if F ∈ fs then none else h F

/-- A SUBACK: its codes answer the filters of the SUBSCRIBE one by one. -/
def Held.answer : Held → List (Str × SubOpts) → List Reason → Held
  | h, (F, o) :: ts, .grantedQos q :: cs =>
    Held.answer (fun F' => if F' = F then some (q, o) else h F') ts cs
  | h, _ :: ts, _ :: cs => Held.answer h ts cs
  | h, _, _ => h

/-- One more event.  From the moment the client sends a SUBSCRIBE or an UNSUBSCRIBE for a filter it
counts on the filter no more, until the SUBACK grants it. -/
def Obs.grants (st : Grants) : Obs → Grants
  | .received (.subscribe _ topics _) => { held := st.held.forget (topics.map (·.1)), asked := topics }
  | .received (.unsubscribe _ fs) => { held := st.held.forget fs, asked := [] }
  | .received _ => { st with asked := [] }
  | .sent (.suback _ codes) => { held := st.held.answer st.asked codes, asked := [] }
  | _ => st

/-- The subscriptions a client holds after what was seen of its session: the last thing said about
the filter was a SUBACK that granted this QoS to a SUBSCRIBE with these options. -/
def grantedIn (obs : List Obs) : Held := (obs.foldl Obs.grants {}).held

/-- In these events no connection with the client identifier was accepted with a new session (no
CONNACK without the session present flag). -/
def World.keepsSession (w : World) (i : Str) (evs : List Event) : Prop :=
  ∀ t, Event.accepted t false ∈ evs → ∀ req, w.request t = some req → req.identifier ≠ i

end Akasa

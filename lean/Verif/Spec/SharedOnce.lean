import Verif.Spec.World
import Verif.Spec.Fanout
/-!
# Vocabulary for C105: messages for shared subscriptions
-/
namespace Akasa

/-- The copy says that it is sent because of the filter. -/
def NormalMsg.names (F : Str) : NormalMsg → Prop
  | .publishV3 _ _ _ _ filter _ _ => filter = F
  | .publishV5 _ _ _ _ filters _ _ _ => F ∈ filters

/-- During the acts nobody loses a shared subscription: neither by UNSUBSCRIBE nor with the end of
the session. -/
def NobodyLeaves (cfg : Config) (ext : Ext) (acts : List Act) : Prop :=
  ∀ A a B, acts = A ++ a :: B → ∀ w evs w' e, Reaches cfg ext A w evs →
    w.step cfg ext a = some (w', e) →
      ∀ F id q, ¬ IsPlain F → w.lists F id q → ∃ q', w'.lists F id q'

/-- The filters that a packet from a client names to subscribe or to unsubscribe. -/
def InPkt.filters : InPkt → List Str
  | .subscribe _ ts _ => ts.map (·.1)
  | .unsubscribe _ ts => ts
  | _ => []

/-- During the acts nobody comes back to a shared subscription: clients join shared subscriptions and
leave them, but whoever has left one does not name it in a SUBSCRIBE or an UNSUBSCRIBE any more. -/
structure NobodyReturns (cfg : Config) (ext : Ext) (acts : List Act) : Prop where
  /-- Whoever had the subscription after the acts `A` and not after `A` and `B` does not name it in
  the next packet. -/
  later : ∀ A B t env after size p C, acts = A ++ B ++ .packet t env after size p :: C →
    ∀ w1 evs1 w2 evs2, Reaches cfg ext A w1 evs1 → Reaches cfg ext (A ++ B) w2 evs2 →
      ∀ s F q, w2.owned t = some s → ¬ IsPlain F → w1.lists F s.clientId q →
        (∀ q', ¬ w2.lists F s.clientId q') → F ∉ p.filters
  /-- Whoever leaves a subscription names it once in that UNSUBSCRIBE. -/
  twice : ∀ A t env after size pid ts C,
    acts = A ++ .packet t env after size (.unsubscribe pid ts) :: C →
    ∀ w evs w' e, Reaches cfg ext A w evs →
      w.step cfg ext (.packet t env after size (.unsubscribe pid ts)) = some (w', e) →
      ∀ s F q, w.owned t = some s → ¬ IsPlain F → w.lists F s.clientId q →
        (∀ q', ¬ w'.lists F s.clientId q') → ts.count F ≤ 1
  /-- No session with a shared subscription expires (the broker drops the subscriptions of an expired
  session twice). -/
  expires : ∀ A t env C, acts = A ++ .control t env :: C → ∀ w evs w' e, Reaches cfg ext A w evs →
    w.step cfg ext (.control t env) = some (w', e) → ∀ id, Event.removed t id ∈ e →
      ∀ F q, ¬ IsPlain F → ¬ w.lists F id q

/-- The number with which a member of a group is picked in this step. -/
def Act.number (a : Act) (g f : Str) : Nat :=
  match a with
  | .packet _ env _ _ _ => env.pick g f
  | .control _ env => env.pick g f
  | .close _ env _ => env.pick g f
  | _ => 0

/-- How the member is picked (`shared_subscription_mode` of the configuration): at random, or by a
hash of the client identifier of the publisher or of the topic. -/
inductive ShareMode where
  | random
  | hashClientId
  | hashTopicName
deriving DecidableEq, Repr

/-- What is hashed. -/
def ShareMode.key (mode : ShareMode) (identifier topic : Str) : Option Str :=
  match mode with
  | .random => none
  | .hashClientId => some identifier
  | .hashTopicName => some topic

/-- The number is the one that the mode prescribes for a message of this connection. -/
def PickedBy (mode : ShareMode) (hash : Str → Nat) (w : World) (t : TaskId) (m : SendPub)
    (n : Nat) : Prop :=
  ∀ s k, w.owned t = some s → mode.key s.identifier m.topic = some k → n = hash k

end Akasa

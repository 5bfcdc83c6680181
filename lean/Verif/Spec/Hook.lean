import Verif.Model.Hook
/-!
# What it means that a packet was refused by a hook
-/
namespace Akasa

/-- The packet with result `r` changed nothing but what a PINGREQ changes, and `reply` was sent
instead of PINGRESP. -/
structure Ignored (cfg : Config) (ext : Ext) (pr : Proto) (env : Env) (after : Clock) (g : Global)
    (s : Session) (size : Nat) (reply : List OutPkt) (r : Res) : Prop where
  tables : r.global = g
  routed : r.routed = []
  subscriptions : r.session.subscribes = s.subscribes
  qos2 : r.session.qos2 = s.qos2
  copies : r.session.bcast = s.bcast
  aliases : r.session.aliases = s.aliases
  will : r.session.will = s.will
  stays : r.closed = false ∧ r.session.disconnected = s.disconnected
  ping : ∃ rest, r.out = reply ++ rest ∧
    onPacket cfg ext pr env after g s size .pingreq = some { r with out := .pingresp :: rest }

/-- The connection ends at once, nothing is sent and nothing is changed. -/
def Dropped (g : Global) (s : Session) (r : Res) : Prop :=
  r.closed = true ∧ r.out = [] ∧ r.routed = [] ∧ r.global = g ∧ r.session = s

/-- The numbers of the reason codes in MQTT 5 (section 2.4 of the standard). -/
def Reason.number : Reason → Nat
  | .success => 0x00
  | .grantedQos q => q.val
  | .noMatchingSubscribers => 0x10
  | .noSubscriptionExisted => 0x11
  | .malformedPacket => 0x81
  | .protocolError => 0x82
  | .topicNameInvalid => 0x90
  | .packetIdentifierInUse => 0x91
  | .packetIdentifierNotFound => 0x92
  | .receiveMaximumExceeded => 0x93
  | .topicAliasInvalid => 0x94
  | .packetTooLarge => 0x95
  | .sharedSubscriptionNotSupported => 0x9E
  | .subscriptionIdentifiersNotSupported => 0xA1
  | .wildcardSubscriptionsNotSupported => 0xA2
  | .other code => code

/-- "Unspecified error", "not authorized", "topic name invalid", "quota exceeded" in MQTT 5. -/
def HookPublishCode.number : HookPublishCode → Nat
  | .success => 0
  | .unspecifiedError => 128
  | .notAuthorized => 135
  | .topicNameInvalid => 144
  | .quotaExceeded => 151

/-- "Unspecified error", "not authorized", "topic filter invalid", "quota exceeded" in MQTT 5. -/
def HookSubscribeCode.number : HookSubscribeCode → Nat
  | .success => 0
  | .unspecifiedError => 128
  | .notAuthorized => 135
  | .topicFilterInvalid => 143
  | .quotaExceeded => 151

/-- "Unspecified error", "not authorized", "topic filter invalid" in MQTT 5. -/
def HookUnsubscribeCode.number : HookUnsubscribeCode → Nat
  | .success => 0
  | .unspecifiedError => 128
  | .notAuthorized => 135
  | .topicFilterInvalid => 143

/-- A hook is called for the packet. -/
def InPkt.hooked (hooks : HookConfig) : InPkt → Bool
  | .publish _ => hooks.publish
  | .subscribe _ _ _ => hooks.subscribe
  | .unsubscribe _ _ => hooks.unsubscribe
  | _ => false

/-- `r` is what comes of the actions if they are done one by one by `act`, the `i`-th with its
number. -/
inductive OneByOne {A : Type} (act : Nat → Global → Session → A → Option Res) :
    Nat → Global → Session → List A → Res → Prop
  | done {i : Nat} {g : Global} {s : Session} {r : Res} : r.session = s → r.global = g →
      r.routed = [] → r.closed = false → OneByOne act i g s [] r
  | ends {i : Nat} {g : Global} {s : Session} {a : A} {as : List A} {r : Res} :
      act i g s a = some r → r.closed = true → OneByOne act i g s (a :: as) r
  | next {i : Nat} {g : Global} {s : Session} {a : A} {as : List A} {r r1 r2 : Res} :
      act i g s a = some r1 → r1.closed = false →
      OneByOne act (i + 1) r1.global r1.session as r2 →
      r.session = r2.session → r.global = r2.global → r.closed = r2.closed →
      r.routed = r1.routed ++ r2.routed → OneByOne act i g s (a :: as) r

end Akasa

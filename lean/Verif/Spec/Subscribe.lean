import Verif.Spec.Deliver
/-!
# Vocabulary for SUBSCRIBE and UNSUBSCRIBE

A step of a session changes subscriptions by a list of changes, read off the packet received.
-/
namespace Akasa

/-- A change of one client's subscriptions. -/
inductive SubChange where
  | set (F : Str) (d : SubData)
  | drop (F : Str)
deriving DecidableEq, Repr

/-- The subscriptions of one client. -/
abbrev Subs := Str → Option SubData

/-- The last change of a filter decides. -/
def Subs.step (σ : Subs) : SubChange → Subs
  | .set F d => fun F' => if F' = F then some d else σ F'
  | .drop F => fun F' => if F' = F then none else σ F'

/-- All changes, one after the other. -/
def Subs.after (σ : Subs) (cs : List SubChange) : Subs := cs.foldl Subs.step σ

/-- The call on the routing table for a change by a client. -/
def SubChange.op (id : ClientId) : SubChange → RouteOp
  | .set F d => .sub F id d.opts.maxQos
  | .drop F => .unsub F id

/-- The filter a change is about. -/
def SubChange.filter : SubChange → Str
  | .set F _ => F
  | .drop F => F

/-- The options with the granted QoS. -/
def SubOpts.granted (cfg : Config) (o : SubOpts) : SubOpts :=
  { o with maxQos := min o.maxQos cfg.maxAllowedQos }

/-- The subscription identifier is refused for the whole packet (MQTT 5). -/
def RefusesId (cfg : Config) (id : Option Nat) : Prop :=
  cfg.subscriptionIdAvailable = false ∧ id ≠ none

instance (cfg : Config) (id : Option Nat) : Decidable (RefusesId cfg id) := by
  unfold RefusesId; infer_instance

/-- The code that answers a filter of a SUBSCRIBE (MQTT 5). -/
def codeFor (cfg : Config) (id : Option Nat) (F : Str) (o : SubOpts) : Reason :=
  if RefusesId cfg id then .subscriptionIdentifiersNotSupported
  else if cfg.sharedAvailable = false ∧ ¬ IsPlain F then .sharedSubscriptionNotSupported
  else if cfg.wildcardAvailable = false ∧ ('+' ∈ F ∨ '#' ∈ F) then .wildcardSubscriptionsNotSupported
  else .grantedQos (min o.maxQos cfg.maxAllowedQos)

/-- The filters of a SUBSCRIBE that are accepted, with the data recorded for them.  MQTT 5: those
the configuration allows, none if the identifier is refused or malformed (0).  MQTT 3: those before
the first shared filter. -/
def acceptedSubs (cfg : Config) (pr : Proto) (topics : List (Str × SubOpts)) (id : Option Nat) :
    List (Str × SubData) :=
  match pr with
  | .v3 => (topics.takeWhile fun t => decide (IsPlain t.1)).map fun t =>
      (t.1, { opts := { maxQos := min t.2.maxQos cfg.maxAllowedQos } })
  | .v5 =>
    if id = some 0 ∨ RefusesId cfg id then []
    else (topics.filter fun t => decide (Accepts cfg t.1)).map fun t =>
      (t.1, { opts := t.2.granted cfg, id })

/-- The changes of subscriptions a packet asks for and is granted. -/
def InPkt.changes (cfg : Config) (pr : Proto) : InPkt → List SubChange
  | .subscribe _ topics id => (acceptedSubs cfg pr topics id).map fun t => .set t.1 t.2
  | .unsubscribe _ topics => topics.map .drop
  | _ => []

/-- The packet received in a step, unless it is larger than allowed. -/
def Rec.processed (cfg : Config) (r : Rec) : Option InPkt :=
  match r.ev with
  | .packet _ size p =>
    if r.pre.online && !r.pre.session.disconnected && decide (size ≤ cfg.maxPacketSizeServer) then
      some p
    else none
  | _ => none

/-- The changes of subscriptions in a step of a session. -/
def Rec.changes (cfg : Config) (pr : Proto) (r : Rec) : List SubChange :=
  match r.processed cfg with
  | some p => p.changes cfg pr
  | none => []

/-- The subscriptions a session has. -/
def Session.subs (s : Session) : Subs := s.subscribes.get

/-- The answers in a step: what is sent other than deliveries. -/
def Rec.answers (r : Rec) : List OutPkt := r.res.out.filter fun p => !p.isDelivery

end Akasa

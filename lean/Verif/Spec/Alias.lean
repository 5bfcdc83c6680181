import Verif.Spec.Session
/-!
# How an MQTT 5 client reads topic aliases (MQTT 5.0 section 3.3.2.3.4)
-/
namespace Akasa

/-- A PUBLISH as the receiver understands it. -/
def Publish.named (p : Publish) (topic : Str) : OutPkt :=
  .publish { p with topic, props := { p.props with topicAlias := none } }

/-- One packet read by a client that remembers the topic bound to each alias.  A topic with an
alias (re)binds the alias; an empty topic stands for the topic bound to the alias; an empty topic
with no alias or an unbound one is a protocol error (`none`). -/
def decodeOne (d : FMap Nat Str) : OutPkt → Option (FMap Nat Str × OutPkt)
  | .publish p =>
    match p.props.topicAlias with
    | none => if p.topic = [] then none else some (d, p.named p.topic)
    | some a =>
      if p.topic = [] then (d.get a).map fun t => (d, p.named t)
      else some (d.insert a p.topic, p.named p.topic)
  | o => some (d, o)

/-- Several packets in order. -/
def decodeMany (d : FMap Nat Str) : List OutPkt → Option (FMap Nat Str × List OutPkt)
  | [] => some (d, [])
  | o :: os => do
    let (d, o) ← decodeOne d o
    let (d, os) ← decodeMany d os
    return (d, o :: os)

/-- What the client of a session understands, step by step; a new connection begins with no aliases
bound. -/
def clientView (d : FMap Nat Str) : List Rec → Option (List (List OutPkt))
  | [] => some []
  | r :: rs => do
    let (d, out) ← decodeMany (match r.ev with | .resume _ => [] | _ => d) r.res.out
    let rest ← clientView d rs
    return out :: rest

/-- The same connection of a client that does not want aliases. -/
def ConnParams.noAlias (c : ConnParams) : ConnParams := { c with aliasMax := 0 }

/-- The same event for a client that does not want aliases. -/
def SessEv.noAlias : SessEv → SessEv
  | .resume c => .resume c.noAlias
  | e => e

/-- A message has a topic name and does not itself carry an alias. -/
def WellNamed (topic : Str) (props : PubProps) : Prop := topic ≠ [] ∧ props.topicAlias = none

/-- ... for a message of another session. -/
def NormalMsg.wellNamed : NormalMsg → Prop
  | .publishV3 _ _ topic _ _ _ _ => topic ≠ []
  | .publishV5 _ _ topic _ _ _ props _ => WellNamed topic props

/-- ... for all messages an event brings in, including retained ones. -/
def EvWellNamed (e : Env × Global × SessEv) : Prop :=
  (∀ f cs, e.2.1.retain.getMatches f = some cs → ∀ c ∈ cs, WellNamed c.topic (c.props.getD {})) ∧
  ∀ m, (e.2.2 = .normal m ∨ e.2.2 = .offline m) → m.wellNamed

end Akasa

import Verif.Spec.Session
/-!
# Vocabulary for which PUBLISH packets are accepted
-/
namespace Akasa

/-- The size of the packet received in a step. -/
def Rec.size (r : Rec) : Nat :=
  match r.ev with
  | .packet _ n _ => n
  | _ => 0

/-- The topic a PUBLISH is for: its own topic, or (MQTT 5, no topic in the packet) the one bound to
its alias on the connection; `none` if there is no such topic or the alias is not allowed. -/
def topicOf (cfg : Config) (pr : Proto) (earlier : List Rec) (p : Publish) : Option Str :=
  let own := if p.topic = [] then none else some p.topic
  match pr, p.props.topicAlias with
  | .v5, some alias =>
    if alias = 0 ∨ cfg.topicAliasMax < alias then none
    else own.or (boundTopic earlier alias)
  | _, _ => own

/-- A PUBLISH that MQTT allows a client to send: it has a topic (`t`), which is not reserved; DUP is
clear on QoS 0; and no subscription identifiers (which only a server may send). -/
structure WellFormed (cfg : Config) (pr : Proto) (earlier : List Rec) (p : Publish) (t : Str) :
    Prop where
  topic : topicOf cfg pr earlier p = some t
  notReserved : p.topic.head? ≠ some '$'
  dup : p.qosPid = .level0 → p.dup = false
  noIds : pr = .v5 → p.props.subscriptionIds = []

/-- The packet begins a new message: it is QoS 0 or 1, or QoS 2 with an identifier that is free and
(MQTT 5) within the receive maximum of the server. -/
def BeginsMessage (cfg : Config) (pr : Proto) (earlier : List Rec) (p : Publish) : Prop :=
  ∀ pid, p.qosPid = .level2 pid → p.dup = false ∧ pid ∉ unreleased earlier ∧
    (pr = .v5 → (unreleased earlier).length < cfg.maxInflightServer)

/-- The message a PUBLISH stands for: everything as the client sent it, under the topic `t`, without
the alias. -/
def Publish.message (ext : Ext) (pr : Proto) (p : Publish) (t : Str) : SendPub where
  qos := p.qosPid.qos
  retain := p.retain
  topic := t
  payload := p.payload
  encodeLen := ext.encLen p
  props := match pr with
    | .v3 => {}
    | .v5 => { p.props with topicAlias := none }

/-- The broker refused the packet: nothing is passed on, the shared tables are unchanged, and the
connection is over — in MQTT 5 with a DISCONNECT, in MQTT 3 without a word. -/
def Rec.refused (pr : Proto) (r : Rec) : Prop :=
  r.res.routed = [] ∧ r.res.global = r.before ∧
    match pr with
    | .v3 => r.res.out = [] ∧ r.post.online = false
    | .v5 => (∃ code, r.res.out = [.disconnect code]) ∧ r.post.session.disconnected = true

end Akasa

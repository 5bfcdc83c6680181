import Verif.Model.Fanout
/-!
# Incoming PUBLISH, PUBACK, PUBREC, PUBREL, PUBCOMP (v3 and v5 `packet/publish.rs`)
-/
namespace Akasa

/-- `v5/packet/common.rs:74-107` `build_error_disconnect` (without the reason string): the session
is marked disconnected by the server. -/
def failV5 (s : Session) (g : Global) (code : Reason) : Res :=
  { session := { s with serverDisconnected := true }, global := g, out := [.disconnect code] }

/-- `v5/packet/publish.rs:67-110`: the effective topic name, and the recorded alias; `error` = the
reason of the DISCONNECT. -/
def resolveAlias (cfg : Config) (s : Session) (p : Publish) : Except Reason (Session × Str) :=
  match p.props.topicAlias with
  | some alias =>
    if alias = 0 then .error .topicAliasInvalid
    else if alias > cfg.topicAliasMax then .error .topicAliasInvalid
    else if p.topic = [] then
      match s.aliases.get alias with
      | some name => .ok (s, name)
      | none => .error .protocolError
    else .ok ({ s with aliases := s.aliases.insert alias p.topic }, p.topic)
  | none => if p.topic = [] then .error .protocolError else .ok (s, p.topic)

/-- Outcome of the check of a QoS 2 packet identifier. -/
inductive Qos2Check where
  | proceed (s : Session)
  | inUse (pid : Pid)
  | fail (code : Reason)

/-- `v5/packet/publish.rs:121-161`. -/
def checkQos2V5 (cfg : Config) (ext : Ext) (s : Session) (p : Publish) : Qos2Check :=
  match p.qosPid with
  | .level2 pid =>
    match s.qos2.get pid with
    | some previous =>
      if ext.hash p ≠ previous then .inUse pid
      else if !p.dup then .fail .protocolError
      else .proceed s
    | none =>
      if s.qos2.length ≥ cfg.maxInflightServer then .fail .receiveMaximumExceeded
      else .proceed { s with qos2 := s.qos2.insert pid (ext.hash p) }
  | _ => .proceed s

/-- `v5/packet/publish.rs:182-210`: the acknowledgement. -/
def ackV5 (p : Publish) (matched : Nat) : List OutPkt :=
  let code := if matched > 0 then Reason.success else .noMatchingSubscribers
  match p.qosPid with
  | .level0 => []
  | .level1 pid => [.puback pid code]
  | .level2 pid => [.pubrec pid code]

/-- `v5/packet/publish.rs:27-211` `handle_publish`.  `none` = panic.  (The `.expect("packet too
large")` of line 164 cannot fail for a packet that was just decoded.) -/
def handlePublishV5 (cfg : Config) (ext : Ext) (env : Env) (g : Global) (s : Session)
    (p : Publish) : Option Res :=
  if p.topic.head? = some '$' then some (failV5 s g .topicNameInvalid)
  else if p.qosPid = .level0 ∧ p.dup = true then some (failV5 s g .protocolError)
  else match resolveAlias cfg s p with
  | .error code => some (failV5 s g code)
  | .ok (s, topic) =>
    if p.props.subscriptionIds ≠ [] then some (failV5 s g .protocolError)
    else match checkQos2V5 cfg ext s p with
    | .inUse pid => some { session := s, global := g, out := [.pubrec pid .packetIdentifierInUse] }
    | .fail code => some (failV5 s g code)
    | .proceed s =>
      if p.dup = true ∧ p.qosPid.qos = 2 then
        some { session := s, global := g, out := ackV5 p 1 }
      else
        let m : SendPub := { qos := p.qosPid.qos, retain := p.retain, topic, payload := p.payload,
                             props := { p.props with topicAlias := none },
                             encodeLen := ext.encLen p }
        match sendPublishV5 env g s m with
        | none => none
        | some (s, g, n) => some { session := s, global := g, out := ackV5 p n, routed := [m] }

/-- `v5/packet/publish.rs:224-241` `handle_pubrec`. -/
def handlePubrecV5 (env : Env) (g : Global) (s : Session) (pid : Pid) : Res :=
  let r := s.sender.pending.pubrec (env.now 0 0) pid
  { session := { s with sender := { s.sender with pending := r.1 } }
    global := g
    out := [.pubrel pid (if r.2 then .success else .packetIdentifierNotFound)] }

/-- `v5/packet/publish.rs:244-261` `handle_pubrel`. -/
def handlePubrelV5 (g : Global) (s : Session) (pid : Pid) : Res :=
  { session := { s with qos2 := s.qos2.erase pid }
    global := g
    out := [.pubcomp pid (if s.qos2.contains pid then .success else .packetIdentifierNotFound)] }

/-- `handle_puback` / `handle_pubcomp`: `v3/packet/publish.rs:96-103, 132-139`,
`v5/packet/publish.rs:214-221, 264-271`. -/
def handleComplete (g : Global) (s : Session) (pid : Pid) (qos : QoS) : Res :=
  { session := { s with sender := { s.sender with pending := (s.sender.pending.complete pid qos).1 } }
    global := g }

/-- A handler of MQTT 3 returning `Err(InvalidData)`: the connection ends, nothing is sent. -/
def failV3 (s : Session) (g : Global) : Res :=
  { session := s, global := g, closed := true }

/-- `v3/packet/publish.rs:50-72`; `none` = `Err`. -/
def checkQos2V3 (ext : Ext) (s : Session) (p : Publish) : Option Session :=
  match p.qosPid with
  | .level2 pid =>
    match s.qos2.get pid with
    | some previous =>
      if ext.hash p ≠ previous then none
      else if !p.dup then none
      else some s
    | none => some { s with qos2 := s.qos2.insert pid (ext.hash p) }
  | _ => some s

/-- `v3/packet/publish.rs:88-92`: the acknowledgement. -/
def ackV3 (p : Publish) : List OutPkt :=
  match p.qosPid with
  | .level0 => []
  | .level1 pid => [.puback pid .success]
  | .level2 pid => [.pubrec pid .success]

/-- `v3/packet/publish.rs:20-93` `handle_publish`.  `none` = panic. -/
def handlePublishV3 (ext : Ext) (g : Global) (s : Session) (p : Publish) : Option Res :=
  if p.topic = [] then some (failV3 s g)
  else if p.topic.head? = some '$' then some (failV3 s g)
  else if p.qosPid = .level0 ∧ p.dup = true then some (failV3 s g)
  else match checkQos2V3 ext s p with
  | none => some (failV3 s g)
  | some s =>
    if p.dup = true ∧ p.qosPid.qos = 2 then some { session := s, global := g, out := ackV3 p }
    else
      let m : SendPub := { qos := p.qosPid.qos, retain := p.retain, topic := p.topic,
                           payload := p.payload, encodeLen := ext.encLen p }
      match sendPublishV3 g s m with
      | none => none
      | some (s, g) => some { session := s, global := g, out := ackV3 p, routed := [m] }

/-- `v3/packet/publish.rs:106-115` `handle_pubrec`. -/
def handlePubrecV3 (env : Env) (g : Global) (s : Session) (pid : Pid) : Res :=
  let r := s.sender.pending.pubrec (env.now 0 0) pid
  { session := { s with sender := { s.sender with pending := r.1 } }
    global := g
    out := [.pubrel pid .success] }

/-- `v3/packet/publish.rs:118-129` `handle_pubrel`. -/
def handlePubrelV3 (g : Global) (s : Session) (pid : Pid) : Res :=
  if s.qos2.contains pid then
    { session := { s with qos2 := s.qos2.erase pid }, global := g, out := [.pubcomp pid .success] }
  else failV3 s g

end Akasa

import Verif.Model.Connect
import Verif.Spec.World
import Verif.Spec.Scram
/-!
# Vocabulary for the handshake
-/
namespace Akasa

/-- What can happen from the start of the broker on: the acts, the state reached and everything
observed. -/
def FrontReaches (c : ServerConfig) (x : ConnExt) (ext : Ext) (acts : List FrontAct) (f : Front)
    (evs : List FrontEvent) : Prop :=
  Front.run c x ext {} acts = some (f, evs)

/-- The connection got past the handshake: this task of the broker serves it.  `p` is the CONNECT it
sent. -/
def Front.served (f : Front) (k : ConnId) (p : ConnectPkt) (t : TaskId) : Prop :=
  ∃ o final, f.conns.get k = some ⟨p, o, .task t final⟩

/-- The CONNECT packets in the order they came, with the identifier and the random characters the
broker drew then: the connections are numbered in this order. -/
def hellos (acts : List FrontAct) : List (ConnectPkt × Str × Str) :=
  acts.filterMap fun a =>
    match a with
    | .hello p uuid random _ _ => some (p, uuid, random)
    | _ => none

/-- The user name and password of a CONNECT are those of a user. -/
def Credentials (c : ServerConfig) (x : ConnExt) (p : ConnectPkt) : Prop :=
  ∃ u pw, p.username = some u ∧ p.password = some pw ∧
    Auth.checkPassword x.auth c.passwords u pw = true

/-- CONNECT and AUTH are a complete SCRAM exchange (RFC 5802) of a user of the broker; `random` is
the server's part of the nonce. -/
def ScramProved (c : ServerConfig) (x : ConnExt) (p : ConnectPkt) (random : Str) (a : AuthPkt) :
    Prop :=
  ∃ (e : Scram.Exchange) (user : ScramUser) (method first final proof : Str),
    p.authMethod = some method ∧ a.method = some method ∧
    (method = "SCRAM-SHA-256".toList ∨ method = "SCRAM-SHA-256-PLUS".toList) ∧
    p.authData.bind x.utf8 = some first ∧ a.data.bind x.utf8 = some final ∧
    c.scramUsers.get e.authcid = some user ∧ e.saltedPassword = user.hashedPassword ∧
    e.salt = user.salt ∧ e.iterations = user.iterations ∧ e.serverNonce = random ∧
    (e.authzid = none ∨ e.authzid = some e.authcid) ∧
    Scram.isClientFirst first e.authcid e.authzid e.clientNonce ∧
    Scram.isClientFinal final (x.scram.b64.encode (Scram.utf8 e.header)) e.nonce proof ∧
    x.scram.b64.decode proof = some (e.clientProof x.scram)

/-- The events of the rest of the broker. -/
def worldEvents (evs : List FrontEvent) : List Event :=
  evs.filterMap fun e =>
    match e with
    | .event e => some e
    | _ => none

/-- The CONNACK packets sent on a connection. -/
def connacksOn (k : ConnId) (evs : List FrontEvent) : List Reply :=
  evs.filterMap fun e =>
    match e with
    | .reply k' (.connack present code props) =>
      if k' = k then some (.connack present code props) else none
    | _ => none

/-- The connection an act of the handshake concerns. -/
def FrontAct.conn (f : Front) : FrontAct → Option ConnId
  | .hello _ _ _ _ _ => some f.nextConn
  | .auth k _ _ _ => some k
  | .stray k _ => some k
  | .leave k => some k
  | .act _ => none

/-- The CONNECT is one that need not be refused: the client identifier is allowed in its protocol
version, the limits in it are not zero, the will is not for a '$' topic (or an empty one), and there
is no authentication method. -/
structure ConnectPkt.Fine (c : ServerConfig) (p : ConnectPkt) : Prop where
  v310 : p.level = .v310 → p.clientId ≠ [] ∧
    (c.checkV310Length = true → (Scram.utf8 p.clientId).length ≤ 23)
  v311 : p.level = .v311 → p.clientId = [] → p.clean = true
  will : ∀ m, p.will = some m → m.topic ≠ [] ∧ m.topic.head? ≠ some '$'
  receiveMax : p.receiveMax ≠ some 0
  maxPacketSize : p.maxPacketSize ≠ some 0
  noMethod : p.authMethod = none
  noData : p.authData = none

/-- The keep-alive interval the broker uses for a connection. -/
def Front.keepAlive (f : Front) (k : ConnId) : Option Nat :=
  (f.conns.get k).bind fun n =>
    match n.stage with
    | .task _ _ => some n.opening.keepAlive
    | _ => none

/-- The event is a sending of packets to the client, or packets read from it or accepted. -/
def Event.traffic (t : TaskId) : Event → Bool
  | .received t' _ => decide (t' = t)
  | .sent t' _ => decide (t' = t)
  | .routed t' _ => decide (t' = t)
  | _ => false

end Akasa

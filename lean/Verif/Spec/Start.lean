import Verif.Model.Start
import Verif.Spec.Accept
/-!
# Vocabulary for C91, C92 and C93
-/
namespace Akasa.Start

/-- What the settings of a listener say about the certificates of clients: a client that shows none
is refused with `fail_if_no_peer_cert`, and one that is shown must be issued by the authorities of
`ca_file` with `verify_peer`. -/
def TlsListener.Demand (w : World) (l : TlsListener) (shown : Option Cert) : Prop :=
  (l.failIfNoPeerCert = true → shown ≠ none) ∧
  (l.verifyPeer = true → ∀ cert, shown = some cert → ∃ ca roots,
    l.caFile = some ca ∧ w.certs ca = some roots ∧ w.issuedBy roots cert = true)

/-- The settings of a listener with TLS. -/
def Settings.tlsListener (s : Settings) : Accept.Listener → Option TlsListener
  | .mqtts _ => s.listeners.mqtts
  | .wss _ => s.listeners.wss
  | _ => none

/-- In every poll of a connection the TLS layer does what the certificate shown allows: without an
admissible one the handshake does not succeed. -/
def TlsObeys (w : World) (ctx : TlsContext) (shown : Option Cert) (acts : List Accept.Act) : Prop :=
  ∀ io ∈ Accept.polls acts, io.tls = .ready () → ctx.admits w shown = true

/-- The settings make sense: some listener is given, a password file if clients must authenticate, the
greatest QoS is one of 0, 1 and 2, packets may have some size, the only mechanism is SCRAM-SHA-256, and
the passwords of its users are hashed as often as RFC 7677 wants. -/
structure Settings.Usable (s : Settings) : Prop where
  listener : s.listeners.mqtt ≠ none ∨ s.listeners.mqtts ≠ none ∨ s.listeners.ws ≠ none ∨
    s.listeners.wss ≠ none ∨ s.listeners.http ≠ none
  passwords : s.rest.authEnable = true → ∃ path, s.passwordFile = some path
  qos : s.rest.maxAllowedQos = 0 ∨ s.rest.maxAllowedQos = 1 ∨ s.rest.maxAllowedQos = 2
  sizeClient : 0 < s.rest.maxPacketSizeClient
  sizeServer : 0 < s.rest.maxPacketSizeServer
  mechanisms : ∀ m ∈ s.rest.saslMechanisms, m = .scramSha256
  iterations : ∀ e ∈ s.rest.scramUsers, 4096 ≤ e.2.iterations

/-- The files of a listener with TLS can be used. -/
structure TlsReady (w : World) (l : TlsListener) : Prop where
  chain : ∃ chain key, w.certs l.certFile = some chain ∧ w.key l.keyFile = some key ∧
    w.pair chain key = true
  roots : l.verifyPeer = true → ∃ ca roots, l.caFile = some ca ∧ w.certs ca = some roots ∧
    roots ≠ [] ∧ ∀ cert ∈ roots, w.anchor cert = true

/-- The settings ask for a task like this. -/
inductive Configured (s : Settings) : Addr → Bool → Accept.Listener → Prop
  | mqtt {p : PlainListener} : s.listeners.mqtt = some p →
      Configured s p.addr p.reusePort (.mqtt p.proxyMode)
  | mqtts {p : TlsListener} : s.listeners.mqtts = some p →
      Configured s p.addr p.reusePort (.mqtts p.proxy)
  | ws {p : PlainListener} : s.listeners.ws = some p →
      Configured s p.addr p.reusePort (.ws p.proxyMode)
  | wss {p : TlsListener} : s.listeners.wss = some p →
      Configured s p.addr p.reusePort (.wss p.proxy)

/-- The listener is for TLS. -/
def isTls : Accept.Listener → Bool
  | .mqtts _ => true
  | .wss _ => true
  | _ => false

/-- The passwords in force: those of the password file if authentication is on. -/
def PasswordsOf (w : World) (s : Settings) (t : Auth.Table) : Prop :=
  if s.rest.authEnable = true then
    ∃ path text, s.passwordFile = some path ∧ w.text path = some text ∧
      Auth.loadPasswords w.auth text = some t
  else t = []

/-- A task waits for connections. -/
def Server.IsListening (s : Server) (i : Nat) : Prop := ∃ queue, s.phase i = .listening queue

/-- The connection waits to be accepted. -/
def Server.Waiting (s : Server) (i : Nat) (k : Conn) : Prop :=
  ∃ queue, s.phase i = .listening queue ∧ k ∈ queue

/-- How many connections were accepted at a listener task. -/
def acceptsAt (i : Nat) (evs : List Event) : Nat := evs.count (.accepts i true)

/-- The event is about this listener task. -/
def Event.at (i : Nat) : Event → Bool
  | .opened j _ => decide (j = i)
  | .arrives j _ => decide (j = i)
  | .accepts j _ => decide (j = i)
  | .wakes j => decide (j = i)
  | .httpOpened _ => false
  | .httpEnds => false

/-- The connections served by a listener task. -/
def Server.servedAt (s : Server) (i : Nat) : List Conn :=
  s.served.filterMap fun e => if e.1 = i then some e.2 else none

end Akasa.Start

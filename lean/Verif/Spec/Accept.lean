import Verif.Model.Accept
/-!
# Vocabulary for C83, C84 and C85
-/
namespace Akasa.Accept

/-- What a connection waits for that is not something the client has to send before its CONNECT is
complete: writing a packet to the client. -/
def Stage.writing : Stage → Bool
  | .refusal => true
  | .challenge _ => true
  | _ => false

/-- The connection has been closed, or the client has sent all it has to send to be connected. -/
def Stage.over : Stage → Bool
  | .ended _ => true
  | .handed _ => true
  | _ => false

/-- The polls among the events. -/
def polls : List Act → List Io
  | [] => []
  | .timer :: acts => polls acts
  | .poll io :: acts => io :: polls acts

/-- The conditions are met one after the other, each in a poll that is not before that of the
condition before it. -/
inductive InOrder : List (Io → Prop) → List Io → Prop
  | nil {ios : List Io} : InOrder [] ios
  | here {p : Io → Prop} {ps : List (Io → Prop)} {io : Io} {ios : List Io} :
      p io → InOrder ps (io :: ios) → InOrder (p :: ps) (io :: ios)
  | later {ps : List (Io → Prop)} {io : Io} {ios : List Io} :
      InOrder ps ios → InOrder ps (io :: ios)

/-- The proxy has sent a header with an IP address. -/
def ProxyDone (io : Io) : Prop :=
  ∃ h, io.proxy = .ready (some h) ∧ ∀ src dst, h.addresses ≠ .unix src dst

/-- The TLS handshake has succeeded. -/
def TlsDone (io : Io) : Prop := io.tls = .ready ()

/-- The WebSocket handshake has succeeded, with subprotocol `mqtt` or none. -/
def WebSocketDone (io : Io) : Prop :=
  io.websocket = .ready none ∨ io.websocket = .ready (some "mqtt".toList)

/-- The first byte of the first packet is that of a CONNECT. -/
def FirstIsConnect (io : Io) : Prop := io.header = .ready 0x10

/-- The CONNECT packet is for this version of MQTT. -/
def Speaks (v : Version) (io : Io) : Prop := io.protocol = .ready v

/-- The client has been accepted. -/
def Accepted (v : Version) (io : Io) : Prop :=
  match v with
  | .v500 => io.connectV5 = .ready .accept ∨ ∃ left, io.auth left = .ready .accept
  | _ => io.connectV3 = .ready true

/-- The layers that a listener puts before MQTT, from the outside to the inside. -/
def Listener.layers : Listener → List (Io → Prop)
  | .mqtt none => []
  | .mqtt (some _) => [ProxyDone]
  | .mqtts false => [TlsDone]
  | .mqtts true => [ProxyDone, TlsDone]
  | .ws none => [WebSocketDone]
  | .ws (some _) => [ProxyDone, WebSocketDone]
  | .wss false => [TlsDone, WebSocketDone]
  | .wss true => [ProxyDone, TlsDone, WebSocketDone]

/-- The listener expects a PROXY header. -/
def Listener.proxied : Listener → Bool
  | .mqtt mode => mode.isSome
  | .mqtts proxy => proxy
  | .ws mode => mode.isSome
  | .wss proxy => proxy

/-- The address of the client according to a PROXY header. -/
def source (h : Proxy.Header) : Option Peer :=
  match h.addresses with
  | .ipv4 a port _ _ => some (.ipv4 a port)
  | .ipv6 a port _ _ => some (.ipv6 a port)
  | .unix _ _ => none

/-- The listener is for WebSocket. -/
def Listener.isWs : Listener → Bool
  | .ws _ => true
  | .wss _ => true
  | _ => false

/-- The names in a list separated by commas, without the spaces around them. -/
def names (s : Str) : List Str :=
  (splitAt [] s).map fun n => ((n.dropWhile (· = ' ')).reverse.dropWhile (· = ' ')).reverse
where
  splitAt (acc : Str) : Str → List Str
    | [] => [acc.reverse]
    | c :: cs => if c = ',' then acc.reverse :: splitAt [] cs else splitAt (c :: acc) cs

/-- The client offers the subprotocol `mqtt`, as section 6 of MQTT demands. -/
def OffersMqtt : Option Str → Prop
  | none => False
  | some s => "mqtt".toList ∈ names s

end Akasa.Accept

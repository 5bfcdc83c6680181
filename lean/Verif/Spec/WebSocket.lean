import Verif.Model.WebSocket
/-!
# Vocabulary for C53
-/
namespace Akasa.Ws

/-- The payloads of the binary messages among what the stream yielded, one after the other. -/
def payloads : List Next → Bytes
  | [] => []
  | .msg (.binary d) :: rest => d ++ payloads rest
  | _ :: rest => payloads rest

/-- The payloads of the binary messages sent. -/
def sentPayloads : List Msg → Bytes
  | [] => []
  | .binary d :: rest => d ++ sentPayloads rest
  | _ :: rest => sentPayloads rest

/-- The payloads of the pings among what the stream yielded. -/
def pings : List Next → List Bytes
  | [] => []
  | .msg (.ping d) :: rest => d :: pings rest
  | _ :: rest => pings rest

/-- The payloads of the pongs sent. -/
def pongs : List Msg → List Bytes
  | [] => []
  | .pong d :: rest => d :: pongs rest
  | _ :: rest => pongs rest

/-- A message that has no place in an MQTT connection. -/
def Msg.unexpected : Msg → Bool
  | .text | .pong _ | .frame => true
  | _ => false

/-- Messages without data for MQTT: empty binary messages and pings. -/
def Next.silent : Next → Bool
  | .msg (.binary d) => d.isEmpty
  | .msg (.ping _) => true
  | _ => false

/-- The bytes received and not yet handed to the reader. -/
def State.unread (s : State) : Bytes := s.data.drop s.idx

end Akasa.Ws

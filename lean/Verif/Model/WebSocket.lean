import Verif.Model.Types
/-!
# The WebSocket transport (`server/mod.rs:344-543` `WebSocketWrapper::WebSocket`)

The message layer below it (`tokio_tungstenite::WebSocketStream`) is external: what it yields when
it is polled, and whether it can take a message, are arbitrary inputs.
-/
namespace Akasa.Ws

/-- `tungstenite::Message`; only the payloads that are looked at are kept. -/
inductive Msg where
  | binary (d : Bytes)
  | text
  | ping (d : Bytes)
  | pong (d : Bytes)
  | close
  | frame
deriving DecidableEq, Repr

/-- Result of `poll_next` of the stream. -/
inductive Next where
  | msg (m : Msg)
  | error
  | ended
  | pending
deriving DecidableEq, Repr

/-- Whether the stream takes a message (`poll_ready`, then `start_send` and `poll_flush`).
`error` is an error of `poll_ready` or `start_send`; `late` an error of `poll_flush`, when the
message has been taken already. -/
inductive Sink where
  | ready
  | pending
  | error
  | late
deriving DecidableEq, Repr

/-- `server/mod.rs:347-353`. -/
structure State where
  data : Bytes := []
  idx : Nat := 0
  pong : Option Bytes := none
  closed : Bool := false
deriving DecidableEq, Repr

/-- `server/mod.rs:356-386` `ws_send_pong`: the pong still to be sent, the messages sent, and
whether it succeeded. -/
def sendPong (k : Sink) (pong : Option Bytes) : Option Bytes × List Msg × Bool :=
  match pong with
  | none => (none, [], true)
  | some d =>
    match k with
    | .ready => (none, [.pong d], true)
    | .pending => (some d, [], true)
    | .error => (none, [], false)
    | .late => (none, [.pong d], false)

/-- Result of `poll_read`: the bytes put into the buffer, an error, or `Pending`. -/
inductive ReadRes where
  | data (b : Bytes)
  | error
  | pending
deriving DecidableEq, Repr

/-- Everything `poll_read` returns and does: new state, result, what was taken from the stream is
missing from `rest`, messages sent. -/
structure ReadOut where
  state : State
  res : ReadRes
  rest : List Next
  sent : List Msg := []
deriving DecidableEq, Repr

/-- `server/mod.rs:402-407` `copy_data` into a buffer with room for `n` bytes. -/
def copyData (n : Nat) (s : State) : State × Bytes :=
  let amt := min (s.data.length - s.idx) n
  ({ s with idx := s.idx + amt }, (s.data.drop s.idx).take amt)

/-- `server/mod.rs:415-453`: the loop; `k` says what the sink does at the `i`-th pong.  If the list
of results ends, the stream is not ready. -/
def readLoop (n : Nat) (k : Nat → Sink) : Nat → State → List Next → ReadOut
  | _, s, [] => { state := s, res := .pending, rest := [] }
  | i, s, .msg m :: rest =>
    match m with
    | .binary d =>
      if d = [] then readLoop n k i s rest
      else
        let r := copyData n { s with data := d, idx := 0 }
        { state := r.1, res := .data r.2, rest }
    | .close => { state := s, res := .data [], rest }
    | .ping d =>
      let r := sendPong (k i) (some d)
      if r.2.2 then
        let o := readLoop n k (i + 1) { s with pong := r.1 } rest
        { o with sent := r.2.1 ++ o.sent }
      else { state := { s with pong := r.1 }, res := .error, rest, sent := r.2.1 }
    | .pong _ => { state := s, res := .error, rest }
    | .text => { state := s, res := .error, rest }
    | .frame => { state := s, res := .error, rest }
  | _, s, .error :: rest => { state := s, res := .error, rest }
  | _, s, .ended :: rest => { state := s, res := .data [], rest }
  | _, s, .pending :: rest => { state := s, res := .pending, rest }

/-- `server/mod.rs:388-457` `poll_read` into a buffer with room for `n` bytes. -/
def pollRead (n : Nat) (k : Nat → Sink) (s : State) (src : List Next) : ReadOut :=
  let p := if s.closed then (s.pong, [], true) else sendPong (k 0) s.pong
  let s := { s with pong := p.1 }
  if !p.2.2 then { state := s, res := .error, rest := src, sent := p.2.1 }
  else if s.idx < s.data.length then
    let r := copyData n s
    { state := r.1, res := .data r.2, rest := src, sent := p.2.1 }
  else
    let o := readLoop n k 1 s src
    { o with sent := p.2.1 ++ o.sent }

/-- Result of `poll_write`. -/
inductive WriteRes where
  | wrote (n : Nat)
  | error
  | pending
deriving DecidableEq, Repr

/-- `server/mod.rs:459-497` `poll_write`; `kp` and `k` say what the sink does with the pong and with
the message. -/
def pollWrite (buf : Bytes) (kp k : Sink) (s : State) : State × WriteRes × List Msg :=
  let p := if s.closed then (s.pong, [], true) else sendPong kp s.pong
  let s := { s with pong := p.1 }
  if !p.2.2 then (s, .error, p.2.1)
  else match k with
    | .ready => (s, .wrote buf.length, p.2.1 ++ [.binary buf])
    | .pending => (s, .pending, p.2.1)
    | .error => (s, .error, p.2.1)
    | .late => (s, .error, p.2.1 ++ [.binary buf])

/-- `server/mod.rs:508-541` `poll_shutdown`: whether it returned an error, and what was sent (the
result of `poll_close` is not kept). -/
def pollShutdown (k : Sink) (s : State) : State × Bool × List Msg :=
  if s.closed then (s, true, [])
  else match k with
    | .ready => ({ s with closed := true }, true, [.close])
    | .pending => (s, true, [])
    | .error => (s, false, [])
    | .late => (s, false, [.close])

/-- What the broker does with the transport. -/
inductive Act where
  | read (n : Nat) (k : Nat → Sink)
  | write (buf : Bytes) (kp k : Sink)
  | shutdown (k : Sink)

/-- The transport in use: its state, what the stream is still going to yield, the bytes read so
far, the bytes written so far (as reported to the writer), the messages sent so far, and whether an
operation has failed (the connection is then given up). -/
structure Conn where
  state : State := {}
  src : List Next
  got : Bytes := []
  put : Bytes := []
  sent : List Msg := []
  failed : Bool := false

/-- The bytes of a read result. -/
def ReadRes.bytes : ReadRes → Bytes
  | .data b => b
  | _ => []

/-- One operation. -/
def Conn.step (c : Conn) (a : Act) : Conn :=
  if c.failed then c
  else match a with
    | .read n k =>
      let o := pollRead n k c.state c.src
      { c with state := o.state, src := o.rest, got := c.got ++ o.res.bytes
               sent := c.sent ++ o.sent, failed := decide (o.res = .error) }
    | .write buf kp k =>
      let o := pollWrite buf kp k c.state
      { c with state := o.1
               put := c.put ++ (match o.2.1 with
                 | .wrote n => buf.take n
                 | _ => [])
               sent := c.sent ++ o.2.2, failed := decide (o.2.1 = .error) }
    | .shutdown k =>
      let o := pollShutdown k c.state
      { c with state := o.1, sent := c.sent ++ o.2.2, failed := !o.2.1 }

/-- A sequence of operations. -/
def Conn.run (c : Conn) (acts : List Act) : Conn := acts.foldl Conn.step c

end Akasa.Ws

import Verif.Model.Hook
import Verif.Model.Transfer
import Verif.Model.Write
import Verif.Model.World
/-!
# The task of a connection (`protocols/mqtt/online_loop.rs`)

`OnlineLoop` is a hand-written future: everything a connected client does happens in its `poll`.
A poll is run when the task has been woken; it is woken by the things that answered "not yet" during
the last poll (their wakers were registered then), or because the poll asked to be run again.  The
model keeps track of both.

What the world answers during a poll is given in advance (`PollIn`): the packets that can be read,
the messages in the channels, the results of the writes, and so on.
-/
namespace Akasa

/-- What can wake the task: the things `poll` may be told to wait for. -/
inductive Source where
  | hook
  | handover
  | read
  | control
  | normal
  | write
  | flush
  | shutdown
  | timer
  | sink (d : ClientId)
deriving DecidableEq, Repr

/-- `online_loop.rs:25-29`. -/
inductive Disconnected where
  | byClient
  | byServer
deriving DecidableEq, Repr

/-- `disconnected()`: `v3/message.rs:225-227`, `v5/message.rs:343-351`; a session of MQTT 3 is never
marked as disconnected by the server. -/
def Session.disconnectedBy (s : Session) : Option Disconnected :=
  if s.clientDisconnected then some .byClient
  else if s.serverDisconnected then some .byServer
  else none

/-- What a handler sees while it runs: clocks and random values, the answers of the hook, the shared
tables. -/
structure Moment where
  env : Env := {}
  ans : HookAns := {}
  after : Clock := Clock.const 0
  global : Global

/-- The result of one poll of the packet reader (`online_loop.rs:258-266`) that is not `Pending`: a
packet, with what its handling sees and whether its hook does not answer at once; bytes that are no
packet; end of the stream or an error of the transport. -/
inductive ReadItem where
  | packet (m : Moment) (size : Nat) (p : InPkt) (slow : Bool)
  | malformed
  | failed

/-- A message of the control channel as seen by a session that is online (`v3/message.rs:544-582`,
`v5/message.rs:738-815`): a connection of the same protocol asks for the session, the session is
told to stop, or nothing happens.  (`unreachable!()` of MQTT 3 for timers is left out, those are
never sent to it, C40.) -/
inductive CtlItem where
  | takeOver
  | kick
  | other
deriving DecidableEq, Repr

/-- The result of reading while the connection is drained (`online_loop.rs:632-645`). -/
inductive DrainRead where
  | eof
  | data
  | error
  | pending
deriving DecidableEq, Repr

/-- What the world answers during one poll.  Where a list ends the answer is `Pending`. -/
structure PollIn where
  /-- the pending hook has answered, and what the rest of the handling sees -/
  hook : Option Moment := none
  /-- the channel of the requester takes the session -/
  handover : Bool := false
  reads : List ReadItem := []
  controls : List CtlItem := []
  normals : List (Moment × NormalMsg) := []
  writes : List WriteRes := []
  flush : SinkPoll := .ready
  sinks : ClientId → Nat → PollRes := fun _ _ => .accept
  drainWrites : List WriteRes := []
  drainFlush : SinkPoll := .ready
  shutdown : SinkPoll := .ready
  timeUp : Bool := false
  drainRead : DrainRead := .pending

/-- `online_loop.rs:31-58`.  `hook` is the packet whose hook is running; `handover` that the session
has been asked for (`session_state_sender`; its flag is left out: it only prevents that the state is
built twice).  `packet_state` belongs to the reader.  `unflushed` is not in the code: bytes have been
given to the transport since it was last flushed. -/
structure OnlineLoop where
  out : Outgoing
  writer : Writer OutPkt := {}
  readHeld : Bool := false
  normalHeld : Bool := false
  hook : Option (Nat × InPkt) := none
  handover : Bool := false
  draining : Option Disconnected := none
  unflushed : Bool := false

/-- How the task of the connection ends: the session has been handed over, or not. -/
inductive LoopEnd where
  | takenOver
  | stopped
deriving DecidableEq, Repr

/-- Something the session handled. -/
inductive Taken where
  | packet (m : Moment) (size : Nat) (p : InPkt)
  | malformed
  | normal (m : Moment) (msg : NormalMsg)

/-- Something the session handled, and what it gave to the write queue. -/
structure Handled where
  what : Taken
  out : List OutPkt

/-- The result of a poll.  `ended = none` is `Poll::Pending`; `waits` are the things that answered
`Pending` during this poll; `woken`: the poll asked to be run again.  The other fields are for the
properties: what was handled (`log`), what was offered and not taken (`readsLeft`, `normalsLeft`),
what was put into the inboxes of other sessions (`got`), and whether the last write took only a part
of the bytes (`short`). -/
structure PollOut where
  loop : OnlineLoop
  ended : Option LoopEnd := none
  waits : List Source := []
  woken : Bool := false
  log : List Handled := []
  readsLeft : List ReadItem := []
  normalsLeft : List (Moment × NormalMsg) := []
  got : List (ClientId × NormalMsg) := []
  short : Bool := false

/-- `write_packets_max`, `online_loop.rs:88`. -/
def writePacketsMax : Nat := 16

/-- `online_loop.rs:684-695` `too_much_write_data`. -/
def tooMuchWriteData : List (WItem P) → Bool
  | [] => decide (0 ≥ writePacketsMax)
  | .data d i :: q =>
    decide ((WItem.data (P := P) d i :: q).length ≥ writePacketsMax) ||
      decide (d.length ≥ writeBatchSize)
  | .packet p :: q => decide ((WItem.packet p :: q).length ≥ writePacketsMax)

/-- The result of one of the two write loops: whether anything was written, whether the transport
answered `Pending`, whether the loop stopped after a write that took only a part. -/
structure WritePass (P : Type) where
  writer : Writer P
  wrote : Bool := false
  blocked : Bool := false
  short : Bool := false

/-- `online_loop.rs:400-444`; `online_loop.rs:577-613` if `drain`: that loop goes on after a write
that took only a part.  (It would go on for ever if the transport kept taking nothing.) -/
def Writer.pass (enc : P → Option Bytes) (drain : Bool) : List WriteRes → WritePass P → WritePass P
  | rs, a =>
    if !a.writer.live || a.writer.queue.isEmpty then a
    else
      match gather enc [] 0 a.writer.queue with
      | none => { a with writer := { a.writer with live := false } }
      | some (all, idx, rest) =>
        match rs with
        | [] => { a with writer := a.writer.put all idx rest .pending, blocked := true }
        | .pending :: _ => { a with writer := a.writer.put all idx rest .pending, blocked := true }
        | .error :: _ => { a with writer := a.writer.put all idx rest .error }
        | .wrote n :: rs =>
          let a' := { a with writer := a.writer.put all idx rest (.wrote n), wrote := true }
          if idx + n < all.length && !drain then { a' with short := true }
          else Writer.pass enc drain rs a'

/-- Whether a poll of the sink answered `Pending` in `sendMsgs`. -/
def sendBlocks (o : Nat → PollRes) : Nat → List NormalMsg → Option NormalMsg → Bool
  | k, [], slot => (pollSink (o k) slot).1 == .pending
  | k, m :: ms, slot =>
    match (pollSink (o k) slot).1 with
    | .error => false
    | .pending => true
    | .ready => if o (k + 1) = .gone then false else sendBlocks o (k + 2) ms (some m)

/-- Whether a poll of the sink answered `Pending` in `Link.visit`. -/
def Link.blocks (o : Nat → PollRes) (l : Link) : Bool :=
  if !l.flushed && l.msgs.isEmpty then (pollSink (o 0) l.slot).1 == .pending
  else sendBlocks o 0 l.msgs l.slot

/-- The sinks that answered `Pending` during a pass over all receivers. -/
def Outgoing.blocking (o : ClientId → Nat → PollRes) (w : Outgoing) : List Source :=
  (w.session.bcast.filter fun e => (w.link e).blocks (o e.1)).map fun e => .sink e.1

/-- `write_packets.push_back` / `extend` of what a handler sends. -/
def OnlineLoop.push (l : OnlineLoop) (out : List OutPkt) : OnlineLoop :=
  { l with writer := { l.writer with queue := l.writer.queue ++ out.map .packet } }

/-- The loop with another session. -/
def OnlineLoop.withSession (l : OnlineLoop) (s : Session) : OnlineLoop :=
  { l with out := { l.out with session := s } }

/-- Whether `handle_packet` calls a hook: it returns `Ok(Some(request))` (`v3/message.rs:281-360`,
`v5/message.rs:427-528`). -/
def asksHook (cfg : Config) (hooks : HookConfig) (size : Nat) (p : InPkt) : Bool :=
  decide (size ≤ cfg.maxPacketSizeServer) &&
    match p with
    | .publish _ => hooks.publish
    | .subscribe .. => hooks.subscribe
    | .unsubscribe .. => hooks.unsubscribe
    | _ => false

/-- How a part of `poll` ends: it goes on with the next part, or `poll` returns. -/
inductive Flowing where
  | on
  | back
deriving DecidableEq, Repr

/-- `poll` returns `Ready`. -/
def PollOut.stop (r : PollOut) : Flowing × PollOut := (.back, { r with ended := some .stopped })

/-- `online_loop.rs:238-313`: read from the connection.  `none` = panic. -/
def readLoop (cfg : Config) (hooks : HookConfig) (ext : HookExt) (pr : Proto) :
    List ReadItem → PollOut → Option (Flowing × PollOut)
  | items, r =>
    let l := r.loop
    let s := l.out.session
    if s.disconnected then some (.on, { r with readsLeft := items })
    else if tooMuchWriteData l.writer.queue || decide (s.bcastCnt ≥ bcastMax) then
      some (.on, { r with loop := { l with readHeld := true }, readsLeft := items })
    else
      let l := { l with readHeld := false }
      match items with
      | [] => some (.on, { r with loop := l, waits := r.waits ++ [.read], readsLeft := [] })
      | .failed :: items => some ({ r with loop := l, readsLeft := items }.stop)
      | .malformed :: items =>
        match pr with
        | .v3 => some ({ r with loop := l, readsLeft := items }.stop)
        | .v5 =>
          -- `v5/message.rs:406-423`
          let out := [.disconnect .malformedPacket]
          let l := (l.withSession { s with serverDisconnected := true }).push out
          readLoop cfg hooks ext pr items { r with loop := l, log := r.log ++ [⟨.malformed, out⟩] }
      | .packet m size p slow :: items =>
        if slow && asksHook cfg hooks size p then
          some (.back, { r with loop := { l with hook := some (size, p) }
                                waits := r.waits ++ [.hook], readsLeft := items })
        else
          match onPacketHook cfg hooks ext pr m.env m.ans m.after m.global s size p with
          | none => none
          | some res =>
            let r := { r with loop := (l.withSession res.session).push res.out
                              log := r.log ++ [⟨.packet m size p, res.out⟩] }
            if res.closed then some { r with readsLeft := items }.stop
            else readLoop cfg hooks ext pr items r

/-- `online_loop.rs:315-347`: receive control messages.  (`Ready(None)`, all senders dropped, is left
out: the shared state keeps a sender for every client it knows.) -/
def controlLoop : List CtlItem → PollOut → Flowing × PollOut
  | [], r => (.on, { r with waits := r.waits ++ [.control] })
  | .other :: items, r => controlLoop items r
  | .kick :: _, r => r.stop
  | .takeOver :: _, r => (.back, { r with loop := { r.loop with handover := true }, woken := true })

/-- `online_loop.rs:349-392`: receive normal messages. -/
def normalLoop (cfg : Config) (pr : Proto) : List (Moment × NormalMsg) → PollOut → PollOut
  | items, r =>
    let l := r.loop
    let s := l.out.session
    if s.disconnected then { r with normalsLeft := items }
    else if tooMuchWriteData l.writer.queue then
      { r with loop := { l with normalHeld := true }, normalsLeft := items }
    else
      let l := { l with normalHeld := false }
      match items with
      | [] => { r with loop := l, waits := r.waits ++ [.normal], normalsLeft := [] }
      | (m, msg) :: items =>
        let res := onNormal cfg pr m.env m.global s msg
        normalLoop cfg pr items { r with loop := (l.withSession res.session).push res.out
                                         log := r.log ++ [⟨.normal m msg, res.out⟩] }

/-- `online_loop.rs:398-459`: write to the connection and flush it.  The flag tells whether anything
was written (`have_write`).  (`shrink_to` only releases memory.) -/
def writePart (enc : OutPkt → Option Bytes) (i : PollIn) (r : PollOut) :
    Flowing × Bool × PollOut :=
  let a := Writer.pass enc false i.writes { writer := r.loop.writer }
  let r := { r with loop := { r.loop with writer := a.writer
                                          unflushed := r.loop.unflushed || a.wrote }
                    waits := r.waits ++ (if a.blocked then [.write] else [])
                    short := a.short }
  if !a.writer.live then (.back, a.wrote, { r with ended := some .stopped })
  else if a.wrote && !a.blocked then
    match i.flush with
    | .ready => (.on, a.wrote, { r with loop := { r.loop with unflushed := false } })
    | .error => (.back, a.wrote, { r with ended := some .stopped })
    | .pending => (.on, a.wrote, { r with waits := r.waits ++ [.flush] })
  else (.on, a.wrote, r)

/-- `online_loop.rs:572-646`: the connection is to be closed; write what is left, flush, shut down,
and if the server closes the connection read on for a second. -/
def drainPart (enc : OutPkt → Option Bytes) (i : PollIn) (r : PollOut) (by_ : Disconnected) :
    PollOut :=
  let stopped (r : PollOut) : PollOut := { r with ended := some .stopped }
  let waits (r : PollOut) (s : Source) : PollOut := { r with waits := r.waits ++ [s] }
  let a := Writer.pass enc true i.drainWrites { writer := r.loop.writer }
  let r := { r with loop := { r.loop with writer := a.writer
                                          unflushed := r.loop.unflushed || a.wrote } }
  if !a.writer.live then stopped r
  else if a.blocked then waits r .write
  else
    match i.drainFlush with
    | .error => stopped r
    | .pending => waits r .flush
    | .ready =>
      let r := { r with loop := { r.loop with unflushed := false } }
      match i.shutdown with
      | .error => stopped r
      | .pending => waits r .shutdown
      | .ready =>
        if by_ ≠ .byServer then stopped r
        else if i.timeUp then stopped r
        else
          let r := waits r .timer
          match i.drainRead with
          | .eof => stopped r
          | .error => stopped r
          | .data => { r with woken := true }
          | .pending => waits r .read

/-- `online_loop.rs:461-682`: pass copies to other sessions, close the connection if it is to be
closed, and decide whether to run again.  `none` = panic. -/
def lastPart (enc : OutPkt → Option Bytes) (i : PollIn) (wrote : Bool) (r : PollOut) :
    Option PollOut :=
  match r.loop.out.pass i.sinks with
  | none => none
  | some (out, got) =>
    let passed := decide (out.session.bcastCnt < r.loop.out.session.bcastCnt)
    let draining := r.loop.draining <|> out.session.disconnectedBy
    let r := { r with loop := { r.loop with out, draining }
                      got := r.got ++ got
                      waits := r.waits ++ r.loop.out.blocking i.sinks }
    match draining with
    | some d => some (drainPart enc i r d)
    | none =>
      let woken := (wrote && (r.loop.readHeld || r.loop.normalHeld)) || (passed && r.loop.readHeld)
      some { r with woken }

/-- `online_loop.rs:222-682`: everything after the hook and the hand-over. -/
def workPart (cfg : Config) (hooks : HookConfig) (ext : HookExt) (pr : Proto)
    (enc : OutPkt → Option Bytes) (i : PollIn) (r : PollOut) : Option PollOut :=
  match readLoop cfg hooks ext pr i.reads r with
  | none => none
  | some (.back, r) => some r
  | some (.on, r) =>
    match controlLoop i.controls r with
    | (.back, r) => some r
    | (.on, r) =>
      match writePart enc i (normalLoop cfg pr i.normals r) with
      | (.back, _, r) => some r
      | (.on, wrote, r) => lastPart enc i wrote r

/-- `online_loop.rs:168-682`: hand the session over if it has been asked for.  The requester waits
for the session without a limit (`state.rs:193-206`), so that its channel is not closed; the
branches for that case are left out. -/
def handoverPart (cfg : Config) (hooks : HookConfig) (ext : HookExt) (pr : Proto)
    (enc : OutPkt → Option Bytes) (i : PollIn) (r : PollOut) : Option PollOut :=
  if r.loop.handover then
    if i.handover then some { r with ended := some .takenOver }
    else some { r with waits := r.waits ++ [.handover] }
  else workPart cfg hooks ext pr enc i r

/-- `online_loop.rs:109-682` `poll`.  `enc` is the encoder of `mqtt_proto`.  `none` = panic. -/
def OnlineLoop.poll (cfg : Config) (hooks : HookConfig) (ext : HookExt) (pr : Proto)
    (enc : OutPkt → Option Bytes) (l : OnlineLoop) (i : PollIn) : Option PollOut :=
  let r : PollOut := { loop := l, readsLeft := i.reads, normalsLeft := i.normals }
  match l.hook with
  | none => handoverPart cfg hooks ext pr enc i r
  | some (size, p) =>
    match i.hook with
    | none => some { r with waits := [.hook] }
    | some m =>
      match onPacketHook cfg hooks ext pr m.env m.ans m.after m.global l.out.session size p with
      | none => none
      | some res =>
        let l := (({ l with hook := none }).withSession res.session).push res.out
        let r := { r with loop := l, log := [⟨.packet m size p, res.out⟩] }
        if res.closed then some { r with ended := some .stopped }
        else handoverPart cfg hooks ext pr enc i r

/-- Consecutive polls of a task, until it ends; the results in order.  `none` = panic. -/
def OnlineLoop.run (cfg : Config) (hooks : HookConfig) (ext : HookExt) (pr : Proto)
    (enc : OutPkt → Option Bytes) : OnlineLoop → List PollIn → Option (List PollOut)
  | _, [] => some []
  | l, i :: is =>
    match l.poll cfg hooks ext pr enc i with
    | none => none
    | some r =>
      match r.ended with
      | some _ => some [r]
      | none => (OnlineLoop.run cfg hooks ext pr enc r.loop is).map (r :: ·)

/-- `online_loop.rs:65-95` `OnlineLoop::new`. -/
def OnlineLoop.new (s : Session) : OnlineLoop := { out := { session := s } }

end Akasa

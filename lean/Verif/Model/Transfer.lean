import Verif.Model.Fanout
/-!
# Passing queued copies to the inboxes of other sessions (`protocols/mqtt/online_loop.rs:462-564`)

The queues `broadcast_packets` are `Session.bcast`; this file adds the sinks.  A sink is a
`flume::async::SendSink` into the bounded inbox of the receiver.  Assumed of `flume`: a sink holds
at most one message (`slot`) that was passed to `start_send` and has not been taken into the inbox
yet; `poll_ready` and `poll_flush` report success exactly when there is no such message, an error
only if the receiver is gone; a message taken into the inbox stays there in order; `start_send`
replaces the message held; dropping the sink drops the message held.
-/
namespace Akasa

/-- What the inbox does when a sink is polled: `accept` takes the message held, `block` does not
(the inbox is full), `gone`: the receiving side has been dropped. -/
inductive PollRes where
  | accept
  | block
  | gone
deriving DecidableEq, Repr

/-- Result of `poll_ready` / `poll_flush`. -/
inductive SinkPoll where
  | ready
  | error
  | pending
deriving DecidableEq, Repr

/-- `poll_ready` / `poll_flush` of a sink holding `slot`: the result, what is held afterwards, and
what was taken into the inbox. -/
def pollSink (o : PollRes) (slot : Option NormalMsg) :
    SinkPoll × Option NormalMsg × List NormalMsg :=
  match o with
  | .accept => (.ready, none, slot.toList)
  | .gone => (.error, slot, [])
  | .block =>
    match slot with
    | none => (.ready, none, [])
    | some m => (.pending, some m, [])

/-- `online_loop.rs:721-725` `BroadcastPackets`. -/
structure Link where
  msgs : List NormalMsg
  slot : Option NormalMsg := none
  flushed : Bool := true
deriving DecidableEq, Repr

/-- Result of visiting one receiver: `none` if its entry is dropped, how many queued copies were
consumed, what was taken into its inbox. -/
structure LinkRes where
  link : Option Link
  consumed : Nat
  got : List NormalMsg
deriving DecidableEq, Repr

/-- `online_loop.rs:502-548`: the loop over the queued copies and the final `poll_flush`.  `o k` is
what the inbox does at the `k`-th poll; `start_send` (lines 527-534) fails like a poll. -/
def sendMsgs (o : Nat → PollRes) (flushed : Bool) :
    Nat → List NormalMsg → Option NormalMsg → LinkRes
  | k, [], slot =>
    match pollSink (o k) slot with
    | (.pending, slot, got) => { link := some { msgs := [], slot, flushed := false }, consumed := 0, got }
    | (_, _, got) => { link := none, consumed := 0, got }
  | k, m :: ms, slot =>
    match pollSink (o k) slot with
    | (.error, _, got) => { link := none, consumed := 1 + ms.length, got }
    | (.pending, slot, got) =>
      { link := some { msgs := m :: ms, slot, flushed }, consumed := 0, got }
    | (.ready, _, got) =>
      if o (k + 1) = .gone then { link := none, consumed := 1 + ms.length, got }
      else
        let r := sendMsgs o flushed (k + 2) ms (some m)
        { r with consumed := 1 + r.consumed, got := got ++ r.got }

/-- `online_loop.rs:478-549`: the closure given to `retain`. -/
def Link.visit (o : Nat → PollRes) (l : Link) : LinkRes :=
  if !l.flushed && l.msgs.isEmpty then
    match pollSink (o 0) l.slot with
    | (.pending, slot, got) => { link := some { l with slot }, consumed := 0, got }
    | (_, _, got) => { link := none, consumed := l.msgs.length, got }
  else sendMsgs o l.flushed 0 l.msgs l.slot

/-- A session with the sinks of its queues: for every receiver the message held and `flushed`. -/
structure Outgoing where
  session : Session
  sinks : FMap ClientId (Option NormalMsg × Bool) := []

/-- The entry of a receiver; a new entry has an empty sink (`v5/packet/publish.rs:417-424`,
`v3/packet/publish.rs:218-225`). -/
def Outgoing.link (w : Outgoing) (e : ClientId × List NormalMsg) : Link :=
  let s := (w.sinks.get e.1).getD (none, true)
  { msgs := e.2, slot := s.1, flushed := s.2 }

/-- The number of queued copies (`online_loop.rs:472-476, 550-554`). -/
def queuedCopies (b : FMap ClientId (List NormalMsg)) : Nat := (b.map fun e => e.2.length).sum

/-- `online_loop.rs:462-564`: one pass over all receivers.  Besides the new state the messages taken
into inboxes.  `none` = the assertion of lines 556-560 fails, or `broadcast_packets_cnt` would
become negative (`consume_broadcast`, `v5/message.rs:375-377`). -/
def Outgoing.pass (o : ClientId → Nat → PollRes) (w : Outgoing) :
    Option (Outgoing × List (ClientId × NormalMsg)) :=
  let rs := w.session.bcast.map fun e => (e.1, (w.link e).visit (o e.1))
  let bcast := rs.filterMap fun r => r.2.link.map fun l => (r.1, l.msgs)
  let sinks := rs.filterMap fun r => r.2.link.map fun l => (r.1, (l.slot, l.flushed))
  let consumed := (rs.map fun r => r.2.consumed).sum
  if queuedCopies bcast + consumed ≠ queuedCopies w.session.bcast then none
  else if consumed > w.session.bcastCnt then none
  else some ({ session := { w.session with bcast, bcastCnt := w.session.bcastCnt - consumed }, sinks },
    rs.flatMap fun r => r.2.got.map fun m => (r.1, m))

/-- What happens to the queues of a publisher: copies are queued (`pushCopies`, with the clients
registered at that moment) or passed on. -/
inductive TransferAct where
  | push (registered : ClientId → Bool) (copies : List (ClientId × NormalMsg))
  | pass (o : ClientId → Nat → PollRes)

/-- One step; the list is what is taken into inboxes. -/
def Outgoing.step (w : Outgoing) : TransferAct → Option (Outgoing × List (ClientId × NormalMsg))
  | .push registered copies => some ({ w with session := w.session.pushCopies registered copies }, [])
  | .pass o => w.pass o

/-- A sequence of steps: the state and everything taken into inboxes, in order. -/
def Outgoing.run : Outgoing → List TransferAct → Option (Outgoing × List (ClientId × NormalMsg))
  | w, [] => some (w, [])
  | w, a :: as =>
    match w.step a with
    | none => none
    | some (w, got) => (w.run as).map fun r => (r.1, got ++ r.2)

/-- `v5/message.rs:943-967` (`v3/message.rs:185-200`, inline) `broadcast_packets` at the end of the
connection, for one receiver: the queued copies are sent one by one, waiting for space; `o` is what
the inbox does during that time.  A message held by the sink goes first if there are queued copies;
if there are none nobody waits for it and it is dropped with the sink unless the inbox takes it at
once. -/
def Link.finish (o : PollRes) (l : Link) : List NormalMsg :=
  match o with
  | .gone => []
  | .accept => l.slot.toList ++ l.msgs
  | .block => if l.msgs.isEmpty then [] else l.slot.toList ++ l.msgs

end Akasa

import Verif.Model.OnlineLoop
import Verif.Spec.Transfer
import Verif.Spec.Write
/-!
# What the task of a connection has to do, and what it waits for
-/
namespace Akasa

/-- The things the task of a connection is there for: take packets from the client, obey control
messages, take messages from other sessions, write to the client, flush what was written, pass
messages on to another client, close the connection. -/
inductive Chore where
  | read
  | control
  | normal
  | write
  | flush
  | pass (d : ClientId)
  | close
deriving DecidableEq, Repr

/-- Whether there is something to do (or may be as soon as somebody sends something). -/
def OnlineLoop.todo (l : OnlineLoop) : Chore → Prop
  | .read => l.out.session.disconnected = false
  | .control => True
  | .normal => l.out.session.disconnected = false
  | .write => l.writer.queue ≠ []
  | .flush => l.unflushed = true
  | .pass d => l.out.inTransit d ≠ []
  | .close => l.out.session.disconnected = true

/-- What has to become ready for a chore to go on. -/
def Chore.source : Chore → List Source
  | .read => [.read]
  | .control => [.control]
  | .normal => [.normal]
  | .write => [.write]
  | .flush => [.flush]
  | .pass d => [.sink d]
  | .close => [.write, .flush, .shutdown, .timer]

/-- The task will be woken when the chore can go on: `waits` is what the task waits for.  Reading
and taking messages may wait until what is queued for the client has been written, reading also until
messages have been passed on, flushing until everything has been written.  While a hook runs, or the
session is being handed over, everything waits for that. -/
inductive Awaits (l : OnlineLoop) (waits : List Source) : Chore → Prop
  | direct {c : Chore} {s : Source} : s ∈ c.source → s ∈ waits → Awaits l waits c
  | behindWrite {c : Chore} : c ∈ [Chore.read, .normal, .flush] → l.todo .write →
      Awaits l waits .write → Awaits l waits c
  | behindPass (d : ClientId) : l.todo (.pass d) → Awaits l waits (.pass d) → Awaits l waits .read
  | hook {c : Chore} : l.hook.isSome → .hook ∈ waits → Awaits l waits c
  | handover {c : Chore} : l.handover = true → .handover ∈ waits → Awaits l waits c

/-- After this poll nothing is forgotten: either the task has ended, or it will be run again at once,
or it will be woken for everything it has to do. -/
def PollOut.Attended (r : PollOut) (c : Chore) : Prop :=
  r.ended = none → r.woken = false → r.loop.todo c → Awaits r.loop r.waits c

/-- Everything the session sent to its client during the polls `rs`, in order. -/
def sentBy (rs : List PollOut) : List OutPkt := rs.flatMap fun r => r.log.flatMap fun h => h.out

/-- Everything the polls `rs` put into the inboxes of other sessions, in order. -/
def passedBy (rs : List PollOut) : List (ClientId × NormalMsg) := rs.flatMap fun r => r.got

/-- The packets among what can be read. -/
def readPackets (items : List ReadItem) : List (Nat × InPkt) :=
  items.filterMap fun
    | .packet _ size p _ => some (size, p)
    | _ => none

/-- The packets among what was handled. -/
def Handled.packet? : Handled → Option (Nat × InPkt)
  | ⟨.packet _ size p, _⟩ => some (size, p)
  | _ => none

/-- The messages of other sessions among what was handled. -/
def Handled.normal? : Handled → Option NormalMsg
  | ⟨.normal _ msg, _⟩ => some msg
  | _ => none

/-- What the session handled, as an event in the life of a session. -/
def Taken.event : Taken → Option (Env × Global × SessEv)
  | .packet m size p => some (m.env, m.global, .packet m.after size p)
  | .normal m msg => some (m.env, m.global, .normal msg)
  | .malformed => none

/-- The hooks, if there are any, let the packet pass unchanged and ask for nothing. -/
def Taken.unhooked : Taken → Prop
  | .packet m _ _ => m.ans = {}
  | _ => True

/-- A SUBSCRIBE packet. -/
def Taken.isSubscribe : Taken → Bool
  | .packet _ _ (.subscribe ..) => true
  | _ => false

/-- Everything the polls `rs` handled, in order. -/
def handledBy (rs : List PollOut) : List Handled := rs.flatMap fun r => r.log

/-- Copies have been passed on to other sessions (nothing of which the client notices). -/
def SessEv.isPassed : SessEv → Bool
  | .passed .. => true
  | _ => false

/-- No message is on its way from the session to others: so it is when a connection begins. -/
def Session.idle (s : Session) : Prop := s.bcast = [] ∧ s.bcastCnt = 0

/-- What the polls `rs` took of what the connection offered them (`is`), in order. -/
def takenReads (is : List PollIn) (rs : List PollOut) : List ReadItem :=
  (is.zip rs).flatMap fun x => x.1.reads.take (x.1.reads.length - x.2.readsLeft.length)

/-- What the polls `rs` took of what the inbox offered them (`is`), in order. -/
def takenNormals (is : List PollIn) (rs : List PollOut) : List (Moment × NormalMsg) :=
  (is.zip rs).flatMap fun x => x.1.normals.take (x.1.normals.length - x.2.normalsLeft.length)

/-- The packet whose hook is running after the polls `rs`. -/
def hookRunning (rs : List PollOut) : List (Nat × InPkt) :=
  (rs.getLast?.bind fun r => r.loop.hook).toList

end Akasa

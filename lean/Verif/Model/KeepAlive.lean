/-!
# Keep-alive timer (`protocols/mqtt/common.rs:9-55`)

Times are milliseconds.  `last` is the content of `last_packet_time` as a function of the time; it
is set when the session is created and by every packet (`v3/packet/common.rs:17`,
`v5/packet/common.rs:29`).
-/
namespace Akasa

/-- `common.rs:17`: half the keep-alive interval (which is in seconds). -/
def halfInterval (keepAlive : Nat) : Nat := keepAlive * 500

/-- `common.rs:26-31`: the client is left alone at time `now`. -/
def keepAliveOk (keepAlive now lastPacket : Nat) : Bool :=
  decide (now - lastPacket ≤ halfInterval keepAlive * 3)

/-- `common.rs:47-51`: the loop of the timer task from time `now` on.  Every sleep lasts half an
interval and, as the runtime may wake a task late, some more: the list holds these delays.  The
result is the time at which the task sends `Kick` (`common.rs:33-44`), `none` if it does not during
the observed sleeps. -/
def keepAliveLoop (keepAlive : Nat) (last : Nat → Nat) : Nat → List Nat → Option Nat
  | now, [] => if keepAliveOk keepAlive now (last now) then none else some now
  | now, late :: rest =>
    if keepAliveOk keepAlive now (last now) then
      keepAliveLoop keepAlive last (now + halfInterval keepAlive + late) rest
    else some now

/-- `common.rs:9-55` `start_keep_alive_timer` called at time `start`. -/
def keepAliveTimer (keepAlive : Nat) (last : Nat → Nat) (start : Nat) (lates : List Nat) :
    Option Nat :=
  if keepAlive > 0 then keepAliveLoop keepAlive last start lates else none

end Akasa

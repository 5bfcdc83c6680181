import Verif.Model.ConnHook
import Verif.Model.HookConnect
/-! # The hook of the program

`akasa/src/default_hook.rs`: the hook that the program passes to the server (`akasa/src/main.rs:113`).
Both versions of the protocol answer alike.  The lines for the log are left out. -/
namespace Akasa

/-- `akasa/src/default_hook.rs:40-54, 72-86, 101-115, 161-175, 193-207, 222-236` (before a packet)
and `akasa/src/default_hook.rs:56-70, 88-99, 117-127, 177-191, 209-220, 238-248` (after it): the
answers about packets.  `meanwhile` and `env` are not answers: they are what the other sessions do, and
the values read by actions. -/
def defaultAnswers (meanwhile : Global → Global) (env : Nat → Env) : HookAns where
  beforePublish p := some (.success, p)
  beforeSubscribe p := some (.success, p)
  beforeUnsubscribe p := some (.success, p)
  after := some []
  meanwhile := meanwhile
  env := env

/-- `akasa/src/default_hook.rs:26-38, 147-159`: the actions asked for after a connection. -/
def defaultAfterConnect : Option (List HookAction) := some []

/-- `akasa/src/default_hook.rs:17-24, 129-132, 138-145, 250-253`: the answers about connections.  What
is to be sent is taken to be written. -/
def defaultTick (act : FrontAct) : HookTick where
  act := act
  before := some .success
  after := defaultAfterConnect.isSome
  bye := true

end Akasa

import Verif.Model.Hook
/-! # The actions of the hook after a connection

`Model/ConnHook.lean` has when the hooks of connections are called, and what becomes of a connection if
they fail; this is what the hook after a connection can ask for. -/
namespace Akasa

/-- `v3/message.rs:143-150, 665-684`, `v5/message.rs:271-278, 994-1013`: what is done between CONNACK
and the online loop.  `called` is the flag of the hook before a connection, `answer` the actions that
the hook asks for (`none` = the hook fails), `meanwhile` what the other sessions do to the shared state
while the hook runs.  `none` = panic; `closed` = the connection ends with an error.  What
is to be sent is taken to be written. -/
def afterConnectHook (cfg : Config) (ext : HookExt) (pr : Proto) (called : Bool) (env : Nat → Env)
    (answer : Option (List HookAction)) (meanwhile : Global → Global) (clk : Clock) (g : Global)
    (s : Session) : Option Res :=
  if called then
    match answer with
    | none => some { session := s, global := meanwhile g, closed := true }
    | some actions =>
      match applyActions cfg ext pr env 0 (meanwhile g) s actions with
      | none => none
      | some r =>
        if r.closed then some r
        else
          let p := afterPacket pr clk r.session
          some { r with session := p.1, out := p.2 }
  else
    let p := afterPacket pr clk s
    some { session := p.1, global := g, out := p.2 }

end Akasa

import Verif.Model.Watch
/-!
# Vocabulary for C86
-/
namespace Akasa

/-- What the broker does from its start on, with the times. -/
def Clocked.Reaches (cfg : Config) (ext : Ext) (xs : List Tick) (c : Clocked)
    (log : List (Nat × Noted)) : Prop :=
  Clocked.run cfg ext {} xs = some (c, log)

/-- At this time the connection was accepted or a packet of its client was handled. -/
def HeardAt (log : List (Nat × Noted)) (t : TaskId) (time : Nat) : Prop :=
  (∃ present, (time, .event (.accepted t present)) ∈ log) ∨
  ∃ p, (time, .event (.received t p)) ∈ log

/-- With what happened until `now` (`log`): the client of the connection has been silent for more than
one and a half of its keep-alive intervals. -/
def SilentFor (log : List (Nat × Noted)) (t : TaskId) (keepAlive now : Nat) : Prop :=
  (∃ time, HeardAt log t time) ∧ ∀ time, HeardAt log t time → time + 1500 * keepAlive < now

/-- The keep-alive interval that a connection was accepted with, in seconds. -/
def Clocked.interval (c : Clocked) (t : TaskId) : Nat := (c.keep.get t).getD 0

/-- The keep-alive intervals of the CONNECT packets, in order. -/
def intervalsAsked (xs : List Tick) : List Nat :=
  xs.filterMap fun x =>
    match x with
    | .act (.connect ..) k => some k
    | _ => none

/-- The client identifier of a connection. -/
def Clocked.identifier (c : Clocked) (t : TaskId) : Option Str :=
  (c.world.tasks.get t).map fun x => x.req.identifier

/-- The timer tasks have been woken with a delay of no more than `δ`. -/
def Clocked.Punctual (c : Clocked) (δ : Nat) : Prop := ∀ v ∈ c.watches, c.now ≤ v.due + δ

/-- Before this moment (`pre`) a timer ended the connection: when it did so, the client of `t` had been
silent for one and a half of the intervals of `t`. -/
def EndedInSilence (c : Clocked) (pre : List (Nat × Noted)) (t : TaskId) : Prop :=
  ∃ before after now t' id, pre = before ++ (now, .kick t' id) :: after ∧
    SilentFor before t (c.interval t) now

/-- No other connection with the client identifier of this one has a keep-alive interval. -/
def Clocked.Alone (c : Clocked) (t : TaskId) : Prop :=
  ∀ u, c.identifier u = c.identifier t → c.interval u > 0 → u = t

end Akasa

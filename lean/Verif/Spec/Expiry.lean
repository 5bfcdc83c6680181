import Verif.Spec.World
/-!
# Vocabulary for how long messages live

A client may give a message an expiry interval.  This file says what it means that a message is sent
although its interval had passed since it was published.
-/
namespace Akasa

/-- What is read from the clocks in an act. -/
def Act.env? : Act → Option Env
  | .connect _ env _ => some env
  | .accept _ env _ => some env
  | .packet _ env _ _ _ => some env
  | .normal _ env => some env
  | .control _ env => some env
  | .close _ env _ => some env
  | _ => none

/-- The clock for the sending pass after a packet. -/
def Act.after? : Act → Option Clock
  | .packet _ _ after _ _ => some after
  | _ => none

/-- This time is read from the clock in the act. -/
def Act.Reads (a : Act) (n : Nat) : Prop :=
  (∃ env, a.env? = some env ∧
    ((∃ i j, n = env.now i j) ∨ ∃ i k, n = (env.clk i).sent k ∨ n = (env.clk i).ready k)) ∨
  ∃ after k, a.after? = some after ∧ (n = after.sent k ∨ n = after.ready k)

/-- The broker makes the acts `acts1` at the time `early` or before, and then `acts2` at the time
`late` or after.  All messages that are published are published in `acts1`, and have an expiry
interval, which has passed at the time `late`.  The PUBLISH `p` is sent in `acts2`, for the first
time, to the client of connection `t` (which made the request `req`). -/
def SentExpired (cfg : Config) (ext : Ext) (early late : Nat) (req : Request) (t : TaskId)
    (p : Publish) : Prop :=
  ∃ acts1 acts2 w1 w2 evs1 evs2 out,
    Reaches cfg ext acts1 w1 evs1 ∧ Reaches cfg ext (acts1 ++ acts2) w2 (evs1 ++ evs2) ∧
    (∀ a ∈ acts1, ∀ n, a.Reads n → n ≤ early) ∧ (∀ a ∈ acts2, ∀ n, a.Reads n → late ≤ n) ∧
    published evs2 = [] ∧
    (∀ e ∈ published evs1, ∃ v, e.2.props.messageExpiry = some v ∧ early + v ≤ late) ∧
    .sent t out ∈ evs2 ∧ .publish p ∈ out ∧ p.dup = false ∧ w2.request t = some req

end Akasa

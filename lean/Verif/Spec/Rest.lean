import Verif.Spec.Life
/-!
# What a client still has to answer
-/
namespace Akasa

/-- A packet that the client has to answer: a PUBLISH with QoS 1 or 2 (by PUBACK or PUBREC), or a
PUBREL (by PUBCOMP). -/
inductive Owed where
  | publish (pid : Pid)
  | pubrel (pid : Pid)
deriving DecidableEq, Repr

/-- What the client has to answer after it got this packet. -/
def OutPkt.owed : OutPkt → List Owed
  | .publish w =>
    match w.qosPid with
    | .level0 => []
    | .level1 pid => [.publish pid]
    | .level2 pid => [.publish pid]
  | .pubrel pid _ => [.pubrel pid]
  | _ => []

/-- What the client has to answer on its present connection: one more event.  Every answer counts
for one packet. -/
def Obs.owed (l : List Owed) : Obs → List Owed
  | .connected _ _ => []
  | .received (.puback pid) => l.erase (.publish pid)
  | .received (.pubrec pid) => l.erase (.publish pid)
  | .received (.pubcomp pid) => l.erase (.pubrel pid)
  | .sent o => l ++ o.owed
  | _ => l

/-- See `Obs.owed`. -/
def owedIn (obs : List Obs) : List Owed := obs.foldl Obs.owed []

/-- The clock shows at least `t` when it is asked what is due, and is not at 0 (1 January 1970) when
something is sent. -/
def Clock.Late (t : Nat) (clk : Clock) : Prop := ∀ k, t ≤ clk.ready k ∧ 0 < clk.sent k

/-- All clocks of an act of the broker show a time after this one (in seconds since 1970). -/
def Act.late (t : Nat) : Act → Prop
  | .packet _ env after _ _ => (∀ i, (env.clk i).Late t) ∧ after.Late t
  | .normal _ env => ∀ i, (env.clk i).Late t
  | .control _ env => ∀ i, (env.clk i).Late t
  | .accept _ env _ => ∀ i, (env.clk i).Late t
  | _ => True

/-- The same for an event of a session that is alone. -/
def lateEv (t : Nat) (e : Env × Global × SessEv) : Prop :=
  match e.2.2 with
  | .packet after _ _ => (∀ i, (e.1.clk i).Late t) ∧ after.Late t
  | .normal _ => ∀ i, (e.1.clk i).Late t
  | .resume _ => ∀ i, (e.1.clk i).Late t
  | _ => True

/-- The packet gives the client this message (perhaps again). -/
def Gives (pr : Proto) (p : PubPacket) (o : OutPkt) : Prop :=
  ∃ pid dup expiry, Carries pr (.publish pid p dup expiry) o

/-- Everything seen of a session that is alone since its first connection. -/
def seenOf (c : ConnParams) (recs : List Rec) : List Obs :=
  .connected false c :: recs.flatMap Rec.obs

end Akasa

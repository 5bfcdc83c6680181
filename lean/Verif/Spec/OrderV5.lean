import Verif.Spec.Life
/-!
# The order of messages to MQTT 5 clients

In MQTT 5 queued messages expire, so what is sent depends on the clock.  This file says what it
means that the clock never goes back during a run, and where a PUBLISH to an MQTT 5 client comes
from.
-/
namespace Akasa

/-- All readings of a sending pass are between these times. -/
def Between (lo hi : Nat) (clk : Clock) : Prop := ∀ k, lo ≤ clk.sent k ∧ clk.sent k ≤ hi

/-- The readings in a step.  If a packet is handled there is a sending pass for each filter of a
SUBSCRIBE and one pass after the packet (`after`), one later than the other: the pass `i` takes
place between the times `b i` and `b (i + 1)`. -/
def StepTimes (lo hi : Nat) (env : Env) : Option Clock → Prop
  | none => Between lo hi (env.clk 0)
  | some after => ∃ (b : Nat → Nat) (last : Nat), lo ≤ b 0 ∧
      (∀ i, Between (b i) (b (i + 1)) (env.clk i) ∧ b i ≤ last) ∧ Between last hi after

/-- The readings in an act of the broker are between these times. -/
def Act.times (lo hi : Nat) : Act → Prop
  | .packet _ env after _ _ => StepTimes lo hi env (some after)
  | .normal _ env => StepTimes lo hi env none
  | .accept _ env _ => StepTimes lo hi env none
  | _ => True

/-- The clock does not go back from one act to the next; the last reading is at most `hi`. -/
def TimesUpTo : Nat → List Act → Nat → Prop
  | lo, [], hi => lo ≤ hi
  | lo, a :: acts, hi => ∃ mid, lo ≤ mid ∧ a.times lo mid ∧ TimesUpTo mid acts hi

/-- The clock never goes back. -/
def Forward (acts : List Act) : Prop := ∃ hi, TimesUpTo 0 acts hi

/-- The same for the events of a session that is alone. -/
def evTimes (lo hi : Nat) (e : Env × Global × SessEv) : Prop :=
  match e.2.2 with
  | .packet after _ _ => StepTimes lo hi e.1 (some after)
  | .normal _ => StepTimes lo hi e.1 none
  | .resume _ => StepTimes lo hi e.1 none
  | _ => True

/-- The same for the events of a session that is alone. -/
def EvsUpTo : Nat → List (Env × Global × SessEv) → Nat → Prop
  | lo, [], hi => lo ≤ hi
  | lo, e :: evs, hi => ∃ mid, lo ≤ mid ∧ evTimes lo mid e ∧ EvsUpTo mid evs hi

/-- The packet has this topic, or an alias instead (that it stands for the right topic is C24). -/
def Publish.about (w : Publish) (topic : Str) : Prop :=
  w.topic = topic ∨ (w.topic = [] ∧ w.props.topicAlias ≠ none)

/-- The packet on an MQTT 5 connection is this message: a copy from a task, or else a message that
was published with the retain flag. -/
def ComesFromV5 (evs : List Event) : Origin → OutPkt → Prop
  | none, .publish w => ∃ e ∈ published evs, e.2.retain = true ∧ w.about e.2.topic ∧
      w.payload = e.2.payload ∧ w.qosPid.qos ≤ e.2.qos
  | some (_, m), .publish w =>
    w.about m.topic ∧ w.payload = m.payload ∧ w.qosPid.qos = min m.qos m.granted ∧
      (w.retain = true → m.retain = true) ∧
      w.props = { m.props with
        messageExpiry := w.props.messageExpiry
        subscriptionIds := w.props.subscriptionIds
        topicAlias := w.props.topicAlias }
  | _, _ => False

end Akasa

import Verif.Spec.Topic
import Verif.Model.FMap
namespace Akasa

/-- MQTT QoS levels 0, 1, 2 (`mqtt_proto::QoS`), ordered as numbers. -/
abbrev QoS := Fin 3

/-- Internal client id, `akasa-core/src/state.rs:267-268` (`ClientId(u64)`; no overflow modelled). -/
abbrev ClientId := Nat

/-- `akasa-core/src/protocols/mqtt/route.rs:284-291` `split_topic`: split at the first '/'. -/
def splitTopic : Str → Str × Option Str
  | [] => ([], none)
  | c :: cs =>
    if c = '/' then ([], some cs)
    else ((c :: (splitTopic cs).1), (splitTopic cs).2)

/-- `MATCH_ALL_STR` of `mqtt_proto`. -/
def matchAll : Str := ['#']
/-- `MATCH_ONE_STR` of `mqtt_proto`. -/
def matchOne : Str := ['+']

/-- Remaining length of an `Option<&str>` cursor (termination measure only). -/
def cursorLen : Option Str → Nat
  | none => 0
  | some s => s.length + 1

theorem splitTopic_cursorLen (s : Str) : cursorLen (splitTopic s).2 < s.length + 1 := by
  induction s with
  | nil => simp [splitTopic, cursorLen]
  | cons c cs ih =>
    unfold splitTopic
    split
    · simp [cursorLen]
    · simp only [List.length_cons]; omega

end Akasa

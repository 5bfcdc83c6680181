/-!
# Topic names, topic filters and matching — the MQTT specification (section 4.7)

Independent of the implementation: a topic is a string, its levels are the pieces between '/',
and a filter matches a topic by the rules of MQTT 3.1.1 / 5.0 section 4.7.
-/
namespace Akasa

/-- Strings as lists of characters. -/
abbrev Str := List Char

/-- The levels of a topic name or filter: the pieces between the '/' characters (4.7.1.1). -/
def levels : Str → List Str
  | [] => [[]]
  | c :: cs =>
    if c = '/' then [] :: levels cs
    else match levels cs with
      | [] => [[c]]
      | l :: ls => (c :: l) :: ls

/-- A topic name contains no wildcard characters (4.7.1, enforced by `mqtt_proto::TopicName`). -/
def ValidTopic (t : Str) : Prop := '#' ∉ t ∧ '+' ∉ t

/-- Levels of a valid filter: '#' only as the whole last level, '+' only as a whole level
(4.7.1.2, 4.7.1.3, enforced by `mqtt_proto::TopicFilter`). -/
def ValidFilterLevels : List Str → Prop
  | [] => True
  | l :: ls =>
    (l = ['+'] ∨ (l = ['#'] ∧ ls = []) ∨ ('#' ∉ l ∧ '+' ∉ l)) ∧ ValidFilterLevels ls

/-- A valid topic filter. -/
def ValidFilter (f : Str) : Prop := ValidFilterLevels (levels f)

instance decidableValidFilterLevels : (ls : List Str) → Decidable (ValidFilterLevels ls)
  | [] => .isTrue trivial
  | _ :: ls => @instDecidableAnd _ _ inferInstance (decidableValidFilterLevels ls)

instance (f : Str) : Decidable (ValidFilter f) := decidableValidFilterLevels (levels f)

/-- Level-wise matching: `LevelsMatch filterLevels topicLevels`. -/
inductive LevelsMatch : List Str → List Str → Prop
  /-- both exhausted -/
  | done : LevelsMatch [] []
  /-- '#' matches any number of remaining levels, including none (so also the parent) -/
  | hash (ts : List Str) : LevelsMatch [['#']] ts
  /-- '+' matches exactly one level -/
  | plus (t : Str) {fs ts : List Str} : LevelsMatch fs ts → LevelsMatch (['+'] :: fs) (t :: ts)
  /-- an ordinary level matches itself -/
  | same (l : Str) {fs ts : List Str} : LevelsMatch fs ts → LevelsMatch (l :: fs) (l :: ts)

/-- A filter matches a topic name (4.7.1 and 4.7.2: filters beginning with a wildcard do not
match topic names beginning with '$'). -/
def Matches (f t : Str) : Prop :=
  LevelsMatch (levels f) (levels t) ∧
    ¬ (t.head? = some '$' ∧ (f.head? = some '+' ∨ f.head? = some '#'))

/-- A shared-subscription filter `$share/<group>/<filter>` is split into group and filter
(4.8.2; provided by `mqtt_proto::TopicFilter::shared_info`, which is assumed to behave so). -/
def sharedInfo (f : Str) : Option (Str × Str) :=
  match f with
  | '$' :: 's' :: 'h' :: 'a' :: 'r' :: 'e' :: '/' :: rest =>
    match levels rest with
    | g :: _ :: _ => some (g, rest.drop (g.length + 1))
    | _ => none
  | _ => none

end Akasa

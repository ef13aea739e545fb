import Verif.Grain.Event

/-!
# The contents of generated event grains

Models `hypothesis/strategies.py` 75-81, 111-116 and 544-624: the type, the topic and the items of the event grains that
`event_grains` draws. The other attributes are in `Verif/Hypothesis/Strategies.lean`. A strategy is the set of the values that can be
drawn from it.

Simplifications: `from_regex`, `integers`, `booleans`, `fractions` and `timestamps` are taken from the documentation of their
libraries. `from_regex` draws texts in which the expression is found, and `$` also matches before a newline at the end of the text.
Arguments are the values JSON has.
-/

namespace Verif.Hyp.Events

open Verif Verif.Json Verif.Event

abbrev Strategy := J → Prop

/-- What is given for a parameter: `None`, `DONOTSET`, a strategy, or anything else. -/
inductive Param where
  | none
  | donotset
  | strategy (s : Strategy)
  | value (v : J)

/-- The texts that `from_regex(r'^…$')` draws for an expression that fits the texts in `P`. -/
def fromRegex (P : Str → Prop) : Strategy := fun v => ∃ t, P t ∧ (v = .str t ∨ v = .str (t ++ [10]))

/-- `[a-zA-Z0-9_\-]`. -/
def wordChar (c : Nat) : Bool :=
  (97 ≤ c && c ≤ 122) || (65 ≤ c && c ≤ 90) || (48 ≤ c && c ≤ 57) || c == 95 || c == 45

/-- The expression of lines 112 and 114: one or more of `[a-zA-Z0-9_\-]`, then any number of these and of slashes. -/
def pathText (t : Str) : Prop :=
  ∃ a b : Str, t = a ++ b ∧ a ≠ [] ∧ (∀ c ∈ a, wordChar c = true) ∧ ∀ c ∈ b, (wordChar c || c == 47) = true

/-- `[a-z0-9]`. -/
def lowChar (c : Nat) : Bool := (97 ≤ c && c ≤ 122) || (48 ≤ c && c ≤ 57)

/-- `urn:[a-z0-9][a-z0-9-]{0,31}:[a-z0-9()+,\-.:=@;$_!*'%/?#]+`, line 111. -/
def urnText (t : Str) : Prop :=
  ∃ (a : Nat) (b c : Str), t = lit "urn:" ++ (a :: b) ++ lit ":" ++ c ∧ lowChar a = true ∧ b.length ≤ 31 ∧
    (∀ x ∈ b, (lowChar x || x == 45) = true) ∧ c ≠ [] ∧ ∀ x ∈ c, (lowChar x || (lit "()+,-.:=@;$_!*'%/?#").contains x) = true

/-- `fraction_dicts()`, lines 75-81. -/
def fractionDicts : Strategy := fun v =>
  ∃ q : Rat, v = .obj [(lit "numerator", .int q.num), (lit "denominator", .int q.den)]

/-- `timestamps().map(str)`: seconds and nanoseconds with a colon between them. -/
def timestampTexts : Strategy := fun v => ∃ n : Nat, v = .str (natDigits (n / 1000000000) ++ 58 :: natDigits (n % 1000000000))

/-- `one_of(integers(), booleans(), fraction_dicts(), timestamps().map(str))`, lines 115-116. -/
def itemValue : Strategy := fun v => (∃ n : Int, v = .int n) ∨ (∃ b, v = .bool b) ∨ fractionDicts v ∨ timestampTexts v

/-- The default strategy for `event_data`, lines 113-116. -/
def eventData : Strategy := fun v => ∃ l : List J, v = .arr l ∧ ∀ d ∈ l, ∃ path pre post,
  d = .obj [(lit "path", path), (lit "pre", pre), (lit "post", post)] ∧ fromRegex pathText path ∧ itemValue pre ∧ itemValue post

/-- `_grain_strategy` for one attribute (lines 144-152) with its default strategy; `none` if no argument is passed on. -/
def strategyFor (default : Strategy) : Param → Option Strategy
  | .none => some default
  | .donotset => Option.none
  | .strategy s => some s
  | .value v => some (fun x => x = v)

/-- `datum[key]`: on a text or a list with a text as the key it is a `TypeError`. -/
def index (d : J) (k : String) : Except EErr J :=
  match d with
  | .obj l => match lookup l (lit k) with
    | some v => .ok v
    | none => .error .key
  | _ => .error .type

/-- The loop of lines 610-611. -/
def fill (p : Payload) : List J → Except EErr Payload
  | [] => .ok p
  | d :: ds =>
    match index d "path", index d "pre", index d "post" with
    | .ok path, .ok pre, .ok post => fill (append p path pre post) ds
    | .error e, _, _ => .error e
    | _, .error e, _ => .error e
    | _, _, .error e => .error e

/-- `event_grain`, lines 589-612: the payload of the grain that it makes. `none` is an argument that is missing, a `TypeError`. -/
def eventGrain (type topic data : Option J) : Except EErr Payload :=
  match type, topic, data with
  | some type, some topic, some data =>
    match iterate data with
    | .error e => .error e
    | .ok ds => fill ⟨type, topic, []⟩ ds
  | _, _, _ => .error .type

/-- What is drawn for an argument. -/
def Drawn (s : Option Strategy) (v : Option J) : Prop :=
  match s with
  | none => v = none
  | some s => ∃ x, s x ∧ v = some x

/-- What may happen when `event_grains(event_type=type, topic=topic, event_data=data)` is drawn from (lines 544-624). -/
def eventGrains (type topic data : Param) (r : Except EErr Payload) : Prop :=
  ∃ t o d, Drawn (strategyFor (fromRegex urnText) type) t ∧ Drawn (strategyFor (fromRegex pathText) topic) o ∧
    Drawn (strategyFor eventData data) d ∧ r = eventGrain t o d

/-- The bytes that `grains_from_template_with_data` draws for an event grain, line 530: as many as the text of its payload has. -/
def templateData (p : Payload) (b : Bytes) : Prop := b.length = (getData p).length

/-- `grains_from_template_with_data(grain)` for an event grain, lines 496-541: the bytes are assigned to a copy. -/
def fromTemplate (p : Payload) (r : Payload × Except EErr Unit) : Prop := ∃ b, templateData p b ∧ r = setData p (.bytes b)

end Verif.Hyp.Events

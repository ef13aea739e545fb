import Verif.Grain.New
import Verif.Compare.Model

/-!
# Strategies that generate grains

Models `hypothesis/strategies.py`. A strategy is the set of the values that can be drawn from it; `builds(f, **strategies)` draws
one value from each and calls `f` with them (from the documentation of hypothesis).

Simplifications: the strategies `timestamps()`, `fractions(…)` and `from_regex(…)` of the libraries are taken from their
documentation; for texts the regular expression is left out (any text). The `event_data` of event grains are in
`Verif/Hypothesis/Events.lean`. A list of unit offsets among the attributes is an opaque value, see `unitOffsets` for its contents.
-/

namespace Verif.Hyp

open Verif.Attrs Verif.New
open Verif.Meta (Dict GClass)

abbrev Strategy := A → Prop

/-- What is given for a parameter: `None`, `DONOTSET`, a strategy, or anything else. -/
inductive Param where
  | none
  | donotset
  | strategy (s : Strategy)
  | value (v : A)

/-- `integers(min_value=lo, max_value=hi)`. -/
def integers (lo hi : Nat) : Strategy := fun a => ∃ n : Nat, lo ≤ n ∧ n ≤ hi ∧ a = .int n

def just (v : A) : Strategy := fun a => a = v

/-- `sampled_from(enum).filter(f)`. -/
def sampledFrom (vals : List Nat) (f : Nat → Bool) : Strategy := fun a => ∃ n ∈ vals, f n = true ∧ a = .enum (n : Nat)

/-- `shrinking_uuids`, lines 70-72. -/
def shrinkingUuids : Strategy := fun a => ∃ u : Bytes, u.length = 16 ∧ a = .uuid u

/-- `immutabletimestamps()` of mediatimestamp. -/
def timestamps : Strategy := fun a => ∃ n : Int, 0 ≤ n ∧ a = .ts n

/-- `fractions(min_value=0, max_value=200)`. -/
def fractions : Strategy := fun a => ∃ q : Rat, 0 ≤ q ∧ q ≤ 200 ∧ a = .frac q

def texts : Strategy := fun a => ∃ s, a = .str s

def booleans : Strategy := fun a => ∃ b, a = .bool b

/-- `_format_strategy`, lines 91-103; `none` is the `ValueError`. -/
def formatStrategy : GClass → Option Strategy
  | .audio => some (sampledFrom Cog.AudioFormat.all (fun x => decide (x < 0x200)))
  | .codedAudio => some (sampledFrom Cog.AudioFormat.all (fun x => x &&& 0x200 != 0 && x != Cog.AudioFormat.INVALID))
  | .video => some (sampledFrom Cog.FrameFormat.all (fun x => (x >>> 9) &&& 0x1 == 0))
  | .codedVideo => some (sampledFrom Cog.FrameFormat.all (fun x => x &&& 0x200 != 0 && x != Cog.FrameFormat.INVALID))
  | _ => none

/-- `strategy_for_grain_attribute`, lines 84-139. -/
def strategyFor (c : GClass) (attr : String) : Option Strategy :=
  match attr with
  | "src_id" => some shrinkingUuids
  | "flow_id" => some shrinkingUuids
  | "origin_timestamp" => some timestamps
  | "sync_timestamp" => some timestamps
  | "creation_timestamp" => some timestamps
  | "rate" => some fractions
  | "duration" => some fractions
  | "event_type" => some texts
  | "topic" => some texts
  | "cog_audio_format" => formatStrategy c
  | "cog_frame_format" => formatStrategy c
  | "samples" => some (integers 1 16)
  | "channels" => some (integers 1 16)
  | "sample_rate" => some (fun a => a = .int 48000 ∨ a = .int 44100)
  | "width" => some (just (.int 240))
  | "height" => some (just (.int 135))
  | "cog_frame_layout" => some (sampledFrom Cog.FrameLayout.all (fun x => x != Cog.FrameLayout.UNKNOWN))
  | "priming" => some (integers 0 65535)
  | "remainder" => some (integers 0 256)
  | "coded_width" => some (just (.int 240))
  | "coded_height" => some (just (.int 135))
  | "origin_width" => some (just (.int 240))
  | "origin_height" => some (just (.int 135))
  | "is_key_frame" => some booleans
  | "temporal_offset" => some (integers 0 16)
  | "unit_offsets" => some (fun a => a = .none ∨ ∃ n, a = .other n)
  | _ => none

/-- The lists that `lists(integers(min_value=0, max_value=256), min_size=0, max_size=16).filter(sorted)` draws, lines 133-134:
`filter` keeps the values for which the function is true, and a list is true if it is not empty. -/
def unitOffsets (l : List Nat) : Prop :=
  l.length ≤ 16 ∧ (∀ n ∈ l, n ≤ 256) ∧ (l.mergeSort).isEmpty = false

/-- `new_attributes_for_grain_type`, `Grain.py` 138-168, without `event_data`. -/
def attributes (c : GClass) : List String :=
  ["src_id", "flow_id", "origin_timestamp", "sync_timestamp", "creation_timestamp", "rate", "duration"] ++
    match c with
    | .event => ["event_type", "topic"]
    | .audio => ["cog_audio_format", "samples", "channels", "sample_rate"]
    | .codedAudio => ["cog_audio_format", "samples", "channels", "sample_rate", "priming", "remainder"]
    | .codedVideo => ["cog_frame_format", "coded_width", "coded_height", "cog_frame_layout", "origin_width", "origin_height",
        "is_key_frame", "temporal_offset", "unit_offsets"]
    | .video => ["cog_frame_format", "width", "height", "cog_frame_layout"]
    | .grain => []

/-- `_grain_strategy`, lines 142-154: the strategies for the arguments of the builder. -/
def grainStrategy (c : GClass) (kwargs : String → Option Param) : List String → Except AErr (List (String × Strategy))
  | [] => .ok []
  | k :: ks =>
    match grainStrategy c kwargs ks with
    | .error e => .error e
    | .ok rest =>
      match kwargs k with
      | some .donotset => .ok rest
      | some (.strategy s) => .ok ((k, s) :: rest)
      | some (.value v) => .ok ((k, just v) :: rest)
      | _ =>
        match strategyFor c k with
        | some s => .ok ((k, s) :: rest)
        | none => .error .value

/-- The parameters of `empty_grains` (157-163), `audio_grains` (201-211), `coded_audio_grains` (261-273), `video_grains` (328-338),
`coded_video_grains` (386-401) and `event_grains` (544-553), with their defaults. -/
def parameters (c : GClass) : List (String × Param) :=
  [("src_id", .none), ("flow_id", .none), ("creation_timestamp", .none), ("origin_timestamp", .none), ("sync_timestamp", .none),
    ("rate", .donotset), ("duration", .donotset)] ++
    match c with
    | .grain => []
    | .audio => [("format", .none), ("samples", .none), ("channels", .none), ("sample_rate", .none)]
    | .codedAudio => [("format", .none), ("samples", .none), ("channels", .none), ("priming", .donotset), ("remainder", .donotset),
        ("sample_rate", .none)]
    | .video => [("format", .none), ("width", .none), ("height", .none), ("cog_frame_layout", .none)]
    | .codedVideo => [("format", .none), ("coded_width", .none), ("coded_height", .none), ("cog_frame_layout", .none),
        ("origin_width", .none), ("origin_height", .none), ("is_key_frame", .none), ("temporal_offset", .none), ("unit_offsets", .none)]
    | .event => [("event_type", .none), ("topic", .none)]

/-- The parameters that are passed on to `_grain_strategy` under the same name: all, but `creation_timestamp` of
`coded_audio_grains` (lines 313-325). -/
def passed (c : GClass) : List String :=
  ((parameters c).map Prod.fst).filter (fun k => !(c = .codedAudio && k = "creation_timestamp"))

/-- Arguments of `event_grains` that are not set (lines 584-587). -/
def preset (c : GClass) (k : String) (p : Param) : Param :=
  match c, k, p with
  | .event, "rate", .donotset => .value (.frac 25)
  | .event, "duration", .donotset => .value (.frac (1 / 25))
  | _, _, p => p

/-- What a function passes on to `_grain_strategy`. -/
def kwargs (c : GClass) (given : List (String × Param)) (k : String) : Option Param :=
  if k ∈ passed c then some (preset c k ((given.lookup k).getD (((parameters c).lookup k).getD .none))) else none

/-- `empty_grains(…)` and so on: the strategies for the arguments of the constructor. A parameter that the function does not have is
a `TypeError`. -/
def strategyOf (c : GClass) (given : List (String × Param)) : Except AErr (List (String × Strategy)) :=
  if (given.all (fun p => ((parameters c).map Prod.fst).contains p.1)) then grainStrategy c (kwargs c given) (attributes c)
  else .error .type

/-- What the values are given to: the constructor, or for event grains the function `event_grain` (lines 589-612), which has no
optional parameters. -/
def builder (lib : Lib) (now : Int) (c : GClass) (args : Args) : Except AErr Made :=
  if c = .event ∧ ¬ (∀ k ∈ attributes c, k ∈ args.map Prod.fst) then .error .type else make lib now c args none

/-- The values that `builds` may draw. -/
def Draw : List (String × Strategy) → Args → Prop
  | [], [] => True
  | s :: ss, p :: ps => s.1 = p.1 ∧ s.2 p.2 ∧ Draw ss ps
  | _, _ => False

/-! ## Data -/

/-- The bits of a number that `floats(width=…, allow_nan=False, allow_infinity=False, min_value=0.0)` draws; the size is in bytes. -/
def FiniteFloat (size bits : Nat) : Prop :=
  bits < 2 ^ (8 * size - 1) ∧ bits / 2 ^ Compare.mantissa size < 2 ^ (8 * size - 1 - Compare.mantissa size) - 1

/-- A number in little-endian order: `struct.pack('@f', x)` and `'@d'` on a little-endian machine. -/
def packFloat (size bits : Nat) : Bytes := encodeUint bits size

def floatFormats : List Nat := [Cog.AudioFormat.FLOAT_PLANES, Cog.AudioFormat.FLOAT_PAIRS, Cog.AudioFormat.FLOAT_INTERLEAVED]

def doubleFormats : List Nat := [Cog.AudioFormat.DOUBLE_PLANES, Cog.AudioFormat.DOUBLE_PAIRS, Cog.AudioFormat.DOUBLE_INTERLEAVED]

/-- `lists(floats(…), min_size=ln, max_size=ln).map(struct.pack)` with `ln = expected_length // size`. -/
def Floats (size expected : Nat) (b : Bytes) : Prop :=
  ∃ l : List Nat, l.length = expected / size ∧ (∀ x ∈ l, FiniteFloat size x) ∧ b = l.flatMap (packFloat size)

/-- The data that `grains_from_template_with_data` draws for an audio grain, lines 504-528. -/
def audioData (fmt channels samples : Nat) (b : Bytes) : Prop :=
  let expected := Cog.sizeForAudioFormat fmt channels samples
  if fmt ∈ floatFormats then Floats 4 expected b
  else if fmt ∈ doubleFormats then Floats 8 expected b
  else b.length = expected

/-- The data that it draws for other grains, line 530: `grain.length` is the length of the data that are there. -/
def otherData (data : Option Bytes) (b : Bytes) : Prop := b.length = (data.getD []).length

end Verif.Hyp

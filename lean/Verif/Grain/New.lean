import Verif.Grain.Attrs
import Verif.Cog.Sizes

/-!
# Making grains from arguments

Models the constructors called without metadata: `GrainFactory` (`grains/Grain.py` 58-122), `VideoGrain` (`VideoGrain.py`
247-447), `AudioGrain` (`AudioGrain.py` 102-174), `CodedVideoGrain` (`CodedVideoGrain.py` 107-210), `CodedAudioGrain`
(`CodedAudioGrain.py` 94-179) and `EventGrain` (`EventGrain.py` 104-176). The constructors called with metadata are in
`Grain/Meta`.

Simplifications: arguments are given by keyword; the data argument is a byte string or missing, and for event grains it is
missing (given data is parsed as in `Grain/Event`); negative sizes are left out (an error here); lists among the metadata are
kept as opaque values, the components of video grains beside the metadata.
-/

namespace Verif.New

open Verif.Attrs
open Verif.Meta (Dict put dflt GClass)
open Verif.Json (Str)

/-- The text of a literal. -/
def lit (s : String) : Str := s.toList.map Char.toNat

/-- A dictionary display. -/
def dictOf (l : List (String × T)) : Dict T := fun k => l.lookup k

/-- Arguments given by keyword. -/
abbrev Args := List (String × A)

/-- The parameters that all constructors have, but `meta` and `data`, with their default values. -/
def common (rate duration : Rat) : List (String × A) :=
  [("src_id", .none), ("flow_id", .none), ("origin_timestamp", .none), ("sync_timestamp", .none), ("creation_timestamp", .none),
    ("rate", .frac rate), ("duration", .frac duration)]

/-- The parameters of the constructors; `.grain` stands for `GrainFactory`. -/
def params : GClass → List (String × A)
  | .grain => common 0 0
  | .video => common 25 (1 / 25) ++ [("cog_frame_format", .enum Cog.FrameFormat.UNKNOWN), ("width", .int 1920), ("height", .int 1080),
      ("cog_frame_layout", .enum Cog.FrameLayout.UNKNOWN)]
  | .audio => common 25 (1 / 25) ++ [("cog_audio_format", .enum Cog.AudioFormat.INVALID), ("samples", .int 0), ("channels", .int 0),
      ("sample_rate", .int 48000)]
  | .codedVideo => common 25 (1 / 25) ++ [("cog_frame_format", .enum Cog.FrameFormat.UNKNOWN), ("origin_width", .int 1920),
      ("origin_height", .int 1080), ("coded_width", .none), ("coded_height", .none), ("is_key_frame", .none), ("temporal_offset", .none),
      ("length", .none), ("cog_frame_layout", .enum Cog.FrameLayout.UNKNOWN), ("unit_offsets", .none)]
  | .codedAudio => common 25 (1 / 25) ++ [("cog_audio_format", .enum Cog.AudioFormat.INVALID), ("samples", .int 0), ("channels", .int 0),
      ("priming", .int 0), ("remainder", .int 0), ("sample_rate", .int 48000), ("length", .none)]
  | .event => common 25 (1 / 25) ++ [("event_type", .str []), ("topic", .str [])]

/-- The value of a parameter. -/
def val (c : GClass) (args : Args) (k : String) : A :=
  match args.lookup k with
  | some v => v
  | none => ((params c).lookup k).getD .none

/-- `grain_type` of the metadata. -/
def typeName : GClass → String
  | .grain => "empty"
  | .video => "video"
  | .audio => "audio"
  | .codedVideo => "coded_video"
  | .codedAudio => "coded_audio"
  | .event => "event"

/-- The checks on `src_id` and `flow_id`: `GrainFactory` requires them (`Grain.py` 78-86), the classes accept `None`. The text that is
stored. -/
def idText (lib : Lib) (c : GClass) : A → Except AErr Str
  | .uuid u => .ok (lib.text (.uuid u))
  | .none => if c = .grain then .error .attr else .ok (lib.text .none)
  | _ => .error .attr

/-- `str(mediatimestamp(x))`; what does not convert to a timestamp is refused by the library. -/
def tsText (lib : Lib) : A → Except AErr Str
  | .ts n => .ok (lib.text (.ts n))
  | _ => .error .type

/-- The creation timestamp: `CodedAudioGrain.py` 124 tests the truth, the others test for `None`. -/
def creation (lib : Lib) (now : Int) (c : GClass) (v : A) : A :=
  if c = .codedAudio then (if lib.truth v then v else .ts now)
  else if v = .none then .ts now else v

/-- `x if x is not None else y`. -/
def orElse (x y : A) : A := if x = .none then y else x

/-- An argument that is used as a size. -/
def natOf : A → Except AErr Nat
  | .int n => if 0 ≤ n then .ok n.toNat else .error .value
  | .enum n => if 0 ≤ n then .ok n.toNat else .error .value
  | .bool b => .ok b.toNat
  | _ => .error .type

/-- An entry that is made only if the value is not `None` (`CodedVideoGrain.py` 168-171 and 176-177). -/
def optional (k : String) : A → List (String × T)
  | .none => []
  | v => [(k, .leaf v)]

/-- The dictionary of a class in the metadata. -/
def own : GClass → (String → A) → List (String × T)
  | .grain, _ => []
  | .video, v => [("cog_frame", .dict (dictOf [("format", .leaf (v "cog_frame_format")), ("width", .leaf (v "width")),
      ("height", .leaf (v "height")), ("layout", .leaf (v "cog_frame_layout")), ("extension", .leaf (.int 0)),
      ("components", .leaf (.other 0))]))]
  | .audio, v => [("cog_audio", .dict (dictOf [("format", .leaf (v "cog_audio_format")), ("samples", .leaf (v "samples")),
      ("channels", .leaf (v "channels")), ("sample_rate", .leaf (v "sample_rate"))]))]
  | .codedVideo, v => [("cog_coded_frame", .dict (dictOf ([("format", .leaf (v "cog_frame_format")),
      ("origin_width", .leaf (v "origin_width")), ("origin_height", .leaf (v "origin_height")),
      ("coded_width", .leaf (orElse (v "coded_width") (v "origin_width"))),
      ("coded_height", .leaf (orElse (v "coded_height") (v "origin_height"))), ("layout", .leaf (v "cog_frame_layout"))] ++
      optional "is_key_frame" (v "is_key_frame") ++ optional "temporal_offset" (v "temporal_offset") ++
      optional "unit_offsets" (v "unit_offsets"))))]
  | .codedAudio, v => [("cog_coded_audio", .dict (dictOf [("format", .leaf (v "cog_audio_format")), ("samples", .leaf (v "samples")),
      ("channels", .leaf (v "channels")), ("priming", .leaf (v "priming")), ("remainder", .leaf (v "remainder")),
      ("sample_rate", .leaf (v "sample_rate"))]))]
  | .event, v => [("event_payload", .dict (dictOf [("type", .leaf (v "event_type")), ("topic", .leaf (v "topic")),
      ("data", .leaf (.other 0))]))]

/-- `{'numerator': Fraction(x).numerator, 'denominator': Fraction(x).denominator}`. -/
def fracText (lib : Lib) (v : A) : Except AErr T :=
  match toFrac lib v with
  | .ok q => .ok (fracDict q)
  | .error e => .error e

/-- The metadata that is made of the arguments. -/
def newMeta (lib : Lib) (now : Int) (c : GClass) (args : Args) : Except AErr (Dict T) := do
  let v := val c args
  let src ← idText lib c (v "src_id")
  let flow ← idText lib c (v "flow_id")
  let cts := creation lib now c (v "creation_timestamp")
  let ots := orElse (v "origin_timestamp") cts
  let sts := orElse (v "sync_timestamp") ots
  let ots ← tsText lib ots
  let sts ← tsText lib sts
  let cts ← tsText lib cts
  let rate ← fracText lib (v "rate")
  let duration ← fracText lib (v "duration")
  return dictOf ([("grain_type", .leaf (.str (lit (typeName c)))), ("source_id", .leaf (.str src)), ("flow_id", .leaf (.str flow)),
    ("origin_timestamp", .leaf (.str ots)), ("sync_timestamp", .leaf (.str sts)), ("creation_timestamp", .leaf (.str cts)),
    ("rate", rate), ("duration", duration)] ++ own c v)

/-- `d[k] = int(d[k])`. -/
def intAt (lib : Lib) (k : String) (d : Dict T) : Except AErr (Dict T) :=
  match d k with
  | some (.leaf a) =>
    match toInt lib a with
    | .ok n => .ok (put d k (.leaf (.int n)))
    | .error e => .error e
  | some (.dict _) => .error .type
  | none => .error .key

/-- What the constructors do after `super().__init__`; all keys are there but `length` of coded video. `Grain.__init__` finds
every key and only texts, so it leaves the metadata as they are. -/
def finish (lib : Lib) (c : GClass) (g : Dict T) : Except AErr (Dict T) :=
  match Meta.specOf c with
  | none => .ok g
  | some s => do
    let d ← home g (some s.key)
    let d := if c = .codedVideo then dflt d "length" (.leaf (.int 0)) else d
    let d ← s.ints.foldlM (fun d k => intAt lib k d) d
    return put (put g "grain_type" (.leaf (.str (lit (typeName c))))) s.key (.dict d)

/-- A new grain. -/
structure Made where
  grain : Dict T
  components : List Cog.Component
  data : Option Bytes

def zeros (n : Nat) : Bytes := List.replicate n 0

/-- The data: what was given, or zeros of the size for the format (`VideoGrain.py` 335-337, `AudioGrain.py` 152-154), or of the size
given (`CodedVideoGrain.py` 133-137 and 173-174, `CodedAudioGrain.py` 112-116 and 156-157). `GrainFactory` drops it (`Grain.py` 110). -/
def newData (c : GClass) (args : Args) (data : Option Bytes) : Except AErr (Option Bytes) :=
  let v := val c args
  match c with
  | .grain => .ok none
  | .event => .ok none
  | .video =>
    match data with
    | some b => .ok (some b)
    | none => do
      return some (zeros (Cog.sizeForFormat (← natOf (v "cog_frame_format")) (← natOf (v "width")) (← natOf (v "height"))))
  | .audio =>
    match data with
    | some b => .ok (some b)
    | none => do
      return some (zeros (Cog.sizeForAudioFormat (← natOf (v "cog_audio_format")) (← natOf (v "channels")) (← natOf (v "samples"))))
  | _ =>
    match data with
    | some b => .ok (some b)
    | none => do
      return some (zeros (← if v "length" = .none then .ok 0 else natOf (v "length")))

/-- `VideoGrain.py` 428-431. -/
def newComponents (c : GClass) (args : Args) : Except AErr (List Cog.Component) :=
  let v := val c args
  match c with
  | .video => do
    return Cog.componentsForFormat (← natOf (v "cog_frame_format")) (← natOf (v "width")) (← natOf (v "height"))
  | _ => .ok []

/-- The constructor of a class. Arguments that it does not have are a `TypeError`; `GrainFactory` ignores them. -/
def make (lib : Lib) (now : Int) (c : GClass) (args : Args) (data : Option Bytes) : Except AErr Made := do
  if c ≠ .grain ∧ ¬ (∀ p ∈ args, p.1 ∈ (params c).map Prod.fst) then
    throw .type
  let g ← newMeta lib now c args
  let b ← newData c args data
  let cs ← newComponents c args
  let g ← finish lib c g
  return ⟨g, cs, b⟩

end Verif.New

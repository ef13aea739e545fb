import Verif.Cog.Enums
import Verif.Grain.Meta
import Verif.Grain.Json

/-!
# The attributes of grains

Models the properties through which the metadata of a grain is read and changed: `grains/Grain.py` 412-530,
`VideoGrain.py` 450-532, `AudioGrain.py` 180-218, `CodedVideoGrain.py` 214-315, `CodedAudioGrain.py` 184-235,
`EventGrain.py` 206-222. The list-like attributes are in `Grain/Seqs`, the payload of events in `Grain/Event`, the times
derived from several attributes in `Grain/Times`.

Simplifications: only the dictionary under `grain` is there (no attribute is stored elsewhere), each dictionary is a map
without order; the text forms of identifiers, times and fractions are parameters (`Lib`), they belong to other
libraries; deprecation warnings are left out.
-/

namespace Verif.Attrs

open Verif.Meta (Dict put GClass)
open Verif.Json (Str)

/-- Python values that are given to setters, kept in the metadata and returned by getters. -/
inductive A where
  | none
  | bool (b : Bool)
  | int (n : Int)
  /-- A member of one of the `IntEnum` classes. -/
  | enum (n : Int)
  | str (s : Str)
  | uuid (u : Bytes)
  /-- A `Timestamp`, or something that converts to one. -/
  | ts (ns : Int)
  /-- Something that converts to a `TimeOffset` only. -/
  | offset (ns : Int)
  | frac (q : Rat)
  | other (n : Nat)
  deriving DecidableEq, Repr

/-- What a key of a dictionary holds. -/
inductive T where
  | leaf (a : A)
  | dict (d : String → Option T)

inductive AErr where
  | key | value | type | attr | zero
  deriving DecidableEq, Repr

/-- What is used of other libraries and of python's conversions. -/
structure Lib where
  /-- `str(x)` -/
  text : A → Str
  /-- `UUID(s)` -/
  uuidOf : Str → Option Bytes
  /-- `to_sec_nsec()` of the timestamp of `n` nanoseconds -/
  tsText : Int → Str
  offsetText : Int → Str
  /-- `Timestamp.from_tai_sec_nsec(s)` -/
  tsOf : Str → Option Int
  /-- `Fraction(s)` of a text -/
  fracOf : Str → Option Rat
  /-- `int(s)` of a text -/
  intOf : Str → Option Int
  /-- `bool(x)` -/
  truth : A → Bool

/-- The ways in which properties are stored. -/
inductive Kind where
  /-- kept as text, read with `UUID` (`Grain.py` 424-447) -/
  | uuid
  /-- kept as text, read with `Timestamp.from_tai_sec_nsec` (448-454, 487-501) -/
  | time
  /-- kept as a dictionary with numerator and denominator (503-526) -/
  | frac
  /-- kept as a number, read as member of the enumeration with these values -/
  | enum (vals : List Nat)
  /-- kept as it is -/
  | plain
  /-- kept as `int(value)` (`AudioGrain.py` 196-218) -/
  | int
  /-- as it is, `None` when the key is missing, removed by setting `None` (`CodedVideoGrain.py` 276-288) -/
  | optPlain
  /-- the same with `bool(value)` (`CodedVideoGrain.py` 262-274) -/
  | optBool
  /-- a fraction, `None` when the key is missing (`CodedVideoGrain.py` 290-315, `VideoGrain.py` 506-532) -/
  | optFrac
  deriving DecidableEq, Repr

/-- A property: its name, the dictionary that has it (`none`: the one under `grain`), the key in there. -/
structure Attr where
  name : String
  sub : Option String
  key : String
  kind : Kind
  deriving DecidableEq, Repr

/-! ## The dictionaries -/

/-- `del d[k]`. -/
def del (d : Dict T) (k : String) : Dict T := fun x => if x = k then Option.none else d x

/-- `self.meta['grain']` or `self.meta['grain'][sub]`. -/
def home (g : Dict T) : Option String → Except AErr (Dict T)
  | Option.none => .ok g
  | some s =>
    match g s with
    | some (.dict d) => .ok d
    | some (.leaf _) => .error .type
    | Option.none => .error .key

/-- The metadata with the dictionary at that place replaced. -/
def place (g : Dict T) (s : Option String) (d : Dict T) : Dict T :=
  match s with
  | Option.none => d
  | some s => put g s (.dict d)

/-! ## Conversions -/

/-- `Fraction(d['numerator'], d['denominator'])`. -/
def readFrac : T → Except AErr A
  | .leaf _ => .error .type
  | .dict d =>
    match d "numerator", d "denominator" with
    | some (.leaf (.int n)), some (.leaf (.int m)) => if m = 0 then .error .zero else .ok (.frac (Rat.divInt n m))
    | some _, some _ => .error .type
    | _, _ => .error .key

/-- `Fraction(value)`. -/
def toFrac (lib : Lib) : A → Except AErr Rat
  | .bool b => .ok (if b then 1 else 0)
  | .int n => .ok n
  | .enum n => .ok n
  | .frac q => .ok q
  | .str s => match lib.fracOf s with | some q => .ok q | Option.none => .error .value
  | _ => .error .type

/-- `{'numerator': value.numerator, 'denominator': value.denominator}`. -/
def fracDict (q : Rat) : T :=
  .dict (put (put (fun _ => Option.none) "numerator" (.leaf (.int q.num))) "denominator" (.leaf (.int q.den)))

/-- `int(value)`. -/
def toInt (lib : Lib) : A → Except AErr Int
  | .bool b => .ok (if b then 1 else 0)
  | .int n => .ok n
  | .enum n => .ok n
  | .frac q => .ok (if 0 ≤ q then q.floor else -((-q).floor))
  | .str s => match lib.intOf s with | some q => .ok q | Option.none => .error .value
  | _ => .error .type

/-- `_stringify_timestamp_input` (`Grain.py` 125-134). -/
def timeText (lib : Lib) : A → Except AErr Str
  | .ts n => .ok (lib.tsText n)
  | .offset n => .ok (lib.offsetText n)
  | .str s => .ok s
  | _ => .error .value

/-- A value kept in a dictionary, when it is no dictionary. -/
def readLeaf : T → Except AErr A
  | .leaf a => .ok a
  | .dict _ => .ok (.other 0)

/-- The enumeration with values `vals`, called with what is kept. -/
def readEnum (vals : List Nat) : T → Except AErr A
  | .leaf (.int n) => if 0 ≤ n ∧ n.toNat ∈ vals then .ok (.enum n) else .error .value
  | .leaf (.enum n) => if 0 ≤ n ∧ n.toNat ∈ vals then .ok (.enum n) else .error .value
  | _ => .error .value

/-- `UUID(x)`: anything but a text has no `replace`. -/
def readUuid (lib : Lib) : T → Except AErr A
  | .leaf (.str s) => match lib.uuidOf s with | some u => .ok (.uuid u) | Option.none => .error .value
  | _ => .error .attr

/-- `Timestamp.from_tai_sec_nsec(x)`. -/
def readTime (lib : Lib) : T → Except AErr A
  | .leaf (.str s) => match lib.tsOf s with | some n => .ok (.ts n) | Option.none => .error .value
  | _ => .error .attr

/-! ## Getters and setters -/

/-- What the getter makes of what is at the key. -/
def Kind.read (lib : Lib) : Kind → Option T → Except AErr A
  | .uuid, some t => readUuid lib t
  | .time, some t => readTime lib t
  | .frac, some t => readFrac t
  | .enum vals, some t => readEnum vals t
  | .plain, some t => readLeaf t
  | .int, some t => readLeaf t
  | .optPlain, some t => readLeaf t
  | .optBool, some t => readLeaf t
  | .optFrac, some t => readFrac t
  | .optPlain, Option.none => .ok .none
  | .optBool, Option.none => .ok .none
  | .optFrac, Option.none => .ok .none
  | _, Option.none => .error .key

/-- What the setter puts at the key; `none`: it removes the key. -/
def Kind.write (lib : Lib) : Kind → A → Except AErr (Option T)
  | .uuid, v => .ok (some (.leaf (.str (lib.text v))))
  | .time, v => (timeText lib v).map (fun s => some (.leaf (.str s)))
  | .frac, v => (toFrac lib v).map (fun q => some (fracDict q))
  | .enum _, v => (toInt lib v).map (fun n => some (.leaf (.int n)))
  | .plain, v => .ok (some (.leaf v))
  | .int, v => (toInt lib v).map (fun n => some (.leaf (.int n)))
  | .optPlain, .none => .ok Option.none
  | .optPlain, v => .ok (some (.leaf v))
  | .optBool, .none => .ok Option.none
  | .optBool, v => .ok (some (.leaf (.bool (lib.truth v))))
  | .optFrac, v => (toFrac lib v).map (fun q => some (fracDict q))

/-- `x = grain.name`. -/
def get (lib : Lib) (a : Attr) (g : Dict T) : Except AErr A :=
  match home g a.sub with
  | .error e => .error e
  | .ok d => a.kind.read lib (d a.key)

/-- `grain.name = v`: the new metadata, or the exception (nothing is changed then). -/
def set (lib : Lib) (a : Attr) (v : A) (g : Dict T) : Except AErr (Dict T) :=
  match a.kind.write lib v with
  | .error e => .error e
  | .ok (some t) =>
    match home g a.sub with
    | .error e => .error e
    | .ok d => .ok (place g a.sub (put d a.key t))
  | .ok Option.none =>
    match home g a.sub with
    | .error .key => .ok g
    | .error e => .error e
    | .ok d => .ok (place g a.sub (del d a.key))

/-! ## The properties of the classes -/

def grainAttrs : List Attr :=
  [⟨"grain_type", none, "grain_type", .plain⟩, ⟨"source_id", none, "source_id", .uuid⟩,
   ⟨"src_id", none, "source_id", .uuid⟩, ⟨"flow_id", none, "flow_id", .uuid⟩,
   ⟨"origin_timestamp", none, "origin_timestamp", .time⟩, ⟨"sync_timestamp", none, "sync_timestamp", .time⟩,
   ⟨"creation_timestamp", none, "creation_timestamp", .time⟩, ⟨"rate", none, "rate", .frac⟩,
   ⟨"duration", none, "duration", .frac⟩]

def videoAttrs : List Attr :=
  [⟨"format", "cog_frame", "format", .enum Cog.FrameFormat.all⟩,
   ⟨"cog_frame_format", "cog_frame", "format", .enum Cog.FrameFormat.all⟩,
   ⟨"width", "cog_frame", "width", .plain⟩, ⟨"height", "cog_frame", "height", .plain⟩,
   ⟨"layout", "cog_frame", "layout", .enum Cog.FrameLayout.all⟩,
   ⟨"cog_frame_layout", "cog_frame", "layout", .enum Cog.FrameLayout.all⟩,
   ⟨"extension", "cog_frame", "extension", .plain⟩,
   ⟨"source_aspect_ratio", "cog_frame", "source_aspect_ratio", .optFrac⟩,
   ⟨"pixel_aspect_ratio", "cog_frame", "pixel_aspect_ratio", .optFrac⟩]

def audioAttrs : List Attr :=
  [⟨"format", "cog_audio", "format", .enum Cog.AudioFormat.all⟩,
   ⟨"cog_audio_format", "cog_audio", "format", .enum Cog.AudioFormat.all⟩,
   ⟨"samples", "cog_audio", "samples", .int⟩, ⟨"channels", "cog_audio", "channels", .int⟩,
   ⟨"sample_rate", "cog_audio", "sample_rate", .int⟩]

def codedVideoAttrs : List Attr :=
  [⟨"format", "cog_coded_frame", "format", .enum Cog.FrameFormat.all⟩,
   ⟨"cog_frame_format", "cog_coded_frame", "format", .enum Cog.FrameFormat.all⟩,
   ⟨"layout", "cog_coded_frame", "layout", .enum Cog.FrameLayout.all⟩,
   ⟨"cog_frame_layout", "cog_coded_frame", "layout", .enum Cog.FrameLayout.all⟩,
   ⟨"origin_width", "cog_coded_frame", "origin_width", .plain⟩,
   ⟨"origin_height", "cog_coded_frame", "origin_height", .plain⟩,
   ⟨"coded_width", "cog_coded_frame", "coded_width", .plain⟩,
   ⟨"coded_height", "cog_coded_frame", "coded_height", .plain⟩,
   ⟨"is_key_frame", "cog_coded_frame", "is_key_frame", .optBool⟩,
   ⟨"temporal_offset", "cog_coded_frame", "temporal_offset", .optPlain⟩,
   ⟨"source_aspect_ratio", "cog_coded_frame", "source_aspect_ratio", .optFrac⟩,
   ⟨"pixel_aspect_ratio", "cog_coded_frame", "pixel_aspect_ratio", .optFrac⟩]

def codedAudioAttrs : List Attr :=
  [⟨"format", "cog_coded_audio", "format", .enum Cog.AudioFormat.all⟩,
   ⟨"cog_audio_format", "cog_coded_audio", "format", .enum Cog.AudioFormat.all⟩,
   ⟨"channels", "cog_coded_audio", "channels", .plain⟩, ⟨"samples", "cog_coded_audio", "samples", .plain⟩,
   ⟨"priming", "cog_coded_audio", "priming", .plain⟩, ⟨"remainder", "cog_coded_audio", "remainder", .plain⟩,
   ⟨"sample_rate", "cog_coded_audio", "sample_rate", .plain⟩]

def eventAttrs : List Attr :=
  [⟨"event_type", "event_payload", "type", .plain⟩, ⟨"topic", "event_payload", "topic", .plain⟩]

/-- The properties of a class; all classes have those of `Grain`. -/
def attrs : GClass → List Attr
  | .grain => grainAttrs
  | .video => grainAttrs ++ videoAttrs
  | .audio => grainAttrs ++ audioAttrs
  | .codedVideo => grainAttrs ++ codedVideoAttrs
  | .codedAudio => grainAttrs ++ codedAudioAttrs
  | .event => grainAttrs ++ eventAttrs

end Verif.Attrs

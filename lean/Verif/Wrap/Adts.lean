import Verif.Wrap.Raw

/-!
# Wrapping ADTS AAC

Model of `mediagrains/utils/adts_aac_parser.py` (18-68) and `mediagrains/utils/adts_aac_grain_wrapper.py` (46-110).
-/

namespace Verif.Wrap.Adts

open Verif Verif.IO.Stream

/-- `SAMPLE_FREQUENCIES`, `adts_aac_parser.py` 19. -/
def sampleFrequencies : List Nat :=
  [96000, 88200, 64000, 48000, 44100, 32000, 24000, 22050, 16000, 12000, 11025, 8000, 7350]

/-- `CHANNEL_COUNTS`, line 20. -/
def channelCounts : List Nat := [0, 1, 2, 3, 4, 5, 6, 8]

/-- `FrameInfo`, lines 23-29. -/
structure Info where
  frameSize : Nat
  objectType : Nat
  sampleRate : Nat
  channels : Nat
deriving DecidableEq, Repr

/-- The error of a step: `ValueError` or `EOFError`. -/
inductive Fail
  | value
  | eof
deriving DecidableEq, Repr

/-- `frame_data[i]` as an integer; only used when `i` is in range. -/
def at' (d : Bytes) (i : Nat) : Nat := (d.getD i 0).toNat

/-- `ADTSAACParser.parse_header`, lines 33-68. `none` is `ValueError`: too few bytes (42-43), no sync word (44-45), or an
index outside a table (65-66). -/
def parseHeader (d : Bytes) : Option Info :=
  if d.length < 7 then none
  else if at' d 0 ≠ 0xff ∨ at' d 1 &&& 0xf0 ≠ 0xf0 then none
  else
    let objectType := (at' d 2 >>> 6) &&& 0x03
    match sampleFrequencies[(at' d 2 >>> 2) &&& 0x0f]? with
    | none => none
    | some sampleRate =>
      match channelCounts[((at' d 2 &&& 0x01) <<< 2) ||| ((at' d 3 >>> 6) &&& 0x03)]? with
      | none => none
      | some channels =>
        some ⟨((at' d 3 &&& 0x03) <<< 11) ||| (at' d 4 <<< 3) ||| ((at' d 5 >>> 5) &&& 0x07), objectType, sampleRate, channels⟩

/-- `input_data.read(n)` for any integer. -/
abbrev Src (σ : Type) := Int → σ → Except Fail Bytes × σ

/-- A file opened with `open(name, "rb")`: `-1` reads to the end, smaller sizes are refused. -/
def file : Src Bytes := fun n left =>
  if n < -1 then (.error .value, left) else if n = -1 then (.ok left, []) else (.ok (left.take n.toNat), left.drop n.toNat)

/-- `io.BytesIO`: every negative size reads to the end. -/
def mem : Src Bytes := fun n left =>
  if n < 0 then (.ok left, []) else (.ok (left.take n.toNat), left.drop n.toNat)

/-- `InputStreamWrapper.read`, `mediagrains/tools/_file_or_pipe.py` 30-44: a size below `-1` reads nothing. -/
def stdin : Src Pipe := fun n p =>
  if n = -1 then (.ok p.left, ⟨[], p.limits⟩)
  else
    let r := readLoop n.toNat p n.toNat
    match r.1 with
    | none => (.error .eof, r.2)
    | some b => (.ok b, r.2)

/-- How the generator ends. -/
inductive Ending
  | done
  | raised (e : Fail)
deriving DecidableEq, Repr

def Ending.ofExcept : Fail → Ending := .raised

/-- `_frames`, `adts_aac_grain_wrapper.py` 46-61. A round takes at least seven bytes or ends, so a bound on the rounds above
the length of the input is never reached. -/
def frames {σ : Type} (read : Src σ) : Nat → σ → List (Bytes × Info) × Ending
  | 0, _ => ([], .done)
  | f + 1, s =>
    match read 7 s with
    | (.error e, _) => ([], .raised e)
    | (.ok h, s1) =>
      if h = [] then ([], .done)
      else
        match parseHeader h with
        | none => ([], .raised .value)
        | some i =>
          match read ((i.frameSize : Int) - h.length) s1 with
          | (.error e, _) => ([], .raised e)
          | (.ok b, s2) => ((h ++ b, i) :: (frames read f s2).1, (frames read f s2).2)

/-- All frames of an input. -/
def framesOfFile (input : Bytes) : List (Bytes × Info) × Ending := frames file (input.length + 1) input
def framesOfMem (input : Bytes) : List (Bytes × Info) × Ending := frames mem (input.length + 1) input
def framesOfStdin (input : Bytes) (limits : List Nat) : List (Bytes × Info) × Ending :=
  frames stdin (input.length + 1) ⟨input, limits⟩

/-- `Timestamp.to_count(num, den)` of `mediatimestamp`: the nearest unit. -/
def toCount (num den : Nat) (t : Int) : Int := (2 * t * num + 1000000000 * den) / (2 * 1000000000 * den)

/-- `Timestamp.normalise(num, den)`: to the start of the nearest unit. -/
def normalise (num den : Nat) (t : Int) : Int := fromCount num den (toCount num den t)

/-- A grain of the wrapper. -/
structure Out where
  origin : Int
  sync : Int
  data : Bytes
  channels : Nat
  sampleRate : Nat
  samples : Nat
  /-- `Fraction(sample_rate, samples)` -/
  rate : Nat × Nat
deriving DecidableEq, Repr

/-- `grains`, lines 63-110, without the ending, which is that of `_frames`: channels and sampling rate are those of the
first frame, samples are those of the template or 1024. A template with zero samples divides by zero at line 86 and is not
covered. -/
def grains (origin : Int) (samples : Option Nat) (fs : List (Bytes × Info)) : List Out :=
  match fs with
  | [] => []
  | (_, i) :: _ =>
    let n := samples.getD 1024
    (fs.zipIdx).map (fun x =>
      let t := normalise i.sampleRate 1 (atRate i.sampleRate n (normalise i.sampleRate 1 origin) x.2)
      ⟨t, t, x.1.1, i.channels, i.sampleRate, n, (i.sampleRate, n)⟩)

end Verif.Wrap.Adts

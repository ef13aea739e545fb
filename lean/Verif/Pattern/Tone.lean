import Verif.Bytes
import Verif.Cog.Sizes

/-!
# The tone generator

Models `mediagrains/patterngenerators/audio/abc.py` and `audio/tone.py`.
-/

namespace Verif.Pattern

open Verif.Cog

/-- A `Tone` (tone.py 31-84). The table of values `round(sin(2*n*pi*f/rate) * volume * 2**k)` is any function `wave` for the formats of
whole numbers; for the floating point formats `float n` is the packed value. Simplification: the frequency is not negative and the
sample rate is not 0. -/
structure Tone where
  samples : Nat
  channels : Nat
  fmt : Nat
  rate : Nat
  freq : Nat
  wave : Nat → Int
  float : Nat → Bytes

/-- Lines 54-62. -/
def Tone.looplen (t : Tone) : Nat := if t.freq = 0 then 1 else if t.rate % t.freq = 0 then t.rate / t.freq else t.rate

/-- The formats accepted, lines 67-84. -/
def toneFormats : List Nat :=
  [AudioFormat.S16_PLANES, AudioFormat.S16_PAIRS, AudioFormat.S16_INTERLEAVED, AudioFormat.S24_PLANES, AudioFormat.S24_PAIRS,
   AudioFormat.S24_INTERLEAVED, AudioFormat.S32_PLANES, AudioFormat.S32_PAIRS, AudioFormat.S32_INTERLEAVED, AudioFormat.FLOAT_PLANES,
   AudioFormat.FLOAT_PAIRS, AudioFormat.FLOAT_INTERLEAVED, AudioFormat.DOUBLE_PLANES, AudioFormat.DOUBLE_PAIRS,
   AudioFormat.DOUBLE_INTERLEAVED]

inductive Depth where
  | s16 | s24 | s32 | float | double
deriving DecidableEq, Repr

/-- Lines 91-115. -/
def depthOf (fmt : Nat) : Option Depth :=
  if fmt ∈ [AudioFormat.S16_PLANES, AudioFormat.S16_PAIRS, AudioFormat.S16_INTERLEAVED] then some .s16
  else if fmt ∈ [AudioFormat.S24_PLANES, AudioFormat.S24_PAIRS, AudioFormat.S24_INTERLEAVED] then some .s24
  else if fmt ∈ [AudioFormat.S32_PLANES, AudioFormat.S32_PAIRS, AudioFormat.S32_INTERLEAVED] then some .s32
  else if fmt ∈ [AudioFormat.FLOAT_PLANES, AudioFormat.FLOAT_PAIRS, AudioFormat.FLOAT_INTERLEAVED] then some .float
  else if fmt ∈ [AudioFormat.DOUBLE_PLANES, AudioFormat.DOUBLE_PAIRS, AudioFormat.DOUBLE_INTERLEAVED] then some .double
  else none

inductive Layout where
  | planes | pairs | interleaved
deriving DecidableEq, Repr

/-- Lines 117-139. -/
def layoutOf (fmt : Nat) : Option Layout :=
  if fmt ∈ [AudioFormat.S16_PLANES, AudioFormat.S24_PLANES, AudioFormat.S32_PLANES, AudioFormat.FLOAT_PLANES, AudioFormat.DOUBLE_PLANES] then
    some .planes
  else if fmt ∈ [AudioFormat.S16_PAIRS, AudioFormat.S24_PAIRS, AudioFormat.S32_PAIRS, AudioFormat.FLOAT_PAIRS, AudioFormat.DOUBLE_PAIRS] then
    some .pairs
  else if fmt ∈ [AudioFormat.S16_INTERLEAVED, AudioFormat.S24_INTERLEAVED, AudioFormat.S32_INTERLEAVED, AudioFormat.FLOAT_INTERLEAVED,
      AudioFormat.DOUBLE_INTERLEAVED] then
    some .interleaved
  else none

/-- `struct.pack` of one value, lines 149-158, on a little-endian machine; `none` is `struct.error`. -/
def Tone.pack (t : Tone) (d : Depth) (n : Nat) : Option Bytes :=
  match d with
  | .s16 => if -(2 ^ 15) ≤ t.wave n ∧ t.wave n < 2 ^ 15 then some (encodeSint (t.wave n) 2) else none
  | .s24 => if -(2 ^ 31) ≤ t.wave n ∧ t.wave n < 2 ^ 31 then some ((encodeSint (t.wave n) 4).take 3) else none
  | .s32 => if -(2 ^ 31) ≤ t.wave n ∧ t.wave n < 2 ^ 31 then some (encodeSint (t.wave n) 4) else none
  | .float => some (t.float n)
  | .double => some (t.float n)

/-- Lines 141-147: the indices in the table of the values to be packed. -/
def Tone.line (t : Tone) (l : Layout) (offs : Nat) : List Nat :=
  let line := (List.range t.samples).map (fun i => (offs + i) % t.looplen)
  match l with
  | .planes => (List.replicate t.channels line).flatten
  | .pairs => (List.replicate (t.channels / 2) (line.flatMap (fun x => List.replicate 2 x))).flatten
  | .interleaved => line.flatMap (fun x => List.replicate t.channels x)

/-- `_get_samples` without the memory of earlier calls. `none` is an exception: `struct.pack` needs `samples*channels` values, except
for 24 bits where the values are packed one by one. -/
def Tone.compute (t : Tone) (offs : Nat) : Option Bytes :=
  match depthOf t.fmt, layoutOf t.fmt with
  | some d, some l =>
    if d ≠ .s24 ∧ (t.line l offs).length ≠ t.samples * t.channels then none
    else ((t.line l offs).mapM (t.pack d)).map List.flatten
  | _, _ => none

/-- `data_samples`, line 65. -/
abbrev Cache := List (Nat × Bytes)

/-- `_get_samples`, lines 86-160. -/
def Tone.getSamples (t : Tone) (c : Cache) (offs : Nat) : Option (Cache × Bytes) :=
  match c.lookup offs with
  | some b => some (c, b)
  | none => (t.compute offs).map (fun b => ((offs, b) :: c, b))

/-- What `get` does: no grain, an exception, or a grain with its position (in samples) and data. -/
inductive Got where
  | nothing
  | raises
  | grain (position : Int) (data : Bytes)
deriving DecidableEq, Repr

/-- `get`, lines 162-183: `position` is `TimeValue(key, rate=sample_rate).as_count()`. -/
def Tone.get (t : Tone) (c : Cache) (position : Int) : Cache × Got :=
  if position % t.samples ≠ 0 then (c, .nothing)
  else
    match t.getSamples c (position % t.looplen).toNat with
    | none => (c, .raises)
    | some (c', b) => (c', .grain position (b.take (sizeForAudioFormat t.fmt t.channels t.samples)))

/-- Several calls one after another. -/
def Tone.calls (t : Tone) (c : Cache) : List Int → Cache × List Got
  | [] => (c, [])
  | p :: ps =>
    let r := t.get c p
    let rs := t.calls r.1 ps
    (rs.1, r.2 :: rs.2)

end Verif.Pattern

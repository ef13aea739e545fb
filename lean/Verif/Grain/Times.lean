/-!
# The times of grains

Model of the time methods of `mediagrains/grains/Grain.py` (lines 456-486) and of what the subclasses put in their place:
`AudioGrain.py` 176-177 and 223-228, `CodedAudioGrain.py` 181-182 and 240-245, `VideoGrain.py` 545-550, `CodedVideoGrain.py`
409-444.

Timestamps and offsets are whole nanoseconds. The library `mediatimestamp` is not part of the repository; what is used of it is
a parameter, and what is assumed of it is `TimeLib.Lawful`.
-/

namespace Verif.Times

/-- What is used of `mediatimestamp`: `from_count` for a positive rate, and `normalise`. -/
structure TimeLib where
  fromCount : Rat → Int → Int
  normalise : Rat → Int → Int

/-- A time of `mediatimestamp` that is nearest from below: the library as it is documented. Used in examples. -/
def floorLib : TimeLib :=
  ⟨fun r c => c * 1000000000 * r.den / r.num, fun r t => (2 * t * r.num / r.den + 1000000000) / 2000000000 * 1000000000 * r.den / r.num⟩

/-- What is assumed of `from_count`: the result is less than a nanosecond away from `count / rate` seconds, and rounded down
when `count` is not negative. -/
structure TimeLib.Lawful (L : TimeLib) : Prop where
  near : ∀ (r : Rat) (c : Int), 0 < r.num → (L.fromCount r c - 1) * r.num < c * 1000000000 * r.den ∧
    c * 1000000000 * r.den < (L.fromCount r c + 1) * r.num
  down : ∀ (r : Rat) (c : Int), 0 < r.num → 0 ≤ c → L.fromCount r c * r.num ≤ c * 1000000000 * r.den

/-- `from_count`: `none` is the exception for a rate that is not positive. -/
def TimeLib.count (L : TimeLib) (r : Rat) (c : Int) : Option Int := if 0 < r.num then some (L.fromCount r c) else none

/-- What the classes differ in. Both audio classes are `audio`; `plain` is `Grain` and `EventGrain`. -/
inductive TBody where
  | plain
  | video
  | codedVideo (temporal : Option Int)
  | audio (samples : Int) (sampleRate : Nat)
deriving DecidableEq, Repr

/-- A grain as far as its times go. -/
structure TGrain where
  origin : Int
  rate : Rat
  body : TBody
deriving DecidableEq, Repr

/-- `TimeRange(start, end, INCLUSIVE)`: the times from the first to the second; one that ends before it starts is empty. -/
structure Range where
  start : Int
  stop : Int
deriving DecidableEq, Repr

def Range.has (t : Range) (x : Int) : Prop := t.start ≤ x ∧ x ≤ t.stop

instance (t : Range) (x : Int) : Decidable (t.has x) := inferInstanceAs (Decidable (_ ∧ _))

/-- `final_origin_timestamp`, Grain.py 456-457, AudioGrain.py 176-177, CodedAudioGrain.py 181-182. `none` is an exception. -/
def finalOrigin (L : TimeLib) (g : TGrain) : Option Int :=
  match g.body with
  | .audio samples sampleRate => (L.count sampleRate (samples - 1)).map (fun d => g.origin + d)
  | _ => some g.origin

/-- `origin_timerange`, Grain.py 459-460. -/
def originRange (L : TimeLib) (g : TGrain) : Option Range := (finalOrigin L g).map (fun e => ⟨g.origin, e⟩)

/-- `presentation_origin_timestamp`, Grain.py 462-464, CodedVideoGrain.py 416-421. `self.rate is not None` always
holds, a rate of zero too. -/
def presentation (L : TimeLib) (g : TGrain) : Option Int :=
  match g.body with
  | .codedVideo (some t) => (L.count g.rate t).map (fun d => g.origin + d)
  | _ => some g.origin

/-- `final_presentation_origin_timestamp`, Grain.py 466-467, CodedVideoGrain.py 423-427. -/
def finalPresentation (L : TimeLib) (g : TGrain) : Option Int :=
  match g.body with
  | .codedVideo (some t) => (finalOrigin L g).bind (fun e => (L.count g.rate t).map (fun d => e + d))
  | _ => finalOrigin L g

/-- `presentation_origin_timerange`, Grain.py 469-470, CodedVideoGrain.py 429-444. The range of a coded video grain has both
ends. -/
def presentationRange (L : TimeLib) (g : TGrain) : Option Range :=
  match g.body with
  | .codedVideo (some t) =>
    (originRange L g).bind (fun tr => (L.count g.rate t).bind (fun d => (L.count g.rate t).map (fun d' => ⟨tr.start + d, tr.stop + d'⟩)))
  | _ => originRange L g

/-- `media_rate`, Grain.py 484-486 and the classes: the rate, or the sample rate, unless it is zero. -/
def mediaRate (g : TGrain) : Option Rat :=
  match g.body with
  | .plain => none
  | .video => if g.rate = 0 then none else some g.rate
  | .codedVideo _ => if g.rate = 0 then none else some g.rate
  | .audio _ sampleRate => if sampleRate = 0 then none else some (sampleRate : Rat)

/-- `normalise_time` of a time, Grain.py 478-482 (`none`: an exception of the library for a negative rate). -/
def normaliseTime (L : TimeLib) (g : TGrain) (t : Int) : Option Int :=
  match mediaRate g with
  | some r => if 0 < r.num then some (L.normalise r t) else none
  | none => some t

/-- `normalise_time` of a range: the library normalises both ends. -/
def normaliseRange (L : TimeLib) (g : TGrain) (t : Range) : Option Range :=
  match mediaRate g with
  | some r => if 0 < r.num then some ⟨L.normalise r t.start, L.normalise r t.stop⟩ else none
  | none => some t

end Verif.Times

import Verif.Wrap.H264
import Verif.Wrap.Adts
import Verif.Wrap.Tools

/-!
# The grains of H.264 video

Models `grains` of `mediagrains/utils/h264_grain_wrapper.py` (108-162), which makes a grain of each frame that `Wrap/H264` splits off, and
`wrap_to_gsf` (`mediagrains/tools/wrap_in_gsf.py` 35-57) with these grains.

The library `mediatimestamp` is modelled as in `Wrap/Raw` and `Wrap/Adts`; it refuses rates that are not positive.
-/

namespace Verif.Wrap.H264

open Verif Verif.Wrap

/-- What the first frame changes of the template. -/
structure Look where
  rate : Rat
  originWidth : Int
  originHeight : Int
  codedWidth : Nat
  codedHeight : Nat
deriving DecidableEq

/-- Lines 122-139. The parser sets all sizes if there is information at all. -/
def Look.learn (l : Look) : Option Info → Look
  | none => l
  | some i =>
    { rate := match i.frameRate with | some (n, d) => mkRat n d | none => l.rate
      originWidth := i.width, originHeight := i.height, codedWidth := i.codedWidth, codedHeight := i.codedHeight }

/-- A grain of the wrapper as far as it may differ from the template. -/
structure Made where
  origin : Int
  look : Look
  key : Option Bool
  offs : List Nat
  data : Bytes
deriving DecidableEq

/-- The timestamps of lines 141-146. -/
def stamp (rate : Rat) (origin : Int) (k : Nat) : Int :=
  Adts.normalise rate.num.toNat rate.den
    (atRate rate.num.toNat rate.den (Adts.normalise rate.num.toNat rate.den origin) k)

/-- Lines 148-157. -/
def grainOf (origin : Int) (l : Look) (x : Frame × Nat) : Made :=
  ⟨stamp l.rate origin x.2, l, x.1.info.map Info.keyFrame, x.1.offs, x.1.data⟩

/-- `grains`, lines 108-162: what is yielded, and whether there is no exception at the end. The next frame is only asked for when the grain
of the one before has been yielded (line 160). -/
def grains (origin : Int) (l : Look) : List Frame × Ending → List Made × Bool
  | ([], e) => ([], e == .done)
  | (f :: fs, e) =>
    let l := l.learn f.info
    if l.rate ≤ 0 then ([], false) else ((f :: fs).zipIdx.map (grainOf origin l), e == .done)

end Verif.Wrap.H264

namespace Verif.Tools

open Verif Verif.Gsf

/-- What the wrapper looks at in its template, which has to be a coded video grain (line 47). -/
def lookOf (t : Grain) : Option Wrap.H264.Look :=
  match t.body with
  | .codedVideo v => some ⟨t.rate, v.originWidth, v.originHeight, v.codedWidth, v.codedHeight⟩
  | _ => none

/-- The grain with the values that the encoder writes; the temporal offset is `None` (line 155). A negative size cannot be written. -/
def codedGrain (t : Grain) (m : Wrap.H264.Made) : Option Grain :=
  match t.body with
  | .codedVideo v =>
    if m.look.originWidth < 0 ∨ m.look.originHeight < 0 then none
    else
      some { t with
        origin := m.origin, rate := m.look.rate, length := m.data.length, data := some m.data
        body := .codedVideo { v with
          originWidth := m.look.originWidth.toNat, originHeight := m.look.originHeight.toNat
          codedWidth := m.look.codedWidth, codedHeight := m.look.codedHeight
          isKeyFrame := m.key, temporalOffset := none, unitOffsets := if m.offs = [] then none else some m.offs } }
  | _ => none

/-- The grains that are written; the first that cannot be ends the loop with an exception. -/
def codedGrains (t : Grain) : List Wrap.H264.Made → Bool → List Grain × Bool
  | [], done => ([], done)
  | m :: ms, done =>
    match codedGrain t m with
    | none => ([], false)
    | some g => (g :: (codedGrains t ms done).1, (codedGrains t ms done).2)

/-- The grains of `wrap_to_gsf` with `H264GrainWrapper` and the template `t`, for the frames of the input; without a coded template there is
an exception before anything is written, which is left out here. -/
def h264Grains (t : Grain) (frames : List Wrap.H264.Frame × Wrap.H264.Ending) : List Grain × Bool :=
  match lookOf t with
  | none => ([], false)
  | some l => codedGrains t (Wrap.H264.grains t.origin l frames).1 (Wrap.H264.grains t.origin l frames).2

end Verif.Tools

import Verif.Cog.Enums

/-!
# The table of video format conversions

Model of the registration part of `mediagrains/numpy/convert.py` (lines 28-43, 289-423) and of the lookup in
`mediagrains/numpy/numpy_grains/VideoGrain.py` (lines 330-387). What the conversion functions do to samples is in `Numpy.Samples`
(the packed format v210 too).
-/

namespace Verif.Numpy

open Verif.Cog

/-- The conversion functions of `convert.py` that are written out, lines 49-286. -/
inductive Kind where
  | copyYuv | copyRgb | mean444to422 | mean422to420 | dup422to444 | dup420to422
  | downYuv | downRgb | upYuv | upRgb | rgbToYuv444 | yuv444ToRgb | v210To422 | to422v210
deriving DecidableEq, Repr

/-- A registered conversion function: one that is written out, `compose` of two with a format between (lines 34-43), or one that
looks up two others when it is called (`grain_conversion_two_step`, VideoGrain.py 340-347). -/
inductive Impl where
  | direct (k : Kind)
  | composed (k₁ : Kind) (mid : Nat) (k₂ : Kind)
  | twoStep (mid : Nat)
deriving DecidableEq, Repr

structure Entry where
  src : Nat
  dst : Nat
  impl : Impl
deriving DecidableEq, Repr

def depths : List Nat := [8, 10, 12, 16, 32]

/-- `distinct_pairs_from`, lines 28-31. -/
def distinctPairs {α : Type} : List α → List (α × α)
  | [] => []
  | x :: xs => xs.map (fun y => (x, y)) ++ distinctPairs xs

/-- `COG_PLANAR_FORMAT`; it is shown in C50 that none of the calls made here fails. -/
def planar (chroma depth : Nat) : Nat := (planarFormat chroma depth).getD 0

/-- `_equivalent_formats`, lines 304-314. -/
def equivalent (fmt : Nat) : List Nat :=
  let cats : List (List Nat) :=
    [[FrameFormat.U8_422, FrameFormat.UYVY, FrameFormat.YUYV],
     [FrameFormat.S16_422, FrameFormat.v216],
     [FrameFormat.RGB, FrameFormat.U8_444_RGB, FrameFormat.RGBx, FrameFormat.xRGB, FrameFormat.BGRx, FrameFormat.xBGR]]
  (cats.find? (fun c => c.contains fmt)).getD [fmt]

/-- Lines 290-301. -/
def copies (k : Kind) (fmts : List Nat) : List Entry :=
  (distinctPairs fmts).flatMap (fun p => [⟨p.1, p.2, .direct k⟩, ⟨p.2, p.1, .direct k⟩])

/-- Lines 317-319. -/
def regCopies : List Entry :=
  copies .copyYuv (equivalent FrameFormat.U8_422) ++ copies .copyYuv (equivalent FrameFormat.S16_422) ++
    copies .copyRgb (equivalent FrameFormat.U8_444_RGB)

/-- Lines 322-339. -/
def regSubsampling : List Entry :=
  depths.flatMap (fun bd =>
    (equivalent (planar Chroma.YUV_422 bd)).flatMap (fun fmt =>
      [⟨planar Chroma.YUV_444 bd, fmt, .direct .mean444to422⟩,
       ⟨fmt, planar Chroma.YUV_420 bd, .direct .mean422to420⟩,
       ⟨planar Chroma.YUV_420 bd, fmt, .direct .dup420to422⟩,
       ⟨fmt, planar Chroma.YUV_444 bd, .direct .dup422to444⟩]) ++
    [⟨planar Chroma.YUV_444 bd, planar Chroma.YUV_420 bd, .composed .mean444to422 (planar Chroma.YUV_422 bd) .mean422to420⟩,
     ⟨planar Chroma.YUV_420 bd, planar Chroma.YUV_444 bd, .composed .dup420to422 (planar Chroma.YUV_422 bd) .dup422to444⟩])

/-- Lines 343-353. -/
def regDepth : List Entry :=
  (distinctPairs depths).flatMap (fun d =>
    [Chroma.YUV_420, Chroma.YUV_422, Chroma.YUV_444].flatMap (fun ss =>
      (equivalent (planar ss d.1)).flatMap (fun f1 => (equivalent (planar ss d.2)).flatMap (fun f2 =>
        [⟨f2, f1, .direct .downYuv⟩, ⟨f1, f2, .direct .upYuv⟩]))) ++
    (equivalent (planar Chroma.RGB d.1)).flatMap (fun f1 => (equivalent (planar Chroma.RGB d.2)).flatMap (fun f2 =>
        [⟨f2, f1, .direct .downRgb⟩, ⟨f1, f2, .direct .upRgb⟩])))

/-- Lines 357-360. -/
def regColour : List Entry :=
  depths.flatMap (fun d => (equivalent (planar Chroma.RGB d)).flatMap (fun fmt =>
    [⟨planar Chroma.YUV_444 d, fmt, .direct .yuv444ToRgb⟩, ⟨fmt, planar Chroma.YUV_444 d, .direct .rgbToYuv444⟩]))

/-- Lines 364-365. -/
def regV210 : List Entry :=
  [⟨FrameFormat.v210, FrameFormat.S16_422_10BIT, .direct .v210To422⟩, ⟨FrameFormat.S16_422_10BIT, FrameFormat.v210, .direct .to422v210⟩]

/-- Lines 369-379. -/
def regDepthChroma : List Entry :=
  (distinctPairs [Chroma.YUV_420, Chroma.YUV_422, Chroma.YUV_444]).flatMap (fun ss => (distinctPairs depths).flatMap (fun d =>
    (equivalent (planar ss.1 d.1)).flatMap (fun f11 => (equivalent (planar ss.2 d.2)).flatMap (fun f22 =>
      [⟨f11, f22, .twoStep (planar ss.2 d.1)⟩, ⟨f22, f11, .twoStep (planar ss.1 d.2)⟩])) ++
    (equivalent (planar ss.1 d.2)).flatMap (fun f12 => (equivalent (planar ss.2 d.1)).flatMap (fun f21 =>
      [⟨f12, f21, .twoStep (planar ss.2 d.2)⟩, ⟨f21, f12, .twoStep (planar ss.2 d.2)⟩]))))

/-- Lines 382-387. -/
def regRgbYuv : List Entry :=
  depths.flatMap (fun d => (equivalent (planar Chroma.RGB d)).flatMap (fun rgb => [Chroma.YUV_420, Chroma.YUV_422].flatMap (fun ss =>
    (equivalent (planar ss d)).flatMap (fun yuv =>
      [⟨rgb, yuv, .twoStep (planar Chroma.YUV_444 d)⟩, ⟨yuv, rgb, .twoStep (planar Chroma.YUV_444 d)⟩]))))

/-- Lines 390-398. -/
def regRgbYuv444 : List Entry :=
  (distinctPairs depths).flatMap (fun d =>
    (equivalent (planar Chroma.RGB d.1)).flatMap (fun rgb => (equivalent (planar Chroma.YUV_444 d.2)).flatMap (fun yuv =>
      [⟨rgb, yuv, .twoStep (planar Chroma.YUV_444 d.1)⟩, ⟨yuv, rgb, .twoStep (planar Chroma.RGB d.2)⟩])) ++
    (equivalent (planar Chroma.RGB d.2)).flatMap (fun rgb => (equivalent (planar Chroma.YUV_444 d.1)).flatMap (fun yuv =>
      [⟨rgb, yuv, .twoStep (planar Chroma.YUV_444 d.2)⟩, ⟨yuv, rgb, .twoStep (planar Chroma.RGB d.1)⟩])))

/-- Lines 401-414. -/
def regRgbYuvDepth : List Entry :=
  (distinctPairs depths).flatMap (fun d => [Chroma.YUV_420, Chroma.YUV_422].flatMap (fun ss =>
    (equivalent (planar Chroma.RGB d.1)).flatMap (fun rgb => (equivalent (planar ss d.2)).flatMap (fun yuv =>
      [⟨rgb, yuv, .twoStep (planar Chroma.YUV_444 d.1)⟩, ⟨yuv, rgb, .twoStep (planar Chroma.YUV_444 d.1)⟩])) ++
    (equivalent (planar Chroma.RGB d.2)).flatMap (fun rgb => (equivalent (planar ss d.1)).flatMap (fun yuv =>
      [⟨rgb, yuv, .twoStep (planar Chroma.YUV_444 d.2)⟩, ⟨yuv, rgb, .twoStep (planar Chroma.YUV_444 d.2)⟩]))))

/-- Lines 417-423. -/
def regFromV210 : List Entry :=
  depths.flatMap (fun d => [Chroma.YUV_420, Chroma.YUV_422, Chroma.YUV_444, Chroma.RGB].flatMap (fun ss =>
    (equivalent (planar ss d)).flatMap (fun fmt =>
      if fmt ≠ FrameFormat.S16_422_10BIT then
        [⟨FrameFormat.v210, fmt, .twoStep FrameFormat.S16_422_10BIT⟩, ⟨fmt, FrameFormat.v210, .twoStep FrameFormat.S16_422_10BIT⟩]
      else [])))

/-- All registrations, in the order of the module. -/
def registrations : List Entry :=
  regCopies ++ regSubsampling ++ regDepth ++ regColour ++ regV210 ++ regDepthChroma ++ regRgbYuv ++ regRgbYuv444 ++ regRgbYuvDepth ++
    regFromV210

/-- `_get_grain_conversion_function`, VideoGrain.py 350-357: in a dictionary the last registration counts. `none` is
`NotImplementedError`. -/
def lookup (src dst : Nat) : Option Impl :=
  (registrations.reverse.find? (fun e => e.src == src && e.dst == dst)).map (fun e => e.impl)

/-- One of the written out functions, applied between two formats. -/
structure Step where
  src : Nat
  dst : Nat
  kind : Kind
deriving DecidableEq, Repr

/-- The functions called by a registered conversion, in order; `next` finds those of the two conversions it looks up. -/
def expand (next : Nat → Nat → Option (List Step)) (src dst : Nat) : Option Impl → Option (List Step)
  | none => none
  | some (.direct k) => some [⟨src, dst, k⟩]
  | some (.composed k₁ mid k₂) => some [⟨src, mid, k₁⟩, ⟨mid, dst, k₂⟩]
  | some (.twoStep mid) => (next src mid).bind (fun l => (next mid dst).map (fun m => l ++ m))

/-- The functions called to convert, in order. `none` is `NotImplementedError`, or `RecursionError` when `fuel` calls are not enough. -/
def steps : Nat → Nat → Nat → Option (List Step)
  | 0, _, _ => none
  | fuel + 1, src, dst => expand (steps fuel) src dst (lookup src dst)

theorem steps_zero (src dst : Nat) : steps 0 src dst = none := rfl

theorem steps_succ (fuel src dst : Nat) : steps (fuel + 1) src dst = expand (steps fuel) src dst (lookup src dst) := rfl

/-- What `convert` does, VideoGrain.py 375-387. -/
inductive Plan where
  /-- `deepcopy` -/
  | copy
  | run (l : List Step)
deriving DecidableEq, Repr

def convert (fuel src dst : Nat) : Option Plan :=
  if src = dst then some .copy else (steps fuel src dst).map .run

end Verif.Numpy

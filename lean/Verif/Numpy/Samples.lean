import Verif.Numpy.Table

/-!
# What the conversions do to samples

Model of the conversion functions of `mediagrains/numpy/convert.py` (lines 46-286). A component array is a list of columns, since the
arrays are transposed (`numpy_grains/VideoGrain.py` 110-170): `a[x, y]` is `(p.getD x []).getD y 0`.

Simplifications: numpy's broadcasting is left out, so arrays of different shapes cannot be assigned (in numpy an array with a dimension
of one can); the two conversions between RGB and YUV are any functions on samples here (`Env`); those of the code, which use floating point numbers, are in `Colour`.
-/

namespace Verif.Numpy

open Verif.Cog

abbrev Plane := List (List Nat)

/-- Value stored in an unsigned integer of `w` bits. -/
def wrap (w v : Nat) : Nat := v % 2 ^ w

/-! ## Arithmetic -/

/-- `_int_array_mean`, lines 61-63, on numbers of `w` bits. -/
def mean (w a b : Nat) : Nat := wrap w (wrap w (a / 2 + b / 2) + ((a &&& 1) ||| (b &&& 1)))

/-- `_unbiased_right_shift`, lines 103-104. -/
def rightShift (w a n : Nat) : Nat := wrap w ((a >>> n) + ((a >>> (n - 1)) &&& 1))

/-- `_noisy_left_shift`, lines 129-131: `r` is the random number before it is masked. -/
def leftShift (w a n r : Nat) : Nat := wrap w (wrap w (a <<< n) + (r &&& ((1 <<< n) - 1)))

/-! ## Slices -/

/-- Length of `l[s::k]` for a list of length `n`. -/
def sliceLen (s k n : Nat) : Nat := (n + k - 1 - s) / k

/-- `l[s::k]` -/
def slice {α : Type} (s k : Nat) (d : α) (l : List α) : List α := (List.range (sliceLen s k l.length)).map (fun j => l.getD (s + k * j) d)

/-- `l[s::k][0:cnt] = src`: `none` if the shapes differ. -/
def assignSlice {α : Type} (s k cnt : Nat) (d : α) (src l : List α) : Option (List α) :=
  if src.length = min cnt (sliceLen s k l.length) then
    some ((List.range l.length).map (fun i =>
      if s ≤ i ∧ (i - s) % k = 0 ∧ (i - s) / k < src.length then src.getD ((i - s) / k) d else l.getD i d))
  else none

/-! ## Shapes -/

/-- Bits of the numpy type, numpy_grains/VideoGrain.py 25-58. -/
def typeBits (fmt : Nat) : Nat :=
  if isPlanar fmt then 8 * bytesPerValue fmt
  else if fmt = FrameFormat.v216 then 16
  else if fmt = FrameFormat.v210 then 32
  else 8

/-- Shifts of the second and third component: the components of planar formats, and `width//2` for the interleaved ones
(numpy_grains/VideoGrain.py 110-122). -/
def shifts (fmt : Nat) : Nat × Nat :=
  if isPlanar fmt then (if isPlanarRgb fmt then (0, 0) else (hShift fmt, vShift fmt))
  else if fmt ∈ [FrameFormat.UYVY, FrameFormat.YUYV, FrameFormat.v216] then (1, 0)
  else (0, 0)

def hasShape (w h : Nat) (p : Plane) : Bool := p.length == w && p.all (fun c => c.length == h)

/-- A frame: three components (`Y`, `U`, `V` or `R`, `G`, `B`), or the words of v210. -/
inductive Pixels where
  | planes (a b c : Plane)
  | words (l : List Nat)
deriving DecidableEq, Repr

structure Frame where
  fmt : Nat
  width : Nat
  height : Nat
  pixels : Pixels
deriving DecidableEq, Repr

/-- `out[:, :] = p` for an array of `w` by `h` numbers of `bits` bits. -/
def assign (bits w h : Nat) (p : Plane) : Option Plane :=
  if hasShape w h p then some (p.map (fun c => c.map (wrap bits))) else none

/-- The operation of two arrays of the same shape. -/
def zipPlanes (f : Nat → Nat → Nat) (p q : Plane) : Option Plane :=
  if p.length = q.length ∧ (p.zip q).all (fun x => x.1.length == x.2.length) then some (List.zipWith (List.zipWith f) p q) else none

/-- Line 69: the mean of columns 0 and 1, 2 and 3, ... -/
def meanColumns (bits : Nat) (p : Plane) : Option Plane := zipPlanes (mean bits) (slice 0 2 [] p) (slice 1 2 [] p)

/-- Line 77: the mean of rows 0 and 1, 2 and 3, ... -/
def meanRows (bits : Nat) (p : Plane) : Option Plane :=
  zipPlanes (mean bits) (p.map (slice 0 2 0)) (p.map (slice 1 2 0))

/-- Lines 87-88: `out[0::2, :] = p; out[1::2, :] = p` for an array of `w` by `h`. -/
def dupColumns (bits w h : Nat) (p : Plane) : Option Plane :=
  if p.all (fun c => c.length == h) then
    ((assignSlice 0 2 (sliceLen 0 2 w) [] p (List.replicate w (List.replicate h 0))).bind
      (fun o => assignSlice 1 2 (sliceLen 1 2 w) [] p o)).map (fun o => o.map (fun c => c.map (wrap bits)))
  else none

/-- One column of lines 96-97. -/
def dupColumn (h : Nat) (c : List Nat) : Option (List Nat) :=
  (assignSlice 0 2 (sliceLen 0 2 h) 0 c (List.replicate h 0)).bind (fun o => assignSlice 1 2 (sliceLen 1 2 h) 0 c o)

/-- Lines 96-97: `out[:, 0::2] = p; out[:, 1::2] = p` for an array of `w` by `h`. -/
def dupRows (bits w h : Nat) (p : Plane) : Option Plane :=
  if p.length = w then (p.mapM (dupColumn h)).map (fun o => o.map (fun c => c.map (wrap bits))) else none

/-! ## v210 -/

/-- Words in a line, line 221. -/
def lineWords (w : Nat) : Nat := 32 * ((w + 47) / 48)

/-- `a.shape = (h, n)` and `a.transpose()`, lines 220-227. -/
def unravel (n h : Nat) (l : List Nat) : Option Plane :=
  if l.length = h * n then some ((List.range n).map (fun x => (List.range h).map (fun y => l.getD (y * n + x) 0))) else none

/-- `np.ravel(a.transpose())`, lines 280-286. -/
def ravel (n h : Nat) (p : Plane) : List Nat := (List.range h).flatMap (fun y => (List.range n).map (fun x => (p.getD x []).getD y 0))

/-- Three assignments `out[s::k][0:cnt] = src`. -/
def assign3 (l : Plane) (a b c : Nat × Nat × Nat × Plane) : Option Plane :=
  ((assignSlice a.1 a.2.1 a.2.2.1 [] a.2.2.2 l).bind (fun l => assignSlice b.1 b.2.1 b.2.2.1 [] b.2.2.2 l)).bind
    (fun l => assignSlice c.1 c.2.1 c.2.2.1 [] c.2.2.2 l)

/-- `_convert_v210_to_yuv422_10bit`, lines 191-253. The output arrays are `w` and `w//2` columns of `h` numbers. -/
def fromV210 (w h : Nat) (l : List Nat) : Option (Plane × Plane × Plane) :=
  let n := lineWords w
  match unravel n h (l.map (fun v => v &&& 0x3ff)), unravel n h (l.map (fun v => (v >>> 10) &&& 0x3ff)),
      unravel n h (l.map (fun v => (v >>> 20) &&& 0x3ff)) with
  | some first, some second, some third =>
    let zero := fun (k : Nat) => List.replicate k (List.replicate h 0)
    let y := assign3 (zero w) (0, 3, sliceLen 0 3 w, (slice 0 2 [] second).take ((w + 2) / 3))
      (1, 3, sliceLen 1 3 w, (slice 1 2 [] first).take ((w + 1) / 3)) (2, 3, sliceLen 2 3 w, (slice 1 2 [] third).take ((w + 0) / 3))
    let u := assign3 (zero (w / 2)) (0, 3, sliceLen 0 3 (w / 2), (slice 0 4 [] first).take ((w / 2 + 2) / 3))
      (1, 3, sliceLen 1 3 (w / 2), (slice 1 4 [] second).take ((w / 2 + 1) / 3))
      (2, 3, sliceLen 2 3 (w / 2), (slice 2 4 [] third).take ((w / 2 + 0) / 3))
    let v := assign3 (zero (w / 2)) (0, 3, sliceLen 0 3 (w / 2), (slice 0 4 [] third).take ((w / 2 + 2) / 3))
      (1, 3, sliceLen 1 3 (w / 2), (slice 2 4 [] first).take ((w / 2 + 1) / 3))
      (2, 3, sliceLen 2 3 (w / 2), (slice 3 4 [] second).take ((w / 2 + 0) / 3))
    match y, u, v with
    | some y, some u, some v => some (y, u, v)
    | _, _, _ => none
  | _, _, _ => none

/-- One word, lines 280-286, in 32 bits. -/
def pack (a b c : Nat) : Nat := wrap 32 (wrap 32 (a + wrap 32 (b <<< 10)) + wrap 32 (c <<< 20))

def zip3 (f : Nat → Nat → Nat → Nat) : List Nat → List Nat → List Nat → List Nat
  | a :: as, b :: bs, c :: cs => f a b c :: zip3 f as bs cs
  | _, _, _ => []

/-- `_convert_yuv422_10bit_to_v210`, lines 256-286. -/
def toV210 (w h : Nat) (y u v : Plane) : Option (List Nat) :=
  let n := lineWords w
  let zero : Plane := List.replicate n (List.replicate h 0)
  let first := assign3 zero (0, 4, (w / 2 + 2) / 3, slice 0 3 [] u) (1, 2, (w + 1) / 3, slice 1 3 [] y) (2, 4, (w / 2 + 1) / 3, slice 1 3 [] v)
  let second := assign3 zero (0, 2, (w + 2) / 3, slice 0 3 [] y) (1, 4, (w / 2 + 1) / 3, slice 1 3 [] u)
    (3, 4, (w / 2 + 0) / 3, slice 2 3 [] v)
  let third := assign3 zero (0, 4, (w / 2 + 2) / 3, slice 0 3 [] v) (1, 2, (w + 0) / 3, slice 2 3 [] y)
    (2, 4, (w / 2 + 0) / 3, slice 2 3 [] u)
  match first, second, third with
  | some a, some b, some c => some (zip3 pack (ravel n h a) (ravel n h b) (ravel n h c))
  | _, _, _ => none

/-! ## Conversions of frames -/

/-- What is outside this module: the conversions between RGB and YUV (on three samples, for a bit depth, lines 161-188; see `Colour`), and the random
numbers (for each component and position). -/
structure Env where
  toYuv : Nat → Nat × Nat × Nat → Nat × Nat × Nat
  toRgb : Nat → Nat × Nat × Nat → Nat × Nat × Nat
  random : Nat → Nat → Nat → Nat

def planes3 (a b c : Option Plane) : Option Pixels :=
  match a, b, c with
  | some a, some b, some c => some (.planes a b c)
  | _, _, _ => none

def mapPlane (f : Nat → Nat) (p : Plane) : Plane := p.map (fun c => c.map f)

/-- `f` is given the position too. -/
def mapPlaneIdx (f : Nat → Nat → Nat → Nat) (p : Plane) : Plane :=
  p.zipIdx.map (fun c => c.1.zipIdx.map (fun v => f c.2 v.2 v.1))

/-- The arrays of three components made by a function of three samples; they must have the same shape. -/
def zipPlanes3 (f : Nat × Nat × Nat → Nat × Nat × Nat) (a b c : Plane) : Option (Plane × Plane × Plane) :=
  if a.map List.length = b.map List.length ∧ a.map List.length = c.map List.length then
    let at3 := fun x y => f ((a.getD x []).getD y 0, (b.getD x []).getD y 0, (c.getD x []).getD y 0)
    some (mapPlaneIdx (fun x y _ => (at3 x y).1) a, mapPlaneIdx (fun x y _ => (at3 x y).2.1) a, mapPlaneIdx (fun x y _ => (at3 x y).2.2) a)
  else none

/-- A written out conversion function, called with a grain and a new grain of format `dst` and the same size. -/
def applyKind (env : Env) (k : Kind) (dst : Nat) (f : Frame) : Option Pixels :=
  let w := f.width
  let h := f.height
  let cw := w >>> (shifts dst).1
  let ch := h >>> (shifts dst).2
  let src := typeBits f.fmt
  let bits := typeBits dst
  match k, f.pixels with
  | .v210To422, .words l => (fromV210 w h l).map (fun x => .planes x.1 x.2.1 x.2.2)
  | .to422v210, .planes y u v => (toV210 w h y u v).map .words
  | .copyYuv, .planes a b c => planes3 (assign bits w h a) (assign bits cw ch b) (assign bits cw ch c)
  | .copyRgb, .planes a b c => planes3 (assign bits w h a) (assign bits cw ch b) (assign bits cw ch c)
  | .mean444to422, .planes a b c =>
    planes3 (assign bits w h a) ((meanColumns src b).bind (assign bits cw ch)) ((meanColumns src c).bind (assign bits cw ch))
  | .mean422to420, .planes a b c =>
    planes3 (assign bits w h a) ((meanRows src b).bind (assign bits cw ch)) ((meanRows src c).bind (assign bits cw ch))
  | .dup422to444, .planes a b c => planes3 (assign bits w h a) (dupColumns bits cw ch b) (dupColumns bits cw ch c)
  | .dup420to422, .planes a b c => planes3 (assign bits w h a) (dupRows bits cw ch b) (dupRows bits cw ch c)
  | .downYuv, .planes a b c =>
    let sh := mapPlane (fun v => rightShift src v (activeBits f.fmt - activeBits dst))
    planes3 (assign bits w h (sh a)) (assign bits cw ch (sh b)) (assign bits cw ch (sh c))
  | .downRgb, .planes a b c =>
    let sh := mapPlane (fun v => rightShift src v (activeBits f.fmt - activeBits dst))
    planes3 (assign bits w h (sh a)) (assign bits cw ch (sh b)) (assign bits cw ch (sh c))
  | .upYuv, .planes a b c =>
    let sh := fun (i : Nat) => mapPlaneIdx (fun x y v => leftShift bits (wrap bits v) (activeBits dst - activeBits f.fmt) (env.random i x y))
    planes3 (assign bits w h (sh 0 a)) (assign bits cw ch (sh 1 b)) (assign bits cw ch (sh 2 c))
  | .upRgb, .planes a b c =>
    let sh := fun (i : Nat) => mapPlaneIdx (fun x y v => leftShift bits (wrap bits v) (activeBits dst - activeBits f.fmt) (env.random i x y))
    planes3 (assign bits w h (sh 0 a)) (assign bits cw ch (sh 1 b)) (assign bits cw ch (sh 2 c))
  | .rgbToYuv444, .planes a b c =>
    (zipPlanes3 (env.toYuv (activeBits dst)) a b c).bind (fun x =>
      planes3 (assign bits w h x.1) (assign bits cw ch x.2.1) (assign bits cw ch x.2.2))
  | .yuv444ToRgb, .planes a b c =>
    (zipPlanes3 (env.toRgb (activeBits f.fmt)) a b c).bind (fun x =>
      planes3 (assign bits w h x.1) (assign bits cw ch x.2.1) (assign bits cw ch x.2.2))
  | _, _ => none

/-- One step of a conversion. -/
def applyStep (env : Env) (f : Frame) (s : Step) : Option Frame :=
  (applyKind env s.kind s.dst f).map (fun p => ⟨s.dst, f.width, f.height, p⟩)

/-- `convert`, numpy_grains/VideoGrain.py 375-387, on the samples. -/
def convertFrame (env : Env) (fuel : Nat) (f : Frame) (dst : Nat) : Option Frame :=
  match convert fuel f.fmt dst with
  | none => none
  | some .copy => some f
  | some (.run l) => l.foldlM (fun f s => applyStep env f s) f

end Verif.Numpy

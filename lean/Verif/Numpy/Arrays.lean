import Verif.Bytes
import Verif.Cog.Sizes

/-!
# Numpy arrays over the data of a grain

Models `mediagrains/numpy/numpy_grains/VideoGrain.py` lines 25-214 (the component arrays of a video grain)
and `mediagrains/numpy/numpy_grains/AudioGrain.py` lines 29-107 (the channel arrays of an audio grain).

An array made by `as_strided` is a first address and the distance between its elements in memory; numpy
does not check it against the memory it was made from.  Addresses count bytes from the start of the data of
the grain.
-/

namespace Verif.Numpy.Arrays

open Verif Verif.Cog

/-- A transposed two dimensional `as_strided` array: element `[x, y]` has `itemsize` bytes at
`base + y * stride + x * step`. -/
structure View where
  base : Nat
  itemsize : Nat
  width : Nat
  height : Nat
  stride : Nat
  step : Nat
  deriving DecidableEq, Repr

def View.addr (v : View) (x y : Nat) : Nat := v.base + y * v.stride + x * v.step

/-- Reading an element. `none` stands for memory outside the data of the grain. -/
def View.get (v : View) (buf : Bytes) (x y : Nat) : Option Bytes :=
  if v.addr x y + v.itemsize ≤ buf.length then some ((buf.drop (v.addr x y)).take v.itemsize) else none

/-- Assigning to an element (of data that can be written to, a `bytearray` or an array). -/
def View.set (v : View) (buf : Bytes) (x y : Nat) (val : Bytes) : Option Bytes :=
  if v.addr x y + v.itemsize ≤ buf.length then
    some (buf.take (v.addr x y) ++ val.take v.itemsize ++ buf.drop (v.addr x y + v.itemsize))
  else none

/-- `NotImplementedError`; `ValueError` of `np.frombuffer` for a length that is not a whole number of
elements, or of an in-place operation on a read-only array, or of `reshape`. -/
inductive ArrErr where
  | notImplemented | value
  deriving DecidableEq, Repr

/-- The formats of `_dtype_from_cogframeformat` lines 41-52 (`BGRx` is there twice and `BGRA` is not). -/
def byteFormats : List Nat :=
  [FrameFormat.UYVY, FrameFormat.YUYV, FrameFormat.AYUV, FrameFormat.RGB, FrameFormat.RGBx, FrameFormat.RGBA,
    FrameFormat.BGRx, FrameFormat.BGRx, FrameFormat.ARGB, FrameFormat.xRGB, FrameFormat.ABGR, FrameFormat.xBGR]

/-- The size of `_dtype_from_cogframeformat`, VideoGrain.py lines 25-59. -/
def itemsize (fmt : Nat) : Option Nat :=
  if isPlanar fmt then
    if bytesPerValue fmt = 1 then some 1
    else if bytesPerValue fmt = 2 then some 2
    else if bytesPerValue fmt = 4 then some 4
    else none
  else if fmt ∈ byteFormats then some 1
  else if fmt = FrameFormat.v216 then some 2
  else if fmt = FrameFormat.v210 then some 4
  else none

/-- `as_strided(data[k:], shape=(h, w), strides=(stride, step)).transpose()` over `n` elements of data.  A
slice that starts past the end starts at the end. -/
def strided (n item k w h stride step : Nat) : View := ⟨min k n * item, item, w, h, stride, step⟩

/-- `_component_arrays_for_interleaved_422`, lines 111-124. -/
def interleaved422 (n item k0 k1 k2 : Nat) (c : Component) : List View :=
  [strided n item k0 c.width c.height c.stride (item * 2),
    strided n item k1 (c.width / 2) c.height c.stride (item * 4),
    strided n item k2 (c.width / 2) c.height c.stride (item * 4)]

/-- `_component_arrays_for_interleaved_444_take_three`, lines 127-145. -/
def interleaved444 (n item k0 k1 k2 num : Nat) (c : Component) : List View :=
  [strided n item k0 c.width c.height c.stride (item * num),
    strided n item k1 c.width c.height c.stride (item * num),
    strided n item k2 c.width c.height c.stride (item * num)]

/-- `_component_arrays_for_data_and_type`, lines 148-214, with data of `n` elements.  `components[0]` of a
grain without components is an `IndexError`; the formats it is used for have a component, so this case is
left as no arrays. -/
def componentViews (n item fmt : Nat) (cs : List Component) : Except ArrErr (List View) :=
  if isPlanar fmt then
    .ok (cs.map (fun c => strided n item (c.offset / item) c.width c.height c.stride item))
  else
    match cs with
    | [] => if fmt = FrameFormat.v210 then .ok [] else .error .notImplemented
    | c :: _ =>
      if fmt ∈ [FrameFormat.UYVY, FrameFormat.v216] then .ok (interleaved422 n item 1 0 2 c)
      else if fmt = FrameFormat.YUYV then .ok (interleaved422 n item 0 1 3 c)
      else if fmt = FrameFormat.RGB then .ok (interleaved444 n item 0 1 2 3 c)
      else if fmt ∈ [FrameFormat.RGBx, FrameFormat.RGBA, FrameFormat.BGRx, FrameFormat.BGRx] then
        .ok (interleaved444 n item 0 1 2 4 c)
      else if fmt ∈ [FrameFormat.ARGB, FrameFormat.xRGB, FrameFormat.ABGR, FrameFormat.xBGR, FrameFormat.AYUV] then
        .ok (interleaved444 n item 1 2 3 4 c)
      else if fmt = FrameFormat.v210 then .ok []
      else .error .notImplemented

/-- `VideoGrain.__init__` and the `data` setter, lines 249-256 and 286-292: the component arrays of data of
`len` bytes. -/
def videoArrays (fmt len : Nat) (cs : List Component) : Except ArrErr (List View) :=
  match itemsize fmt with
  | none => .error .notImplemented
  | some item => if len % item ≠ 0 then .error .value else componentViews (len / item) item fmt cs

/-- What a component holds. -/
inductive Part where
  | Y | U | V | R | G | B | A | X
  deriving DecidableEq, Repr

/-- The attributes `ComponentDataList` gives its elements, in order: lines 62-82 and
`_component_arrangement_from_format`, lines 85-108. -/
def partNames (fmt : Nat) : List Part :=
  if isPlanar fmt then if isPlanarRgb fmt then [.R, .G, .B] else [.Y, .U, .V]
  else if fmt ∈ [FrameFormat.UYVY, FrameFormat.YUYV, FrameFormat.v216, FrameFormat.AYUV] then [.Y, .U, .V]
  else if fmt ∈ [FrameFormat.RGB, FrameFormat.RGBA, FrameFormat.RGBx, FrameFormat.ARGB, FrameFormat.xRGB] then
    [.R, .G, .B]
  else if fmt ∈ [FrameFormat.BGRA, FrameFormat.BGRx, FrameFormat.xBGR, FrameFormat.ABGR] then [.B, .G, .R]
  else []

/-! ## Audio -/

/-- A one dimensional array: element `k` has `itemsize` bytes at `base + k * step`. -/
structure ChanView where
  base : Nat
  itemsize : Nat
  count : Nat
  step : Nat
  deriving DecidableEq, Repr

def ChanView.addr (v : ChanView) (k : Nat) : Nat := v.base + k * v.step

/-- Reading an element; `none` stands for memory outside the buffer the array is over. -/
def ChanView.get (v : ChanView) (mem : Bytes) (k : Nat) : Option Bytes :=
  if v.addr k + v.itemsize ≤ mem.length then some ((mem.drop (v.addr k)).take v.itemsize) else none

/-- Assigning to an element. -/
def ChanView.set (v : ChanView) (mem : Bytes) (k : Nat) (val : Bytes) : Option Bytes :=
  if v.addr k + v.itemsize ≤ mem.length then
    some (mem.take (v.addr k) ++ val.take v.itemsize ++ mem.drop (v.addr k + v.itemsize))
  else none

/-- The size of `_dtype_from_cogaudioformat`, AudioGrain.py lines 29-45. -/
def audioItemsize (fmt : Nat) : Option Nat :=
  if audioIsInt fmt then
    if audioDepth fmt = 4 then some 1
    else if audioSampleBytes fmt = 2 then some 2
    else if audioSampleBytes fmt = 4 then some 4
    else if audioSampleBytes fmt = 8 then some 8
    else none
  else if audioIsFloat fmt then some 4
  else if audioIsDouble fmt then some 8
  else none

/-- Lines 63-65: three byte samples become four byte samples, with a zero byte below (the arrays are little
endian, as on all machines this is run on). -/
def widen : Bytes → Bytes
  | b0 :: b1 :: b2 :: rest => 0 :: b0 :: b1 :: b2 :: widen rest
  | _ => []

/-- `data <<= 8` on an array of `int32`, line 70. -/
def shift8 : Bytes → Bytes
  | b0 :: b1 :: b2 :: _ :: rest => 0 :: b0 :: b1 :: b2 :: shift8 rest
  | _ => []

/-- Lines 75-107, over `n` elements of `item` bytes.  The arrays of planes are slices, which numpy keeps inside
the data; the others are `as_strided` arrays, which it does not. -/
def channelViews (n item sampleBytes fmt samples channels : Nat) : List ChanView :=
  if audioIsPlanes fmt then
    (List.range channels).map fun c =>
      ⟨min (c * samples) n * item, item, min ((c + 1) * samples) n - min (c * samples) n, item⟩
  else if audioIsInterleaved fmt then
    (List.range channels).map fun c => ⟨min c n * item, item, samples, sampleBytes * channels⟩
  else if audioIsPairs fmt then
    (List.range channels).map fun c =>
      ⟨min (2 * (c / 2) * samples + c % 2) n * item, item, samples, sampleBytes * 2⟩
  else []

/-- What making the arrays leaves: the data of the grain, the memory the arrays are over, whether that is the
memory of the data, and the arrays. -/
structure Channels where
  data : Bytes
  mem : Bytes
  shared : Bool
  views : List ChanView
  deriving DecidableEq, Repr

/-- `AudioGrain.__init__` and the `data` setter, lines 143-150 and 177-182, with
`_channel_arrays_for_data_and_type`, lines 48-107.  `writable` says whether the data given is something numpy
can write to (a `bytearray` or an array) or not (`bytes`). -/
def audioChannels (fmt samples channels : Nat) (writable : Bool) (data : Bytes) : Except ArrErr Channels :=
  match audioItemsize fmt with
  | none => .error .notImplemented
  | some item =>
    if data.length % item ≠ 0 then .error .value
    else if audioIsInt fmt ∧ audioDepth fmt = 4 then
      if audioSampleBytes fmt = 3 then
        if data.length % 3 ≠ 0 then .error .value
        else .ok ⟨data, widen data, false, channelViews (data.length / 3) 4 4 fmt samples channels⟩
      else if data.length % 4 ≠ 0 then .error .value
      else if writable = false then .error .value
      else .ok ⟨shift8 data, shift8 data, true, channelViews (data.length / 4) 4 4 fmt samples channels⟩
    else .ok ⟨data, data, true, channelViews (data.length / item) item (audioSampleBytes fmt) fmt samples channels⟩

end Verif.Numpy.Arrays

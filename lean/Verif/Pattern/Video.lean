import Verif.Bytes
import Verif.Cog.Sizes

/-!
# Still video test patterns and the moving bar

Models `mediagrains/patterngenerators/video/constants.py`, `lumasteps.py`, `colourbars.py` and the drawing part of
`movingbaroverlay.py`. The grains are new `VideoGrain`s: zero bytes, with the components of the format (`Cog.Sizes`).
-/

namespace Verif.Pattern

open Verif.Cog

/-- An entry of `pixel_ranges`, constants.py 21-37: bytes in a sample, offset and range of luma, offset and range of both chroma
components (they are the same in all entries), active bits. -/
structure PixelRange where
  bpp : Nat
  luma : Nat × Nat
  chroma : Nat × Nat
  bits : Nat
deriving DecidableEq, Repr

/-- `pixel_ranges`, constants.py 24-37. -/
def pixelRanges : List (Nat × PixelRange) :=
  [(FrameFormat.U8_444, ⟨1, (16, 235 - 16), (128, 224), 8⟩),
   (FrameFormat.U8_422, ⟨1, (16, 235 - 16), (128, 224), 8⟩),
   (FrameFormat.U8_420, ⟨1, (16, 235 - 16), (128, 224), 8⟩),
   (FrameFormat.S16_444_10BIT, ⟨2, (64, 940 - 64), (512, 896), 10⟩),
   (FrameFormat.S16_422_10BIT, ⟨2, (64, 940 - 64), (512, 896), 10⟩),
   (FrameFormat.S16_420_10BIT, ⟨2, (64, 940 - 64), (512, 896), 10⟩),
   (FrameFormat.S16_444_12BIT, ⟨2, (256, 3760 - 256), (2048, 3584), 12⟩),
   (FrameFormat.S16_422_12BIT, ⟨2, (256, 3760 - 256), (2048, 3584), 12⟩),
   (FrameFormat.S16_420_12BIT, ⟨2, (256, 3760 - 256), (2048, 3584), 12⟩),
   (FrameFormat.S16_444, ⟨2, (4096, 60160 - 4096), (32768, 57344), 16⟩),
   (FrameFormat.S16_422, ⟨2, (4096, 60160 - 4096), (32768, 57344), 16⟩),
   (FrameFormat.S16_420, ⟨2, (4096, 60160 - 4096), (32768, 57344), 16⟩)]

inductive Err where
  /-- "Not a supported format for this generator" -/
  | valueError
  | zeroDivision
  | indexError
deriving DecidableEq, Repr

/-- `data[a:a+len(line)] = line` for a `bytearray`. -/
def patch (data : Bytes) (a : Nat) (line : Bytes) : Bytes := data.take a ++ line ++ data.drop (a + line.length)

/-- `for y in range(0, n): data[off + y*stride: off + y*stride + len(line)] = line(y)` -/
def patchRows (off stride : Nat) (line : Nat → Bytes) : Nat → Bytes → Bytes
  | 0, data => data
  | n + 1, data => patch (patchRows off stride line n data) (off + n * stride) (line n)

/-- Assignments `data[i] = b` one after another; `none` is `IndexError`. -/
def poke (data : Bytes) (ws : List (Nat × UInt8)) : Option Bytes :=
  if ws.all (fun w => w.1 < data.length) then some (ws.foldl (fun d w => d.set w.1 w.2) data) else none

/-- A new frame: grains/VideoGrain.py 303-337. -/
def newData (fmt w h : Nat) : Bytes := List.replicate (sizeForFormat fmt w h) 0

def component (fmt w h i : Nat) : Component := (componentsForFormat fmt w h).getD i ⟨0, 0, 0, 0, 0⟩

/-- The low byte of a number (`v & 0xFF`). -/
def low (v : Nat) : UInt8 := UInt8.ofNat (v % 256)

/-- The bytes written for one sample, lumasteps.py 51-55, colourbars.py 63-67: with one byte the value is cut in luma steps and must fit
in colour bars (see `barsLine`). -/
def sampleBytes (bpp v : Nat) : Bytes := if bpp = 1 then [low v] else [low v, low (v / 256)]

/-- `pos = x//(width//8)` for each `x`; `none` is `ZeroDivisionError`. -/
def positions (width : Nat) : Option (List Nat) :=
  if 0 < width ∧ width / 8 = 0 then none else some ((List.range width).map (fun x => x / (width / 8)))

/-- lumasteps.py 48-55. -/
def lumaLine (r : PixelRange) (width : Nat) : Option Bytes :=
  (positions width).map (fun ps => ps.flatMap (fun pos => sampleBytes r.bpp (r.luma.1 + pos * r.luma.2 / 8)))

/-- lumasteps.py 65-80: the chroma samples, one by one. -/
def chromaWrites (r : PixelRange) (c1 c2 : Component) : List (Nat × UInt8) :=
  (List.range c1.height).flatMap (fun y => (List.range c1.width).flatMap (fun x =>
    let u := c1.offset + y * c1.stride
    let v := c2.offset + y * c2.stride
    if r.bpp = 1 then [(u + x, low r.chroma.1), (v + x, low r.chroma.1)]
    else [(u + 2 * x, low r.chroma.1), (u + 2 * x + 1, low (r.chroma.1 / 256)), (v + 2 * x, low r.chroma.1),
      (v + 2 * x + 1, low (r.chroma.1 / 256))]))

/-- `LumaSteps`, lumasteps.py 26-82: the data of the grain. -/
def lumaSteps (fmt w h : Nat) : Except Err Bytes :=
  match pixelRanges.lookup fmt with
  | none => .error .valueError
  | some r =>
    match lumaLine r w with
    | none => .error .zeroDivision
    | some line =>
      match poke (patchRows (component fmt w h 0).offset (component fmt w h 0).stride (fun _ => line) h (newData fmt w h))
          (chromaWrites r (component fmt w h 1) (component fmt w h 2)) with
      | none => .error .indexError
      | some data => .ok data

/-- `values`, colourbars.py 38-46: `scale v` is `int(v * intensity)`, any function. -/
def barValues (scale : Nat → Nat) (bs : Nat) : List (List Nat) :=
  [[scale (0xFFFF >>> bs), 0x8000 >>> bs, 0x8000 >>> bs],
   [scale (0xE1FF >>> bs), 0x0000 >>> bs, 0x9400 >>> bs],
   [scale (0xB200 >>> bs), 0xABFF >>> bs, 0x0000 >>> bs],
   [scale (0x95FF >>> bs), 0x2BFF >>> bs, 0x15FF >>> bs],
   [scale (0x69FF >>> bs), 0xD400 >>> bs, 0xEA00 >>> bs],
   [scale (0x4C00 >>> bs), 0x5400 >>> bs, 0xFFFF >>> bs],
   [scale (0x1DFF >>> bs), 0xFFFF >>> bs, 0x6BFF >>> bs],
   [scale (0x0000 >>> bs), 0x8000 >>> bs, 0x8000 >>> bs]]

/-- colourbars.py 56-67, for component `c`: with one byte in a sample the value must be below 256 (`ValueError`). -/
def barsLine (scale : Nat → Nat) (r : PixelRange) (c width : Nat) : Except Err Bytes :=
  match positions width with
  | none => .error .zeroDivision
  | some ps =>
    match ps.mapM (fun pos => (barValues scale (16 - r.bits))[pos]?) with
    | none => .error .indexError
    | some vs =>
      let line := vs.map (fun v => v.getD c 0)
      if r.bpp = 1 ∧ line.any (fun v => 256 ≤ v) then .error .valueError else .ok (line.flatMap (sampleBytes r.bpp))

/-- `ColourBars`, colourbars.py 26-76: the data of the grain. -/
def colourBars (scale : Nat → Nat) (fmt w h : Nat) : Except Err Bytes :=
  match pixelRanges.lookup fmt with
  | none => .error .valueError
  | some r => do
    let c0 := component fmt w h 0
    let c1 := component fmt w h 1
    let c2 := component fmt w h 2
    let l0 ← barsLine scale r 0 c0.width
    let l1 ← barsLine scale r 1 c1.width
    let l2 ← barsLine scale r 2 c2.width
    let d := patchRows c0.offset c0.stride (fun _ => l0) c0.height (newData fmt w h)
    let d := patchRows c1.offset c1.stride (fun _ => l1) c1.height d
    .ok (patchRows c2.offset c2.stride (fun _ => l2) c2.height d)

/-- One component of the bar, movingbaroverlay.py 79-96: `for y in range(0, n)`, line `(first + y) % height` is replaced by a line of
`value`. The lines of `_bar` (50-65) are all the same. `none` is `ZeroDivisionError` (`% 0`). -/
def drawBar (r : PixelRange) (c : Component) (first : Int) (value : Nat) : Nat → Bytes → Option Bytes
  | 0, data => some data
  | n + 1, data =>
    if c.height = 0 then none
    else (drawBar r c first value n data).map (fun d =>
      patch d (c.offset + ((first + n) % (c.height : Int)).toNat * c.stride)
        ((List.replicate c.width (sampleBytes r.bpp value)).flatten))

/-- `MovingBarOverlay.get`, movingbaroverlay.py 69-98, on the data of the source grain: `fnum` is `int(speed * count)`. The lines of both
chroma components are drawn in turn; here first all of one. -/
def overlayBar (fmt w h barHeight : Nat) (fnum : Int) (data : Bytes) : Except Err Bytes :=
  match pixelRanges.lookup fmt with
  | none => .error .valueError
  | some r =>
    let vs := vShift fmt
    match ((drawBar r (component fmt w h 0) fnum r.luma.1 barHeight data).bind
        (drawBar r (component fmt w h 1) (fnum / 2 ^ vs) r.chroma.1 (barHeight >>> vs))).bind
        (drawBar r (component fmt w h 2) (fnum / 2 ^ vs) r.chroma.1 (barHeight >>> vs)) with
    | none => .error .zeroDivision
    | some d => .ok d

end Verif.Pattern

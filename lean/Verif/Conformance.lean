import Verif.Gsf.Whole
import Verif.Wrap.H264
import Verif.Wrap.Adts
import Verif.Grain.Event
import Verif.Grain.JsonRT
import Verif.Pattern.Video
import Verif.Compare.Psnr
import Verif.Numpy.Colour

/-!
# Comparison of the model with the data files and tables of the repository

The definitions of the model can be executed. The program in this file runs them on the example files in `/repo/examples`
and `/repo/tests/audio.aac`, and on the tables in the tests of the pattern generators and of the signal to noise ratios,
and says whether the results are those that the tests of the repository expect. It is a test of the model, not a proof, and
no theorem depends on it. To run it, in the directory of the Lake project:

    lake env lean --run Verif/Conformance.lean /repo
-/

namespace Verif.Conformance

open Verif Verif.Gsf

/-- The description of a grain from which the writer makes it again. -/
def grainOf (m : Meta) (d : Option Bytes) : Grain :=
  let body : Body := match m.grainType with
    | none => .empty
    | some .video => match m.cogFrame with | some v => .video v | none => .empty
    | some .codedVideo => match m.cogCodedFrame with | some v => .codedVideo v | none => .empty
    | some .audio => match m.cogAudio with | some v => .audio v | none => .empty
    | some .codedAudio => match m.cogCodedAudio with | some v => .codedAudio v | none => .empty
    | some .event => .event
  ⟨m.sourceId, m.flowId, m.origin, m.sync, m.rate, m.duration, m.timelabels.getD [], body, (d.getD []).length, d⟩

/-- What was read, as a file to be written. -/
def specOf (r : Run) (bs : Bytes) : FileSpec :=
  let h := r.hdr.head
  ⟨r.hdr.major, r.hdr.minor,
    ⟨h.id, h.created, h.segments.map (fun (s : Segm) => ⟨s.localId, s.id, s.count,
      s.flow.map (fun (f : Flow) => ⟨f.sourceId, f.flowId, f.format, encodeUtf8 f.data⟩), s.tags⟩), h.tags⟩,
    (r.view bs).map (fun v => (v.2.2, grainOf v.1 v.2.1))⟩

def hex (b : Bytes) : String :=
  String.join (b.map fun x => ((String.ofList (Nat.toDigits 16 (256 + x.toNat))).drop 1).toString)

def load (path : String) : IO (Bytes × Run) := do
  let bs : Bytes := (← IO.FS.readBinFile path).toList
  match decodeFile { mode := .loadImmediately } bs with
  | .error _ => throw (IO.userError (path ++ ": the model could not read it"))
  | .ok r => return (bs, r)

def report (what : String) (good : Bool) : IO Unit := IO.println ((if good then "agrees   " else "DIFFERS  ") ++ what)

def contents (path : String) : IO (List (Meta × Bytes)) := do
  let (bs, r) ← load path
  return (r.view bs).map (fun v => (v.1, v.2.1.getD []))

/-- A single file: ten grains, and the bytes are those that the model's writer makes of what its reader found. -/
def single (dir name : String) : IO Unit := do
  let (bs, r) ← load (dir ++ "/examples/" ++ name)
  report s!"{name}: 10 grains, then the end" (r.items.length == 10 && decide (r.ending = .eof))
  report s!"{name}: {bs.length} bytes written again as they were" (decide ((specOf r bs).bytes = bs))

/-- `tests/test_gsf.py`: values that the tests of the decoder expect of `video_8.gsf`. -/
def values (dir : String) : IO Unit := do
  let (bs, r) ← load (dir ++ "/examples/video_8.gsf")
  report "video_8.gsf: identifier" (hex r.hdr.head.id == "a71aee4a0b9b11ee900409742b0a3ff2")
  IO.println s!"         created {reprStr r.hdr.head.created}"
  let g := (r.view bs).map (fun v => (v.1.origin, v.1.sync, v.1.rate, v.1.duration))
  IO.println s!"         first grain {g.head?}"

/-- The ADTS splitter on `tests/audio.aac` (`tests/test_wrap.py`) and on the data of `coded_audio_8.gsf`. -/
def adts (dir : String) : IO Unit := do
  let b : Bytes := (← IO.FS.readBinFile (dir ++ "/tests/audio.aac")).toList
  let a := Wrap.Adts.framesOfFile b
  IO.println s!"         audio.aac {reprStr (a.1.map (·.2)).head?}"
  let ca ← contents (dir ++ "/examples/coded_audio_8.gsf")
  let fs := Wrap.Adts.framesOfFile (ca.flatMap (·.2))
  report "coded_audio_8.gsf: frames" (decide (fs.1.map (·.1) = ca.map (·.2)))
  report "coded_audio_8.gsf: times"
    (decide ((Wrap.Adts.grains (ca.map (·.1.origin)).head! none fs.1).map (·.origin) = ca.map (·.1.origin)))

/-- The JSON reader and writer on the payloads of `event_8.gsf`. -/
def events (dir : String) : IO Unit := do
  let ev ← contents (dir ++ "/examples/event_8.gsf")
  report "event_8.gsf: JSON written again as it was" (ev.all fun e =>
    match Event.decodeText e.2 with
    | none => false
    | some t => match Json.loads t with | none => false | some j => decide (Json.dumps j = t))

/-- The H.264 splitter on the data of `coded_video_9.gsf`: the same frames. The unit offsets of the file are of
start codes with four bytes, those of the splitter of their last three bytes. -/
def h264 (dir : String) : IO Unit := do
  let cv ← contents (dir ++ "/examples/coded_video_9.gsf")
  let fs := Wrap.H264.frames (cv.flatMap (·.2)) []
  report "coded_video_9.gsf: frames" (decide (fs.1.map (·.data) = cv.map (·.2)))
  IO.println s!"         splitter {((fs.1.map (·.offs)).head?.getD []).take 4}"
  IO.println s!"         file     {(((cv.map (fun c => (c.1.cogCodedFrame.bind (·.unitOffsets)).getD [])).head?).getD []).take 4}"

open Verif.Cog Verif.Pattern Verif.Compare.Psnr

/-- Reads the sample at a position. -/
def sampleAt (bpv : Nat) (d : Array UInt8) (i : Nat) : Nat :=
  if bpv = 1 then (d.getD i 0).toNat else (d.getD i 0).toNat + 256 * (d.getD (i + 1) 0).toNat

/-- The loops of the assertions in `tests/test_patterngenerators.py`: every sample of every component is the
expected one. -/
def picture (fmt w h : Nat) (data : Except Pattern.Err Bytes) (e : Nat → Nat → Nat → Nat) : Bool :=
  match data with
  | .error _ => false
  | .ok bs =>
    let d := bs.toArray
    let bpv := bytesPerValue fmt
    (List.range 3).all fun c =>
      let k := component fmt w h c
      let ww := if c = 0 then w else w >>> hShift fmt
      let hh := if c = 0 then h else h >>> vShift fmt
      (List.range ww).all fun x => (List.range hh).all fun y =>
        sampleAt bpv d (k.offset + y * k.stride + bpv * x) == e c x y

/-- `test_patterngenerators.py:153-180`. -/
def lumaE (fmt w : Nat) (c x _y : Nat) : Nat :=
  let ab := activeBits fmt
  if c = 0 then
    if ab = 8 then 16 + x / (w / 8) * (235 - 16) / 8 else 64 + x / (w / 8) * (940 - 64) / 8
  else 1 <<< (ab - 1)

/-- `test_patterngenerators.py:258-270`; the intensity is `num / 4`. -/
def barsE (fmt w num : Nat) (c x _y : Nat) : Nat :=
  let bs := 16 - activeBits fmt
  let values := [[0xFFFF, 0x8000, 0x8000], [0xE1FF, 0, 0x9400], [0xB200, 0xABFF, 0], [0x95FF, 0x2BFF, 0x15FF],
    [0x69FF, 0xD400, 0xEA00], [0x4C00, 0x5400, 0xFFFF], [0x1DFF, 0xFFFF, 0x6BFF], [0, 0x8000, 0x8000]]
  let ww := if c = 0 then w else w >>> hShift fmt
  let v := (values.getD (x / (ww / 8)) []).getD c 0 >>> bs
  if c = 0 then v * num / 4 else v

/-- `test_patterngenerators.py:403-450`. -/
def movingE (fmt w h num barHeight fnum : Nat) (c x y : Nat) : Nat :=
  let s := fnum % h
  let e := (fnum + barHeight) % h
  if (s ≤ y ∧ y < e) ∨ (e < s ∧ s ≤ y) ∨ (y < e ∧ e < s) then
    (if activeBits fmt = 8 then [16, 128, 128] else [64, 512, 512]).getD c 0
  else barsE fmt w num c x y

/-- The formats and sizes of the tests of the pattern generators. -/
def patterns : IO Unit := do
  for fmt in [0x2000, 0x2805] do
    report s!"luma steps, format {fmt}" (picture fmt 240 4 (lumaSteps fmt 240 4) (lumaE fmt 240))
    for num in [3, 4] do
      let bars := colourBars (fun v => v * num / 4) fmt 240 4
      report s!"colour bars, format {fmt}, intensity {num}/4" (picture fmt 240 4 bars (barsE fmt 240 num))
      for barHeight in [1, 2] do
        report s!"moving bar, format {fmt}, intensity {num}/4, height {barHeight}" <|
          (List.range 10).all fun k =>
            let fnum := 417798915 * 25 + k
            picture fmt 240 4 (bars.bind (overlayBar fmt 240 4 barHeight fnum)) (movingE fmt 240 4 num barHeight fnum)

/-- The decibels. -/
def decibels : Psnr → Float
  | .ratio r => 10 * Float.log10 (Float.ofInt r.num / Float.ofNat r.den)
  | _ => 0

/-- `noise_mask=0xfffa` of `tests/test_video_psnr.py`. -/
def noise (fmt : Nat) (data : Bytes) : Bytes :=
  if bytesPerValue fmt = 1 then data.map (fun b => b &&& 0xfa)
  else ((List.range data.length).zip data).map fun p => if p.1 % 2 = 0 then p.2 &&& 0xfa else p.2

/-- `tests/test_video_psnr.py:136-150`, with four lines in place of 270 equal ones. -/
def ratios : IO Unit := do
  let expected : List (Nat × List Float) :=
    [(0x2001, [36.47984486113692, 39.45318336217709, 38.90095545159027]),
     (0x2805, [48.8541475647564, 50.477799910245636, 50.477799910245636]),
     (0x3005, [60.30687786176762, 62.525365357931186, 62.525365357931186]),
     (0x4005, [84.39126581514387, 86.60975331130743, 86.60975331130743])]
  for (fmt, e) in expected do
    match colourBars (fun v => v * 3 / 4) fmt 480 4 with
    | .error _ => report s!"signal to noise, format {fmt}" false
    | .ok a =>
      let cs := componentsForFormat fmt 480 4
      match computePsnr (fun _ => 0) (.video fmt 480 4 cs (some a)) (.video fmt 480 4 cs (some (noise fmt a))) with
      | .ok l =>
        report s!"signal to noise, format {fmt}" (l.length == 3 &&
          (l.zip e).all fun p => (decibels p.1 - p.2).abs < 0.000001)
      | _ => report s!"signal to noise, format {fmt}" false

/-! ## Tests of `test_grain.py`, `test_numpy_videograin.py`, `test_numpy_audiograin.py` and `test_audio_psnr.py` -/

/-- `tests/test_grain.py:442-472`: the lengths of the components of grains of 1920 by 1080. -/
def sizes : IO Unit := do
  let n := 1920 * 1080
  let expected : List (Nat × List Nat) :=
    [(FrameFormat.S32_444, [n * 4, n * 4, n * 4]), (FrameFormat.S32_422, [n * 4, n * 2, n * 2]),
     (FrameFormat.S32_420, [n * 4, n, n]), (FrameFormat.S16_444_10BIT, [n * 2, n * 2, n * 2]),
     (FrameFormat.S16_422_10BIT, [n * 2, n, n]), (FrameFormat.S16_420_10BIT, [n * 2, n / 2, n / 2]),
     (FrameFormat.U8_444, [n, n, n]), (FrameFormat.U8_422, [n, n / 2, n / 2]), (FrameFormat.U8_420, [n, n / 4, n / 4]),
     (FrameFormat.UYVY, [n * 2]), (FrameFormat.RGB, [n * 3]), (FrameFormat.RGBA, [n * 4]),
     (FrameFormat.v210, [40 * 128 * 1080]), (FrameFormat.v216, [n * 4])]
  for (fmt, e) in expected do
    let cs := componentsForFormat fmt 1920 1080
    report s!"component lengths, format {fmt}" <|
      cs.map (·.length) == e && cs.map (·.offset) == (List.range e.length).map (fun i => (e.take i).sum) &&
      sizeForFormat fmt 1920 1080 == e.sum && expectedLength cs == e.sum
  report "component lengths, unknown format"
    (componentsForFormat FrameFormat.UNKNOWN 1920 1080 == [] && sizeForFormat FrameFormat.UNKNOWN 1920 1080 == 0)

open Verif.Numpy Verif.Numpy.Arrays

/-- `_is_rgb`, `_get_bitdepth` and `_get_hs_vs_and_bps` of `tests/test_numpy_videograin.py:53-117`. -/
def isRgb (fmt : Nat) : Bool :=
  if isPlanar fmt then isPlanarRgb fmt
  else !([FrameFormat.UYVY, FrameFormat.YUYV, FrameFormat.v216, FrameFormat.v210].contains fmt)

def depthOf (fmt : Nat) : Nat :=
  if isPlanar fmt then activeBits fmt else if fmt = FrameFormat.v216 then 16 else if fmt = FrameFormat.v210 then 10 else 8

def halved (fmt : Nat) : Nat × Nat :=
  if isPlanar fmt then (hShift fmt, vShift fmt)
  else if isRgb fmt then (0, 0) else (1, 0)

/-- The colours of column `x`, lines 355-370. -/
def rgbAt (bd x : Nat) : Nat × Nat × Nat :=
  let v := (1 <<< (bd - 2)) * 3
  (if x / 4 % 2 = 0 then v else 0, if x / 8 % 2 = 0 then v else 0, if x / 2 % 2 = 0 then v else 0)

/-- Lines 372-396, in exact arithmetic; the two columns that are averaged are equal. -/
def yuvAt (bd x : Nat) : Nat × Nat × Nat :=
  let p := rgbAt bd x
  let r : Rat := p.1
  let g : Rat := p.2.1
  let b : Rat := p.2.2
  let mid : Rat := (1 <<< (bd - 1) : Nat)
  let i : Rat → Nat := fun q => (Colour.nearest q).toNat
  (i (r * 0.2126 + g * 0.7152 + b * 0.0722), i (r * -0.114572 - g * 0.385428 + b * 0.5 + mid),
    i (r * 0.5 - g * 0.454153 - b * 0.045847 + mid))

/-- The test pattern in a format, lines 355-414. -/
def testPattern (fmt : Nat) : Pixels :=
  let column := fun (n v : Nat) => List.replicate n v
  if fmt = FrameFormat.v210 then
    let at3 := yuvAt 10
    let y := fun i => if i < 16 then (at3 i).1 else 0
    let u := fun i => if i < 8 then (at3 (2 * i)).2.1 else 0
    let v := fun i => if i < 8 then (at3 (2 * i)).2.2 else 0
    let w := fun a b c : Nat => a ||| (b <<< 10) ||| (c <<< 20)
    let line := (List.range 8).flatMap fun x =>
      [w (u (3 * x)) (y (6 * x)) (v (3 * x)), w (y (6 * x + 1)) (u (3 * x + 1)) (y (6 * x + 2)),
        w (v (3 * x + 1)) (y (6 * x + 3)) (u (3 * x + 2)), w (y (6 * x + 4)) (v (3 * x + 2)) (y (6 * x + 5))]
    .words ((List.range 16).flatMap fun _ => line)
  else
    let bd := depthOf fmt
    let at3 := if isRgb fmt then rgbAt bd else yuvAt bd
    let (hs, vs) := halved fmt
    .planes ((List.range 16).map fun x => column 16 (at3 x).1)
      ((List.range (16 >>> hs)).map fun x => column (16 >>> vs) (at3 (x <<< hs)).2.1)
      ((List.range (16 >>> hs)).map fun x => column (16 >>> vs) (at3 (x <<< hs)).2.2)

/-- `assertArrayEqual` with `max_diff`, lines 431-442. -/
def near (d : Nat) (p q : Plane) : Bool :=
  p.map List.length == q.map List.length && (p.flatten.zip q.flatten).all fun v => v.1 ≤ v.2 + d && v.2 ≤ v.1 + d

def matchesPattern (d : Nat) (f : Frame) : Bool :=
  match f.pixels, testPattern f.fmt with
  | .planes a b c, .planes a' b' c' => near d a a' && near d b b' && near d c c'
  | .words l, .words m => l == m
  | _, _ => false

/-- The largest difference that the test allows, lines 638-685; `none` for the way there and back. -/
def allowed (i o : Nat) : Nat :=
  if depthOf o > depthOf i then 1 <<< (depthOf o + 2 - depthOf i)
  else if depthOf i ≥ 16 && !isRgb i && o == FrameFormat.S16_444_RGB then 2
  else if depthOf i == 32 && !isRgb i && o == FrameFormat.S32_444_RGB then 1 <<< 10
  else if depthOf o < depthOf i || isRgb i != isRgb o then 1
  else 0

def allowedBack (i : Nat) : Nat :=
  if i = FrameFormat.v210 ∨ i = FrameFormat.S16_422_10BIT then 0
  else if depthOf i ≤ 10 ∧ !isRgb i then 1
  else if depthOf i > 10 ∧ !isRgb i then 1 <<< (depthOf i - 9)
  else if depthOf i > 10 then 1 <<< (depthOf i - 8)
  else 4

/-- `tests/test_numpy_videograin.py:558-685`: all conversions between 29 formats. -/
def conversions : IO Unit := do
  let fmts := [FrameFormat.YUYV, FrameFormat.UYVY, FrameFormat.U8_444, FrameFormat.U8_422, FrameFormat.U8_420, FrameFormat.RGB,
    FrameFormat.U8_444_RGB, FrameFormat.RGBx, FrameFormat.xRGB, FrameFormat.BGRx, FrameFormat.xBGR, FrameFormat.v216,
    FrameFormat.S16_444, FrameFormat.S16_422, FrameFormat.S16_420, FrameFormat.S16_444_10BIT, FrameFormat.S16_422_10BIT,
    FrameFormat.S16_420_10BIT, FrameFormat.v210, FrameFormat.S16_444_12BIT, FrameFormat.S16_422_12BIT, FrameFormat.S16_420_12BIT,
    FrameFormat.S32_444, FrameFormat.S32_422, FrameFormat.S32_420, FrameFormat.S16_444_RGB, FrameFormat.S16_444_10BIT_RGB,
    FrameFormat.S16_444_12BIT_RGB, FrameFormat.S32_444_RGB]
  let random := fun c x y => (c * 7919 + x * 104729 + y * 1299709 + 12345) * 2654435761 % 4294967296
  let env := Colour.colours random
  for i in fmts do
    let mut bad : List Nat := []
    for o in fmts do
      let ok := match convertFrame env 4 ⟨i, 16, 16, testPattern i⟩ o with
        | none => false
        | some f =>
          if f.fmt != o then false
          else if o != FrameFormat.v210 then matchesPattern (allowed i o) f
          else match convertFrame env 4 f i with
            | none => false
            | some g => g.fmt == i && matchesPattern (allowedBack i) g
      if !ok then bad := bad ++ [o]
    report s!"conversions from format {i} {if bad.isEmpty then "" else toString bad}" bad.isEmpty

/-- Where the samples of column `x` and line `y` are in the data, `tests/test_numpy_videograin.py:119-188`. -/
def placed (fmt w h c x y : Nat) : Nat :=
  let (hs, vs) := halved fmt
  if isPlanar fmt then
    (if c = 0 then y * w + x else w * h + (c - 1) * ((w >>> hs) * (h >>> vs)) + y * (w >>> hs) + x)
  else if fmt = FrameFormat.UYVY ∨ fmt = FrameFormat.v216 then
    y * w * 2 + (if c = 0 then 2 * x + 1 else 4 * x + 2 * (c - 1))
  else if fmt = FrameFormat.YUYV then y * w * 2 + (if c = 0 then 2 * x else 4 * x + 2 * (c - 1) + 1)
  else if fmt = FrameFormat.RGB then y * w * 3 + 3 * x + c
  else if fmt ∈ [FrameFormat.RGBx, FrameFormat.RGBA, FrameFormat.BGRx] then y * w * 4 + 4 * x + c
  else y * w * 4 + 4 * x + c + 1

/-- `tests/test_numpy_videograin.py:190-353,458-506`: the shapes of the component arrays of new grains, and where a
sample written to them is found in the data. -/
def arrays : IO Unit := do
  for fmt in [FrameFormat.S32_444, FrameFormat.S32_422, FrameFormat.S32_420, FrameFormat.S16_444_10BIT, FrameFormat.S16_422_10BIT,
      FrameFormat.S16_420_10BIT, FrameFormat.S16_444_12BIT, FrameFormat.S16_422_12BIT, FrameFormat.S16_420_12BIT,
      FrameFormat.S16_444, FrameFormat.S16_422, FrameFormat.S16_420, FrameFormat.U8_444, FrameFormat.U8_422, FrameFormat.U8_420,
      FrameFormat.U8_444_RGB, FrameFormat.S16_444_RGB, FrameFormat.S16_444_12BIT_RGB, FrameFormat.S16_444_10BIT_RGB,
      FrameFormat.UYVY, FrameFormat.YUYV, FrameFormat.RGB, FrameFormat.RGBx, FrameFormat.RGBA, FrameFormat.BGRx, FrameFormat.ARGB,
      FrameFormat.xRGB, FrameFormat.ABGR, FrameFormat.xBGR, FrameFormat.v216, FrameFormat.v210] do
    let w := 1920
    let h := 1080
    let (hs, vs) := halved fmt
    let item := if isPlanar fmt then bytesPerValue fmt else if fmt = FrameFormat.v216 then 2 else if fmt = FrameFormat.v210 then 4 else 1
    report s!"component arrays, format {fmt}" <|
      itemsize fmt == some item &&
      match videoArrays fmt (sizeForFormat fmt w h) (componentsForFormat fmt w h) with
      | .error _ => false
      | .ok vs' =>
        if fmt = FrameFormat.v210 then vs'.isEmpty
        else vs'.length == 3 && vs'.zipIdx.all fun (v, c) =>
          v.width == (if c = 0 then w else w >>> hs) && v.height == (if c = 0 then h else h >>> vs) && v.itemsize == item &&
          (List.range (if c = 0 then 16 else 16 >>> hs)).all fun x => (List.range (if c = 0 then 16 else 16 >>> vs)).all fun y =>
            v.addr x y == item * placed fmt w h c x y

/-- `_create_test_data` of `tests/test_audio_psnr.py:74-89`, the integers; for floating point samples they are divided by
the greatest of 32 bits. -/
def soundData (fmt channels : Nat) : List (List Int) :=
  let b := if audioIsInt fmt then (if audioDepth fmt = 0 then 15 else if audioDepth fmt = 4 then 23 else 31) else 31
  (List.range channels).map fun (c : Nat) => [-(2 ^ b), -512, -1, Int.ofNat c, 1, 512, 2 ^ b - 1]

/-- The bytes of a sample: `'<h'`, `'<i'`, `'<f'`, `'<d'` of `tests/audio_utils.py`. -/
def packed (fmt : Nat) (halve : Bool) (v : Int) : Bytes :=
  if audioIsInt fmt then
    let v := if halve then v / 2 else v
    let n := if audioDepth fmt = 0 then 2 else if audioDepth fmt = 4 then 3 else 4
    let u := (v % 2 ^ 32).toNat
    (List.range n).map (fun i => UInt8.ofNat (u >>> (8 * i))) ++ (if fmt = AudioFormat.S24_PLANES then [0] else [])
  else
    let x := Float.ofInt v / 2147483647.0 / (if halve then 2 else 1)
    if audioIsFloat fmt then (List.range 4).map (fun i => UInt8.ofNat (x.toFloat32.toBits.toNat >>> (8 * i)))
    else (List.range 8).map (fun i => UInt8.ofNat (x.toBits.toNat >>> (8 * i)))

/-- `construct_audio_grain_data` of `tests/audio_utils.py`. -/
def soundBytes (fmt channels : Nat) (halve : Bool) : Bytes :=
  let d := soundData fmt channels
  let put := fun c s => packed fmt halve ((d.getD c []).getD s 0)
  if audioIsPlanes fmt then (List.range channels).flatMap fun c => (List.range 7).flatMap fun s => put c s
  else if audioIsPairs fmt then
    (List.range ((channels + 1) / 2)).flatMap fun cp => (List.range 7).flatMap fun s => put (2 * cp) s ++ put (2 * cp + 1) s
  else (List.range 7).flatMap fun s => (List.range channels).flatMap fun c => put c s

/-- The value of a floating point number. -/
def floatValue (b : Bytes) : Rat :=
  let (e, m) := if b.length = 4 then (8, 23) else (11, 52)
  let u := uintOf b
  let frac := u % 2 ^ m
  let ex := (u >>> m) % 2 ^ e
  let mag : Rat := if ex = 0 then (frac : Rat) * Colour.pow2 (2 - 2 ^ (e - 1) - m)
    else ((2 ^ m + frac : Nat) : Rat) * Colour.pow2 ((ex : Int) - (2 ^ (e - 1) - 1) - m)
  if u >>> (m + e) = 1 then -mag else mag

/-- The fifteen formats of the tests of audio. -/
def soundFormats : List Nat :=
  [AudioFormat.S16_PLANES, AudioFormat.S16_PAIRS, AudioFormat.S16_INTERLEAVED, AudioFormat.S24_PLANES, AudioFormat.S24_PAIRS,
    AudioFormat.S24_INTERLEAVED, AudioFormat.S32_PLANES, AudioFormat.S32_PAIRS, AudioFormat.S32_INTERLEAVED,
    AudioFormat.FLOAT_PLANES, AudioFormat.FLOAT_PAIRS, AudioFormat.FLOAT_INTERLEAVED, AudioFormat.DOUBLE_PLANES,
    AudioFormat.DOUBLE_PAIRS, AudioFormat.DOUBLE_INTERLEAVED]

/-- `tests/test_numpy_audiograin.py:108-134` and `tests/test_audio_psnr.py:104-170`. -/
def sound : IO Unit := do
  for fmt in soundFormats do
    for channels in [1, 2, 3] do
      let a := soundBytes fmt channels false
      let b := soundBytes fmt channels true
      let d := soundData fmt channels
      report s!"channels, format {fmt}, {channels}" <|
        match audioArrs floatValue fmt channels 7 true (some a) with
        | .error _ => false
        | .ok l => l.length == channels && (l.zip d).all fun p =>
          p.1.width == 7 && (List.range 7).all fun s =>
            let v := p.1.val s 0
            let e := p.2.getD s 0
            if audioIsInt fmt then
              (if audioDepth fmt = 4 then v == ((e * 256 : Int) : Rat) else v == (e : Rat))
            else v * 2147483648 - (e : Rat) * 2147483648 / 2147483647 ≤ (if audioIsFloat fmt then 128 else 1) &&
              (e : Rat) * 2147483648 / 2147483647 - v * 2147483648 ≤ (if audioIsFloat fmt then 128 else 1)
      report s!"signal to noise of equal sound, format {fmt}, {channels}" <|
        match computePsnr floatValue (.audio fmt channels 7 true (some a)) (.audio fmt channels 7 true (some a)) with
        | .ok l => l == List.replicate channels .inf
        | _ => false
      report s!"signal to noise of sound, format {fmt}, {channels}" <|
        let lower := 10 * Float.log10 (7 * 4 / 2.1)
        let upper := 10 * Float.log10 (7 * 4 / 1.9)
        match computePsnr floatValue (.audio fmt channels 7 true (some a)) (.audio fmt channels 7 true (some b)) with
        | .ok l => l.length == channels && l.all fun p => lower < decibels p && decibels p < upper
        | _ => false

def run (dir : String) : IO Unit := do
  for name in ["audio_7.gsf", "audio_8.gsf", "coded_audio_7.gsf", "coded_audio_8.gsf", "coded_video_7.gsf", "coded_video_8.gsf",
      "coded_video_9.gsf", "event_7.gsf", "event_8.gsf", "video_7.gsf", "video_8.gsf"] do
    single dir name
  values dir
  adts dir
  events dir
  h264 dir
  patterns
  ratios
  sizes
  arrays
  conversions
  sound

end Verif.Conformance

def main (args : List String) : IO Unit := Verif.Conformance.run (args.headD "/repo")

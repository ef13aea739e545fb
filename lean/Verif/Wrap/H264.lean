import Verif.Wrap.Bits
import Verif.Wrap.Raw

/-!
# Wrapping H.264

Model of `mediagrains/utils/h264_parser.py` and `mediagrains/utils/h264_grain_wrapper.py` (32-106).
-/

namespace Verif.Wrap.H264

open Verif Verif.IO.Stream

/-- `SPS`, `h264_parser.py` 50-86: the fields something is done with. -/
structure SPS where
  id : Nat
  profileIdc : Nat
  flags : Nat
  levelIdc : Nat
  chromaArrayType : Nat
  separateColourPlane : Bool
  bitDepthLumaMinus8 : Nat
  log2MaxFrameNumMinus4 : Nat
  pocType : Nat
  log2MaxPocLsbMinus4 : Nat
  deltaPicOrderAlwaysZero : Bool
  widthMbsMinus1 : Nat
  heightMapUnitsMinus1 : Nat
  frameMbsOnly : Bool
  cropLeft : Nat
  cropRight : Nat
  cropTop : Nat
  cropBottom : Nat
  aspectRatioIdc : Nat
  sarWidth : Nat
  sarHeight : Nat
  /-- `timing_info_present_flag`, `num_units_in_tick`, `time_scale`, `fixed_frame_rate_flag` -/
  timing : Option (Nat × Nat × Bool)
deriving DecidableEq, Repr

/-- `PPS`, lines 89-95. -/
structure PPS where
  id : Nat
  spsId : Nat
  bottomFieldPicOrder : Bool
  redundantPicCntPresent : Bool
deriving DecidableEq, Repr

/-- `SliceHeader`, lines 98-114. -/
structure Slice where
  sliceType : Nat
  refIdc : Nat
  ppsId : Nat
  fieldPic : Bool
  idr : Bool
  idrPicId : Nat
  pocLsb : Nat
  deltaPocBottom : Int
  deltaPoc0 : Int
  deltaPoc1 : Int
  redundantPicCnt : Nat
  frameNum : Nat
  bottomField : Bool
deriving DecidableEq, Repr

/-- One scaling list, lines 494-501: how many entries are left, the last and the next scale. -/
def scalingList : Nat → Int → Int → Prog Unit
  | 0, _, _ => .ret ()
  | n + 1, last, next =>
    if next ≠ 0 then do
      let delta ← se
      let next' := (last + delta + 256) % 256
      scalingList n (if next' = 0 then last else next') next'
    else scalingList n last next

/-- The scaling lists, lines 491-501. -/
def scalingLists : Nat → Nat → Prog Unit
  | 0, _ => .ret ()
  | n + 1, i => do
    let present ← flag
    when' present (scalingList (if i < 6 then 16 else 64) 8 8)
    scalingLists n (i + 1)

/-- Lines 471-501: chroma array type, separate colour planes, luma bit depth. -/
def parseChroma : Prog (Nat × Bool × Nat) := do
  let chroma ← ue
  require (chroma ≤ 3)
  let separate ← optional (chroma == 3) flag false
  let luma ← ue
  require (luma ≤ 6)
  let depthChroma ← ue
  require (depthChroma ≤ 6)
  let _ ← flag
  let scaling ← flag
  when' scaling (scalingLists (if chroma = 3 then 12 else 8) 0)
  .ret (if separate then 0 else chroma, separate, luma)

/-- Lines 504-514: the fields of the picture order count. -/
def parsePoc (type : Nat) : Prog (Nat × Bool) :=
  if type = 0 then do
    let l ← ue
    .ret (l, false)
  else if type = 1 then do
    let z ← flag
    let _ ← se
    let _ ← se
    let n ← ue
    require (n ≤ 255)
    times n (do let _ ← se; .ret ())
    .ret (0, z)
  else .ret (0, false)

/-- Lines 523-528. -/
def parseCrop : Prog (Nat × Nat × Nat × Nat) := do
  let c ← flag
  optional c (do
    let l ← ue
    let r ← ue
    let t ← ue
    let b ← ue
    .ret (l, r, t, b)) (0, 0, 0, 0)

/-- Lines 531-536. -/
def parseAspect : Prog (Nat × Nat × Nat) := do
  let present ← flag
  optional present (do
    let idc ← uint 8
    optional (idc == 255) (do
      let w ← uint 16
      let h ← uint 16
      .ret (idc, w, h)) (idc, 0, 0)) (0, 0, 0)

/-- Lines 553-557. -/
def parseTiming : Prog (Option (Nat × Nat × Bool)) := do
  let present ← flag
  optional present (do
    let u ← uint 32
    let t ← uint 32
    let f ← flag
    .ret (some (u, t, f))) none

/-- Lines 529-557: sample aspect ratio and timing. -/
def parseVui : Prog ((Nat × Nat × Nat) × Option (Nat × Nat × Bool)) := do
  let present ← flag
  optional present (do
    let a ← parseAspect
    let overscan ← flag
    when' overscan (do let _ ← flag; .ret ())
    let signal ← flag
    when' signal (do
      let _ ← uint 3
      let _ ← flag
      let colour ← flag
      when' colour (do
        let _ ← uint 8
        let _ ← uint 8
        let _ ← uint 8
        .ret ()))
    let loc ← flag
    when' loc (do
      let _ ← ue
      let _ ← ue
      .ret ())
    let t ← parseTiming
    .ret (a, t)) ((0, 0, 0), none)

/-- The profiles of line 471. -/
def highProfiles : List Nat := [100, 110, 122, 244, 44, 83, 86, 118, 128, 138, 139, 134, 135]

/-- `_parse_sps`, lines 452-561. -/
def parseSps : Prog SPS := do
  let _ ← uint 1
  let _ ← uint 2
  let _ ← uint 5
  let profile ← uint 8
  let flags ← uint 8
  let level ← uint 8
  let id ← ue
  require (id ≤ 31)
  let c ← optional (highProfiles.contains profile) parseChroma (1, false, 0)
  let frameNum ← ue
  let pocType ← ue
  let poc ← parsePoc pocType
  let _ ← ue
  let _ ← flag
  let width ← ue
  let height ← ue
  let mbsOnly ← flag
  when' (!mbsOnly) (do let _ ← flag; .ret ())
  let _ ← flag
  let crop ← parseCrop
  let vui ← parseVui
  .ret { id := id, profileIdc := profile, flags := flags, levelIdc := level, chromaArrayType := c.1,
         separateColourPlane := c.2.1, bitDepthLumaMinus8 := c.2.2, log2MaxFrameNumMinus4 := frameNum, pocType := pocType,
         log2MaxPocLsbMinus4 := poc.1, deltaPicOrderAlwaysZero := poc.2, widthMbsMinus1 := width,
         heightMapUnitsMinus1 := height, frameMbsOnly := mbsOnly, cropLeft := crop.1, cropRight := crop.2.1,
         cropTop := crop.2.2.1, cropBottom := crop.2.2.2, aspectRatioIdc := vui.1.1, sarWidth := vui.1.2.1,
         sarHeight := vui.1.2.2, timing := vui.2 }

/-- Lines 597-599: the position of the highest bit. For values below 2^64. -/
def bitsRequired (value : Nat) : Nat := Nat.log2 value

/-- Lines 580-600: the slice groups. -/
def parseSliceGroups : Prog Unit := do
  let n ← ue
  when' (n > 0) (do
    let type ← ue
    if type = 0 then times (n + 1) (do let _ ← ue; .ret ())
    else if type = 2 then times n (do let _ ← ue; let _ ← ue; .ret ())
    else if type = 3 ∨ type = 4 ∨ type = 5 then do
      let _ ← flag
      let _ ← ue
      .ret ()
    else if type = 6 then do
      let size ← ue
      times (size + 1) (do let _ ← uint (bitsRequired (size + 1)); .ret ())
    else .ret ())

/-- `_parse_pps`, lines 563-614. -/
def parsePps : Prog PPS := do
  let _ ← uint 1
  let _ ← uint 2
  let _ ← uint 5
  let id ← ue
  let spsId ← ue
  let _ ← flag
  let bottom ← flag
  parseSliceGroups
  let _ ← ue
  let _ ← ue
  let _ ← flag
  let _ ← uint 2
  let _ ← se
  let _ ← se
  let _ ← se
  let _ ← flag
  let _ ← flag
  let redundant ← flag
  .ret ⟨id, spsId, bottom, redundant⟩

/-- The parameter sets a parser has seen, lines 135-137. -/
structure Sets where
  sps : Nat → Option SPS
  pps : Nat → Option PPS

def Sets.empty : Sets := ⟨fun _ => none, fun _ => none⟩

/-- Lines 635-640: the sets a slice refers to. -/
def Sets.lookup (st : Sets) (id : Nat) : Option (PPS × SPS) :=
  match st.pps id with
  | none => none
  | some p => (st.sps p.spsId).map (fun s => (p, s))

/-- The part of `_parse_slice_header` after the sets are known, lines 642-664. -/
def parseSliceRest (refIdc unitType sliceType ppsId : Nat) (p : PPS) (s : SPS) : Prog Slice := do
  when' s.separateColourPlane (do let _ ← uint 2; .ret ())
  let frameNum ← uint (s.log2MaxFrameNumMinus4 + 4)
  let fieldPic ← optional (!s.frameMbsOnly) flag false
  let bottomField ← optional fieldPic flag false
  let idrPicId ← optional (unitType == 5) ue 0
  let pocLsb ← optional (s.pocType == 0) (uint (s.log2MaxPocLsbMinus4 + 4)) 0
  let bottom ← optional (s.pocType == 0 && (p.bottomFieldPicOrder && !fieldPic)) se 0
  let d0 ← optional (s.pocType == 1 && !s.deltaPicOrderAlwaysZero) se 0
  let d1 ← optional ((s.pocType == 1 && !s.deltaPicOrderAlwaysZero) && (p.bottomFieldPicOrder && !fieldPic)) se 0
  let redundant ← optional p.redundantPicCntPresent ue 0
  .ret { sliceType := sliceType, refIdc := refIdc, ppsId := ppsId, fieldPic := fieldPic, idr := unitType == 5,
         idrPicId := idrPicId, pocLsb := pocLsb, deltaPocBottom := bottom, deltaPoc0 := d0, deltaPoc1 := d1,
         redundantPicCnt := redundant, frameNum := frameNum, bottomField := bottomField }

/-- `_parse_slice_header`, lines 616-664. `UnavailableParamSets` is a `ValueError`. -/
def parseSlice (st : Sets) : Prog Slice := do
  let _ ← uint 1
  let refIdc ← uint 2
  let unitType ← uint 5
  let _ ← ue
  let sliceType ← ue
  let ppsId ← ue
  match st.lookup ppsId with
  | none => .fail
  | some (p, s) => parseSliceRest refIdc unitType sliceType ppsId p s

/-! ## Units -/

/-- A start code at position `i`. -/
def isCode (b : Bytes) (i : Nat) : Bool := (b.drop i).take 3 == [0, 0, 1]

/-- `findall('0x000001', bytealigned=True)`, lines 139-150 and 666-674: the positions of the start codes. -/
def offsets (b : Bytes) : List Nat := (List.range b.length).filter (isCode b)

/-- The bytes from each start code to the next or to the end, with the position (lines 170-178 and 248). -/
def units (b : Bytes) : List (Nat × Bytes) :=
  ((offsets b).zip ((offsets b).tail ++ [b.length])).map (fun x => (x.1, (b.drop x.1).take (x.2 - x.1)))

/-- Removing the emulation prevention bytes, lines 685-694. Occurrences of `000003` cannot overlap, so cutting at all of them
is the same as going through the bytes once. -/
def unescape : Bytes → Bytes
  | 0 :: 0 :: 3 :: r => 0 :: 0 :: unescape r
  | x :: r => x :: unescape r
  | [] => []

/-- `_parse_rbsp_bits`, lines 676-698, for a unit that starts with a three byte start code. -/
def rbsp (u : Bytes) : List Bool := bitsOf (unescape (u.drop 3))

/-- `_parse_nal_unit_type`, lines 438-450: reads from the unit, not from its payload. -/
def unitType (u : Bytes) : Res Nat :=
  (do let _ ← uint 1; let _ ← uint 2; uint 5 : Prog Nat).run (bitsOf (u.drop 3))

/-- `FrameInfo`, lines 117-131, the fields the wrapper uses. -/
structure Info where
  codedWidth : Nat
  codedHeight : Nat
  width : Int
  height : Int
  frameRate : Option (Nat × Nat)
  keyFrame : Bool
deriving DecidableEq, Repr

/-- `_extract_frame_info`, lines 333-407. `none` is an exception: invalid timing (388-391) or an extended aspect ratio with
height zero (432). The headers are not empty, and the sets of the first header exist since it was parsed with them. -/
def extractInfo (st : Sets) (first : Slice) (rest : List Slice) : Option Info :=
  match st.lookup first.ppsId with
  | none => none
  | some (_, s) =>
    let f := if s.frameMbsOnly then 1 else 2
    let cw := (s.widthMbsMinus1 + 1) * 16
    let ch := (s.heightMapUnitsMinus1 + 1) * 16 * f
    let ux := if s.chromaArrayType = 1 ∨ s.chromaArrayType = 2 then 2 else 1
    let uy := (if s.chromaArrayType = 1 then 2 else 1) * f
    let key := (first :: rest).all (fun h => [2, 4, 7, 9].contains h.sliceType)
    let mk (r : Option (Nat × Nat)) : Info :=
      ⟨cw, ch, (cw : Int) - ux * s.cropRight - ux * s.cropLeft, (ch : Int) - uy * s.cropBottom - uy * s.cropTop, r, key⟩
    if s.aspectRatioIdc = 255 ∧ s.sarHeight = 0 then none
    else
      match s.timing with
      | none => some (mk none)
      | some (units, scale, _) =>
        if scale = 0 ∨ units = 0 then none
        else some (mk (some (scale, units * if first.fieldPic then 1 else 2)))

/-- Lines 197-221: the slice belongs to another primary coded picture than the first one of this frame. -/
def startsPicture (s : SPS) (a b : Slice) : Bool :=
  a.ppsId != b.ppsId || a.frameNum != b.frameNum || a.fieldPic != b.fieldPic ||
  (a.fieldPic && a.bottomField != b.bottomField) ||
  (a.refIdc != b.refIdc && (a.refIdc != 0 || b.refIdc != 0)) ||
  a.idr != b.idr || (a.idr && a.idrPicId != b.idrPicId) ||
  (s.pocType == 0 && (a.pocLsb != b.pocLsb || a.deltaPocBottom != b.deltaPocBottom)) ||
  (s.pocType == 1 && (a.deltaPoc0 != b.deltaPoc0 || a.deltaPoc1 != b.deltaPoc1))

/-- What `parse_frame` makes of a buffer. The code returns `None` for both `noEnd` (every unit was looked at and no next frame
was found) and `short` (`ReadError`). -/
inductive Outcome
  | frame (size : Nat) (offs : List Nat) (info : Info)
  | noEnd
  | short
  | raised
deriving DecidableEq, Repr

/-- What is done with a unit of a frame. -/
inductive Kind
  | slice
  | boundary
  | sps
  | pps
  | other
deriving DecidableEq, Repr

/-- Lines 180-182, 227-232, 236 and 241: by the type of the unit and whether a primary slice was seen. -/
def kindOf (t : Nat) (seen : Bool) : Kind :=
  if t = 1 ∨ t = 2 ∨ t = 5 then .slice
  else if seen ∧ (t = 9 ∨ t = 7 ∨ t = 8 ∨ t = 6 ∨ (15 ≤ t ∧ t ≤ 18)) then .boundary
  else if t = 7 then .sps
  else if t = 8 then .pps
  else .other

def Sets.addSps (st : Sets) (s : SPS) : Sets := { st with sps := fun i => if i = s.id then some s else st.sps i }
def Sets.addPps (st : Sets) (p : PPS) : Sets := { st with pps := fun i => if i = p.id then some p else st.pps i }

/-- Lines 250-262: the size of the frame when the next one starts at `offset`. -/
def frameSize (b : Bytes) (offset : Nat) : Nat :=
  if offset > 0 ∧ b[offset - 1]? = some 0 then offset - 1 else offset

/-- Lines 250-262: the end of a frame was found at `offset`. -/
def finish (b : Bytes) (st : Sets) (headers : List Slice) (offs : List Nat) (offset : Nat) : Outcome :=
  match headers with
  | [] => .raised
  | h :: hs =>
    match extractInfo st h hs with
    | none => .raised
    | some i => .frame (frameSize b offset) offs i

/-- The slice at `offset` starts the next frame, given the headers of this one. -/
def isNext (st : Sets) (headers : List Slice) (h : Slice) : Bool :=
  match headers, st.lookup h.ppsId with
  | first :: _, some (_, s) => startsPicture s h first
  | _, _ => false

/-- The loop of `parse_frame`, lines 177-268, over the units of the buffer; `headers` are the primary slices seen and `offs` the
positions of the units of this frame. Updates of the parameter sets stay when the loop is left by an exception. -/
def loop (b : Bytes) : List (Nat × Bytes) → Sets → List Slice → List Nat → Sets × Outcome
  | [], st, _, _ => (st, .noEnd)
  | (o, u) :: us, st, hs, offs =>
    match unitType u with
    | .short => (st, .short)
    | .invalid => (st, .raised)
    | .ok t _ =>
      match kindOf t (!hs.isEmpty) with
      | .slice =>
        match (parseSlice st).run (rbsp u) with
        | .short => (st, .short)
        | .invalid => (st, .raised)
        | .ok h _ =>
          if h.redundantPicCnt = 0 then
            if isNext st hs h then (st, finish b st hs offs o)
            else loop b us st (hs ++ [h]) (offs ++ [o])
          else loop b us st hs (offs ++ [o])
      | .boundary => (st, finish b st hs offs o)
      | .sps =>
        match parseSps.run (rbsp u) with
        | .short => (st, .short)
        | .invalid => (st, .raised)
        | .ok s _ => loop b us (st.addSps s) hs (offs ++ [o])
      | .pps =>
        match parsePps.run (rbsp u) with
        | .short => (st, .short)
        | .invalid => (st, .raised)
        | .ok p _ => loop b us (st.addPps p) hs (offs ++ [o])
      | .other => loop b us st hs (offs ++ [o])

/-- `parse_frame`, lines 152-268. A buffer without a start code is insufficient. -/
def parseFrame (st : Sets) (b : Bytes) : Sets × Outcome := loop b (units b) st [] []

/-- The loop of `parse_frame_info`, lines 296-326: `none` is an exception. Gives the primary slice headers. -/
def infoLoop : List (Nat × Bytes) → Sets → List Slice → Sets × Option (List Slice)
  | [], st, hs => (st, some hs)
  | (_, u) :: us, st, hs =>
    match unitType u with
    | .short => (st, none)
    | .invalid => (st, none)
    | .ok t _ =>
      if t = 1 ∨ t = 2 ∨ t = 5 then
        match (parseSlice st).run (rbsp u) with
        | .short => (st, none)
        | .invalid => (st, none)
        | .ok h _ => if h.redundantPicCnt ≠ 0 then (st, some hs) else infoLoop us st (hs ++ [h])
      else if t ≤ 5 then (st, some hs)
      else if t = 7 then
        match parseSps.run (rbsp u) with
        | .ok s _ => infoLoop us (st.addSps s) hs
        | _ => (st, none)
      else if t = 8 then
        match parsePps.run (rbsp u) with
        | .ok p _ => infoLoop us (st.addPps p) hs
        | _ => (st, none)
      else infoLoop us st hs

/-- `parse_frame_info`, lines 270-331: the outer `none` is an exception (`ReadError` is not caught here), the inner one that
there are no primary slices. -/
def parseFrameInfo (st : Sets) (b : Bytes) : Option (Option Info) :=
  match infoLoop (units b) st [] with
  | (_, none) => none
  | (_, some []) => some none
  | (st', some (h :: hs)) => (extractInfo st' h hs).map some

/-! ## The wrapper -/

/-- What `_frames` yields. -/
structure Frame where
  data : Bytes
  offs : List Nat
  info : Option Info
deriving DecidableEq, Repr

inductive Ending
  | done
  | raised
  /-- the bound on the rounds of the model was reached; shown not to happen -/
  | fuel
deriving DecidableEq, Repr

def blockSize : Nat := 8192

/-- Lines 63-74 of `h264_grain_wrapper.py`: how much to read. -/
def readSize (start : Bool) (prev : Option Nat) (buffered : Nat) : Nat :=
  if start then
    match prev with
    | some p => if p > buffered then (p - buffered + (blockSize - 1)) / blockSize * blockSize else 0
    | none => if buffered = 0 then blockSize else 0
  else blockSize

/-- Lines 100-106: what is left is a frame if it has units. -/
def remainder (st : Sets) (b : Bytes) : List Frame × Ending :=
  if offsets b = [] then ([], .done)
  else
    match parseFrameInfo st b with
    | none => ([], .raised)
    | some i => ([⟨b, offsets b, i⟩], .done)

/-- `input_data.read(n)`, `n` above zero; `none` is `EOFError`. -/
abbrev Src (σ : Type) := Nat → σ → Option Bytes × σ

/-- A file whose reads may deliver less than asked for, but nothing only at the end. -/
def file : Src Pipe := fun n p => (some (p.read n).1, (p.read n).2)

/-- `InputStreamWrapper.read`, `mediagrains/tools/_file_or_pipe.py` 30-44. -/
def stdin : Src Pipe := fun n p => readLoop n p n

/-- Line 76: nothing is read if the size is zero. -/
def readMaybe {σ : Type} (read : Src σ) (n : Nat) (s : σ) : Option Bytes × σ := if n > 0 then read n s else (some [], s)

/-- `_frames`, lines 50-106, one round of the inner loop for each step. -/
def go {σ : Type} (read : Src σ) : Nat → Sets → Bytes → σ → Option Nat → Bool → List Frame × Ending
  | 0, _, _, _, _, _ => ([], .fuel)
  | f + 1, st, buf, s, prev, start =>
    match readMaybe read (readSize start prev buf.length) s with
    | (none, _) => ([], .raised)
    | (some d, s') =>
      match parseFrame st (buf ++ d) with
      | (st', .frame size offs info) =>
        if size > 0 then
          (⟨(buf ++ d).take size, offs, some info⟩ :: (go read f st' ((buf ++ d).drop size) s' (some size) true).1,
            (go read f st' ((buf ++ d).drop size) s' (some size) true).2)
        else go read f st' (buf ++ d) s' (some size) true
      | (_, .raised) => ([], .raised)
      | (st', .noEnd) =>
        if readSize start prev buf.length > 0 ∧ d = [] then remainder st' (buf ++ d) else go read f st' (buf ++ d) s' prev false
      | (st', .short) =>
        if readSize start prev buf.length > 0 ∧ d = [] then remainder st' (buf ++ d) else go read f st' (buf ++ d) s' prev false

/-- All frames of a file whose reads deliver pieces of the given sizes. -/
def frames (input : Bytes) (limits : List Nat) : List Frame × Ending :=
  go file (3 * input.length + 2) .empty [] ⟨input, limits⟩ none true

/-- The same for standard input. -/
def framesOfStdin (input : Bytes) (limits : List Nat) : List Frame × Ending :=
  go stdin (3 * input.length + 2) .empty [] ⟨input, limits⟩ none true

end Verif.Wrap.H264

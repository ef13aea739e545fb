import Verif.Gsf.Types

/-!
# The synchronous GSF decoder

Models `mediagrains/gsf.py` lines 833-1030 (`BaseGSFDecoderSession`) and 1218-1341
(`GSFSyncDecoderSession`).
-/

namespace Verif.Gsf

/-- Lines 871-874 and 879-882: a `tag ` block. -/
def readTagBody : Rd (List Char × List Char) := do
  let key ← readVarstring
  let value ← readVarstring
  return (key, value)

/-- Lines 860-870: a `flow` block.  `data.decode('utf-8')` is not guarded, so bad data raises a raw
`UnicodeDecodeError`. -/
def readFlowBody : Rd Flow := do
  let src ← readUuid
  let flow ← readUuid
  let format ← readString 64
  let data ← readVarbytes
  let d ← Rd.ofOption .unicode (decodeUtf8 data)
  return ⟨src, flow, format, d⟩

/-- Lines 860-874: one child of a `segm` block. -/
def segmChild (child : Block) (sg : Segm) : Rd Segm := do
  if child.tag = tFlow then
    let f ← readFlowBody
    return { sg with flow := some f }
  else if child.tag = tTag then
    let t ← readTagBody
    return { sg with tags := sg.tags ++ [t] }
  else return sg

/-- Lines 851-876: a `segm` block.  The `while head_child.has_child_block(): with SyncGSFBlock(...)`
loop is the body of `child_blocks`. -/
def readSegmBody (b : Block) : Rd Segm := do
  let localId ← readUint 2
  let id ← readUuid
  let count ← readSint 8
  forChildren b segmChild ⟨localId, id, count, none, []⟩

/-- Lines 848-882: one child of `head`. -/
def headChild (child : Block) (h : Head) : Rd Head := do
  if child.tag = tSegm then
    let sg ← readSegmBody child
    return { h with segments := h.segments ++ [sg] }
  else if child.tag = tTag then
    let t ← readTagBody
    return { h with tags := h.tags ++ [t] }
  else return h

/-- `_sync_decode_head`, lines 833-884. -/
def decodeHead (b : Block) : Rd Head := do
  let id ← readUuid
  let created ← readDatetime
  forChildren b headChild ⟨id, created, [], []⟩

/-- Lines 895-905: one time label; `tag.strip` after `read_string` removes NULs at both ends. -/
def readTimeLabel : Rd TimeLabel := do
  let tag ← readString 16
  let tag := lstripNul (rstripNul tag)
  let count ← readUint 4
  let rate ← readRational
  let drop ← readBool
  return ⟨tag, count, rate.num.toNat, rate.den, drop⟩

/-- `_sync_decode_tils`, lines 886-907. -/
def readTils : Rd (List TimeLabel) := do
  let n ← readUint 2
  repeatRd n readTimeLabel

/-- Lines 968-977: the components of a `comp` block; the offset is the running sum of lengths. -/
def readComponents : Nat → Nat → Rd (List Component)
  | 0, _ => return []
  | n + 1, offset => do
    let width ← readUint 4
    let height ← readUint 4
    let stride ← readUint 4
    let length ← readUint 4
    let rest ← readComponents n (offset + length)
    return ⟨width, height, stride, length, offset⟩ :: rest

/-- Lines 960-977: one child of `vghd`. -/
def vghdChild (child : Block) (v : VideoHdr) : Rd VideoHdr := do
  if child.tag ≠ tComp then return v
  else
    let n ← readUint 2
    let comps ← readComponents n 0
    return { v with components := comps }

/-- Lines 936-977: a `vghd` block. -/
def readVghd (b : Block) : Rd VideoHdr := do
  let format ← readUint 4
  let layout ← readUint 4
  let width ← readUint 4
  let height ← readUint 4
  let extension ← readUint 4
  let sar ← readRational
  let par ← readRational
  forChildren b vghdChild
    ⟨format, layout, width, height, extension,
     if sar ≠ 0 then some sar else none, if par ≠ 0 then some par else none, []⟩

/-- Lines 999-1007: one child of `cghd`. -/
def cghdChild (child : Block) (c : CodedVideoHdr) : Rd CodedVideoHdr := do
  if child.tag ≠ tUnof then return c
  else
    let n ← readUint 2
    let offs ← repeatRd n (readUint 4)
    return { c with unitOffsets := some offs }

/-- Lines 988-997: the two optional fields; before version 9 they are always present. -/
def readKeyFrame (major : Nat) : Rd (Option Bool × Option Int) := do
  if major < 9 then
    let k ← readBool
    let t ← readSint 4
    return (some k, some t)
  else
    let k ← readOptionalBool
    let t ← readOptionalSint 4 0x7fffffff
    return (k, t)

/-- Lines 979-1007: a `cghd` block. -/
def readCghd (major : Nat) (b : Block) : Rd CodedVideoHdr := do
  let format ← readUint 4
  let layout ← readUint 4
  let ow ← readUint 4
  let oh ← readUint 4
  let cw ← readUint 4
  let ch ← readUint 4
  let (k, t) ← readKeyFrame major
  forChildren b cghdChild ⟨format, layout, ow, oh, cw, ch, k, t, none⟩

/-- Lines 1009-1015. -/
def readAghd : Rd AudioHdr := do
  let format ← readUint 4
  let channels ← readUint 2
  let samples ← readUint 4
  let rate ← readUint 4
  return ⟨format, channels, samples, rate⟩

/-- Lines 1017-1025. -/
def readCahd : Rd CodedAudioHdr := do
  let format ← readUint 4
  let channels ← readUint 2
  let samples ← readUint 4
  let priming ← readUint 4
  let remainder ← readUint 4
  let rate ← readUint 4
  return ⟨format, channels, samples, priming, remainder, rate⟩

/-- Lines 933-1028: one child of `gbhd`. -/
def gbhdChild (major : Nat) (child : Block) (m : Meta) : Rd Meta := do
  if child.tag = tTils then
    let l ← readTils
    return { m with timelabels := some l }
  else if child.tag = tVghd then
    let v ← readVghd child
    return { m with grainType := some .video, cogFrame := some v }
  else if child.tag = tCghd then
    let c ← readCghd major child
    return { m with grainType := some .codedVideo, cogCodedFrame := some c }
  else if child.tag = tAghd then
    let a ← readAghd
    return { m with grainType := some .audio, cogAudio := some a }
  else if child.tag = tCahd then
    let a ← readCahd
    return { m with grainType := some .codedAudio, cogCodedAudio := some a }
  else if child.tag = tEghd then
    return { m with grainType := some .event }
  else return m

/-- Lines 921-931: the fixed part of `gbhd`. -/
def readGbhdFixed (major : Nat) : Rd Meta := do
  let src ← readUuid
  let flow ← readUuid
  if major = 7 then
    skip 16
    let origin ← readTimestampV7
    let sync ← readTimestampV7
    let rate ← readRational
    let duration ← readRational
    return { sourceId := src, flowId := flow, origin, sync, rate, duration }
  else
    let origin ← readTimestamp
    let sync ← readTimestamp
    let rate ← readRational
    let duration ← readRational
    return { sourceId := src, flowId := flow, origin, sync, rate, duration }

/-- `_sync_decode_gbhd`, lines 909-1030. -/
def decodeGbhd (major : Nat) (b : Block) : Rd Meta := do
  let m ← readGbhdFixed major
  forChildren b (gbhdChild major) m

/-! ## The session -/

/-- `GrainDataLoadingMode`, lines 802-824. -/
inductive Mode where
  | alwaysDeferLoadIfPossible | alwaysLoadDeferIfPossible | loadImmediately | loadNever
  deriving DecidableEq, Repr

/-- The `data` handed to the grain constructor: nothing, bytes, or a deferred `IOBytes` reference to
`length` bytes at `start` of the file. -/
inductive Data where
  | none
  | bytes (bs : Bytes)
  | deferred (start length : Nat)
  deriving DecidableEq, Repr

/-- What a deferred reference yields when it is accessed (`utils/iobytes.py:138-145`: seek to the
start, read `length`, seek back).  Bytes are themselves, nothing is nothing. -/
def Data.load (file : Bytes) : Data → Option Bytes
  | .none => Option.none
  | .bytes bs => some bs
  | .deferred start length => some ((file.drop start).take length)

/-- One yielded `(grain, local_id)`; the grain as its metadata and data. -/
structure Item where
  info : Meta
  data : Data
  localId : Nat
  deriving DecidableEq, Repr

/-- Session options: `grains(local_ids, loading_mode)` (lines 1269-1272), `support_concatenation`
(line 1222) and whether the file is seekable. -/
structure Opts where
  localIds : Option (List Nat) := none
  mode : Mode := .alwaysDeferLoadIfPossible
  concat : Bool := true
  seekable : Bool := true
  deriving Repr

/-- Session state after the headers were read: version and `file_headers`. -/
structure Hdr where
  major : Nat
  minor : Nat
  head : Head
  deriving DecidableEq, Repr

/-- `_decode_ssb_header`, lines 1233-1250.  `known` says that the tag was already read (the
`head_tag="SSBBgrsg"` call). -/
def decodeSsb (known : Bool) : Rd (Nat × Nat) := do
  if !known then
    let tag ← readString 8
    if tag ≠ tSSBB ++ tGrsg then Rd.fail .badFileType
    else
      let major ← readUint 2
      let minor ← readUint 2
      return (major, minor)
  else
    let major ← readUint 2
    let minor ← readUint 2
    return (major, minor)

/-- Lines 1264-1265: find the `head` block and decode it. -/
def decodeHeadBlock : Rd Head := do
  let b ← enter (some tHead)
  let h ← b.inRemaining (decodeHead b)
  b.exit
  return h

/-- `except EOFError: raise GSFDecodeError(...)`, lines 1262-1267. -/
def Rd.eofToDecode (m : Rd α) : Rd α := fun s p =>
  match m s p with
  | .ok r => .ok r
  | .error .eof => .error .decode
  | .error e => .error e

/-- `_decode_file_headers`, lines 1252-1267: an `EOFError` while looking for or decoding `head` becomes
a `GSFDecodeError`. -/
def decodeFileHeaders (known : Bool) : Rd Hdr := do
  let (major, minor) ← decodeSsb known
  if major = 7 ∨ major = 8 ∨ major = 9 then
    let h ← Rd.eofToDecode decodeHeadBlock
    return ⟨major, minor, h⟩
  else Rd.fail (.badVersion major)

/-- Lines 1320-1335: the data of a grain inside an entered `grai` block. -/
def readGrdt (o : Opts) (grai : Block) : Rd Data := do
  if ← grai.hasChild then
    let grdt ← enter (some tGrdt)
    let r ← grdt.remaining
    if r > 0 then
      if o.seekable && (o.mode == .alwaysDeferLoadIfPossible || o.mode == .alwaysLoadDeferIfPossible) then
        let p ← Rd.tell
        grdt.exit
        return .deferred p r.toNat
      else if o.mode == .loadNever then
        -- seek or read past the data, then `__exit__`
        grdt.exit
        return .none
      else
        let bs ← readRaw r.toNat
        grdt.exit
        return .bytes bs
    else
      grdt.exit
      return .none
  else return .none

/-- Lines 1315-1316: the grain header inside an entered `grai` block. -/
def readGbhdBlock (major : Nat) : Rd Meta := do
  let b ← enter (some tGbhd) true
  let m ← b.inRemaining (decodeGbhd major b)
  b.exit
  return m

/-- What one turn of the `while True` loop of `grains` does. -/
inductive Step where
  /-- `continue`, or the header of a concatenated file was read. -/
  | next (h : Hdr) (haveConcat : Bool)
  /-- `yield`. -/
  | yield (it : Item)
  /-- `break`. -/
  | stop
  deriving DecidableEq, Repr

/-- One turn of the loop in `grains`, lines 1289-1341.  Re-reading the headers of a concatenated file
(lines 1291-1293) is made a turn of its own. -/
def grainsStep (o : Opts) (h : Hdr) (haveConcat : Bool) : Rd Step := do
  if haveConcat then
    let h' ← decodeFileHeaders true
    return .next h' false
  else
    let block ← enter none
    if block.tag ≠ tGrai then
      block.exit
      if block.tag = tSSBB then
        if !o.concat then return .stop else return .next h true
      else return .next h false
    else if block.size = 0 then
      block.exit
      if o.concat then return .next h false else return .stop
    else
      let localId ← readUint 2
      if o.localIds.any (fun ids => !ids.contains localId) then
        block.exit
        return .next h false
      else
        let info ← readGbhdBlock h.major
        let data ← readGrdt o block
        block.exit
        return .yield ⟨info, data, localId⟩

/-- How the generator ended: `break`/`return` at the end of the data, or an exception. -/
inductive End where
  | eof | break_ | err (e : Err)
  deriving DecidableEq, Repr

/-- Everything observable from running `grains` to its end: the yielded items, the final headers and
the way it ended. -/
structure Run where
  items : List Item
  hdr : Hdr
  ending : End
  deriving DecidableEq, Repr

/-- The `while True` loop of `grains`, lines 1287-1341; `EOFError` ends the generator silently.  The
fuel is supplied by `grains` and proved sufficient. -/
def grainsLoop (o : Opts) (s : Stream) : Nat → Hdr → Bool → Nat → Run
  | 0, h, _, _ => ⟨[], h, .err .fuel⟩
  | fuel + 1, h, hc, p =>
    match grainsStep o h hc s p with
    | .error .eof => ⟨[], h, .eof⟩
    | .error e => ⟨[], h, .err e⟩
    | .ok (.stop, _) => ⟨[], h, .break_⟩
    | .ok (.next h' hc', p') => grainsLoop o s fuel h' hc' p'
    | .ok (.yield it, p') =>
      let r := grainsLoop o s fuel h false p'
      { r with items := it :: r.items }

/-- `grains()` started at position `p` with headers `h`. -/
def grains (o : Opts) (file : Bytes) (h : Hdr) (p : Nat) : Run :=
  grainsLoop o ⟨0, file⟩ (file.length + 1) h false p

/-- `with GSFDecoder(file_data=...) as dec: list(dec.grains(...))`: decode the headers at the start of
the file, then run the generator (lines 1383-1425, 1269-1341). -/
def decodeFile (o : Opts) (file : Bytes) : Except Err Run :=
  match decodeFileHeaders false ⟨0, file⟩ 0 with
  | .error e => .error e
  | .ok (h, p) => .ok (grains o file h p)

end Verif.Gsf

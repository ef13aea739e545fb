import Verif.Gsf.Types

/-!
# The GSF encoder: bytes of tags, segments, headers and grains

Models `mediagrains/gsf.py` lines 1525-1583, 1665-1696, 2127-2160, 2203-2249 and 2262-2448.
-/

namespace Verif.Gsf

/-- A four character tag written as a `bytes` literal. -/
def tagBytes (t : List Char) : Bytes := encodeUtf8 t

/-- `_encode_ts_v7`, lines 1547-1549.  `ts.sec` and `ts.ns` of the external timestamp type are the
quotient and remainder of the magnitude. -/
def encodeTsV7 (ts : Int) : Bytes :=
  encodeUint (ts.natAbs / 1000000000 : Nat) 6 ++ encodeUint (ts.natAbs % 1000000000 : Nat) 4

/-- `_encode_ts`, lines 1552-1555; `ts.sign` is `-1` exactly for negative values. -/
def encodeTs (ts : Int) : Bytes :=
  encodeBool (decide (0 ≤ ts)) ++ encodeTsV7 ts

/-- `_encode_rational`, lines 1558-1561. -/
def encodeRational (q : Rat) : Bytes := encodeUint q.num 4 ++ encodeUint q.den 4

/-- A key or value of a `GSFEncoderTag` as bytes, lines 2141-2147. -/
def tagString (s : List Char) : Bytes := (encodeUtf8 s).take 65535

/-- `tag_block_size`, lines 2149-2151. -/
def tagBlockSize (t : List Char × List Char) : Nat :=
  12 + (tagString t.1).length + (tagString t.2).length

/-- `GSFEncoderTag.__bytes__`, lines 2153-2160. -/
def encodeTag (t : List Char × List Char) : Bytes :=
  tagBytes tTag ++ encodeUint (tagBlockSize t) 4 ++
    encodeUint (tagString t.1).length 2 ++ tagString t.1 ++
    encodeUint (tagString t.2).length 2 ++ tagString t.2

/-- `(s.encode('utf-8') + b'\x00' * n)[:n]`, lines 2241 and 2295. -/
def padString (s : List Char) (n : Nat) : Bytes :=
  (encodeUtf8 s ++ List.replicate n 0).take n

/-- `GSFEncoderFlow`, lines 2120-2124: the flow metadata given to `add_flow`; `data` is bytes. -/
structure FlowIn where
  srcId : Bytes
  flowId : Bytes
  format : List Char
  data : Bytes
  deriving DecidableEq, Repr

/-- The header-relevant part of a `GSFEncoderSegment`, lines 2169-2189, with the count that
`_encode_header` will write (`count` when dumping all at once, `-1` otherwise). -/
structure SegmIn where
  localId : Nat
  id : Bytes
  count : Int
  flow : Option FlowIn
  tags : List (List Char × List Char)
  deriving DecidableEq, Repr

/-- `flow_block_size`, lines 2203-2207. -/
def flowBlockSize : Option FlowIn → Nat
  | none => 0
  | some f => 108 + f.data.length

/-- `segm_block_size`, lines 2209-2211. -/
def segmBlockSize (sg : SegmIn) : Nat :=
  34 + flowBlockSize sg.flow + (sg.tags.map tagBlockSize).sum

/-- Lines 2234-2244. -/
def encodeFlow : Option FlowIn → Bytes
  | none => []
  | some f =>
    tagBytes tFlow ++ encodeUint (flowBlockSize (some f)) 4 ++ f.srcId ++ f.flowId ++
      padString f.format 64 ++ encodeUint f.data.length 4 ++ f.data

/-- Lines 2222-2228: the part of a segment header before the count. -/
def encodeSegmPre (sg : SegmIn) : Bytes :=
  tagBytes tSegm ++ encodeUint (segmBlockSize sg) 4 ++ encodeUint sg.localId 2 ++ sg.id

/-- Lines 2234-2247: the part of a segment header after the count. -/
def encodeSegmPost (sg : SegmIn) : Bytes :=
  encodeFlow sg.flow ++ sg.tags.flatMap encodeTag

/-- `GSFEncoderSegment._encode_header`, lines 2220-2249. -/
def encodeSegm (sg : SegmIn) : Bytes :=
  encodeSegmPre sg ++ encodeSint sg.count 8 ++ encodeSegmPost sg

/-- `_encode_file_header`, lines 1665-1669. -/
def encodeFileHeader (major minor : Nat) : Bytes :=
  tagBytes tSSBB ++ tagBytes tGrsg ++ encodeUint major 2 ++ encodeUint minor 2

/-- What `_encode_head_block` writes from. -/
structure HeadIn where
  id : Bytes
  created : DateTime
  segments : List SegmIn
  tags : List (List Char × List Char)
  deriving DecidableEq, Repr

/-- Lines 1672-1674. -/
def headSize (h : HeadIn) : Nat :=
  31 + (h.segments.map segmBlockSize).sum + (h.tags.map tagBlockSize).sum

/-- Lines 1676-1685: the fixed part of the head block. -/
def encodeHeadPre (h : HeadIn) : Bytes :=
  tagBytes tHead ++ encodeUint (headSize h) 4 ++ h.id ++ encodeSint h.created.year 2 ++
    encodeUint h.created.month 1 ++ encodeUint h.created.day 1 ++ encodeUint h.created.hour 1 ++
    encodeUint h.created.minute 1 ++ encodeUint h.created.second 1

/-- `_encode_head_block`, lines 1671-1696 (the bytes). -/
def encodeHead (h : HeadIn) : Bytes :=
  encodeHeadPre h ++ h.segments.flatMap encodeSegm ++ h.tags.flatMap encodeTag

/-! ## Grains -/

/-- The grain classes. -/
inductive Body where
  | empty
  | event
  | video (v : VideoHdr)
  | codedVideo (c : CodedVideoHdr)
  | audio (a : AudioHdr)
  | codedAudio (a : CodedAudioHdr)
  deriving DecidableEq, Repr

/-- The attributes of a grain object the encoder reads.  `length` and `data` are separate because
they are separate properties of the grain object (`grains/Grain.py:402-409, 682-697`); they disagree
for a lazily loaded grain that has not been awaited. -/
structure Grain where
  sourceId : Bytes
  flowId : Bytes
  origin : Int
  sync : Int
  rate : Rat
  duration : Rat
  timelabels : List TimeLabel
  body : Body
  length : Nat
  data : Option Bytes
  deriving DecidableEq, Repr

/-- `_vghd_size_for_grain`, lines 2348-2352. -/
def vghdSize (v : VideoHdr) : Nat :=
  44 + (if v.components.length > 0 then 10 + 16 * v.components.length else 0)

/-- `len(grain.unit_offsets)`: the list view is empty when the key is absent. -/
def CodedVideoHdr.offsets (c : CodedVideoHdr) : List Nat := c.unitOffsets.getD []

/-- `_cghd_size_for_grain`, lines 2407-2411. -/
def cghdSize (c : CodedVideoHdr) : Nat :=
  37 + (if c.offsets.length > 0 then 10 + 4 * c.offsets.length else 0)

/-- The per-type part of `_gbhd_size_for_grain`, lines 2334-2345. -/
def bodySize : Body → Nat
  | .empty => 0
  | .event => 9
  | .video v => vghdSize v
  | .codedVideo c => cghdSize c
  | .audio _ => 22
  | .codedAudio _ => 30

/-- `_gbhd_size_for_grain`, lines 2327-2346. -/
def gbhdSize (major : Nat) (g : Grain) : Nat :=
  (if major = 7 then 78 + 16 - 2 else 78) +
    (if g.timelabels.length > 0 then 10 + 29 * g.timelabels.length else 0) + bodySize g.body

/-- Lines 2294-2301. -/
def encodeTimeLabel (l : TimeLabel) : Bytes :=
  padString l.tag 16 ++ encodeUint l.frames 4 ++ encodeUint l.rateNum 4 ++ encodeUint l.rateDen 4 ++
    encodeUint (if l.drop then 1 else 0) 1

/-- Lines 2287-2301. -/
def encodeTils (ls : List TimeLabel) : Bytes :=
  if ls.length > 0 then
    tagBytes tTils ++ encodeUint (10 + 29 * ls.length : Nat) 4 ++ encodeUint ls.length 2 ++
      ls.flatMap encodeTimeLabel
  else []

/-- Lines 2379-2383. -/
def encodeComponent (c : Component) : Bytes :=
  encodeUint c.width 4 ++ encodeUint c.height 4 ++ encodeUint c.stride 4 ++ encodeUint c.length 4

/-- Lines 2373-2383. -/
def encodeComp (cs : List Component) : Bytes :=
  if cs.length > 0 then
    tagBytes tComp ++ encodeUint (10 + 16 * cs.length : Nat) 4 ++ encodeUint cs.length 2 ++
      cs.flatMap encodeComponent
  else []

/-- Lines 2364-2371: a missing aspect ratio is written as `0/1`. -/
def encodeAspect (q : Option Rat) : Bytes := encodeRational (q.getD 0)

/-- `_encode_vghd_for_grain`, lines 2354-2385. -/
def encodeVghd (v : VideoHdr) : Bytes :=
  tagBytes tVghd ++ encodeUint (vghdSize v) 4 ++ encodeUint v.format 4 ++ encodeUint v.layout 4 ++
    encodeUint v.width 4 ++ encodeUint v.height 4 ++ encodeUint v.extension 4 ++
    encodeAspect v.srcAspect ++ encodeAspect v.pixAspect ++ encodeComp v.components

/-- `_encode_eghd_for_grain`, lines 2390-2393. -/
def encodeEghd : Bytes := tagBytes tEghd ++ encodeUint 9 4 ++ encodeUint 0 1

/-- `_encode_aghd_for_grain`, lines 2398-2405. -/
def encodeAghd (a : AudioHdr) : Bytes :=
  tagBytes tAghd ++ encodeUint 22 4 ++ encodeUint a.format 4 ++ encodeUint a.channels 2 ++
    encodeUint a.samples 4 ++ encodeUint a.sampleRate 4

/-- Lines 2426-2432. -/
def encodeUnof (offs : List Nat) : Bytes :=
  if offs.length > 0 then
    tagBytes tUnof ++ encodeUint (10 + 4 * offs.length : Nat) 4 ++ encodeUint offs.length 2 ++
      offs.flatMap (fun (o : Nat) => encodeUint o 4)
  else []

/-- Line 2423. -/
def encodeKeyFrame (k : Option Bool) : Bytes :=
  encodeUint (match k with | none => 3 | some b => if b then 1 else 0) 1

/-- Line 2424. -/
def encodeTemporal (t : Option Int) : Bytes := encodeSint (t.getD 0x7fffffff) 4

/-- `_encode_cghd_for_grain`, lines 2413-2434. -/
def encodeCghd (c : CodedVideoHdr) : Bytes :=
  tagBytes tCghd ++ encodeUint (cghdSize c) 4 ++ encodeUint c.format 4 ++ encodeUint c.layout 4 ++
    encodeUint c.originWidth 4 ++ encodeUint c.originHeight 4 ++ encodeUint c.codedWidth 4 ++
    encodeUint c.codedHeight 4 ++ encodeKeyFrame c.isKeyFrame ++ encodeTemporal c.temporalOffset ++
    encodeUnof c.offsets

/-- `_encode_cahd_for_grain`, lines 2439-2448. -/
def encodeCahd (a : CodedAudioHdr) : Bytes :=
  tagBytes tCahd ++ encodeUint 30 4 ++ encodeUint a.format 4 ++ encodeUint a.channels 2 ++
    encodeUint a.samples 4 ++ encodeUint a.priming 4 ++ encodeUint a.remainder 4 ++
    encodeUint a.sampleRate 4

/-- Lines 2303-2314. -/
def encodeBody : Body → Bytes
  | .empty => []
  | .event => encodeEghd
  | .video v => encodeVghd v
  | .codedVideo c => encodeCghd c
  | .audio a => encodeAghd a
  | .codedAudio a => encodeCahd a

/-- Lines 2265-2269 and 2279-2285: the fixed part of a grain header. -/
def encodeGbhdFixed (major : Nat) (g : Grain) : Bytes :=
  g.sourceId ++ g.flowId ++
    (if major = 7 then List.replicate 16 0 ++ encodeTsV7 g.origin ++ encodeTsV7 g.sync
     else encodeTs g.origin ++ encodeTs g.sync) ++
    encodeRational g.rate ++ encodeRational g.duration

/-- Lines 2276-2314: the `gbhd` block. -/
def encodeGbhd (major : Nat) (g : Grain) : Bytes :=
  tagBytes tGbhd ++ encodeUint (gbhdSize major g) 4 ++ encodeGbhdFixed major g ++
    encodeTils g.timelabels ++ encodeBody g.body

/-- Lines 2316-2321: the `grdt` block. -/
def encodeGrdt (g : Grain) : Bytes :=
  tagBytes tGrdt ++ encodeUint (8 + g.length : Nat) 4 ++ g.data.getD []

/-- The size written in a `grai` block, line 2273. -/
def graiSize (major : Nat) (g : Grain) : Nat := 10 + gbhdSize major g + 8 + g.length

/-- `GSFEncoderSegment.encode_grain`, lines 2262-2325 (the bytes), for a segment with the given local
id whose encoder writes version `major`. -/
def encodeGrain (major localId : Nat) (g : Grain) : Bytes :=
  tagBytes tGrai ++ encodeUint (graiSize major g) 4 ++ encodeUint localId 2 ++
    encodeGbhd major g ++ encodeGrdt g

/-- The terminator, lines 1778-1779. -/
def terminator : Bytes := tagBytes tGrai ++ encodeUint 0 4

end Verif.Gsf

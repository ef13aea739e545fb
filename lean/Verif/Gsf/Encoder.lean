import Verif.Gsf.Encode

/-!
# The GSF encoder as a state machine

Models the objects of `mediagrains/gsf.py` lines 1586-2117 and 2166-2260, 2450-2486: a `GSFEncoder`, the
`OpenGSFEncoder` / `OpenAsyncGSFEncoder` handles it hands out, its segments and the output file.

Python objects that alias each other (the tag list and the segment dictionary are shared between the encoder
and all its handles) are kept in one record, and handles are referred to by number.  An operation that raises
leaves the state as python leaves it, so each operation returns a state and a result.

Simplifications: the iterables of grains are lists; local ids are natural numbers; the constructor loop over
`segments=` and `tags=` is a sequence of `addSegment` / `addTag` operations; a fresh `uuid1()` is an argument of
the operation; the asynchronous encoder's awaits are atomic; attributes are not assigned from outside.
-/

namespace Verif.Gsf

/-! ## The output file -/

/-- A binary file as the encoder uses it.  A file that is not seekable only appends. -/
structure OutFile where
  seekable : Bool
  bytes : Bytes
  pos : Nat
  deriving DecidableEq, Repr

/-- `write`: overwrites at the current position and extends the file; a gap is filled with zeros. -/
def OutFile.write (f : OutFile) (d : Bytes) : OutFile :=
  if f.seekable then
    { f with
      bytes := f.bytes.take f.pos ++ List.replicate (f.pos - f.bytes.length) 0 ++ d ++ f.bytes.drop (f.pos + d.length)
      pos := f.pos + d.length }
  else { f with bytes := f.bytes ++ d }

/-- `seek(p)`. -/
def OutFile.seek (f : OutFile) (p : Nat) : OutFile := { f with pos := p }

/-- `truncate()`: cut at the current position. -/
def OutFile.truncate (f : OutFile) : OutFile := { f with bytes := f.bytes.take f.pos }

/-- `OpenGSFEncoder._truncate`, lines 1749-1752. -/
def OutFile.clear (f : OutFile) : OutFile := if f.seekable then (f.seek 0).truncate else f

/-! ## Objects -/

/-- A pair of strings, `GSFEncoderTag`. -/
abbrev Tag := List Char × List Char

/-- `GSFEncoderSegment`, lines 2166-2189.  `countPos = none` is `_count_pos = -1`.  `parent = none` is a segment
made by the `GSFEncoder`, `some k` one made by its `k`-th handle. -/
structure Seg where
  localId : Nat
  id : Bytes
  tags : List Tag
  flow : Option FlowIn
  grains : List Grain
  writeCount : Nat
  countPos : Option Nat
  activeDump : Bool
  parent : Option Nat
  deriving DecidableEq, Repr

/-- `GSFEncoderSegment.__init__`, lines 2169-2189. -/
def Seg.new (id : Bytes) (localId : Nat) (tags : List Tag) (parent : Option Nat) : Seg :=
  ⟨localId, id, tags, none, [], 0, none, false, parent⟩

/-- `count`, lines 2199-2201. -/
def Seg.count (s : Seg) : Nat := s.grains.length + s.writeCount

/-- What `_encode_header(all_at_once)` writes, lines 2220-2249. -/
def Seg.header (all : Bool) (s : Seg) : SegmIn :=
  ⟨s.localId, s.id, if all then (s.count : Int) else -1, s.flow, s.tags⟩

/-- The attributes of an `OpenGSFEncoder` or `OpenAsyncGSFEncoder` that are not shared with the `GSFEncoder`,
lines 1586-1605 and 1783-1803. -/
structure Handle where
  isAsync : Bool
  nextLocal : Nat
  active : Bool
  deriving DecidableEq, Repr

/-- The exceptions an encoder operation can raise.  `noObject` stands for using a segment or handle that
was never made; it is not an execution of the program. -/
inductive EncErr where
  | encode
  | activeDump
  | noObject
  deriving DecidableEq, Repr

/-- `GSFEncoder`, lines 1915-1957, with everything reachable from it. -/
structure Enc where
  major : Nat
  minor : Nat
  id : Bytes
  created : DateTime
  streaming : Bool
  tags : List Tag
  segs : List Seg
  nextLocal : Nat
  syncOpen : Option Nat
  asyncOpen : Option Nat
  handles : List Handle
  file : OutFile
  deriving DecidableEq, Repr

/-- `GSFEncoder.__init__` without initial segments and tags, lines 1915-1943. -/
def Enc.new (file : OutFile) (major minor : Nat) (id : Bytes) (created : DateTime) (streaming : Bool) : Enc :=
  ⟨major, minor, id, created, streaming, [], [], 1, none, none, [], file⟩

/-- `local_id in self._segments`. -/
def Enc.hasSeg (e : Enc) (l : Nat) : Bool := e.segs.any (fun s => s.localId == l)

/-- `self._segments[local_id]`. -/
def Enc.seg (e : Enc) (l : Nat) : Option Seg := e.segs.find? (fun s => s.localId == l)

/-- Assignment to attributes of the segment with a given local id. -/
def Enc.updSeg (e : Enc) (l : Nat) (f : Seg → Seg) : Enc :=
  { e with segs := e.segs.map (fun s => if s.localId = l then f s else s) }

/-- Assignment to attributes of a handle. -/
def Enc.updHandle (e : Enc) (k : Nat) (f : Handle → Handle) : Enc :=
  { e with handles := e.handles.modify k f }

/-! ## Segments and tags -/

/-- Lines 1629-1632 and 2036-2039: `_next_local` after choosing the local id `l`. -/
def bumpLocal (next l : Nat) : Nat := if next ≤ l then l + 1 else next

/-- `GSFEncoder.add_tag`, lines 2018-2023. -/
def Enc.addTag (e : Enc) (t : Tag) : Enc × Except EncErr Unit :=
  if e.syncOpen.isSome then (e, .error .activeDump) else ({ e with tags := e.tags ++ [t] }, .ok ())

/-- `GSFEncoder.add_segment`, lines 2025-2048; returns the local id of the new segment. -/
def Enc.addSegment (e : Enc) (id : Option Bytes) (lid : Option Nat) (tags : List Tag) (fresh : Bytes) :
    Enc × Except EncErr Nat :=
  if e.syncOpen.isSome then (e, .error .activeDump)
  else
    let l := lid.getD e.nextLocal
    let e1 := { e with nextLocal := bumpLocal e.nextLocal l }
    if e1.hasSeg l then (e1, .error .encode)
    else ({ e1 with segs := e1.segs ++ [Seg.new (id.getD fresh) l tags none] }, .ok l)

/-- `OpenGSFEncoderBase.add_tag`, lines 1614-1619. -/
def Enc.hAddTag (e : Enc) (k : Nat) (t : Tag) : Enc × Except EncErr Unit :=
  match e.handles[k]? with
  | none => (e, .error .noObject)
  | some h => if h.active then (e, .error .activeDump) else ({ e with tags := e.tags ++ [t] }, .ok ())

/-- `OpenGSFEncoderBase.add_segment`, lines 1621-1644. -/
def Enc.hAddSegment (e : Enc) (k : Nat) (id : Option Bytes) (lid : Option Nat) (tags : List Tag) (fresh : Bytes) :
    Enc × Except EncErr Nat :=
  match e.handles[k]? with
  | none => (e, .error .noObject)
  | some h =>
    let l := lid.getD h.nextLocal
    let e1 := e.updHandle k (fun h => { h with nextLocal := bumpLocal h.nextLocal l })
    if e1.hasSeg l then (e1, .error .encode)
    else if h.active then (e1, .error .activeDump)
    else ({ e1 with segs := e1.segs ++ [Seg.new (id.getD fresh) l tags (some k)] }, .ok l)

/-- `GSFEncoderSegment.add_tag`, lines 2450-2454. -/
def Enc.sAddTag (e : Enc) (l : Nat) (t : Tag) : Enc × Except EncErr Unit :=
  match e.seg l with
  | none => (e, .error .noObject)
  | some s =>
    if s.activeDump then (e, .error .activeDump)
    else (e.updSeg l (fun s => { s with tags := s.tags ++ [t] }), .ok ())

/-- `GSFEncoderSegment.add_flow`, lines 2456-2468; `data` given as a string is encoded by the caller. -/
def Enc.sAddFlow (e : Enc) (l : Nat) (f : FlowIn) : Enc × Except EncErr Unit :=
  match e.seg l with
  | none => (e, .error .noObject)
  | some s =>
    if s.activeDump then (e, .error .activeDump)
    else (e.updSeg l (fun s => { s with flow := some f }), .ok ())

/-! ## Grains -/

/-- `self.file.write(segment.encode_grain(grain))`, lines 1744-1745 with 2262-2325 (`_write_count` is
incremented at line 2323). -/
def Enc.writeGrain (e : Enc) (l : Nat) (g : Grain) : Enc :=
  let e1 := e.updSeg l (fun s => { s with writeCount := s.writeCount + 1 })
  { e1 with file := e1.file.write (encodeGrain e.major l g) }

/-- Lines 1743-1745. -/
def Enc.writeGrains (e : Enc) (l : Nat) : List Grain → Enc
  | [] => e
  | g :: gs => (e.writeGrain l g).writeGrains l gs

/-- `_get_parent_open_encoder`, lines 2191-2197: only a synchronous handle counts. -/
def Enc.parentHandle (e : Enc) (s : Seg) : Option Handle :=
  match s.parent with
  | none => e.syncOpen.bind (fun k => e.handles[k]?)
  | some k => (e.handles[k]?).filter (fun h => !h.isAsync)

/-- `GSFEncoderSegment.add_grains`, lines 2470-2486.  With an active dump the call goes through the handle's
`add_grains` with this segment's local id, which finds this segment (1655-1656) and writes (1743-1745).
The result is the local id of the segment that took the grains. -/
def Enc.sAddGrains (e : Enc) (l : Nat) (gs : List Grain) : Enc × Except EncErr Nat :=
  match e.seg l with
  | none => (e, .error .noObject)
  | some s =>
    if ((e.parentHandle s).map Handle.active).getD false then (e.writeGrains l gs, .ok l)
    else (e.updSeg l (fun s => { s with grains := s.grains ++ gs }), .ok l)

/-- One step of `sortIds`. -/
def insertId (a : Nat) : List Nat → List Nat
  | [] => [a]
  | b :: bs => if a ≤ b then a :: b :: bs else b :: insertId a bs

/-- Python's `sorted` on a list of integers, as an insertion sort. -/
def sortIds : List Nat → List Nat
  | [] => []
  | a :: as => insertId a (sortIds as)

/-- Lines 1647-1652 and 2075-2081: the local id the arguments lead to; `sorted(…)[0]`. -/
def Enc.choose (e : Enc) (sid : Option Bytes) (lid : Option Nat) : Option Nat :=
  match lid with
  | some l => some l
  | none =>
    (sortIds ((e.segs.filter (fun s => sid.isNone || some s.id == sid)).map Seg.localId)).head?

/-- `OpenGSFEncoder.add_grains` (lines 1731-1747) and `OpenAsyncGSFEncoder.add_grains` (1817-1833) with
`_get_segment` (1646-1659).  For an asynchronous handle `_open_file is not None` whenever it is active
(1840-1847). -/
def Enc.hAddGrains (e : Enc) (k : Nat) (gs : List Grain) (sid : Option Bytes) (lid : Option Nat) (fresh : Bytes) :
    Enc × Except EncErr Nat :=
  match e.handles[k]? with
  | none => (e, .error .noObject)
  | some h =>
    match (e.choose sid lid).filter e.hasSeg with
    | some l => if h.active then (e.writeGrains l gs, .ok l) else e.sAddGrains l gs
    | none =>
      if h.active then (e, .error .encode)
      else
        match e.hAddSegment k sid (e.choose sid lid) [] fresh with
        | (e1, .error x) => (e1, .error x)
        | (e1, .ok l) => e1.sAddGrains l gs

/-- `GSFEncoder.add_grains`, lines 2062-2085. -/
def Enc.addGrains (e : Enc) (gs : List Grain) (sid : Option Bytes) (lid : Option Nat) (fresh : Bytes) :
    Enc × Except EncErr Nat :=
  match e.syncOpen with
  | some k => e.hAddGrains k gs sid lid fresh
  | none =>
    match (e.choose sid lid).filter e.hasSeg with
    | some l => e.sAddGrains l gs
    | none =>
      match e.addSegment sid (e.choose sid lid) [] fresh with
      | (e1, .error x) => (e1, .error x)
      | (e1, .ok l) => e1.sAddGrains l gs

/-! ## Dumping -/

/-- The contents of the head block, lines 1671-1696. -/
def Enc.headIn (e : Enc) (all : Bool) : HeadIn := ⟨e.id, e.created, e.segs.map (Seg.header all), e.tags⟩

/-- `_encode_all_grains` / `encode_all_grains`, lines 1698-1702 and 2254-2260 (the bytes). -/
def Enc.pendingBytes (e : Enc) : Bytes := e.segs.flatMap (fun s => s.grains.flatMap (encodeGrain e.major s.localId))

/-- The effect of `_encode_header` (line 2221) and `encode_all_grains` (2254-2260, 2323) on a segment. -/
def Seg.dumped (s : Seg) : Seg :=
  { s with activeDump := true, writeCount := s.writeCount + s.grains.length, grains := [] }

/-- `_set_segment_offsets`, lines 1661-1663 with the offsets collected at 1686-1691: `pos` is where the next
segment header starts. -/
def setPositions (all : Bool) : Nat → List Seg → List Seg
  | _, [] => []
  | pos, s :: ss =>
    { s with countPos := some (pos + (encodeSegmPre (s.header all)).length) } ::
      setPositions all (pos + (encodeSegm (s.header all)).length) ss

/-- `_start_dump` of a handle, lines 1754-1767 and 1840-1860. -/
def Enc.start (e : Enc) (k : Nat) (all : Bool) : Enc :=
  let e1 := e.updHandle k (fun h => { h with active := true })
  let f := e1.file.clear
  let head := encodeHead (e1.headIn all)
  let hdr := encodeFileHeader e1.major e1.minor
  let segs :=
    if !all && f.seekable then
      setPositions all (f.pos + hdr.length + (encodeHeadPre (e1.headIn all)).length) e1.segs
    else e1.segs
  { e1 with file := f.write (hdr ++ head ++ e1.pendingBytes), segs := segs.map Seg.dumped }

/-- The loop of `_end_dump`, lines 1770-1775 and 1863-1870. -/
def patchCounts (f : OutFile) : List Seg → OutFile
  | [] => f
  | s :: ss =>
    match s.countPos with
    | none => patchCounts f ss
    | some p =>
      if f.seekable then patchCounts (((f.seek p).write (encodeSint s.writeCount 8)).seek f.pos) ss
      else patchCounts f ss

/-- `_end_dump` of a handle, lines 1769-1780 and 1862-1876. -/
def Enc.finish (e : Enc) (k : Nat) : Enc :=
  let e1 := { e with file := patchCounts e.file e.segs }
  if ((e1.handles[k]?).map Handle.active).getD false then
    { e1 with
      file := e1.file.write terminator
      handles := e1.handles.modify k (fun h => { h with active := false }) }
  else e1

/-- The construction of a handle, lines 1962-1971, 1989-1998 and 2099-2108. -/
def Enc.makeHandle (e : Enc) (isAsync : Bool) : Enc × Nat :=
  ({ e with handles := e.handles ++ [⟨isAsync, e.nextLocal, false⟩] }, e.handles.length)

/-- `GSFEncoder.__enter__`, lines 1959-1974. -/
def Enc.enter (e : Enc) : Enc :=
  let (e1, k) := e.makeHandle false
  let e2 := { e1 with syncOpen := some k }
  if e2.streaming then e2.start k false else e2

/-- The end of `__exit__` and `end_dump`, lines 1980-1982 and 2115-2117. -/
def Enc.close (e : Enc) (k : Nat) : Enc :=
  let e1 := e.finish k
  { e1 with nextLocal := ((e1.handles[k]?).map Handle.nextLocal).getD e1.nextLocal, syncOpen := none }

/-- `GSFEncoder.__exit__`, lines 1976-1982. -/
def Enc.exit (e : Enc) : Enc :=
  match e.syncOpen with
  | none => e
  | some k => (if e.streaming then e else e.start k true).close k

/-- `GSFEncoder.__aenter__`, lines 1984-2000. -/
def Enc.aenter (e : Enc) : Enc :=
  let (e1, k) := e.makeHandle true
  let e2 := { e1 with asyncOpen := some k }
  if e2.streaming then e2.start k false else e2

/-- `GSFEncoder.__aexit__`, lines 2002-2008. -/
def Enc.aexit (e : Enc) : Enc :=
  match e.asyncOpen with
  | none => e
  | some k =>
    let e1 := (if e.streaming then e else e.start k true).finish k
    { e1 with nextLocal := ((e1.handles[k]?).map Handle.nextLocal).getD e1.nextLocal, asyncOpen := none }

/-- `GSFEncoder.start_dump`, lines 2095-2109. -/
def Enc.startDump (e : Enc) (all : Bool) : Enc :=
  let (e1, k) := e.makeHandle false
  { e1 with syncOpen := some k }.start k all

/-- `GSFEncoder.end_dump`, lines 2111-2117. -/
def Enc.endDump (e : Enc) : Enc :=
  match e.syncOpen with
  | none => e
  | some k => e.close k

/-- `GSFEncoder.dump`, lines 2088-2092. -/
def Enc.dump (e : Enc) : Enc := (e.startDump true).endDump

/-! ## Histories -/

/-- The operations a program can perform on an encoder, its handles (by number, in the order they were
made) and its segments (by local id).  `fresh` is what `uuid1()` would return. -/
inductive Op where
  | addTag (t : Tag)
  | addSegment (id : Option Bytes) (lid : Option Nat) (tags : List Tag) (fresh : Bytes)
  | addGrains (gs : List Grain) (sid : Option Bytes) (lid : Option Nat) (fresh : Bytes)
  | hAddTag (k : Nat) (t : Tag)
  | hAddSegment (k : Nat) (id : Option Bytes) (lid : Option Nat) (tags : List Tag) (fresh : Bytes)
  | hAddGrains (k : Nat) (gs : List Grain) (sid : Option Bytes) (lid : Option Nat) (fresh : Bytes)
  | sAddTag (l : Nat) (t : Tag)
  | sAddFlow (l : Nat) (f : FlowIn)
  | sAddGrains (l : Nat) (gs : List Grain)
  | enter
  | exit
  | aenter
  | aexit
  | startDump (all : Bool)
  | endDump
  deriving DecidableEq, Repr

/-- What an operation reports: nothing, or the local id of the segment it made or gave grains to. -/
def Op.run (e : Enc) : Op → Enc × Except EncErr (Option Nat)
  | .addTag t => let r := e.addTag t; (r.1, r.2.map (fun _ => none))
  | .addSegment id lid tags fresh => let r := e.addSegment id lid tags fresh; (r.1, r.2.map some)
  | .addGrains gs sid lid fresh => let r := e.addGrains gs sid lid fresh; (r.1, r.2.map some)
  | .hAddTag k t => let r := e.hAddTag k t; (r.1, r.2.map (fun _ => none))
  | .hAddSegment k id lid tags fresh => let r := e.hAddSegment k id lid tags fresh; (r.1, r.2.map some)
  | .hAddGrains k gs sid lid fresh => let r := e.hAddGrains k gs sid lid fresh; (r.1, r.2.map some)
  | .sAddTag l t => let r := e.sAddTag l t; (r.1, r.2.map (fun _ => none))
  | .sAddFlow l f => let r := e.sAddFlow l f; (r.1, r.2.map (fun _ => none))
  | .sAddGrains l gs => let r := e.sAddGrains l gs; (r.1, r.2.map some)
  | .enter => (e.enter, .ok none)
  | .exit => (e.exit, .ok none)
  | .aenter => (e.aenter, .ok none)
  | .aexit => (e.aexit, .ok none)
  | .startDump all => (e.startDump all, .ok none)
  | .endDump => (e.endDump, .ok none)

/-- The state after a history; an exception is caught and the next operation follows. -/
def Enc.runs (e : Enc) : List Op → Enc
  | [] => e
  | o :: os => (o.run e).1.runs os

end Verif.Gsf

import Verif.Gsf.Encoder

/-!
# What the encoder does to its file, step by step

The operations of `Gsf/Encoder` as lists of calls on the output file (`mediagrains/gsf.py` 1731-1780, 1817-1876), so that a program can
stop between any two of them, or in the middle of a write.

A process that dies leaves the file as it is after some of the calls, with the first bytes of the next write. Python's buffered files hand
the bytes over later, but in the same order, and flush before they seek; so what they leave is among these files, for an
earlier point. Simplification: the operating system does not lose or reorder what it was given.
-/

namespace Verif.Gsf

/-- A call on the output file. -/
inductive FAct where
  | write (b : Bytes)
  | seek (p : Nat)
  | truncate
  deriving DecidableEq, Repr

/-- The file after a call. -/
def OutFile.does (f : OutFile) : FAct → OutFile
  | .write b => f.write b
  | .seek p => f.seek p
  | .truncate => f.truncate

/-- The file after several calls. -/
def OutFile.doAll (f : OutFile) : List FAct → OutFile
  | [] => f
  | a :: l => (f.does a).doAll l

/-- The file if the process dies after `n` of the calls, having done `k` bytes of the next if that is a write. -/
def OutFile.die (f : OutFile) : List FAct → Nat → Nat → OutFile
  | [], _, _ => f
  | .write b :: _, 0, k => f.write (b.take k)
  | _ :: _, 0, _ => f
  | a :: l, n + 1, k => (f.does a).die l n k

/-- Lines 1743-1745 and 1830-1831. -/
def Enc.grainCalls (e : Enc) (l : Nat) (gs : List Grain) : List FAct := gs.map (fun g => .write (encodeGrain e.major l g))

/-- `GSFEncoderSegment.add_grains`, lines 2470-2486. -/
def Enc.sAddCalls (e : Enc) (l : Nat) (gs : List Grain) : List FAct :=
  match e.seg l with
  | none => []
  | some s => if ((e.parentHandle s).map Handle.active).getD false then e.grainCalls l gs else []

/-- `add_grains` of a handle, lines 1731-1747 and 1817-1833. -/
def Enc.hAddCalls (e : Enc) (k : Nat) (gs : List Grain) (sid : Option Bytes) (lid : Option Nat) (fresh : Bytes) : List FAct :=
  match e.handles[k]? with
  | none => []
  | some h =>
    match (e.choose sid lid).filter e.hasSeg with
    | some l => if h.active then e.grainCalls l gs else e.sAddCalls l gs
    | none =>
      if h.active then []
      else
        match e.hAddSegment k sid (e.choose sid lid) [] fresh with
        | (_, .error _) => []
        | (e1, .ok l) => e1.sAddCalls l gs

/-- `GSFEncoder.add_grains`, lines 2062-2085. -/
def Enc.addCalls (e : Enc) (gs : List Grain) (sid : Option Bytes) (lid : Option Nat) (fresh : Bytes) : List FAct :=
  match e.syncOpen with
  | some k => e.hAddCalls k gs sid lid fresh
  | none =>
    match (e.choose sid lid).filter e.hasSeg with
    | some l => e.sAddCalls l gs
    | none =>
      match e.addSegment sid (e.choose sid lid) [] fresh with
      | (_, .error _) => []
      | (e1, .ok l) => e1.sAddCalls l gs

/-- `_start_dump`, lines 1749-1767 and 1835-1860. -/
def Enc.startCalls (e : Enc) (all : Bool) : List FAct :=
  (if e.file.seekable then [.seek 0, .truncate] else []) ++
    [.write (encodeFileHeader e.major e.minor ++ encodeHead (e.headIn all) ++ e.pendingBytes)]

/-- The loop of `_end_dump`, lines 1770-1775 and 1863-1870; `pos` is the position at the end. -/
def patchCalls (seekable : Bool) (pos : Nat) : List Seg → List FAct
  | [] => []
  | s :: ss =>
    match s.countPos with
    | none => patchCalls seekable pos ss
    | some p =>
      if seekable then .seek p :: .write (encodeSint s.writeCount 8) :: .seek pos :: patchCalls seekable pos ss
      else patchCalls seekable pos ss

/-- `_end_dump`, lines 1769-1780 and 1862-1876. -/
def Enc.finishCalls (e : Enc) (k : Nat) : List FAct :=
  patchCalls e.file.seekable e.file.pos e.segs ++
    (if ((e.handles[k]?).map Handle.active).getD false then [.write terminator] else [])

/-- The calls of an operation. -/
def Op.calls (e : Enc) : Op → List FAct
  | .addGrains gs sid lid fresh => e.addCalls gs sid lid fresh
  | .hAddGrains k gs sid lid fresh => e.hAddCalls k gs sid lid fresh
  | .sAddGrains l gs => e.sAddCalls l gs
  | .enter => if e.streaming then e.startCalls false else []
  | .exit =>
    match e.syncOpen with
    | none => []
    | some k => if e.streaming then e.finishCalls k else e.startCalls true ++ (e.start k true).finishCalls k
  | .aenter => if e.streaming then e.startCalls false else []
  | .aexit =>
    match e.asyncOpen with
    | none => []
    | some k => if e.streaming then e.finishCalls k else e.startCalls true ++ (e.start k true).finishCalls k
  | .startDump all => e.startCalls all
  | .endDump =>
    match e.syncOpen with
    | none => []
    | some k => e.finishCalls k
  | _ => []

/-- The file if the process dies in operation `o`. -/
def Op.dies (e : Enc) (o : Op) (n k : Nat) : OutFile := e.file.die (o.calls e) n k

/-- A program that goes on after a write failed (`OSError`, for example because the disk is full) when `k` bytes had been written:
`encode_grain` has counted the grain by then (line 2323). -/
def Enc.failGrain (e : Enc) (l : Nat) (g : Grain) (k : Nat) : Enc :=
  let e1 := e.updSeg l (fun s => { s with writeCount := s.writeCount + 1 })
  { e1 with file := e1.file.write ((encodeGrain e.major l g).take k) }

end Verif.Gsf

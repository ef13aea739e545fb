import Verif.Bytes

/-!
# Forward-only streams

`mediagrains/utils/asyncbinaryio.py` 314-427 (`OpenAsyncStreamWrapper`) and `mediagrains/tools/_file_or_pipe.py` 23-57
(`InputStreamWrapper`).
-/

namespace Verif.IO.Stream

open Verif

inductive Whence where | set | cur | fromEnd
deriving DecidableEq, Repr

inductive Op where
  | read (n : Nat)
  /-- `read()`, that is `read(-1)`. -/
  | readToEnd
  | readinto (n : Nat)
  | readall
  | tell
  | seek (offset : Int) (whence : Whence)
deriving DecidableEq, Repr

inductive Obs where
  | bytes (b : Bytes)
  | num (n : Int)
  /-- `UnsupportedOperation` or `NotImplementedError`. -/
  | refused
  | eof
deriving DecidableEq, Repr

/-! ## Asynchronous stream wrapper -/

/-- `asyncio.StreamReader`: what it holds, and the pieces that will still arrive before the end of the stream. -/
structure Reader where
  buffer : Bytes
  coming : List Bytes
deriving DecidableEq, Repr

/-- `StreamReader.readexactly(n)`: waits for pieces while there is too little; at the end of the stream all that is
left (`IncompleteReadError.partial`). The wrapper's `_read`, lines 329-339, makes both cases and `at_eof` the same. -/
def Reader.take (n : Nat) (buffer : Bytes) : List Bytes → Bytes × Reader
  | [] => (buffer.take n, ⟨buffer.drop n, []⟩)
  | p :: ps => if n ≤ buffer.length then (buffer.take n, ⟨buffer.drop n, p :: ps⟩) else Reader.take n (buffer ++ p) ps

/-- `_read(s)`, lines 329-339, with `none` for a negative size (`StreamReader.read(-1)`, until the end). -/
def Reader.read (r : Reader) : Option Nat → Bytes × Reader
  | some n => Reader.take n r.buffer r.coming
  | none => (r.buffer ++ r.coming.flatten, ⟨[], []⟩)

/-- The fields of a wrapper around a reader (without a writer), lines 315-324. -/
structure SW where
  reader : Reader
  pos : Nat
  next : Nat
deriving DecidableEq, Repr

def SW.new (pieces : List Bytes) : SW := ⟨⟨[], pieces⟩, 0, 0⟩

/-- `_align_pos`, lines 341-347. -/
def SW.align (s : SW) : SW :=
  if s.next > s.pos then { s with reader := (s.reader.read (some (s.next - s.pos))).2, pos := s.next } else s

/-- `read`, lines 349-355. -/
def SW.read (s : SW) (n : Option Nat) : SW × Bytes :=
  let s := s.align
  let r := s.reader.read n
  ({ s with reader := r.2, pos := s.pos + r.1.length }, r.1)

/-- `tell`, lines 386-391. -/
def SW.tell (s : SW) : Nat := if s.next > s.pos then s.next else s.pos

/-- `seek`, lines 393-409. -/
def SW.seek (s : SW) (o : Int) (w : Whence) : SW × Obs :=
  match (match w with | .set => some o | .cur => some (s.tell + o) | .fromEnd => none) with
  | none => (s, .refused)
  | some t => if t < s.pos then (s, .refused) else ({ s with next := t.toNat }, .num t)

/-- One operation; `readinto`, lines 357-367, is shown by the bytes it delivers; `readall` is lines 369-372. -/
def SW.step (s : SW) : Op → SW × Obs
  | .read n => let r := s.read (some n); (r.1, .bytes r.2)
  | .readToEnd => let r := s.read none; (r.1, .bytes r.2)
  | .readinto n => let r := s.read (some n); (r.1, .bytes r.2)
  | .readall => let r := s.read none; ({ r.1 with pos := r.1.pos + r.2.length }, .bytes r.2)
  | .tell => (s, .num s.tell)
  | .seek o w => s.seek o w

def SW.run (s : SW) : List Op → List Obs
  | [] => []
  | o :: os => (s.step o).2 :: SW.run (s.step o).1 os

/-! ## A wrapper around a writer -/

/-- What has been sent, and the positions. -/
structure WW where
  sent : Bytes
  pos : Nat
  next : Nat
deriving DecidableEq, Repr

def WW.new : WW := ⟨[], 0, 0⟩

/-- `_align_pos` with a writer, lines 341-347: zeros. -/
def WW.align (s : WW) : WW :=
  if s.next > s.pos then { s with sent := s.sent ++ List.replicate (s.next - s.pos) 0, pos := s.next } else s

/-- `write`, lines 374-381. -/
def WW.write (s : WW) (b : Bytes) : WW :=
  let s := s.align
  { s with sent := s.sent ++ b, pos := s.pos + b.length }

def WW.tell (s : WW) : Nat := if s.next > s.pos then s.next else s.pos

/-- `seek` to an absolute position, lines 393-409. -/
def WW.seek (s : WW) (t : Nat) : Option WW := if t < s.pos then none else some { s with next := t }

/-! ## Standard input -/

/-- The file behind `InputStreamWrapper`: what is left, and for each coming call of `read` the most it will deliver
(at least one byte unless at the end). -/
structure Pipe where
  left : Bytes
  limits : List Nat
deriving DecidableEq, Repr

/-- `fp.read(s)` -/
def Pipe.read (p : Pipe) (s : Nat) : Bytes × Pipe :=
  match p.limits with
  | [] => (p.left.take s, ⟨p.left.drop s, []⟩)
  | k :: ks => (p.left.take (min s (max k 1)), ⟨p.left.drop (min s (max k 1)), ks⟩)

/-- `InputStreamWrapper`, lines 24-26. -/
structure IW where
  file : Pipe
  pos : Nat
deriving DecidableEq, Repr

/-- The loop of `read`, lines 37-43, for what is still wanted: `none` is `EOFError`. Each round delivers at least one
byte, so the size bounds the rounds. -/
def readLoop : Nat → Pipe → Nat → Option Bytes × Pipe
  | 0, p, want => (if want = 0 then some [] else none, p)
  | f + 1, p, want =>
    if want = 0 then (some [], p)
    else
      let r := p.read want
      if r.1.length = 0 then (none, r.2)
      else
        let q := readLoop f r.2 (want - r.1.length)
        (q.1.map (fun b => r.1 ++ b), q.2)

/-- One operation, lines 28-57. `readinto` and `readall` are not defined by the class. -/
def IW.step (s : IW) : Op → IW × Obs
  | .read n =>
    let r := readLoop n s.file n
    match r.1 with
    | none => ({ s with file := r.2 }, .eof)
    | some b => (⟨r.2, s.pos + b.length⟩, .bytes b)
  | .readToEnd => (⟨⟨[], s.file.limits⟩, s.pos + s.file.left.length⟩, .bytes s.file.left)
  | .tell => (s, .num s.pos)
  | .seek o w =>
    match (match w with | .set => some (o - s.pos) | .cur => some o | .fromEnd => none) with
    | none => (s, .refused)
    | some d =>
      if d < 0 then (s, .refused)
      else if d > 0 then (⟨(s.file.read d.toNat).2, s.pos + d.toNat⟩, .num (s.pos + d))
      else (s, .num s.pos)
  | _ => (s, .refused)

def IW.run (s : IW) : List Op → List Obs
  | [] => []
  | o :: os => (s.step o).2 :: IW.run (s.step o).1 os

end Verif.IO.Stream

import Verif.Bytes

/-!
# `IOBytes`

Models `mediagrains/utils/iobytes.py`.  The stream is a byte string with a position; other code may use
the same stream between accesses.
-/

namespace Verif.IO

/-- A readable, seekable stream (`istream`). -/
structure File where
  content : Bytes
  pos : Nat
  deriving DecidableEq, Repr

/-- `istream.read(n)`. -/
def File.read (f : File) (n : Nat) : Bytes × File :=
  let bs := (f.content.drop f.pos).take n
  (bs, { f with pos := f.pos + bs.length })

/-- `istream.seek(p)`. -/
def File.seek (f : File) (p : Nat) : File := { f with pos := p }

/-- An `IOBytes` (lines 132-150): range and `_object`.  `loads` is not a field of the python object, it
counts the calls of `__loadbytes`. -/
structure IOB where
  start : Nat
  length : Nat
  object : Option Bytes := none
  loads : Nat := 0
  deriving DecidableEq, Repr

/-- `__loadbytes`, lines 138-145: remember the position, seek, read, seek back. -/
def IOB.loadbytes (b : IOB) (f : File) : Bytes × File :=
  let loc := f.pos
  let f := f.seek b.start
  let (bs, f) := f.read b.length
  (bs, f.seek loc)

/-- Lines 55-56 (and 153-154): load if not loaded yet. -/
def IOB.force (b : IOB) (f : File) : Bytes × IOB × File :=
  match b.object with
  | some bs => (bs, b, f)
  | none =>
    let (bs, f) := b.loadbytes f
    (bs, { b with object := some bs, loads := b.loads + 1 }, f)

/-- `__len__`, lines 157-161. -/
def IOB.len (b : IOB) : Nat :=
  match b.object with
  | none => b.length
  | some bs => bs.length

/-- The things a program can see. -/
inductive Val where
  | bytes (bs : Bytes) | nat (n : Nat) | int (i : Int) | bool (b : Bool) | byte (x : UInt8)
  | list (l : Bytes) | text (loaded : Bool) | typeError | indexError | unit
  deriving DecidableEq, Repr

/-- `bytes.__getitem__` with an integer. -/
def pyIndex (bs : Bytes) (i : Int) : Val :=
  let j := if i < 0 then i + bs.length else i
  if j < 0 then .indexError else
    match bs[j.toNat]? with
    | some x => .byte x
    | none => .indexError

/-- Uses of an `IOBytes` object.  `method f` stands for any operation that goes through
`__getattribute__`, or through one of the methods of lines 74-114, and so is carried out by the loaded
`bytes` object: indexing, slicing, comparison with `bytes`, `in`, `hash`, `str`, `count`, `find`,
`hex`, ... -/
inductive Use where
  /-- `bytes(x)`, lines 152-155. -/
  | toBytes
  | method (f : Bytes → Val)
  /-- `len(x)`; `bool(x)` also uses it. -/
  | len
  /-- `repr(x)`, lines 163-167: shows the range before loading and the bytes afterwards. -/
  | repr
  /-- `list(x)`: `Sequence.__iter__` of the class, which indexes `0, 1, …` until `IndexError`. -/
  | iter
  /-- `x + other` and `other + x` with `bytes`: there is no `__add__` on the class and `bytes.__add__`
  wants the buffer protocol. -/
  | add (other : Bytes)

/-- Operations on a set of `IOBytes` objects over one stream, with other users of the stream. -/
inductive Op where
  | use (k : Nat) (u : Use)
  /-- `xs[k] == xs[j]`. -/
  | eqObj (k j : Nat)
  | seek (p : Nat)
  | read (n : Nat)

structure World where
  file : File
  objs : List IOB
  deriving DecidableEq, Repr

/-- The loop of `Sequence.__iter__` over an object that was loaded (its first indexing loads it). -/
def iterFrom (bs : Bytes) : Nat → Nat → Bytes
  | 0, _ => []
  | fuel + 1, i =>
    match pyIndex bs i with
    | .byte x => x :: iterFrom bs fuel (i + 1)
    | _ => []

/-- One use. -/
def IOB.use (b : IOB) (f : File) : Use → Val × IOB × File
  | .toBytes => let (bs, b, f) := b.force f; (.bytes bs, b, f)
  | .method g => let (bs, b, f) := b.force f; (g bs, b, f)
  | .len => (.nat b.len, b, f)
  | .repr => (.text b.object.isSome, b, f)
  | .iter => let (bs, b, f) := b.force f; (.list (iterFrom bs (bs.length + 1) 0), b, f)
  | .add _ => (.typeError, b, f)

/-- One operation.  `==` between two `IOBytes`: `bytes.__eq__` gives `NotImplemented` for an object without
the buffer protocol; python then tries the other side, loading it too, and falls back to identity. -/
def World.step (w : World) : Op → Val × World
  | .use k u =>
    match w.objs[k]? with
    | none => (.unit, w)
    | some b =>
      let (v, b, f) := b.use w.file u
      (v, ⟨f, w.objs.set k b⟩)
  | .eqObj k j =>
    match w.objs[k]?, w.objs[j]? with
    | some b, some _ =>
      let (_, b, f) := b.force w.file
      let objs := w.objs.set k b
      match objs[j]? with
      | some c =>
        let (_, c, f) := c.force f
        (.bool (k == j), ⟨f, objs.set j c⟩)
      | none => (.unit, w)
    | _, _ => (.unit, w)
  | .seek p => (.unit, { w with file := w.file.seek p })
  | .read n => let (bs, f) := w.file.read n; (.bytes bs, { w with file := f })

def World.run : World → List Op → List Val × World
  | w, [] => ([], w)
  | w, op :: ops =>
    let (v, w) := w.step op
    let (vs, w) := World.run w ops
    (v :: vs, w)

end Verif.IO

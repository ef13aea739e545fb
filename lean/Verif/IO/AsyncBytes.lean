import Verif.Bytes

/-!
# The in-memory asynchronous file

`mediagrains/utils/asyncbinaryio.py` 33-46 (`OpenAsyncBinaryIO.read`) and 112-187 (`OpenAsyncBytesIO`).

Each operation is awaited before the next one begins (the executor of `wrap_in_executor`, lines 104-108, adds nothing
then). Slices are python's, with negative positions counted from the end.
-/

namespace Verif.IO.Mem

open Verif

/-- A slice bound made into an index, as python does: from the end if negative, cut to the length. -/
def bound (n : Nat) (i : Int) : Nat := if i < 0 then (n + i).toNat else min i.toNat n

/-- `l[a:b]` -/
def slice (l : Bytes) (a b : Int) : Bytes := (l.take (bound l.length b)).drop (bound l.length a)

/-- `l[a:b] = v` -/
def setSlice (l : Bytes) (a b : Int) (v : Bytes) : Bytes :=
  l.take (bound l.length a) ++ v ++ l.drop (max (bound l.length a) (bound l.length b))

def zeros (n : Nat) : Bytes := List.replicate n 0

/-- The fields of `OpenAsyncBytesIO`, lines 113-116. -/
structure BIO where
  buffer : Bytes
  pos : Int
  len : Int
deriving DecidableEq, Repr

/-- Opened on `b`, lines 113-120. -/
def BIO.new (b : Bytes) : BIO := ⟨b, 0, b.length⟩

inductive Whence where | set | cur | fromEnd
deriving DecidableEq, Repr

inductive Op where
  | read (n : Nat)
  /-- `read(-1)`, which is `readall()`. -/
  | readall
  | readinto (n : Nat)
  | write (b : Bytes)
  | truncate (size : Option Int)
  | tell
  | seek (offset : Int) (whence : Whence)
  | getvalue
deriving DecidableEq, Repr

/-- What a caller sees. -/
inductive Obs where
  | bytes (b : Bytes)
  /-- `readinto`: the count and the array afterwards. -/
  | into (n : Int) (b : Bytes)
  | num (n : Int)
  | eof
  | none
deriving DecidableEq, Repr

/-- `readinto`, lines 122-130, on a fresh array of `n` zeros. -/
def BIO.readinto (s : BIO) (n : Nat) : BIO × Int × Bytes :=
  let length := min (s.len - s.pos) n
  if length > 0 then
    ({ s with pos := s.pos + length }, length, setSlice (zeros n) 0 length (slice s.buffer s.pos (s.pos + length)))
  else (s, 0, zeros n)

/-- `readall`, lines 132-137. -/
def BIO.readall (s : BIO) : Bytes := if s.pos ≥ 0 ∧ s.pos < s.len then slice s.buffer s.pos s.len else []

/-- `write`, lines 139-153. -/
def BIO.write (s : BIO) (b : Bytes) : BIO × Int :=
  if s.pos < 0 then (s, 0)
  else
    let buffer :=
      if s.pos + b.length > s.buffer.length then
        setSlice (zeros (max (s.pos + b.length) (2 * s.buffer.length)).toNat) 0 s.len (slice s.buffer 0 s.len)
      else s.buffer
    let buffer := setSlice buffer s.pos (s.pos + b.length) b
    let pos := s.pos + b.length
    (⟨buffer, pos, max pos s.len⟩, b.length)

/-- `truncate`, lines 155-161. -/
def BIO.truncate (s : BIO) (size : Option Int) : BIO :=
  match size with
  | some n => { s with len := n }
  | none => { s with len := max s.pos 0 }

/-- `seek`, lines 166-172. -/
def BIO.seek (s : BIO) (offset : Int) : Whence → BIO
  | .set => { s with pos := offset }
  | .cur => { s with pos := s.pos + offset }
  | .fromEnd => { s with pos := s.len + offset }

/-- `getvalue`, line 187. -/
def BIO.getvalue (s : BIO) : Bytes := slice s.buffer 0 s.len

/-- One operation; `read` is lines 35-46. -/
def BIO.step (s : BIO) : Op → BIO × Obs
  | .read n =>
    let r := s.readinto n
    if r.2.1 < n then (r.1, .eof) else (r.1, .bytes r.2.2)
  | .readall => (s, .bytes s.readall)
  | .readinto n => let r := s.readinto n; (r.1, .into r.2.1 r.2.2)
  | .write b => let r := s.write b; (r.1, .num r.2)
  | .truncate size => let s' := s.truncate size; (s', .num s'.len)
  | .tell => (s, .num s.pos)
  | .seek o w => (s.seek o w, .none)
  | .getvalue => (s, .bytes s.getvalue)

def BIO.run (s : BIO) : List Op → List Obs
  | [] => []
  | o :: os => (s.step o).2 :: BIO.run (s.step o).1 os

end Verif.IO.Mem

import Verif.Utf8

/-!
# Reading GSF blocks

Models `SyncGSFBlock`, `mediagrains/gsf.py` lines 444-799.

A file object is a byte string with a base offset (`file_data_start`), positions are *base file*
positions (`_base_file_tell`, lines 480-482).  `file.read(n)` returns the bytes that are there, at
most `n`; `seek` may go past the end (the contract of python's `io` objects).
-/

namespace Verif.Gsf

open Verif

/-- What python raises.  `eof` is `EOFError`, `decode` is `GSFDecodeError`, `badFileType` and
`badVersion` are its two subclasses, `unicode` is a raw `UnicodeDecodeError`, `value` a raw
`ValueError`.  `fuel` is not a python error: it marks a loop bound that is proved never to be
reached. -/
inductive Err where
  | eof | decode | badFileType | badVersion (major : Nat) | unicode | value | fuel
  deriving DecidableEq, Repr

/-- A (sub-)stream: `file_data` with `file_data_start` (lines 465-473, 591-611). -/
structure Stream where
  base : Nat
  buf : Bytes
  deriving DecidableEq, Repr

/-- A reading action: from a stream and a position to a value and the next position. -/
def Rd (α : Type) := Stream → Nat → Except Err (α × Nat)

namespace Rd
@[inline] def pure (a : α) : Rd α := fun _ p => .ok (a, p)
@[inline] def bind (m : Rd α) (f : α → Rd β) : Rd β := fun s p =>
  match m s p with
  | .ok (a, p') => f a s p'
  | .error e => .error e
instance : Monad Rd where
  pure := Rd.pure
  bind := Rd.bind
@[inline] def fail (e : Err) : Rd α := fun _ _ => .error e
/-- The current position (`_base_file_tell`). -/
@[inline] def tell : Rd Nat := fun _ p => .ok (p, p)
/-- `file_data.seek(pos - file_data_start)`. -/
@[inline] def seek (q : Nat) : Rd Unit := fun _ _ => .ok ((), q)

/-- A partial pure function; failure raises `e`. -/
@[inline] def ofOption (e : Err) (o : Option α) : Rd α := fun _ p =>
  match o with
  | some a => .ok (a, p)
  | none => .error e

@[simp] theorem ite_apply (c : Prop) [Decidable c] (m n : Rd α) (s p) :
    (if c then m else n) s p = if c then m s p else n s p := by split <;> rfl
@[simp] theorem ofOption_some (e) (a : α) (s p) : ofOption e (some a) s p = .ok (a, p) := rfl
@[simp] theorem ofOption_none (e) (s p) : (ofOption e none : Rd α) s p = .error e := rfl
@[simp] theorem pure_apply (a : α) (s p) : (Pure.pure a : Rd α) s p = .ok (a, p) := rfl
@[simp] theorem bind_apply (m : Rd α) (f : α → Rd β) (s p) :
    (m >>= f) s p = match m s p with | .ok (a, p') => f a s p' | .error e => .error e := rfl
@[simp] theorem fail_apply (e) (s p) : (fail e : Rd α) s p = .error e := rfl
@[simp] theorem tell_apply (s p) : tell s p = .ok (p, p) := rfl
@[simp] theorem seek_apply (q) (s p) : seek q s p = .ok ((), q) := rfl

theorem bind_of_ok {m : Rd α} {f : α → Rd β} {s p a p'} (h : m s p = .ok (a, p')) :
    (m >>= f) s p = f a s p' := by simp [h]
theorem bind_of_error {m : Rd α} {f : α → Rd β} {s p e} (h : m s p = .error e) :
    (m >>= f) s p = .error e := by simp [h]
end Rd

/-- `file_data.read(n)`: at most `n` bytes from the current position. -/
def readRaw (n : Nat) : Rd Bytes := fun s p =>
  let bs := (s.buf.drop (p - s.base)).take n
  .ok (bs, p + bs.length)

/-- `read(n)` followed by the "enough bytes" test, shared by lines 629-632, 691-693, 723-726. -/
def readExact (n : Nat) : Rd Bytes := do
  let bs ← readRaw n
  if bs.length ≠ n then Rd.fail .eof else return bs

/-- `read_uint`, lines 621-636. -/
def readUint (n : Nat) : Rd Nat := do
  let bs ← readExact n
  return uintOf bs

/-- `read_bool`, lines 638-644. -/
def readBool : Rd Bool := do
  let n ← readUint 1
  return decide (n ≠ 0)

/-- `read_optional_bool`, lines 646-655. -/
def readOptionalBool : Rd (Option Bool) := do
  let n ← readUint 1
  if n > 1 then return none else return some (decide (n ≠ 0))

/-- `read_sint`, lines 657-667. -/
def readSint (n : Nat) : Rd Int := do
  let r ← readUint n
  return signFix r n

/-- `read_optional_sint`, lines 669-682. -/
def readOptionalSint (n : Nat) (nullValue : Nat) : Rd (Option Int) := do
  let r ← readUint n
  if r = nullValue then return none else return some (signFix r n)

/-- `str.rstrip('\x00')`. -/
def rstripNul (s : List Char) : List Char := (s.reverse.dropWhile (· == '\x00')).reverse

/-- `str.lstrip('\x00')`. -/
def lstripNul (s : List Char) : List Char := s.dropWhile (· == '\x00')

/-- Lines 696-699: strip trailing NULs; a string that is empty or starts with NUL reads as `""`. -/
def cleanString (s : List Char) : List Char :=
  match rstripNul s with
  | [] => []
  | c :: t => if c == '\x00' then [] else c :: t

/-- `read_string`, lines 684-704. -/
def readString (n : Nat) : Rd (List Char) := do
  let bs ← readExact n
  let s ← Rd.ofOption .decode (decodeUtf8 bs)
  return cleanString s

/-- `read_varstring`, lines 706-715. -/
def readVarstring : Rd (List Char) := do
  let n ← readUint 2
  readString n

/-- `read_uuid`, lines 717-728; a `UUID` is its 16 bytes. -/
def readUuid : Rd Bytes := readExact 16

/-- `read_varbytes`, lines 783-792: no check that all bytes are there. -/
def readVarbytes : Rd Bytes := do
  let n ← readUint 4
  readRaw n

/-- `skip`, lines 794-799. -/
def skip (n : Nat) : Rd Unit := do
  let p ← Rd.tell
  Rd.seek (p + n)

/-- The six fields of a `datetime` (seconds resolution, UTC). -/
structure DateTime where
  year : Int
  month : Nat
  day : Nat
  hour : Nat
  minute : Nat
  second : Nat
  deriving DecidableEq, Repr

/-- Days in a month of the proleptic Gregorian calendar (python `datetime`). -/
def daysInMonth (y : Int) (m : Nat) : Nat :=
  if m = 2 then (if y % 4 = 0 ∧ (y % 100 ≠ 0 ∨ y % 400 = 0) then 29 else 28)
  else if m = 4 ∨ m = 6 ∨ m = 9 ∨ m = 11 then 30 else 31

/-- The values `datetime(...)` accepts (it raises `ValueError` for all others). -/
def DateTime.Valid (d : DateTime) : Prop :=
  1 ≤ d.year ∧ d.year ≤ 9999 ∧ 1 ≤ d.month ∧ d.month ≤ 12 ∧ 1 ≤ d.day ∧
    d.day ≤ daysInMonth d.year d.month ∧ d.hour ≤ 23 ∧ d.minute ≤ 59 ∧ d.second ≤ 59

instance (d : DateTime) : Decidable d.Valid := by unfold DateTime.Valid; infer_instance

/-- `read_datetime`, lines 730-742. -/
def readDatetime : Rd DateTime := do
  let year ← readSint 2
  let month ← readUint 1
  let day ← readUint 1
  let hour ← readUint 1
  let minute ← readUint 1
  let second ← readUint 1
  let d : DateTime := ⟨year, month, day, hour, minute, second⟩
  if d.Valid then return d else Rd.fail .value

/-- Nanoseconds per second. -/
abbrev nsPerSec : Int := 1000000000

/-- Largest magnitude of a `mediatimestamp` value in nanoseconds (48-bit seconds). -/
abbrev maxTs : Int := 281474976710656 * 1000000000 - 1

/-- The external constructor `mediatimestamp.Timestamp(sec, ns, sign)`: a signed number of
nanoseconds, clamped to the range of the type.  Assumed behaviour of the external library. -/
def mkTimestamp (sec ns : Nat) (sign : Int) : Int :=
  let v := sign * ((sec : Int) * nsPerSec + ns)
  if v > maxTs then maxTs else if v < -maxTs then -maxTs else v

/-- `read_timestamp_v7`, lines 744-752. -/
def readTimestampV7 : Rd Int := do
  let secs ← readUint 6
  let nano ← readUint 4
  return mkTimestamp secs nano 1

/-- `read_timestamp`, lines 754-766. -/
def readTimestamp : Rd Int := do
  let pos ← readBool
  let secs ← readUint 6
  let nano ← readUint 4
  return mkTimestamp secs nano (if pos then 1 else -1)

/-- `read_rational`, lines 768-781; `fractions.Fraction` is the reduced rational. -/
def readRational : Rd Rat := do
  let num ← readUint 4
  let den ← readUint 4
  if num = 0 ∨ den = 0 then return 0 else return mkRat num den

/-! ## Blocks -/

/-- The state of an entered `SyncGSFBlock`: `block_start`, `size`, `tag`. -/
structure Block where
  start : Nat
  size : Nat
  tag : List Char
  deriving DecidableEq, Repr

abbrev tSSBB : List Char := ['S', 'S', 'B', 'B']
abbrev tGrsg : List Char := ['g', 'r', 's', 'g']
abbrev tHead : List Char := ['h', 'e', 'a', 'd']
abbrev tSegm : List Char := ['s', 'e', 'g', 'm']
abbrev tFlow : List Char := ['f', 'l', 'o', 'w']
abbrev tTag : List Char := ['t', 'a', 'g', ' ']
abbrev tGrai : List Char := ['g', 'r', 'a', 'i']
abbrev tGbhd : List Char := ['g', 'b', 'h', 'd']
abbrev tTils : List Char := ['t', 'i', 'l', 's']
abbrev tVghd : List Char := ['v', 'g', 'h', 'd']
abbrev tComp : List Char := ['c', 'o', 'm', 'p']
abbrev tCghd : List Char := ['c', 'g', 'h', 'd']
abbrev tUnof : List Char := ['u', 'n', 'o', 'f']
abbrev tAghd : List Char := ['a', 'g', 'h', 'd']
abbrev tCahd : List Char := ['c', 'a', 'h', 'd']
abbrev tEghd : List Char := ['e', 'g', 'h', 'd']
abbrev tGrdt : List Char := ['g', 'r', 'd', 't']

/-- Lines 500-513: read the tag and the size; `SSBB` must be followed by `grsg` and counts as a
block of size 8. -/
def readHeader : Rd (List Char × Nat) := do
  let tag ← readString 4
  if tag = tSSBB then
    let g ← readString 4
    if g ≠ tGrsg then Rd.fail .decode else return (tag, 8)
  else
    let size ← readUint 4
    return (tag, size)

/-- The position `__exit__` (lines 531-542), and the skip in `__enter__` (lines 523-526), seek to. -/
def Block.endPos (b : Block) : Nat := b.start + max 8 b.size

/-- The `while True` loop of `__enter__`, lines 484-529.  The first argument bounds the number of
iterations; `enter` supplies a bound that is proved sufficient. -/
def enterLoop (want : Option (List Char)) (raiseOnWrong : Bool) : Nat → Rd Block
  | 0 => Rd.fail .fuel
  | fuel + 1 => do
    let start ← Rd.tell
    let (tag, size) ← readHeader
    let b : Block := ⟨start, size, tag⟩
    if want = none ∨ want = some tag then return b
    else if raiseOnWrong then Rd.fail .decode
    else do
      Rd.seek b.endPos
      enterLoop want raiseOnWrong fuel

/-- `__enter__`, lines 484-529. -/
def enter (want : Option (List Char)) (raiseOnWrong : Bool := false) : Rd Block := fun s p =>
  enterLoop want raiseOnWrong (s.buf.length + 1) s p

/-- `__exit__`, lines 531-542 (seek to the block end). -/
def Block.exit (b : Block) : Rd Unit := Rd.seek b.endPos

/-- `get_remaining`, lines 581-589.  May be negative. -/
def Block.remaining (b : Block) : Rd Int := fun _ p => .ok ((b.start : Int) + b.size - p, p)

/-- `has_child_block`, lines 544-566, with the default `strict_blocks=True` (no caller in the library
passes `False`). -/
def Block.hasChild (b : Block) : Rd Bool := do
  let r ← b.remaining
  if r ≥ 8 then return true
  else if r ≠ 0 then Rd.fail .decode
  else return false

/-- `for child in block.child_blocks(): st = body child st`, lines 568-579. The loop bound is again
supplied by `forChildren` and proved sufficient. -/
def forChildrenLoop (b : Block) (body : Block → σ → Rd σ) : Nat → σ → Rd σ
  | 0, _ => Rd.fail .fuel
  | fuel + 1, st => do
    if ← b.hasChild then
      let child ← enter none
      let st ← body child st
      child.exit
      forChildrenLoop b body fuel st
    else return st

def forChildren (b : Block) (body : Block → σ → Rd σ) (st : σ) : Rd σ := fun s p =>
  forChildrenLoop b body (s.buf.length + 1) st s p

/-- `read_remaining_block` and then running `body` on the resulting block, lines 591-611: the rest of
the block is copied into a fresh stream based at the current position, so `body` cannot see anything
else.  Afterwards the outer file is positioned after the bytes that were copied. -/
def Block.inRemaining (b : Block) (body : Rd α) : Rd α := fun s p =>
  let n := ((b.start : Int) + b.size - p).toNat
  let bs := (s.buf.drop (p - s.base)).take n
  match body ⟨p, bs⟩ p with
  | .ok (a, _) => .ok (a, p + bs.length)
  | .error e => .error e

/-- `for i in range(n): acc.append(body())`. -/
def repeatRd (n : Nat) (m : Rd α) : Rd (List α) :=
  match n with
  | 0 => return []
  | n + 1 => do
    let a ← m
    let l ← repeatRd n m
    return a :: l

end Verif.Gsf

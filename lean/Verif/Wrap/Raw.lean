import Verif.IO.Streams

/-!
# Wrapping raw essence

Model of `mediagrains/utils/grain_wrapper.py` (28-67): a template grain and an input are turned into a sequence of
grains. The input is a file opened by `open(name, "rb")` or `InputStreamWrapper(sys.stdin.buffer)`
(`mediagrains/tools/_file_or_pipe.py` 60-75).
-/

namespace Verif.Wrap

open Verif Verif.IO.Stream

/-- `Timestamp.from_count(count, num, den)` of the library `mediatimestamp`, in nanoseconds: the start of media unit
`count` at `num/den` units a second, rounded down. That library is not part of the repository; this is its documented
meaning. -/
def fromCount (num den : Nat) (count : Int) : Int := count * 1000000000 * den / num

/-- The first unit that does not start before `start`. -/
def firstCount (num den : Nat) (start : Int) : Int := -((-start) * num / (1000000000 * den))

/-- The `k`th timestamp of `TimeRange.from_start(start).at_rate(num/den)` (lines 52-54 of the wrapper). The iterator is
in `mediatimestamp`; modelled as its documentation has it: every unit start in the range, in order. -/
def atRate (num den : Nat) (start : Int) (k : Nat) : Int := fromCount num den (firstCount num den start + k)

/-- An input: one call of `read(frame_size)`. `none` is `EOFError`. -/
abbrev Input (σ : Type) := σ → Option Bytes × σ

/-- `GrainWrapper.grains`, lines 54-67: one round for each timestamp. Yields the number of the timestamp and the data.
Every round that goes on takes a byte, so a bound on the rounds above the length of the input is never reached. The
other fields are those of the template (a deep copy, line 55). -/
def rounds {σ : Type} (read : Input σ) : Nat → Nat → σ → List (Nat × Bytes)
  | 0, _, _ => []
  | f + 1, k, s =>
    match read s with
    | (none, _) => []
    | (some d, s') => if d = [] then [] else (k, d) :: rounds read f (k + 1) s'

/-- `read(size)` of a file on disk; what is left is the state. `None` (a template whose `expected_length` is `None`)
reads everything. -/
def diskRead (size : Option Nat) : Input Bytes := fun left =>
  match size with
  | none => (some left, [])
  | some n => (some (left.take n), left.drop n)

/-- `read(size)` of `InputStreamWrapper`, `_file_or_pipe.py` 30-44. -/
def pipeRead (n : Nat) : Input Pipe := fun p => readLoop n p n

/-- The part of a template grain the wrapper looks at. -/
structure Template where
  origin : Int
  rateNum : Nat
  rateDen : Nat
  /-- `expected_length`, line 45 -/
  size : Option Nat
deriving DecidableEq, Repr

/-- A grain made from the template, as far as it differs from it. -/
structure Out where
  origin : Int
  data : Bytes
deriving DecidableEq, Repr

def Template.out (t : Template) (x : Nat × Bytes) : Out := ⟨atRate t.rateNum t.rateDen t.origin x.1, x.2⟩

/-- Wrapping a file. -/
def wrapDisk (t : Template) (input : Bytes) : List Out :=
  (rounds (diskRead t.size) (input.length + 1) 0 input).map t.out

/-- Wrapping standard input; `limits` are the lengths of the pieces its reads deliver. `read(None)` of that class fails
(line 36), so a template without an expected length is not covered. -/
def wrapPipe (t : Template) (n : Nat) (input : Bytes) (limits : List Nat) : List Out :=
  (rounds (pipeRead n) (input.length + 1) 0 ⟨input, limits⟩).map t.out

/-- `extract_gsf_essence`, `mediagrains/tools/extract_from_gsf.py` 45-48, the part after decoding: the data of the grains
is written out one after the other. -/
def extract (grains : List Out) : Bytes := grains.flatMap (fun g => g.data)

end Verif.Wrap

import Verif.Gsf.Pipe

/-!
# Reading from a pipe while the writer is still writing

`InputStreamWrapper` (`mediagrains/tools/_file_or_pipe.py`, lines 22-57, see `Verif.Gsf.Pipe`) reads from `sys.stdin.buffer`.  When the
writer has not written enough yet and has not closed its end, a read waits.  Here `avail` is all that has arrived, and we ask what the
reader gets to do before it has to wait for more.

Simplifications: that a read has to wait is found out from the decoder over `avail` alone: a read past the end of `avail`, which would
raise `EOFError` if the pipe were closed, and a skip past the end of `avail` are where it waits.  Once it waits nothing that it would have
done later counts.  The head of a further file of a concatenation is not waited for here (lines 1299-1301 of `gsf.py` would raise for an
`EOFError` there): there is one file.
-/

namespace Verif.Gsf

open Verif

/-- What a call of `next()` comes to. -/
inductive Now where
  /-- It gives a grain, and the reader is now there. -/
  | grain (it : Item) (h : Hdr) (p : Nat)
  /-- It waits for more bytes. -/
  | waits
  /-- It raises `StopIteration`. -/
  | ends
  | raises (e : Err)
  deriving DecidableEq, Repr

/-- `next()` of the generator that `grains` makes, lines 1273-1341 of `gsf.py`: turns of the loop until one yields. -/
def nextNow (o : Opts) (avail : Bytes) : Nat → Hdr → Bool → Nat → Now
  | 0, _, _, _ => .raises .fuel
  | fuel + 1, h, hc, p =>
    match grainsStepD Dev.pipe o h hc ⟨0, avail⟩ p with
    | .error .eof => .waits
    | .error e => .raises e
    | .ok (.yield it, q) => if q ≤ avail.length then .grain it h q else .waits
    | .ok (.next h' hc', q) => if q ≤ avail.length then nextNow o avail fuel h' hc' q else .waits
    | .ok (.stop, q) => if q ≤ avail.length then .ends else .waits

/-- `for grain in grains`: the grains that are given before it has to wait, and what the last call comes to. -/
def allNow (o : Opts) (avail : Bytes) : Nat → Hdr → Nat → List Item × Now
  | 0, _, _ => ([], .raises .fuel)
  | fuel + 1, h, p =>
    match nextNow o avail (avail.length + 1) h false p with
    | .grain it h' q => let r := allNow o avail fuel h' q; (it :: r.1, r.2)
    | n => ([], n)

/-- Opening the decoder on standard input (lines 1255-1270) and going through the grains.  `none` if the headers cannot be read without
waiting. -/
def readNow (o : Opts) (avail : Bytes) : Option (Hdr × List Item × Now) :=
  match decodeFileHeadersD Dev.pipe false ⟨0, avail⟩ 0 with
  | .ok (h, q) => if q ≤ avail.length then some (h, allNow { o with seekable := false } avail (avail.length + 1) h q) else none
  | .error _ => none

end Verif.Gsf

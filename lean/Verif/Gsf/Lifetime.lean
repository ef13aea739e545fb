import Verif.Gsf.Async

/-!
# Opening and closing asynchronous files

An `AsyncBinaryIO` is opened by its `__aenter__` and closed by its `__aexit__` (`asyncbinaryio.py` lines 90-99); for a network stream the
latter closes the connection (lines 325-327). Which of these calls the decoder and the encoder make, `gsf.py` lines 1412-1434 and
1783-1876, 1984-2008. An `OpenAsyncBinaryIO` that a program hands over has been opened by the program.
-/

namespace Verif.Gsf.Lifetime

open Verif Verif.Gsf

/-- A call on the file. -/
inductive Ev where
  | opened
  | closed
  deriving DecidableEq, Repr

/-! ## Decoder -/

/-- A `GSFDecoder` on an asynchronous file: whether the file is an `AsyncBinaryIO` (`_afile_data is not None`), whether
`_open_afile is not None`, and the calls made. -/
structure Decoder where
  owns : Bool
  isOpen : Bool
  log : List Ev := []
  deriving DecidableEq, Repr

/-- `GSFDecoder.__init__`, lines 1371-1378. -/
def Decoder.new (owns : Bool) : Decoder := ⟨owns, !owns, []⟩

/-- What happens in one `async with decoder`: `__open__` of the file may raise, the headers may not be readable, the grains that are left
may not be readable on leaving. Closing is taken not to raise. -/
structure Use where
  opens : Bool := true
  headers : Bool
  kills : Bool
  deriving DecidableEq, Repr

/-- `__aenter__`, lines 1412-1425: whether it succeeds. -/
def Decoder.enter (d : Decoder) (u : Use) : Bool × Decoder :=
  if d.isOpen then (u.headers, d)
  else if u.opens then (u.headers, { d with isOpen := true, log := d.log ++ [.opened] })
  else (false, d)

/-- `__aexit__`, lines 1427-1434. It is called only if `__aenter__` succeeded, so that there is a session. -/
def Decoder.exit (d : Decoder) (u : Use) : Decoder :=
  if u.kills then
    if d.isOpen && d.owns then { d with isOpen := false, log := d.log ++ [.closed] } else d
  else d

/-- `async with decoder as session: …`. What the program does in between makes no call on the file that is of interest here. -/
def Decoder.use (d : Decoder) (u : Use) : Decoder :=
  match d.enter u with
  | (false, d') => d'
  | (true, d') => d'.exit u

def Decoder.uses (d : Decoder) (us : List Use) : Decoder := us.foldl Decoder.use d

/-- A new decoder on a file with the bytes `file`, used once with the program `ops`. -/
def readOnce (strict : Bool) (o : Opts) (file : Bytes) (ops : List AOp) : List Ev :=
  ((Decoder.new true).use
    (match openA strict file with
    | .error _ => { headers := false, kills := true }
    | .ok st => { headers := true, kills := (((st.steps strict o file ops).2.leave strict file).1 == .normal) })).log

/-! ## Encoder -/

/-- An `OpenAsyncGSFEncoder`: whether `file is not None`, whether `_open_file is not None`. -/
structure OpenEnc where
  hasFile : Bool
  isOpen : Bool
  deriving DecidableEq, Repr

/-- `OpenAsyncGSFEncoder.__init__`, lines 1784-1803. -/
def OpenEnc.new (owns : Bool) : OpenEnc := ⟨owns, !owns⟩

/-- What happens in one `async with encoder`: `__open__` may raise, and writing the head, the counts or the end may raise. -/
structure EncUse where
  opens : Bool := true
  starts : Bool := true
  ends : Bool := true
  deriving DecidableEq, Repr

/-- `_start_dump`, lines 1840-1860: whether it succeeds, and the calls made. -/
def OpenEnc.startDump (e : OpenEnc) (u : EncUse) : Bool × OpenEnc × List Ev :=
  if e.isOpen then (u.starts, e, [])
  else if u.opens then (u.starts, { e with isOpen := true }, [.opened])
  else (false, e, [])

/-- `_end_dump`, lines 1862-1876: whether it succeeds, and the calls made. -/
def OpenEnc.endDump (_ : OpenEnc) (u : EncUse) : Bool × List Ev := (u.ends, [])

/-- One `async with encoder as open: …`, `GSFEncoder.__aenter__` and `__aexit__`, lines 1984-2008: the calls made. With `streaming` the
dump starts on entering, otherwise on leaving; the calls are the same. If it cannot be started nothing else is done. -/
def encodeOnce (owns : Bool) (u : EncUse) : List Ev :=
  match (OpenEnc.new owns).startDump u with
  | (false, _, l) => l
  | (true, e, l) => l ++ (e.endDump u).2

/-- An encoder that is used several times: each makes a new `OpenAsyncGSFEncoder` for the same file. -/
def encodes (owns : Bool) (us : List EncUse) : List Ev := us.flatMap (encodeOnce owns)

end Verif.Gsf.Lifetime

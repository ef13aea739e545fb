import Verif.Gsf.Encoder
import Verif.IO.AsyncBytes

/-!
# Several tasks that use one open asynchronous encoder

`mediagrains/gsf.py` 1783-1876 (`OpenAsyncGSFEncoder`) under an event loop: `add_grain` and `add_grains` are coroutines, so several of
them can be on their way, and a task can be stopped at any `await`. The only awaits in them are those of `file.write`, which a thread of
the executor carries out (`utils/asyncbinaryio.py` 105-109, 228-229) while the loop runs other tasks.

A schedule is a list of actions of the event loop, of the threads, and of whoever cancels tasks. An action that is not possible
has no effect.

Simplifications: a write to the file underneath (`fp.write`) is one step, as it is for buffered files and `BytesIO` objects; a file whose
`write` returns at once (`OpenAsyncBytesIOWrapper`, streams) is the case that the thread follows the loop directly. The grains of a task
are a list of values, so the bytes may be computed when they are written (the code computes them before, at line 1831). Nobody adds
segments while the tasks run. The file is open when the tasks begin, that is, `__aenter__` has returned.
-/

namespace Verif.Gsf.Conc

open Verif Verif.Gsf

/-- Where a call of `add_grains` (lines 1817-1833) is. -/
inductive At where
  /-- Not begun. -/
  | fresh
  /-- In the loop of lines 1830-1831, in segment `l`; `p` is the grain whose write is awaited and has not happened. -/
  | loop (l : Nat) (todo : List Grain) (p : Option Grain)
  /-- Returned or raised. -/
  | ended
  /-- Cancelled; the thread may still have a write to do. -/
  | cancelled (p : Option (Nat × Grain))
  deriving DecidableEq, Repr

/-- A task that calls `add_grains(grains, segment_id, segment_local_id)`; `fresh` is what `uuid1()` would return. -/
structure Task where
  grains : List Grain
  sid : Option Bytes
  lid : Option Nat
  fresh : Bytes
  pc : At
  deriving DecidableEq, Repr

/-- Nothing is left to do. -/
def Task.quiet (t : Task) : Bool := t.pc == .ended || t.pc == .cancelled none

/-- Where `__aexit__` (lines 2002-2008) with `_end_dump` (1862-1876) is, of an encoder made with `streaming=True`. -/
inductive Leave where
  | no
  /-- In the loop of lines 1863-1870: `i` segments have had their turn (the last of them is the one whose count is being written), `back`
  is `curpos`, `v` is the count if its write has not happened. -/
  | counts (i : Nat) (back : Nat) (v : Option Nat)
  /-- At line 1873; whether the write is still to happen. -/
  | mark (pending : Bool)
  | left
  deriving DecidableEq, Repr

/-- The encoder with its open handle `k`, and everything that runs. -/
structure Sys where
  enc : Enc
  k : Nat
  tasks : List Task
  leave : Leave
  deriving DecidableEq, Repr

/-- `_active_dump` of the handle. -/
def Sys.active (s : Sys) : Bool := ((s.enc.handles[s.k]?).map Handle.active).getD false

/-- The head of the loop of lines 1830-1831: `encode_grain` counts the grain (line 2323), then the write is awaited. -/
def next (e : Enc) (l : Nat) : List Grain → Enc × At
  | [] => (e, .ended)
  | g :: gs => (e.updSeg l (fun s => { s with writeCount := s.writeCount + 1 }), .loop l gs (some g))

/-- The event loop runs a task up to its next await. Without an active dump the call ends without an await (line 1833). -/
def Task.run (e : Enc) (k : Nat) (active : Bool) (t : Task) : Enc × At :=
  match t.pc with
  | .fresh =>
    if active then
      match (e.choose t.sid t.lid).filter e.hasSeg with
      | some l => next e l t.grains
      | none => (e, .ended)
    else ((e.hAddGrains k t.grains t.sid t.lid t.fresh).1, .ended)
  | .loop l todo none => next e l todo
  | pc => (e, pc)

/-- A thread carries out the write of a task. -/
def Task.exec (e : Enc) (t : Task) : Enc × At :=
  match t.pc with
  | .loop l todo (some g) => ({ e with file := e.file.write (encodeGrain e.major l g) }, .loop l todo none)
  | .cancelled (some (l, g)) => ({ e with file := e.file.write (encodeGrain e.major l g) }, .cancelled none)
  | pc => (e, pc)

/-- `task.cancel()`: `CancelledError` is raised at the await. A write that a thread has begun goes on (`begun`), one that waits for a
thread is dropped (`concurrent.futures.Future.cancel`). -/
def Task.cancel (begun : Bool) (t : Task) : At :=
  match t.pc with
  | .fresh => .cancelled none
  | .loop l _ p => .cancelled (if begun then p.map (fun g => (l, g)) else none)
  | pc => pc

/-- The loop of lines 1863-1870 up to its next await, from the `i`-th segment; `segs` are the segments from there. -/
def count (file : OutFile) (i : Nat) : List Seg → OutFile × Leave
  | [] => (file, .mark true)
  | s :: ss =>
    match s.countPos with
    | none => count file (i + 1) ss
    | some p => if file.seekable then (file.seek p, .counts (i + 1) file.pos (some s.writeCount)) else count file (i + 1) ss

/-- The event loop runs `__aexit__` up to its next await. -/
def Sys.leaveRun (s : Sys) : Sys :=
  let go := fun (f : OutFile) (i : Nat) =>
    let r := count f i (s.enc.segs.drop i)
    { s with enc := { s.enc with file := r.1 }, leave := r.2 }
  match s.leave with
  | .no => go s.enc.file 0
  | .counts i back none => go (s.enc.file.seek back) i
  | .mark false =>
    { s with
      leave := .left
      enc := { s.enc with
        handles := s.enc.handles.modify s.k (fun h => { h with active := false })
        nextLocal := ((s.enc.handles[s.k]?).map Handle.nextLocal).getD s.enc.nextLocal
        asyncOpen := none } }
  | _ => s

/-- A thread carries out the write of `__aexit__`: lines 1868 and 1873. -/
def Sys.leaveExec (s : Sys) : Sys :=
  match s.leave with
  | .counts i back (some v) =>
    { s with enc := { s.enc with file := s.enc.file.write (encodeSint v 8) }, leave := .counts i back none }
  | .mark true => { s with enc := { s.enc with file := s.enc.file.write terminator }, leave := .mark false }
  | _ => s

inductive Act where
  | run (i : Nat)
  | exec (i : Nat)
  | cancel (i : Nat) (begun : Bool)
  | leave
  | leaveExec
  deriving DecidableEq, Repr

/-- What becomes of task `i` and the encoder. -/
def Sys.put (s : Sys) (i : Nat) (t : Task) (r : Enc × At) : Sys := { s with enc := r.1, tasks := s.tasks.set i { t with pc := r.2 } }

def Sys.act (s : Sys) : Act → Sys
  | .run i => match s.tasks[i]? with
    | some t => s.put i t (t.run s.enc s.k s.active)
    | none => s
  | .exec i => match s.tasks[i]? with
    | some t => s.put i t (t.exec s.enc)
    | none => s
  | .cancel i b => match s.tasks[i]? with
    | some t => s.put i t (s.enc, t.cancel b)
    | none => s
  | .leave => s.leaveRun
  | .leaveExec => s.leaveExec

def Sys.acts (s : Sys) : List Act → Sys
  | [] => s
  | a :: as => (s.act a).acts as

/-- `async with` has opened the encoder `e`, which was made with `streaming=True` (lines 1984-2000), and the tasks were created. -/
def start (e : Enc) (tasks : List Task) : Sys :=
  ⟨e.aenter, e.handles.length, tasks.map (fun t => { t with pc := .fresh }), .no⟩

/-! ## The in-memory file under two threads -/

open Verif.IO.Mem in
/-- Where a thread is in `OpenAsyncBytesIO.write(b)`, `utils/asyncbinaryio.py` 139-153, between two statements; a thread can
lose its turn between any two of them. `length` is `len(b)`. -/
inductive Pc where
  /-- Before line 141. -/
  | start
  /-- Before line 149: the buffer is large enough. -/
  | store
  /-- Before line 151. -/
  | advance
  /-- Before line 152. -/
  | measure
  | done
  deriving DecidableEq, Repr

open Verif.IO.Mem in
/-- The next statements of a thread. -/
def thread (s : BIO) (b : Bytes) : Pc → BIO × Pc
  | .start =>
    if s.pos < 0 then (s, .done)
    else if s.pos + b.length > s.buffer.length then
      ({ s with buffer := setSlice (zeros (max (s.pos + b.length) (2 * s.buffer.length)).toNat) 0 s.len (slice s.buffer 0 s.len) },
        .store)
    else (s, .store)
  | .store => ({ s with buffer := setSlice s.buffer s.pos (s.pos + b.length) b }, .advance)
  | .advance => ({ s with pos := s.pos + b.length }, .measure)
  | .measure => ({ s with len := max s.pos s.len }, .done)
  | .done => (s, .done)

open Verif.IO.Mem in
/-- Two threads write `b` and `c`; the schedule says whose turn it is (`false` is the first). -/
def race (s : BIO) (b c : Bytes) (p q : Pc) : List Bool → BIO × Pc × Pc
  | [] => (s, p, q)
  | false :: l => let r := thread s b p; race r.1 b c r.2 q l
  | true :: l => let r := thread s c q; race r.1 b c p r.2 l

end Verif.Gsf.Conc

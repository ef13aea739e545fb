import Verif.IO.IOBytes
import Verif.Gsf.Encode

/-!
# The data of a grain

Models `mediagrains/grains/Grain.py`: the constructor's treatment of `data` (279-287), `has_data`
(381-382), `__await__` (384-389), `data` (398-409) and `length` (682-697).
-/

namespace Verif.Grain

open Verif Verif.IO

/-- A value of the `data` attribute, as far as `length` and `bytes()` can tell such values apart. -/
inductive DataVal where
  /-- `bytes`, `bytearray`. -/
  | bytes (bs : Bytes)
  /-- An `IOBytes`. -/
  | iob (b : IOB)
  /-- Another object with `__len__` and `__bytes__` (or the buffer protocol), for example a `memoryview` or an
  array: `len` need not be the number of bytes. -/
  | sized (len : Nat) (content : Bytes)
  /-- An object with `__bytes__` but no `__len__`. -/
  | plain (content : Bytes)
  deriving DecidableEq, Repr

/-- The first two cases of `length`, lines 683-686. -/
def DataVal.len : DataVal → Nat
  | .bytes bs => bs.length
  | .iob b => b.len
  | .sized n _ => n
  | .plain c => c.length

/-- `bytes(value)`, with the stream that an `IOBytes` reads. -/
def DataVal.toBytes (f : File) : DataVal → Bytes
  | .bytes bs => bs
  | .iob b => (b.force f).1
  | .sized _ c => c
  | .plain c => c

/-- How a coroutine ends. -/
inductive Outcome where
  | value (v : Option DataVal)
  | raise
  deriving DecidableEq, Repr

/-- A coroutine object.  `runs` counts how often its body (the I/O) was started. -/
structure Coro where
  outcome : Outcome
  started : Bool := false
  runs : Nat := 0
  deriving DecidableEq, Repr

/-- A grain together with the coroutine objects of the program and the awaits that are under way
(`tasks`, each with the coroutine it waits for; `none` when it is over). -/
structure Lazy where
  data : Option DataVal
  fetcher : Option Nat
  fetcherLength : Nat := 0
  coros : List Coro
  tasks : List (Option Nat) := []
  deriving DecidableEq, Repr

inductive Obs where
  | unit | data (v : Option DataVal) | nat (n : Nat) | bool (b : Bool)
  | started (task : Nat) | raised | runtimeError | attributeError
  deriving DecidableEq, Repr

inductive Op where
  /-- `await grain`, with nothing else running meanwhile. -/
  | await
  /-- The two halves of an await, so that other operations may come between. -/
  | start
  | finish (task : Nat)
  | assign (v : Option DataVal)
  | assignAwaitable (i : Nat)
  | getData
  | hasData
  | getLength
  | setLength (n : Nat)
  deriving DecidableEq, Repr

/-- `__await__`, lines 384-389, up to the suspension inside the coroutine.  A coroutine object that was
started cannot be awaited again (`RuntimeError`). -/
def Lazy.start (g : Lazy) : Obs × Lazy :=
  match g.data, g.fetcher with
  | some v, _ => (.data (some v), g)
  | none, none => (.data none, g)
  | none, some i =>
    match g.coros[i]? with
    | none => (.runtimeError, g)
    | some c =>
      if c.started then (.runtimeError, g)
      else (.started g.tasks.length, { g with
        coros := g.coros.set i { c with started := true, runs := c.runs + 1 }
        tasks := g.tasks ++ [some i] })

/-- `__await__`, from the end of the coroutine on: line 387 assigns its result, line 388 returns
`self._data`. -/
def Lazy.finish (g : Lazy) (t : Nat) : Obs × Lazy :=
  match g.tasks[t]? with
  | some (some i) =>
    let g := { g with tasks := g.tasks.set t none }
    match (g.coros[i]?).map Coro.outcome with
    | some (.value v) => (.data v, { g with data := v })
    | _ => (.raised, g)
  | _ => (.unit, g)

def Lazy.step (g : Lazy) : Op → Obs × Lazy
  | .await =>
    match g.start with
    | (.started t, g) => g.finish t
    | r => r
  | .start => g.start
  | .finish t => g.finish t
  | .assign v => (.unit, { g with data := v, fetcher := none })
  | .assignAwaitable i => (.unit, { g with data := none, fetcher := some i })
  | .getData => (.data g.data, g)
  | .hasData => (.bool g.data.isSome, g)
  | .getLength =>
    match g.data, g.fetcher with
    | some v, _ => (.nat v.len, g)
    | none, some _ => (.nat g.fetcherLength, g)
    | none, none => (.nat 0, g)
  | .setLength n =>
    match g.data, g.fetcher with
    | none, some _ => (.unit, { g with fetcherLength := n })
    | _, _ => (.attributeError, g)

def Lazy.run : Lazy → List Op → List Obs × Lazy
  | g, [] => ([], g)
  | g, op :: ops =>
    let (o, g) := g.step op
    let (os, g) := Lazy.run g ops
    (o :: os, g)

/-- `length`, lines 682-689, without the state. -/
def Lazy.length (g : Lazy) : Nat :=
  match g.data, g.fetcher with
  | some v, _ => v.len
  | none, some _ => g.fetcherLength
  | none, none => 0

/-- What the encoder (gsf.py 2273, 2318-2321) takes from a grain object: `length` is read before
`bytes(grain.data)` is called. -/
def Lazy.forEncoder (l : Lazy) (f : File) (g : Gsf.Grain) : Gsf.Grain :=
  { g with length := l.length, data := l.data.map (DataVal.toBytes f) }

end Verif.Grain

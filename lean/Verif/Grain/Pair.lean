import Verif.Grain.Seqs

/-!
# A grain as a pair

`class Grain (Sequence)` (`mediagrains/grains/Grain.py` 170-411) defines `__len__` and `__getitem__` over the pair of metadata and data;
`collections.abc.Sequence` derives iteration, `in`, `index`, `count` and `reversed` from them. Equality (lines 364-368) compares the grain as a
tuple, with python's rules for `==` on each side, which are modelled for the objects that occur as data: `None`, `bytes`, other buffers
(`bytearray`, `memoryview`), `IOBytes` and numpy arrays.

Simplifications: metadata dictionaries are taken up to python's `==` on dictionaries (a type `M` with decidable equality), so without
NaN inside. What numpy answers when an array is compared with something else than an array of the same length is a parameter. Objects that are
compared with each other are told apart by a number, where identity matters. Grains whose data is still to be loaded hold `none` here; reading
the data of an event grain is taken to succeed (see `Grain/Event`).
-/

namespace Verif.Pair

open Verif.Seqs

/-- Bytes. -/
abbrev Bytes := List UInt8

/-- What can be the data of a grain. -/
inductive Data where
  /-- `None` -/
  | none
  /-- `bytes` -/
  | bytes (b : Bytes)
  /-- `bytearray` or `memoryview` over bytes -/
  | buffer (b : Bytes)
  /-- `IOBytes` number `id`, over a part of a file with the content `b` -/
  | lazy (id : Nat) (b : Bytes)
  /-- A one-dimensional numpy array, number `id` -/
  | array (id : Nat) (items : List Int)
deriving DecidableEq, Repr

/-- What can be in the pair or be looked for in it. -/
inductive Item (M : Type) where
  | dict (m : M)
  | data (d : Data)
deriving DecidableEq, Repr

/-- The outcome of a comparison that is used as a condition. -/
inductive Truth where
  | yes
  | no
  /-- an exception -/
  | raises
deriving DecidableEq, Repr

/-- `Truth` of a decided condition. -/
def Truth.of (b : Bool) : Truth := if b then .yes else .no

/-- `not x` -/
def Truth.not : Truth → Truth
  | .yes => .no
  | .no => .yes
  | .raises => .raises

/-- What is not modelled: the answers of numpy for arrays of different lengths, for empty arrays and for other objects, and the JSON text of
the payload in the metadata of an event grain. -/
structure Env (M : Type) where
  json : M → Bytes
  emptyArrays : Truth
  mismatch : List Int → List Int → Truth
  foreign : List Int → Item M → Truth

variable {M : Type} [DecidableEq M]

/-- The truth of `a == b` for two different numpy arrays: elementwise, and only the result of one element has a truth value; `ValueError`
("The truth value of an array with more than one element is ambiguous") for more. -/
def arrayEq (env : Env M) (a b : List Int) : Truth :=
  if a.length = b.length then
    match a, b with
    | [], _ => env.emptyArrays
    | [x], y :: _ => .of (x == y)
    | _, _ => .raises
  else env.mismatch a b

/-- `PyObject_RichCompareBool(a, b, Py_EQ)`: identity, or the truth of `a == b`. `bytes.__eq__` knows `bytes` only; `bytearray` and
`memoryview` know every buffer; `IOBytes.__eq__` (`mediagrains/utils/iobytes.py` 82-83) is that of its bytes. If neither side knows
the other, they are equal only if identical. -/
def itemEq (env : Env M) : Item M → Item M → Truth
  | .dict a, .dict b => .of (decide (a = b))
  | .data (.array i a), .data (.array j b) => if i = j then .yes else arrayEq env a b
  | .data (.array _ a), x => env.foreign a x
  | x, .data (.array _ b) => env.foreign b x
  | .dict _, .data _ => .no
  | .data _, .dict _ => .no
  | .data .none, .data .none => .yes
  | .data .none, .data _ => .no
  | .data _, .data .none => .no
  | .data (.bytes a), .data (.bytes b) => .of (a == b)
  | .data (.bytes a), .data (.buffer b) => .of (a == b)
  | .data (.buffer a), .data (.bytes b) => .of (a == b)
  | .data (.buffer a), .data (.buffer b) => .of (a == b)
  | .data (.bytes a), .data (.lazy _ b) => .of (a == b)
  | .data (.lazy _ a), .data (.bytes b) => .of (a == b)
  | .data (.lazy i _), .data (.lazy j _) => .of (i == j)
  | .data (.buffer _), .data (.lazy _ _) => .no
  | .data (.lazy _ _), .data (.buffer _) => .no

/-- `==` on tuples: item by item up to the first difference (`tuplerichcompare` of CPython). -/
def tupleEq (env : Env M) : List (Item M) → List (Item M) → Truth
  | [], [] => .yes
  | [], _ :: _ => .no
  | _ :: _, [] => .no
  | x :: xs, y :: ys =>
    match itemEq env x y with
    | .yes => tupleEq env xs ys
    | .no => .no
    | .raises => .raises

/-- The classes, as far as they differ here. -/
inductive Kind where
  /-- `Grain`, `VideoGrain`, `AudioGrain`, `CodedVideoGrain`, `CodedAudioGrain` -/
  | plain
  /-- `EventGrain` -/
  | event
  /-- `VideoGrain` and `AudioGrain` of `mediagrains.numpy` -/
  | numpy
deriving DecidableEq, Repr

/-- A grain: its metadata and the attribute `_data`. -/
structure Grain (M : Type) where
  kind : Kind
  info : M
  stored : Data

/-- The property `data`: Grain.py 398-400, EventGrain.py 181-185, numpy_grains/VideoGrain.py 279-281. -/
def Grain.data (env : Env M) (g : Grain M) : Data :=
  match g.kind with
  | .event => .bytes (env.json g.info)
  | _ => g.stored

/-- `__len__`, Grain.py 341-342. -/
def Grain.len (_ : Grain M) : Nat := 2

/-- `__getitem__` with an index, lines 353-354: the pair is made, then indexed. -/
def Grain.get (env : Env M) (g : Grain M) (i : Int) : Except Err (Item M) := pyGet [.dict g.info, .data (g.data env)] i

/-- `__getitem__` with a slice. -/
def Grain.getSlice (env : Env M) (g : Grain M) (k : Slice) : Except Err (List (Item M)) :=
  pyGetSlice [.dict g.info, .data (g.data env)] k

/-- `Sequence.__iter__`: items until `IndexError`, from place `i`; `none` if `n` steps are not enough. -/
def Grain.iterFrom (env : Env M) (g : Grain M) : Nat → Nat → Option (List (Item M))
  | 0, _ => none
  | n + 1, i =>
    match g.get env i with
    | .error _ => some []
    | .ok v => (g.iterFrom env n (i + 1)).map (v :: ·)

/-- `list(grain)`, `tuple(grain)`, `meta, data = grain`: all by iteration. The loop ends after three steps (`C67_pair`). -/
def Grain.items (env : Env M) (g : Grain M) : List (Item M) := (g.iterFrom env 3 0).getD []

/-- `reversed(grain)`, from `Sequence.__reversed__`: `self[i] for i in reversed(range(len(self)))`. -/
def Grain.reversed (env : Env M) (g : Grain M) : Except Err (List (Item M)) :=
  (List.range g.len).reverse.mapM (fun i : Nat => g.get env (i : Int))

/-- The loop of `Sequence.__contains__`. -/
def containsIn (env : Env M) (v : Item M) : List (Item M) → Truth
  | [] => .no
  | x :: xs =>
    match itemEq env x v with
    | .yes => .yes
    | .no => containsIn env v xs
    | .raises => .raises

/-- `v in grain` -/
def Grain.contains (env : Env M) (g : Grain M) (v : Item M) : Truth := containsIn env v (g.items env)

/-- The loop of `Sequence.count`; `none`: an exception. -/
def countIn (env : Env M) (v : Item M) : List (Item M) → Option Nat
  | [] => some 0
  | x :: xs =>
    match itemEq env x v with
    | .yes => (countIn env v xs).map (· + 1)
    | .no => countIn env v xs
    | .raises => none

/-- `grain.count(v)` -/
def Grain.count (env : Env M) (g : Grain M) (v : Item M) : Option Nat := countIn env v (g.items env)

/-- `stop is None or i < stop` -/
def before : Option Int → Int → Bool
  | none, _ => true
  | some s, i => decide (i < s)

/-- The loop of `Sequence.index`, from place `i`. The answers: a place, `ValueError`, or the exception of a comparison (`none`). -/
def Grain.indexFrom (env : Env M) (g : Grain M) (v : Item M) (stop : Option Int) : Nat → Int → Option (Except Err Int)
  | 0, _ => none
  | n + 1, i =>
    if before stop i then
      match g.get env i with
      | .error _ => some (.error .value)
      | .ok x =>
        match itemEq env x v with
        | .yes => some (.ok i)
        | .no => g.indexFrom env v stop n (i + 1)
        | .raises => none
    else some (.error .value)

/-- `grain.index(v, start, stop)`, from `Sequence.index`. -/
def Grain.index (env : Env M) (g : Grain M) (v : Item M) (start : Int) (stop : Option Int) : Option (Except Err Int) :=
  let start := if start < 0 then max (g.len + start) 0 else start
  let stop := stop.map (fun s : Int => if s < 0 then s + (g.len : Int) else s)
  g.indexFrom env v stop 3 start

/-- What a grain can be compared with. -/
inductive Other (M : Type) where
  | grain (g : Grain M)
  | tuple (l : List (Item M))
  /-- a list, a string, `None`, … -/
  | other

/-- `grain == other`, lines 364-365: `tuple(self) == other`. A tuple does not know grains, so python asks the other grain, which compares
itself, as a tuple, with that tuple. -/
def Grain.eq (env : Env M) (g : Grain M) : Other M → Truth
  | .grain h => tupleEq env (h.items env) (g.items env)
  | .tuple l => tupleEq env (g.items env) l
  | .other => .no

/-- `grain != other`, lines 367-368. -/
def Grain.ne (env : Env M) (g : Grain M) (o : Other M) : Truth := (g.eq env o).not

/-- `bytes(grain)` by `__bytes__`, lines 374-379; numpy_grains/VideoGrain.py 297-300, AudioGrain.py 187-190. `raw`: the memory of an
array. `none`: `TypeError`, since `__bytes__` returned `None`. -/
def Grain.toBytes (raw : List Int → Bytes) (g : Grain M) : Option Bytes :=
  match g.stored with
  | .none => if g.kind = .numpy then some [] else Option.none
  | .bytes b => some b
  | .buffer b => some b
  | .lazy _ b => some b
  | .array _ l => some (raw l)

/-- `has_data()`, lines 381-382. -/
def Grain.hasData (g : Grain M) : Bool := decide (g.stored ≠ .none)

/-- What `await grain` gives if nothing is left to load, lines 384-389; numpy_grains/VideoGrain.py 316-321. -/
def Grain.awaited (env : Env M) (g : Grain M) : Data :=
  match g.kind with
  | .numpy => g.data env
  | _ => g.stored

/-- What `copy.deepcopy` makes of the data: new objects with the same content; an `IOBytes` becomes its bytes (`__reduce_ex__`
is looked up on the loaded object, iobytes.py 50-56). `id`: the number of a new object. -/
def Data.deepcopy (id : Nat) : Data → Data
  | .none => .none
  | .bytes b => .bytes b
  | .buffer b => .buffer b
  | .lazy _ b => .bytes b
  | .array _ l => .array id l

/-- `copy.deepcopy(grain)`, Grain.py 371-372, for the classes other than `EventGrain` and those of numpy: `GrainFactory` makes the grain
from the copies. `fills`: all these classes but `Grain` itself put an empty `bytearray` in the place of `None` (VideoGrain.py 335-337,
AudioGrain.py 155-157, CodedVideoGrain.py 182-183, CodedAudioGrain.py 157-158). -/
def Grain.deepcopy (fills : Bool) (id : Nat) (g : Grain M) : Grain M :=
  ⟨g.kind, g.info, if fills ∧ g.stored = .none then .buffer [] else g.stored.deepcopy id⟩

end Verif.Pair

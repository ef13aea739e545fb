import Verif.Numpy.Arrays

/-!
# Programs that use numpy video grains

Models the class `VideoGrain` of `mediagrains/numpy/numpy_grains/VideoGrain.py` lines 219-329 (without conversions, see `Numpy/Grains`), with
`__init__` of `mediagrains/grains/VideoGrain.py` lines 248-447 and of `mediagrains/grains/Grain.py` lines 273-290 as far as they concern the
data.  A world holds the memory blocks, the `cog_frame` dictionaries, the grains, the awaitables of the program and the awaits under way.

Simplifications: data objects are `bytes`, `bytearray`, contiguous `memoryview`s and arrays, each a reference to a memory block (of which
nobody changes the size while arrays are over it, as python enforces); of the metadata only what the arrays depend on is kept.  An element
outside the memory block is written nowhere.
-/

namespace Verif.Numpy.Live

open Verif Verif.Cog Verif.Numpy.Arrays

/-- A memory block; that of a `bytes` object cannot be written to. -/
structure Buf where
  bytes : Bytes
  writable : Bool
  deriving DecidableEq, Repr

/-- `meta['grain']['cog_frame']`: format, and the list of components. -/
structure Frame where
  fmt : Nat
  comps : List Component
  deriving DecidableEq, Repr

/-- A grain: its metadata, `_data` (memory block and size of an element), `component_data` (each array with the memory block it is over),
`_data_fetcher_coroutine` and `_data_fetcher_length`. -/
structure Grain where
  frame : Nat
  data : Option (Nat × Nat) := none
  arrays : List (Nat × View) := []
  fetcher : Option Nat := none
  declared : Nat := 0
  deriving DecidableEq, Repr

/-- An awaitable: what it will give (`none` for an exception; otherwise data, or `None`), and whether it was started. -/
structure Coro where
  gives : Option (Option Nat)
  started : Bool := false
  deriving DecidableEq, Repr

/-- An await that is suspended: of which grain, on which awaitable. -/
structure Task where
  grain : Nat
  coro : Nat
  finished : Bool := false
  deriving DecidableEq, Repr

structure World where
  bufs : List Buf := []
  frames : List Frame := []
  grains : List Grain := []
  coros : List Coro := []
  tasks : List Task := []
  deriving DecidableEq, Repr

/-- What an operation gives. `type_` is `TypeError`, `value` `ValueError`, `index` `IndexError`, `runtime` `RuntimeError` (a coroutine awaited
twice), `raised` the exception of the awaitable, `attribute` `AttributeError`, `outside` an element outside the memory block, `noSuch` an
operation on something that does not exist. -/
inductive Obs where
  | done
  | data (b : Option Nat)
  | suspended
  | notImplemented | value | type_ | index | runtime | raised | attribute | outside | noSuch
  deriving DecidableEq, Repr

def ofErr : ArrErr → Obs
  | .notImplemented => .notImplemented
  | .value => .value

/-- The arrays made on lines 257-261 and 290-294 from a memory block: the data, the arrays if they could be made, and what was raised.
`np.frombuffer` fails before `_data` is assigned; `_component_arrays_for_data_and_type` fails after. For a packed format `components[0]` of
no components is an `IndexError` (`notImplemented` of `componentViews`). -/
def overBlock (fr : Frame) (b len : Nat) : Option (Nat × Nat) × Option (List (Nat × View)) × Obs :=
  match itemsize fr.fmt with
  | none => (none, none, .notImplemented)
  | some item =>
    if len % item ≠ 0 then (none, none, .value)
    else
      match componentViews (len / item) item fr.fmt fr.comps with
      | .error _ => (some (b, item), none, .index)
      | .ok vs => (some (b, item), some (vs.map (fun v => (b, v))), .done)

/-- The `data` setter for something that is not awaitable, lines 289-294: the pending load is forgotten first. The type of the elements is
looked up before `None` is refused. -/
def Grain.give (w : World) (g : Grain) (v : Option Nat) : Obs × Grain :=
  match v with
  | none =>
    match w.frames[g.frame]? with
    | some fr => (if (itemsize fr.fmt).isNone then .notImplemented else .type_, { g with fetcher := none })
    | none => (.noSuch, g)
  | some b =>
    match w.frames[g.frame]?, w.bufs[b]? with
    | some fr, some buf =>
      match overBlock fr b buf.bytes.length with
      | (some d, some as, r) => (r, { g with fetcher := none, data := some d, arrays := as })
      | (some d, none, r) => (r, { g with fetcher := none, data := some d })
      | (none, _, r) => (r, { g with fetcher := none })
    | _, _ => (.noSuch, g)

/-- `bytearray(n)`. -/
def World.alloc (w : World) (bytes : Bytes) (writable : Bool) : Nat × World :=
  (w.bufs.length, { w with bufs := w.bufs ++ [⟨bytes, writable⟩] })

/-- The end of `__init__`, lines 257-263, for a grain with these metadata and data; there is no grain if it raises. -/
def World.construct (w : World) (frame b : Nat) : Obs × World :=
  match Grain.give w { frame := frame } (some b) with
  | (.done, g) => (.done, { w with grains := w.grains ++ [g] })
  | (r, _) => (r, w)

/-- `VideoGrain(meta=…, data=…)`, also as made by `__copy__` and by `VideoGrain(grain=…)`: absent components and absent data are filled in
with what belongs to the defaults of the arguments (format `UNKNOWN`, 1920 by 1080), not to the format in the metadata
(`grains/VideoGrain.py` lines 335-337 and 426-429). -/
def World.fromMeta (w : World) (frame : Nat) (b : Option Nat) : Obs × World :=
  match w.frames[frame]? with
  | none => (.noSuch, w)
  | some fr =>
    let comps := if fr.comps.isEmpty then componentsForFormat FrameFormat.UNKNOWN 1920 1080 else fr.comps
    let w1 := { w with frames := w.frames.set frame { fr with comps := comps } }
    match b with
    | some b => w1.construct frame b
    | none =>
      let (b, w2) := w1.alloc (List.replicate (sizeForFormat FrameFormat.UNKNOWN 1920 1080) 0) true
      w2.construct frame b

/-- What a program can do. -/
inductive Op where
  /-- Make a `bytearray` or `bytes` object. -/
  | block (bytes : Bytes) (writable : Bool)
  /-- Make an awaitable. -/
  | awaitable (gives : Option (Option Nat))
  /-- `VideoGrain(cog_frame_format=…, width=…, height=…, data=…)`. -/
  | new (fmt w h : Nat) (b : Option Nat)
  /-- The same with an awaitable as data. -/
  | newLazy (fmt w h : Nat) (i : Nat)
  /-- `copy(grain)` or `VideoGrain(grain=grain)`: the `cog_frame` dictionary is shared. -/
  | copy (g : Nat)
  | deepcopy (g : Nat)
  /-- `grain.data = …`. -/
  | assign (g : Nat) (b : Option Nat)
  | assignLazy (g : Nat) (i : Nat)
  /-- `await grain`, up to the suspension in the awaitable, and from there to the end. -/
  | start (g : Nat)
  | finish (t : Nat)
  /-- `grain.length = n`. -/
  | declare (g n : Nat)
  /-- `grain.component_data[c][x, y] = v`, with the bytes of the value. -/
  | write (g c x y : Nat) (v : Bytes)
  /-- Write to a memory block by other means. -/
  | poke (b i : Nat) (v : UInt8)
  /-- `grain.cog_frame_format = …`. -/
  | setFormat (g fmt : Nat)
  /-- Assign to `grain.meta['grain']['cog_frame']['components']`. -/
  | setComponents (g : Nat) (cs : List Component)
  deriving DecidableEq, Repr

/-- One operation. -/
def World.step (w : World) : Op → Obs × World
  | .block bs wr => (.done, (w.alloc bs wr).2)
  | .awaitable r => (.done, { w with coros := w.coros ++ [⟨r, false⟩] })
  | .new fmt width height b =>
    let frame := w.frames.length
    let w1 := { w with frames := w.frames ++ [Frame.mk fmt (componentsForFormat fmt width height)] }
    match b with
    | some b => w1.construct frame b
    | none =>
      let (b, w2) := w1.alloc (List.replicate (sizeForFormat fmt width height) 0) true
      w2.construct frame b
  | .newLazy fmt width height i =>
    if i < w.coros.length then
      (.done, { w with frames := w.frames ++ [Frame.mk fmt (componentsForFormat fmt width height)]
                       grains := w.grains ++ [{ frame := w.frames.length, fetcher := some i }] })
    else (.noSuch, w)
  | .copy g =>
    match w.grains[g]? with
    | none => (.noSuch, w)
    | some x => w.fromMeta x.frame (x.data.map Prod.fst)
  | .deepcopy g =>
    match w.grains[g]? with
    | none => (.noSuch, w)
    | some x =>
      match w.frames[x.frame]? with
      | none => (.noSuch, w)
      | some fr =>
        let frame := w.frames.length
        let w1 := { w with frames := w.frames ++ [fr] }
        match x.data.bind (fun d => w.bufs[d.1]?) with
        | none => w1.fromMeta frame none
        | some buf =>
          let (b, w2) := w1.alloc buf.bytes true
          w2.fromMeta frame (some b)
  | .assign g b =>
    match w.grains[g]? with
    | none => (.noSuch, w)
    | some x =>
      let (r, x') := x.give w b
      (r, { w with grains := w.grains.set g x' })
  | .assignLazy g i =>
    match w.grains[g]? with
    | none => (.noSuch, w)
    | some x =>
      if i < w.coros.length then
        (.done, { w with grains := w.grains.set g { x with fetcher := some i, data := none, arrays := [] } })
      else (.noSuch, w)
  | .start g =>
    match w.grains[g]? with
    | none => (.noSuch, w)
    | some x =>
      match x.data, x.fetcher with
      | none, some i =>
        match w.coros[i]? with
        | none => (.noSuch, w)
        | some c =>
          if c.started then (.runtime, w)
          else (.suspended, { w with coros := w.coros.set i { c with started := true }, tasks := w.tasks ++ [⟨g, i, false⟩] })
      | d, _ => (.data (d.map Prod.fst), w)
  | .finish t =>
    match w.tasks[t]? with
    | none => (.noSuch, w)
    | some k =>
      if k.finished then (.noSuch, w)
      else
        let w1 := { w with tasks := w.tasks.set t { k with finished := true } }
        match w.grains[k.grain]?, w.coros[k.coro]? with
        | some x, some c =>
          match c.gives with
          | none => (.raised, w1)
          | some v =>
            match x.give w v with
            | (.done, x') => (.data (x'.data.map Prod.fst), { w1 with grains := w.grains.set k.grain x' })
            | (r, x') => (r, { w1 with grains := w.grains.set k.grain x' })
        | _, _ => (.noSuch, w)
  | .declare g n =>
    match w.grains[g]? with
    | none => (.noSuch, w)
    | some x =>
      match x.data, x.fetcher with
      | none, some _ => (.done, { w with grains := w.grains.set g { x with declared := n } })
      | _, _ => (.attribute, w)
  | .write g c x y v =>
    match w.grains[g]? with
    | none => (.noSuch, w)
    | some gr =>
      match gr.arrays[c]? with
      | none => (.index, w)
      | some (b, view) =>
        if v.length ≠ view.itemsize then (.noSuch, w)
        else if x < view.width ∧ y < view.height then
          match w.bufs[b]? with
          | none => (.noSuch, w)
          | some buf =>
            if buf.writable then
              match view.set buf.bytes x y v with
              | none => (.outside, w)
              | some bs => (.done, { w with bufs := w.bufs.set b { buf with bytes := bs } })
            else (.value, w)
        else (.index, w)
  | .poke b i v =>
    match w.bufs[b]? with
    | none => (.noSuch, w)
    | some buf =>
      if buf.writable then (.done, { w with bufs := w.bufs.set b { buf with bytes := buf.bytes.set i v } }) else (.type_, w)
  | .setFormat g fmt =>
    match w.grains[g]? with
    | none => (.noSuch, w)
    | some x =>
      match w.frames[x.frame]? with
      | none => (.noSuch, w)
      | some fr => (.done, { w with frames := w.frames.set x.frame { fr with fmt := fmt } })
  | .setComponents g cs =>
    match w.grains[g]? with
    | none => (.noSuch, w)
    | some x =>
      match w.frames[x.frame]? with
      | none => (.noSuch, w)
      | some fr => (.done, { w with frames := w.frames.set x.frame { fr with comps := cs } })

/-- A program. -/
def World.run : World → List Op → List Obs × World
  | w, [] => ([], w)
  | w, op :: ops =>
    let (r, w') := w.step op
    let (rs, w'') := World.run w' ops
    (r :: rs, w'')

/-! ## Looking at grains -/

/-- `bytes(grain)`, lines 299-302. -/
def World.bytesOf (w : World) (g : Grain) : Bytes :=
  match g.data with
  | none => []
  | some (b, _) => ((w.bufs[b]?).map Buf.bytes).getD []

/-- `grain.length`, lines 265-269: the number of elements times their size. -/
def World.lengthOf (w : World) (g : Grain) : Nat :=
  match g.data with
  | none => 0
  | some (b, item) => (((w.bufs[b]?).map (fun x => x.bytes.length)).getD 0) / item * item

/-- `grain.component_data[c][x, y]`: `none` if there is no such array or element, or if it lies outside the memory block. -/
def World.read (w : World) (g : Grain) (c x y : Nat) : Option Bytes :=
  match g.arrays[c]? with
  | none => none
  | some (b, view) => if x < view.width ∧ y < view.height then (w.bufs[b]?).bind (fun buf => view.get buf.bytes x y) else none

end Verif.Numpy.Live

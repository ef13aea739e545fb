import Verif.Numpy.Live

/-!
# Programs that use numpy audio grains

Models the class `AudioGrain` of `mediagrains/numpy/numpy_grains/AudioGrain.py` lines 110-218, with `__init__` of
`mediagrains/grains/AudioGrain.py` lines 102-174 and of `mediagrains/grains/Grain.py` lines 273-290 as far as they concern the data.  As in
`Numpy/Live`, a world holds the memory blocks, the `cog_audio` dictionaries, the grains, the awaitables of the program and the awaits under way.

Simplifications: those of `Numpy/Live`.  Formats are members of `CogAudioFormat`, numbers of samples and channels are not negative.
-/

namespace Verif.Numpy.LiveAudio

open Verif Verif.Cog Verif.Numpy.Arrays
open Verif.Numpy.Live (Buf Coro Task Obs)

/-- `meta['grain']['cog_audio']`: `format`, `samples`, `channels`. -/
structure Audio where
  fmt : Nat
  samples : Nat
  channels : Nat
  deriving DecidableEq, Repr

/-- A grain: its metadata, `_data` (memory block and size of an element), `channel_data` (each array with the memory block it is over),
`_data_fetcher_coroutine` and `_data_fetcher_length`. -/
structure Grain where
  info : Nat
  data : Option (Nat × Nat) := none
  arrays : List (Nat × ChanView) := []
  fetcher : Option Nat := none
  declared : Nat := 0
  deriving DecidableEq, Repr

structure World where
  bufs : List Buf := []
  infos : List Audio := []
  grains : List Grain := []
  coros : List Coro := []
  tasks : List Task := []
  deriving DecidableEq, Repr

/-- A new memory block. -/
def World.alloc (w : World) (bytes : Bytes) (writable : Bool) : Nat × World :=
  (w.bufs.length, { w with bufs := w.bufs ++ [⟨bytes, writable⟩] })

/-- What lines 143-148 and 179-182 leave: `_data` if it was assigned, the arrays if they could be made, what was raised, and the memory. -/
structure Made where
  data : Option (Nat × Nat)
  arrays : Option (List (Nat × ChanView))
  obs : Obs
  world : World

/-- `np.frombuffer` and `_channel_arrays_for_data_and_type`, lines 48-107, over memory block `b`.  `np.frombuffer` fails before `_data` is
assigned; `reshape` (line 64), `view` (line 69) and `<<=` (line 70) fail after.  24-bit samples of three bytes are widened into a new memory
block, those of four bytes are shifted in the memory block of the data. -/
def World.overBlock (w : World) (au : Audio) (b : Nat) (buf : Buf) : Made :=
  let len := buf.bytes.length
  match audioItemsize au.fmt with
  | none => ⟨none, none, .notImplemented, w⟩
  | some item =>
    if len % item ≠ 0 then ⟨none, none, .value, w⟩
    else if audioIsInt au.fmt ∧ audioDepth au.fmt = 4 then
      if audioSampleBytes au.fmt = 3 then
        if len % 3 ≠ 0 then ⟨some (b, item), none, .value, w⟩
        else
          let (k, w') := w.alloc (widen buf.bytes) true
          ⟨some (b, item), some ((channelViews (len / 3) 4 4 au.fmt au.samples au.channels).map (fun v => (k, v))), .done, w'⟩
      else if len % 4 ≠ 0 then ⟨some (b, item), none, .value, w⟩
      else if buf.writable = false then ⟨some (b, item), none, .value, w⟩
      else
        ⟨some (b, item), some ((channelViews (len / 4) 4 4 au.fmt au.samples au.channels).map (fun v => (b, v))), .done,
          { w with bufs := w.bufs.set b { buf with bytes := shift8 buf.bytes } }⟩
    else
      ⟨some (b, item),
        some ((channelViews (len / item) item (audioSampleBytes au.fmt) au.fmt au.samples au.channels).map (fun v => (b, v))), .done, w⟩

/-- The `data` setter for something that is not awaitable, lines 178-182: the pending load is forgotten first.  `None` is refused by
`np.frombuffer`, after the type of the elements was looked up. -/
def World.give (w : World) (g : Grain) (v : Option Nat) : Obs × Grain × World :=
  match v with
  | none =>
    match w.infos[g.info]? with
    | some au => (if (audioItemsize au.fmt).isNone then .notImplemented else .type_, { g with fetcher := none }, w)
    | none => (.noSuch, g, w)
  | some b =>
    match w.infos[g.info]?, w.bufs[b]? with
    | some au, some buf =>
      let m := w.overBlock au b buf
      (m.obs, { g with fetcher := none, data := m.data.or g.data, arrays := m.arrays.getD g.arrays }, m.world)
    | _, _ => (.noSuch, g, w)

/-- The end of `__init__`, lines 143-150, for a grain with these metadata and data; there is no grain if it raises. -/
def World.construct (w : World) (info b : Nat) : Obs × World :=
  match w.give { info := info } (some b) with
  | (.done, g, w') => (.done, { w' with grains := w'.grains ++ [g] })
  | (r, _, w') => (r, w')

/-- `AudioGrain(meta=…, data=…)`, also as made by `__copy__`, `__deepcopy__` and `AudioGrain(grain=…)`: absent data are filled in with what
belongs to the defaults of the arguments (format `INVALID`, no samples, no channels), not to the metadata (`grains/AudioGrain.py`
lines 153-155). -/
def World.fromMeta (w : World) (info : Nat) (b : Option Nat) : Obs × World :=
  match w.infos[info]? with
  | none => (.noSuch, w)
  | some _ =>
    match b with
    | some b => w.construct info b
    | none =>
      let (b, w') := w.alloc (List.replicate (sizeForAudioFormat AudioFormat.INVALID 0 0) 0) true
      w'.construct info b

/-- What a program can do. -/
inductive Op where
  /-- Make a `bytearray` or `bytes` object. -/
  | block (bytes : Bytes) (writable : Bool)
  /-- Make an awaitable. -/
  | awaitable (gives : Option (Option Nat))
  /-- `AudioGrain(cog_audio_format=…, samples=…, channels=…, data=…)`. -/
  | new (fmt samples channels : Nat) (b : Option Nat)
  /-- The same with an awaitable as data. -/
  | newLazy (fmt samples channels : Nat) (i : Nat)
  /-- `copy(grain)` or `AudioGrain(grain=grain)`: the `cog_audio` dictionary is shared. -/
  | copy (g : Nat)
  | deepcopy (g : Nat)
  /-- `grain.data = …`. -/
  | assign (g : Nat) (b : Option Nat)
  | assignLazy (g : Nat) (i : Nat)
  /-- `await grain`, up to the suspension in the awaitable, and from there to the end. -/
  | start (g : Nat)
  | finish (t : Nat)
  /-- `grain.length = n`. -/
  | declare (g n : Nat)
  /-- `grain.channel_data[c][k] = v`, with the bytes of the value. -/
  | write (g c k : Nat) (v : Bytes)
  /-- Write to a memory block by other means. -/
  | poke (b i : Nat) (v : UInt8)
  /-- Assign to `grain.format`, `grain.samples`, `grain.channels`. -/
  | setInfo (g : Nat) (au : Audio)
  deriving DecidableEq, Repr

/-- One operation. -/
def World.step (w : World) : Op → Obs × World
  | .block bs wr => (.done, (w.alloc bs wr).2)
  | .awaitable r => (.done, { w with coros := w.coros ++ [⟨r, false⟩] })
  | .new fmt samples channels b =>
    let info := w.infos.length
    let w1 := { w with infos := w.infos ++ [Audio.mk fmt samples channels] }
    match b with
    | some b => w1.construct info b
    | none =>
      let (b, w2) := w1.alloc (List.replicate (sizeForAudioFormat fmt channels samples) 0) true
      w2.construct info b
  | .newLazy fmt samples channels i =>
    if i < w.coros.length then
      (.done, { w with infos := w.infos ++ [Audio.mk fmt samples channels]
                       grains := w.grains ++ [{ info := w.infos.length, fetcher := some i }] })
    else (.noSuch, w)
  | .copy g =>
    match w.grains[g]? with
    | none => (.noSuch, w)
    | some x => w.fromMeta x.info (x.data.map Prod.fst)
  | .deepcopy g =>
    match w.grains[g]? with
    | none => (.noSuch, w)
    | some x =>
      match w.infos[x.info]? with
      | none => (.noSuch, w)
      | some au =>
        let info := w.infos.length
        let w1 := { w with infos := w.infos ++ [au] }
        match x.data.bind (fun d => w.bufs[d.1]?) with
        | none => w1.fromMeta info none
        | some buf =>
          let (b, w2) := w1.alloc buf.bytes true
          w2.fromMeta info (some b)
  | .assign g b =>
    match w.grains[g]? with
    | none => (.noSuch, w)
    | some x =>
      let (r, x', w') := w.give x b
      (r, { w' with grains := w.grains.set g x' })
  | .assignLazy g i =>
    match w.grains[g]? with
    | none => (.noSuch, w)
    | some x =>
      if i < w.coros.length then
        (.done, { w with grains := w.grains.set g { x with fetcher := some i, data := none, arrays := [] } })
      else (.noSuch, w)
  | .start g =>
    match w.grains[g]? with
    | none => (.noSuch, w)
    | some x =>
      match x.data, x.fetcher with
      | none, some i =>
        match w.coros[i]? with
        | none => (.noSuch, w)
        | some c =>
          if c.started then (.runtime, w)
          else (.suspended, { w with coros := w.coros.set i { c with started := true }, tasks := w.tasks ++ [⟨g, i, false⟩] })
      | d, _ => (.data (d.map Prod.fst), w)
  | .finish t =>
    match w.tasks[t]? with
    | none => (.noSuch, w)
    | some k =>
      if k.finished then (.noSuch, w)
      else
        let w1 := { w with tasks := w.tasks.set t { k with finished := true } }
        match w.grains[k.grain]?, w.coros[k.coro]? with
        | some x, some c =>
          match c.gives with
          | none => (.raised, w1)
          | some v =>
            let (r, x', w2) := w1.give x v
            (if r = .done then .data (x'.data.map Prod.fst) else r, { w2 with grains := w.grains.set k.grain x' })
        | _, _ => (.noSuch, w)
  | .declare g n =>
    match w.grains[g]? with
    | none => (.noSuch, w)
    | some x =>
      match x.data, x.fetcher with
      | none, some _ => (.done, { w with grains := w.grains.set g { x with declared := n } })
      | _, _ => (.attribute, w)
  | .write g c k v =>
    match w.grains[g]? with
    | none => (.noSuch, w)
    | some gr =>
      match gr.arrays[c]? with
      | none => (.index, w)
      | some (b, view) =>
        if v.length ≠ view.itemsize then (.noSuch, w)
        else if k < view.count then
          match w.bufs[b]? with
          | none => (.noSuch, w)
          | some buf =>
            if buf.writable then
              match view.set buf.bytes k v with
              | none => (.outside, w)
              | some bs => (.done, { w with bufs := w.bufs.set b { buf with bytes := bs } })
            else (.value, w)
        else (.index, w)
  | .poke b i v =>
    match w.bufs[b]? with
    | none => (.noSuch, w)
    | some buf =>
      if buf.writable then (.done, { w with bufs := w.bufs.set b { buf with bytes := buf.bytes.set i v } }) else (.type_, w)
  | .setInfo g au =>
    match w.grains[g]? with
    | none => (.noSuch, w)
    | some x => if x.info < w.infos.length then (.done, { w with infos := w.infos.set x.info au }) else (.noSuch, w)

/-- A program. -/
def World.run : World → List Op → List Obs × World
  | w, [] => ([], w)
  | w, op :: ops =>
    let (r, w') := w.step op
    let (rs, w'') := World.run w' ops
    (r :: rs, w'')

/-! ## Looking at grains -/

/-- `bytes(grain)`, lines 187-190. -/
def World.bytesOf (w : World) (g : Grain) : Bytes :=
  match g.data with
  | none => []
  | some (b, _) => ((w.bufs[b]?).map Buf.bytes).getD []

/-- `grain.length`, lines 152-157: the number of elements times their size. -/
def World.lengthOf (w : World) (g : Grain) : Nat :=
  match g.data with
  | none => 0
  | some (b, item) => (((w.bufs[b]?).map (fun x => x.bytes.length)).getD 0) / item * item

/-- `grain.channel_data[c][k]`: `none` if there is no such array or element, or if it lies outside the memory block. -/
def World.read (w : World) (g : Grain) (c k : Nat) : Option Bytes :=
  match g.arrays[c]? with
  | none => none
  | some (b, view) => if k < view.count then (w.bufs[b]?).bind (fun buf => view.get buf.bytes k) else none

end Verif.Numpy.LiveAudio

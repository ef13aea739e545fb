import Verif.Gsf.Total

/-!
# The asynchronous GSF decoder

Models `mediagrains/gsf.py` lines 238-441 (`AsyncGSFBlock`), 1033-1215 (`GSFAsyncDecoderSession`) and
1412-1436 (`GSFDecoder.__aenter__`, `__aexit__`).

`AsyncGSFBlock` is `SyncGSFBlock` with `await` in front of the reads, so the reader of
`Verif.Gsf.Reader` is used for it too.  The one difference is in what `read` does at the end of the file.
`AsyncFileWrapper`, `AsyncBytesIOWrapper` and `AsyncStreamWrapper` give the bytes that are there
(`utils/asyncbinaryio.py` lines 216-220, 270-274, 349-355); `AsyncBytesIO` inherits
`OpenAsyncBinaryIO.read` (lines 35-46), which raises `EOFError` when fewer than `size` bytes are left.
`strict` selects the latter.  For a fixed number of bytes that is checked afterwards (`readExact`) both
are the same.
-/

namespace Verif.Gsf

/-- `file_data.read(n)` where a short read may be an `EOFError`. -/
def readRawA (strict : Bool) (n : Nat) : Rd Bytes := fun s p =>
  let bs := (s.buf.drop (p - s.base)).take n
  if strict && bs.length < n then .error .eof else .ok (bs, p + bs.length)

/-- `AsyncGSFBlock.read_remaining_block` and then running `body`, lines 374-394. -/
def Block.inRemainingA (strict : Bool) (b : Block) (body : Rd α) : Rd α := fun s p =>
  let n := ((b.start : Int) + b.size - p).toNat
  let bs := (s.buf.drop (p - s.base)).take n
  if strict && bs.length < n then .error .eof
  else
    match body ⟨p, bs⟩ p with
    | .ok (a, _) => .ok (a, p + bs.length)
    | .error e => .error e

/-- Lines 1085-1087. -/
def decodeHeadBlockA (strict : Bool) : Rd Head := do
  let b ← enter (some tHead)
  let h ← b.inRemainingA strict (decodeHead b)
  b.exit
  return h

/-- `_decode_file_headers`, lines 1074-1089, with `_decode_ssb_header`, lines 1055-1072. -/
def decodeFileHeadersA (strict : Bool) (known : Bool) : Rd Hdr := do
  let (major, minor) ← decodeSsb known
  if major = 7 ∨ major = 8 ∨ major = 9 then
    let h ← Rd.eofToDecode (decodeHeadBlockA strict)
    return ⟨major, minor, h⟩
  else Rd.fail (.badVersion major)

/-- Lines 1173-1203: the data of a grain.  `o.seekable` is `seekable_backwards()`; the deferred data is
the coroutine `_read_out_of_order(…, tell(), get_remaining())`. -/
def readGrdtA (strict : Bool) (o : Opts) (grai : Block) : Rd Data := do
  if ← grai.hasChild then
    let grdt ← enter (some tGrdt)
    let r ← grdt.remaining
    if r > 0 then
      if o.seekable && (o.mode == .alwaysDeferLoadIfPossible || o.mode == .alwaysLoadDeferIfPossible) then
        let p ← Rd.tell
        grdt.exit
        return .deferred p r.toNat
      else if o.mode == .loadNever then
        grdt.exit
        return .none
      else
        let bs ← readRawA strict r.toNat
        grdt.exit
        return .bytes bs
    else
      grdt.exit
      return .none
  else return .none

/-- Lines 1167-1168. -/
def readGbhdBlockA (strict : Bool) (major : Nat) : Rd Meta := do
  let b ← enter (some tGbhd) true
  let m ← b.inRemainingA strict (decodeGbhd major b)
  b.exit
  return m

/-- One turn of the loop of `grains`, lines 1143-1205. -/
def grainsStepA (strict : Bool) (o : Opts) (h : Hdr) (haveConcat : Bool) : Rd Step := do
  if haveConcat then
    let h' ← decodeFileHeadersA strict true
    return .next h' false
  else
    let block ← enter none
    if block.tag ≠ tGrai then
      block.exit
      if block.tag = tSSBB then
        if !o.concat then return .stop else return .next h true
      else return .next h false
    else if block.size = 0 then
      block.exit
      if o.concat then return .next h false else return .stop
    else
      let localId ← readUint 2
      if o.localIds.any (fun ids => !ids.contains localId) then
        block.exit
        return .next h false
      else
        let info ← readGbhdBlockA strict h.major
        let data ← readGrdtA strict o block
        block.exit
        return .yield ⟨info, data, localId⟩

/-- The generator stopped: as in the synchronous decoder, or with the `AttributeError` of line 1208
(`attribute`), or it had ended before (`over`, `StopAsyncIteration`). -/
inductive AEnd where
  | eof | break_ | err (e : Err) | attribute | over
  deriving DecidableEq, Repr

def End.toA : End → AEnd
  | .eof => .eof
  | .break_ => .break_
  | .err e => .err e

/-- The grain is an `EventGrain` and its data is a coroutine.  `EventGrain.data` (`EventGrain.py`
lines 182-185) is never `None`, so `grain.length = …` on line 1208 raises `AttributeError`
(`Grain.py` lines 693-697). -/
def Item.refused (it : Item) : Bool :=
  match it.data with
  | .deferred _ _ => it.info.grainType == some .event
  | _ => false

/-- What resuming the generator gives: the next grain, with the place to go on from, or the end. -/
inductive Pull where
  | item (it : Item) (fuel : Nat) (h : Hdr) (pos : Nat)
  | done (h : Hdr) (e : End)

/-- Run the loop of `grains` up to the next grain. -/
def pull (strict : Bool) (o : Opts) (s : Stream) : Nat → Hdr → Bool → Nat → Pull
  | 0, h, _, _ => .done h (.err .fuel)
  | fuel + 1, h, hc, p =>
    match grainsStepA strict o h hc s p with
    | .error .eof => .done h .eof
    | .error e => .done h (.err e)
    | .ok (.stop, _) => .done h .break_
    | .ok (.next h' hc', p') => pull strict o s fuel h' hc' p'
    | .ok (.yield it, p') => .item it fuel h p'

/-- The coroutine a grain holds (`_data_fetcher_coroutine`): none, not run yet, or run to its end. -/
inductive Co where
  | gone | pending | finished
  deriving DecidableEq, Repr

/-- A grain whose data was deferred (the fields of `Grain` used by `__await__`, `Grain.py` lines 384-389,
and the arguments of its `_read_out_of_order` coroutine). -/
structure LGrain where
  start : Nat
  length : Nat
  onExit : Bool
  co : Co := .pending
  data : Option Bytes := none
  deriving DecidableEq, Repr

/-- An open asynchronous session: the shared file position, `_exiting`, the keys of
`_unloaded_lazy_grains` in insertion order, the grains with deferred data (the one with key `k` is
`lazies[k]`), and the suspended generator.  One generator per session. -/
structure Sess where
  pos : Nat
  exiting : Bool := false
  table : List Nat := []
  lazies : List LGrain := []
  gen : Option (Nat × Hdr × Bool)
  deriving Repr

/-- What awaiting a grain gives: its data, `RuntimeError` (a coroutine can not be awaited twice) or
`EOFError` (short read, `AsyncBytesIO` only).  `KeyError` is `_remove_lazy_grain` of a key that is not
there. -/
inductive Await where
  | data (d : Option Bytes) | runtimeError | eofError | keyError
  deriving DecidableEq, Repr

/-- `await grain`: `Grain.__await__` (`Grain.py` lines 384-389) with `_read_out_of_order`
(`gsf.py` lines 1124-1139), run without interruption.  On `EOFError` the position is not restored. -/
def Sess.await (strict : Bool) (file : Bytes) (st : Sess) (k : Nat) (g : LGrain) : Await × Sess :=
  match g.data with
  | some d => (.data (some d), st)
  | none =>
    match g.co with
    | .gone => (.data none, st)
    | .finished => (.runtimeError, st)
    | .pending =>
      if g.onExit || !st.exiting then
        if st.table.contains k then
          let bs := (file.drop g.start).take g.length
          if strict && bs.length < g.length then
            (.eofError, { st with table := st.table.erase k
                                  pos := g.start + bs.length
                                  lazies := st.lazies.set k { g with co := .finished } })
          else
            (.data (some bs), { st with table := st.table.erase k
                                        lazies := st.lazies.set k { g with co := .finished, data := some bs } })
        else (.keyError, { st with lazies := st.lazies.set k { g with co := .finished } })
      else (.data none, { st with lazies := st.lazies.set k { g with co := .finished } })

/-- What a program can do inside the context: resume the generator, await the `k`th grain with deferred
data, or assign its `data` (`Grain.py` lines 402-409). -/
inductive AOp where
  | next
  | await (k : Nat)
  | assign (k : Nat) (d : Option Bytes)
  deriving DecidableEq, Repr

/-- What it sees. -/
inductive AEv where
  | item (it : Item)
  | stopped (e : AEnd)
  | awaited (r : Await)
  | nothing
  deriving DecidableEq, Repr

/-- One operation. -/
def Sess.step (strict : Bool) (o : Opts) (file : Bytes) (st : Sess) : AOp → AEv × Sess
  | .next =>
    match st.gen with
    | none => (.stopped .over, st)
    | some (fuel, h, hc) =>
      match pull strict o ⟨0, file⟩ fuel h hc st.pos with
      | .done _ e => (.stopped e.toA, { st with gen := none })
      | .item it fuel' h' p' =>
        if it.refused then (.stopped .attribute, { st with gen := none, pos := p' })
        else
          match it.data with
          | .deferred p n =>
            (.item it, { st with pos := p'
                                 table := st.table ++ [st.lazies.length]
                                 lazies := st.lazies ++ [⟨p, n, o.mode == .alwaysLoadDeferIfPossible, .pending, none⟩]
                                 gen := some (fuel', h', false) })
          | _ => (.item it, { st with pos := p', gen := some (fuel', h', false) })
  | .await k =>
    match st.lazies[k]? with
    | none => (.nothing, st)
    | some g =>
      let (r, st') := st.await strict file k g
      (.awaited r, st')
  | .assign k d =>
    match st.lazies[k]? with
    | none => (.nothing, st)
    | some g => (.nothing, { st with lazies := st.lazies.set k { g with co := .gone, data := d } })

/-- A program: what it sees and the session it leaves. -/
def Sess.steps (strict : Bool) (o : Opts) (file : Bytes) : Sess → List AOp → List AEv × Sess
  | st, [] => ([], st)
  | st, op :: ops =>
    let (ev, st') := st.step strict o file op
    let (evs, st'') := Sess.steps strict o file st' ops
    (ev :: evs, st'')

/-- `__aenter__`, lines 1412-1425, and making the generator. -/
def openA (strict : Bool) (file : Bytes) : Except Err Sess :=
  match decodeFileHeadersA strict false ⟨0, file⟩ 0 with
  | .error e => .error e
  | .ok (h, p) => .ok { pos := p, gen := some (file.length + 1, h, false) }

/-- How leaving the context ends. -/
inductive Leave where
  | normal | runtimeError | eofError | keyError
  deriving DecidableEq, Repr

/-- The `for (key, grain) in self._unloaded_lazy_grains.items(): await grain` loop of
`_kill_unused_lazy_loaders`, lines 1099-1100, over the keys still to come.  A python dictionary iterator
raises `RuntimeError` on its next step, the last one included, when the size of the dictionary has
changed. -/
def Sess.killLoop (strict : Bool) (file : Bytes) : Sess → List Nat → Leave × Sess
  | st, [] => (.normal, st)
  | st, k :: ks =>
    match st.lazies[k]? with
    | none => (.keyError, st)
    | some g =>
      match st.await strict file k g with
      | (.data _, st') =>
        if st'.table.length ≠ st.table.length then (.runtimeError, st') else Sess.killLoop strict file st' ks
      | (.runtimeError, st') => (.runtimeError, st')
      | (.eofError, st') => (.eofError, st')
      | (.keyError, st') => (.keyError, st')

/-- `__aexit__`, lines 1427-1430, with `_kill_unused_lazy_loaders`, lines 1097-1100. -/
def Sess.leave (strict : Bool) (file : Bytes) (st : Sess) : Leave × Sess :=
  Sess.killLoop strict file { st with exiting := true } st.table

/-! ## Overlapping awaits

`Sess.await` runs `_read_out_of_order` in one go.  When several grains are awaited at the same time
(`asyncio.gather`), other coroutines run while `file_data.read` is waiting for its executor thread, so the
three parts of lines 1132-1136 can interleave. -/

/-- A coroutine about to read, with the position it saved. -/
structure Reading where
  key : Nat
  oldpos : Nat
  got : Option Bytes := none
  deriving DecidableEq, Repr

/-- The parts: `tell`, `seek(pos)` and submitting the read; the read itself, at the position the file then
has; `seek(oldpos)` and returning the data. -/
inductive Part where
  | begin (k : Nat) | read (k : Nat) | finish (k : Nat)
  deriving DecidableEq, Repr

/-- One part.  `OpenAsyncBytesIO.readinto` (`asyncbinaryio.py` lines 122-130) and
`OpenAsyncFileWrapper.read` (lines 215-220) read at the current position when their thread runs. -/
def Part.run (file : Bytes) (gs : List LGrain) (st : Nat × List Reading × List (Nat × Bytes)) :
    Part → Nat × List Reading × List (Nat × Bytes)
  | .begin k =>
    match gs[k]? with
    | some g => (g.start, ⟨k, st.1, none⟩ :: st.2.1, st.2.2)
    | none => st
  | .read k =>
    match gs[k]? with
    | some g =>
      let bs := (file.drop st.1).take g.length
      (st.1 + bs.length, st.2.1.map (fun r => if r.key = k then { r with got := some bs } else r), st.2.2)
    | none => st
  | .finish k =>
    match st.2.1.find? (fun r => r.key == k) with
    | some r => (r.oldpos, st.2.1.filter (fun r => r.key != k), st.2.2 ++ [(k, r.got.getD [])])
    | none => st

def Part.runs (file : Bytes) (gs : List LGrain) (pos : Nat) (l : List Part) : List (Nat × Bytes) × Nat :=
  let r := l.foldl (Part.run file gs) (pos, [], [])
  (r.2.2, r.1)

end Verif.Gsf

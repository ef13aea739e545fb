import Verif.Gsf.CopyLive
import Verif.Gsf.AwaitEach

/-!
# Copying a file with the asynchronous interfaces

```
async with GSFDecoder(file_data=f) as dec:
    enc = GSFEncoder(out, ...)                     # made of dec.file_headers, as in Gsf/Copy
    async with enc as open_enc:
        async for (grain, local_id) in dec.grains(...):
            await grain
            await open_enc.add_grain(grain, segment_local_id=local_id)
```

The encoder is closed however the inner block is left (`GSFEncoder.__aexit__`, `gsf.py:2002-2008`, does not look at its arguments).

Simplifications: what leaving the decoder's block does to grains that nobody awaited is left out here (C25, C88). A grain that was made with a coroutine and
has been awaited is taken to be the grain made with the data: the constructors of grains that are not events only ask whether there is any data
(`VideoGrain.py` 335, `AudioGrain.py` 155, `CodedVideoGrain.py` 182, `CodedAudioGrain.py` 157, `Grain.py` 384-389), and events with a coroutine are refused before
(`Item.refused`). Its length is then that of its data (`Grain.py` 682-684).
-/

namespace Verif.Easy

open Verif Verif.Gsf
open Verif.Attrs (Lib)

/-- What can be raised: what the synchronous program raises, the `AttributeError` of an event whose data is deferred, an exception of `await grain`. -/
inductive ACopyErr where
  | copy (e : CopyErr)
  | attribute
  | await (r : Await)
  deriving DecidableEq, Repr

/-- How the loop is left when the generator ends. -/
def AEnd.raises : AEnd → Option ACopyErr
  | .eof => none
  | .break_ => none
  | .over => none
  | .err e => some (.copy (.decoder e))
  | .attribute => some .attribute

/-- `await open_enc.add_grain(grain, segment_local_id=local_id)` on the `k`-th handle (`gsf.py:1805-1833`): the encoder afterwards, and the exception, if
there is one. -/
@[irreducible] def handOverA (lib : Lib) (now : Int) (k : Nat) (v : Meta × Option Bytes × Nat) (e : Enc) : Enc × Option CopyErr :=
  match rewrite lib now v with
  | .error x => (e, some (.grain x))
  | .ok (l, g) =>
    match (Op.hAddGrains k [g] none (some l) []).run e with
    | (e', .error x) => (e', some (.encoder x))
    | (e', .ok _) => (e', none)

/-- The loop: the encoder when it is left, and the exception, if there is one.  The fuel is supplied by `copyAsync` and proved sufficient. -/
def pumpA (lib : Lib) (now : Int) (strict : Bool) (o : Opts) (file : Bytes) (k : Nat) : Nat → Enc → Sess → Enc × Option ACopyErr
  | 0, e, _ => (e, some (.copy (.decoder .fuel)))
  | n + 1, e, st =>
    match awaitNext strict o file st with
    | (.error (.generator x), _) => (e, AEnd.raises x)
    | (.error (.await r), _) => (e, some (.await r))
    | (.error .running, _) => (e, none)
    | (.ok v, st') =>
      match (handOverA lib now k v e).2 with
      | some x => ((handOverA lib now k v e).1, some (.copy x))
      | none => pumpA lib now strict o file k n (handOverA lib now k v e).1 st'

/-- The program: the new file, and what it raises.  The headers are those that `__aenter__` of the decoder reads (`gsf.py:1412-1425`). -/
def copyAsync (lib : Lib) (now : Int) (strict : Bool) (o : Opts) (out : OutFile) (streaming : Bool) (file : Bytes) : OutFile × Option ACopyErr :=
  match decodeFileHeadersA strict false ⟨0, file⟩ 0 with
  | .error e => (out, some (.copy (.decoder e)))
  | .ok (h, p) =>
    match construct out (copyArgs h streaming) with
    | .error e => (out, some (.copy (.encoder e)))
    | .ok e0 =>
      match tryAll e0 (flowOps h) with
      | .error e => (out, some (.copy (.encoder e)))
      | .ok e1 =>
        match pumpA lib now strict o file e1.handles.length (file.length + 1) (Op.aenter.run e1).1 { pos := p, gen := some (file.length + 1, h, false) } with
        | (e2, x) => ((Op.aexit.run e2).1.file, x)

end Verif.Easy

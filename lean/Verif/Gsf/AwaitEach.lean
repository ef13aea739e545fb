import Verif.Gsf.Whole
import Verif.Gsf.Async

/-!
# A program that awaits each grain as it comes

```
async with GSFDecoder(file_data=f) as dec:
    async for (grain, local_id) in dec.grains(...):
        await grain
```

on the sessions of `Verif.Gsf.Async`.  A grain that has its data already need not be awaited (`Grain.py` lines 384-389).
-/

namespace Verif.Gsf

/-- What ended the loop: nothing yet, the generator, or an await. -/
inductive LoopEnd where
  | running | generator (e : AEnd) | await (r : Await)
  deriving DecidableEq, Repr

/-- One turn: `__anext__` of the generator (`gsf.py` lines 1142-1215), then `await grain`. -/
def awaitNext (strict : Bool) (o : Opts) (file : Bytes) (st : Sess) : Except LoopEnd (Meta × Option Bytes × Nat) × Sess :=
  match st.step strict o file .next with
  | (.item it, st1) =>
    match it.data with
    | .deferred _ _ =>
      match st1.step strict o file (.await (st1.lazies.length - 1)) with
      | (.awaited (.data d), st2) => (.ok (it.info, d, it.localId), st2)
      | (.awaited r, st2) => (.error (.await r), st2)
      | (_, st2) => (.error .running, st2)
    | _ => (.ok (it.view file), st1)
  | (.stopped e, st1) => (.error (.generator e), st1)
  | (_, st1) => (.error .running, st1)

/-- `n` turns of the loop, or less if it ends before: the grains with the data that was awaited. -/
def awaitEach (strict : Bool) (o : Opts) (file : Bytes) : Nat → Sess → List (Meta × Option Bytes × Nat) × LoopEnd
  | 0, _ => ([], .running)
  | n + 1, st =>
    match awaitNext strict o file st with
    | (.ok v, st') => (v :: (awaitEach strict o file n st').1, (awaitEach strict o file n st').2)
    | (.error e, _) => ([], e)

/-- The program on a file: the exception of opening it, or what `n` turns of the loop give. -/
def awaitFile (strict : Bool) (o : Opts) (file : Bytes) (n : Nat) : Except Err (List (Meta × Option Bytes × Nat) × LoopEnd) :=
  match openA strict file with
  | .error e => .error e
  | .ok st => .ok (awaitEach strict o file n st)

end Verif.Gsf

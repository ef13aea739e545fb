import Verif.Gsf.Copy
import Verif.Gsf.Session

/-!
# Copying a file grain by grain

The program of `Gsf/Copy`, as python runs it: every grain is handed to the encoder before the decoder is asked for the next one, deferred
data is read from the input while the generator waits, and when something raises inside the `with` blocks the encoder is closed all
the same (`GSFEncoder.__exit__`, `gsf.py:1976-1982`, does not look at its arguments).

Simplification: an encoder that writes everything at the end would read the attributes and the deferred data of all grains then; here they are read
when the grain is handed over, which gives the same values, as neither the grains nor the input change in between.
-/

namespace Verif.Easy

open Verif Verif.Gsf
open Verif.Attrs (Lib AErr)

/-- The `length` of a grain whose data is an `IOBytes` that was not loaded is the length that the block of the input says
(`Grain.py:682-684`, `utils/iobytes.py:157-159`), however many bytes there are; the constructor of events loads the data. -/
def lengthened (it : Item) (g : Grain) : Grain :=
  match it.data with
  | .deferred _ n => if it.info.grainType = some .event then g else { g with length := n }
  | _ => g

/-- A grain that the decoder yields is made, and read by the encoder: its length first (`gsf.py:2272`, `2319`), then `bytes(grain.data)` (line 2322). -/
def liveGrain (lib : Lib) (now : Int) (it : Item) (data : Option Bytes) : Except AErr (Nat × Grain) :=
  match rewrite lib now (it.info, data, it.localId) with
  | .error e => .error e
  | .ok (l, g) => .ok (l, lengthened it g)

/-- `enc.add_grain(grain, segment_local_id=local_id)`: the encoder afterwards, and the exception, if there is one.  Simplification: an encoder that writes
everything at the end makes a segment for a local id that it does not know; its id, which is random, is here left out (`[]`), and no theorem speaks of
such segments. -/
@[irreducible] def handOver (lib : Lib) (now : Int) (it : Item) (data : Option Bytes) (e : Enc) : Enc × Option CopyErr :=
  match liveGrain lib now it data with
  | .error x => (e, some (.grain x))
  | .ok (l, g) =>
    match (Op.addGrains [g] none (some l) []).run e with
    | (e', .error x) => (e', some (.encoder x))
    | (e', .ok _) => (e', none)

/-- `for (grain, local_id) in dec.grains(…): enc.add_grain(grain, segment_local_id=local_id)`: the encoder when the loop is left, and the
exception, if there is one.  Loading deferred data leaves the input where it was (`utils/iobytes.py:138-145`).  The fuel is
supplied by `copyLive` and proved sufficient. -/
def pump (lib : Lib) (now : Int) (o : Opts) (file : Bytes) : Nat → Enc → Hdr → Bool → Nat → Enc × Option CopyErr
  | 0, e, _, _, _ => (e, some (.decoder .fuel))
  | n + 1, e, h, hc, p =>
    match Session.pull o file h hc p with
    | (.stop, _, _) => (e, none)
    | (.raised x, _, _) => (e, some (.decoder x))
    | (.item it, h', q) =>
      match (handOver lib now it (Session.fetch file q it.data).1 e).2 with
      | some x => ((handOver lib now it (Session.fetch file q it.data).1 e).1, some x)
      | none => pump lib now o file n (handOver lib now it (Session.fetch file q it.data).1 e).1 h' false ((Session.fetch file q it.data).2.getD 0)

/-- The program: the new file, and what it raises. -/
def copyLive (lib : Lib) (now : Int) (o : Opts) (out : OutFile) (streaming : Bool) (file : Bytes) : OutFile × Option CopyErr :=
  match decodeFileHeaders false ⟨0, file⟩ 0 with
  | .error e => (out, some (.decoder e))
  | .ok (h, p) =>
    match construct out (copyArgs h streaming) with
    | .error e => (out, some (.encoder e))
    | .ok e0 =>
      match tryAll e0 (flowOps h) with
      | .error e => (out, some (.encoder e))
      | .ok e1 =>
        match pump lib now o file (file.length + 1) (Op.enter.run e1).1 h false p with
        | (e2, x) => ((Op.exit.run e2).1.file, x)

end Verif.Easy

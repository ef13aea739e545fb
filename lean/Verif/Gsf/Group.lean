import Verif.Gsf.Decode

/-!
# `GSFDecoder.decode`, `load` and `loads`

Models `mediagrains/gsf.py` lines 86-145 and 1490-1511: collecting all grains of a file in a dictionary.
-/

namespace Verif.Gsf

/-- A python dictionary from local ids to lists of grains, in insertion order. -/
abbrev Groups := List (Nat × List Item)

/-- `if key not in grains: grains[key] = []` then `grains[key].append(grain)`, lines 1494-1496. -/
def groupStep (m : Groups) (it : Item) : Groups :=
  let m' := if it.localId ∈ m.map Prod.fst then m else m ++ [(it.localId, [])]
  m'.map (fun e => if e.1 = it.localId then (e.1, e.2 ++ [it]) else e)

/-- The loop of lines 1492-1496. -/
def groupItems (items : List Item) : Groups := items.foldl groupStep []

/-- `_synchronously_decode`, lines 1490-1499 (`decode`, and `loads`/`load` on a synchronous file):
open the file, read all grains with their data; an exception in the generator propagates. -/
def decodeAll (concat : Bool) (file : Bytes) : Except Err (Hdr × Groups) :=
  match decodeFile { mode := .loadImmediately, concat := concat } file with
  | .error e => .error e
  | .ok r =>
    match r.ending with
    | .err e => .error e
    | _ => .ok (r.hdr, groupItems r.items)

/-- `grains[key]`, or nothing if the key is absent. -/
def Groups.get (m : Groups) (key : Nat) : Option (List Item) := (m.find? (fun e => e.1 == key)).map Prod.snd

end Verif.Gsf

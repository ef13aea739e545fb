import Verif.Bytes

/-!
# `grain.timelabels` and `grain.unit_offsets`

Models the view classes `Grain.TIMELABELS` (`grains/Grain.py` 623-679, setter 535-539) and
`CodedVideoGrain.UNITOFFSETS` (`grains/CodedVideoGrain.py` 336-396, setter 403-407), and the methods
they inherit from `collections.abc.MutableSequence`.

Simplification: values are values; that the nested dictionary of a time label stays shared with the label it
was made from is not modelled.
-/

namespace Verif.Views

/-- The exceptions met here. -/
inductive PyErr where
  | index | type | value
  deriving DecidableEq, Repr

/-! ## Python's built-in list -/

namespace PyList

variable {α : Type}

/-- The position an index means in a list of `n` elements, if any. -/
def pos (n : Nat) (i : Int) : Option Nat :=
  let j := if i < 0 then i + n else i
  if 0 ≤ j ∧ j < n then some j.toNat else none

/-- `l[i]`. -/
def get (l : List α) (i : Int) : Except PyErr α :=
  match (pos l.length i).bind (fun k => l[k]?) with
  | some x => .ok x
  | none => .error .index

/-- `l[i] = v`. -/
def set (l : List α) (i : Int) (v : α) : Except PyErr (List α) :=
  match pos l.length i with
  | some k => .ok (l.set k v)
  | none => .error .index

/-- `del l[i]`. -/
def del (l : List α) (i : Int) : Except PyErr (List α) :=
  match pos l.length i with
  | some k => .ok (l.eraseIdx k)
  | none => .error .index

/-- Where `l.insert(i, v)` puts `v`: the index is clamped. -/
def insertPos (n : Nat) (i : Int) : Nat :=
  if i < 0 then (i + n).toNat else min i.toNat n

/-- `l.insert(i, v)`. -/
def insert (l : List α) (i : Int) (v : α) : List α :=
  l.take (insertPos l.length i) ++ v :: l.drop (insertPos l.length i)

/-- A slice object. -/
structure Slice where
  start : Option Int := none
  stop : Option Int := none
  step : Option Int := none
  deriving DecidableEq, Repr

/-- Clamping of a slice bound. -/
def bound (n : Nat) (lo hi : Int) (i : Int) : Int :=
  if i < 0 then max (i + n) lo else min i hi

/-- `range(a, b, step)`, at most `fuel` elements. -/
def pyRange (b step : Int) : Nat → Int → List Nat
  | 0, _ => []
  | fuel + 1, a =>
    if (0 < step ∧ a < b) ∨ (step < 0 ∧ b < a) then a.toNat :: pyRange b step fuel (a + step) else []

/-- `range(n)[s]`, the positions a slice selects; a step of zero is a `ValueError`. -/
def Slice.indices (s : Slice) (n : Nat) : Except PyErr (List Nat) :=
  let step := s.step.getD 1
  if step = 0 then .error .value
  else if 0 < step then
    .ok (pyRange ((s.stop.map (bound n 0 n)).getD n) step n ((s.start.map (bound n 0 n)).getD 0))
  else
    .ok (pyRange ((s.stop.map (bound n (-1) (n - 1))).getD (-1)) step n
      ((s.start.map (bound n (-1) (n - 1))).getD (n - 1)))

/-- `l[s]`. -/
def getSlice (l : List α) (s : Slice) : Except PyErr (List α) :=
  (s.indices l.length).map (fun ks => ks.filterMap (fun k => l[k]?))

/-- `del l[s]`. -/
def delSlice (l : List α) (s : Slice) : Except PyErr (List α) :=
  (s.indices l.length).map (fun ks => (l.zipIdx.filter (fun p => !ks.contains p.2)).map Prod.fst)

/-- `l[s] = vs`: with step 1 (or none) the selected part is replaced; otherwise the lengths must agree. -/
def setSlice (l : List α) (s : Slice) (vs : List α) : Except PyErr (List α) :=
  if s.step.getD 1 = 1 then
    let a := ((s.start.map (bound l.length 0 l.length)).getD 0).toNat
    let b := ((s.stop.map (bound l.length 0 l.length)).getD l.length).toNat
    .ok (l.take a ++ vs ++ l.drop (max a b))
  else
    match s.indices l.length with
    | .error e => .error e
    | .ok ks =>
      if ks.length = vs.length then .ok ((ks.zip vs).foldl (fun l p => l.set p.1 p.2) l) else .error .value

end PyList

/-! ## The views -/

/-- What tells the two view classes apart. -/
structure Cls (α : Type) where
  /-- `dict(TIMELABEL(value))`: missing fields are filled in; the identity for unit offsets. -/
  norm : α → α
  /-- `TIMELABELS`? -/
  labels : Bool

/-- The key in the metadata dictionary: absent, or present with a list. -/
abbrev Key (α : Type) := Option (List α)

variable {α : Type}

/-- `__getitem__` with an integer (TIMELABELS 632-638, UNITOFFSETS 345-349).  `TIMELABEL(…)` fills in the
missing fields of the stored dictionary itself. -/
def getitem (c : Cls α) (s : Key α) (i : Int) : Except PyErr α × Key α :=
  match s with
  | none => (.error .index, none)
  | some l =>
    match PyList.get l i with
    | .ok x => (.ok (c.norm x), some (match PyList.set l i (c.norm x) with | .ok l => l | .error _ => l))
    | .error e => (.error e, some l)

/-- `__setitem__` with an integer (646-654, 357-361). -/
def setitem (c : Cls α) (s : Key α) (i : Int) (v : α) : Except PyErr Unit × Key α :=
  match s with
  | none => (.error .index, none)
  | some l =>
    match PyList.set l i (c.norm v) with
    | .ok l => (.ok (), some l)
    | .error e => (.error e, some l)

/-- The end of `__delitem__` (661-662, 366-367): the key goes when the list is empty. -/
def dropEmpty (l : List α) : Key α := if l.length = 0 then none else some l

/-- `__delitem__` with an integer (656-662, 363-369). -/
def delitem (s : Key α) (i : Int) : Except PyErr Unit × Key α :=
  match s with
  | none => (.error .index, none)
  | some l =>
    match PyList.del l i with
    | .ok l => (.ok (), dropEmpty l)
    | .error e => (.error e, some l)

/-- `insert` (664-667, 371-377). -/
def insert (c : Cls α) (s : Key α) (i : Int) (v : α) : Key α :=
  match s with
  | none => some (PyList.insert [] i (c.norm v))
  | some l => some (PyList.insert l i (c.norm v))

/-- `__len__` (669-672, 379-383). -/
def len : Key α → Nat
  | none => 0
  | some l => l.length

/-- `__getitem__` with a slice. -/
def getSlice (c : Cls α) (s : Key α) (sl : PyList.Slice) : Except PyErr (List α) × Key α :=
  match s with
  | none => (.error .index, none)
  | some l => ((PyList.getSlice l sl).map (List.map c.norm), some l)

/-- `__setitem__` with a slice.  For time labels, line 653 iterates over the slice object: `TypeError`. -/
def setSlice (c : Cls α) (s : Key α) (sl : PyList.Slice) (vs : List α) : Except PyErr Unit × Key α :=
  match s with
  | none => (.error .index, none)
  | some l =>
    if c.labels then (.error .type, some l)
    else
      match PyList.setSlice l sl vs with
      | .ok l => (.ok (), some l)
      | .error e => (.error e, some l)

/-- `__delitem__` with a slice. -/
def delSlice (s : Key α) (sl : PyList.Slice) : Except PyErr Unit × Key α :=
  match s with
  | none => (.error .index, none)
  | some l =>
    match PyList.delSlice l sl with
    | .ok l => (.ok (), dropEmpty l)
    | .error e => (.error e, some l)

/-! ### Methods inherited from `MutableSequence` -/

/-- `append(v)` is `insert(len(self), v)`. -/
def append (c : Cls α) (s : Key α) (v : α) : Key α := insert c s (len s) v

/-- `__iter__`: index from 0 until `IndexError`. -/
def iterFrom (c : Cls α) : Nat → Nat → Key α → List α × Key α
  | 0, _, s => ([], s)
  | fuel + 1, i, s =>
    match getitem c s i with
    | (.ok x, s) => let (xs, s) := iterFrom c fuel (i + 1) s; (x :: xs, s)
    | (.error _, s) => ([], s)

def iter (c : Cls α) (s : Key α) : List α × Key α := iterFrom c (len s + 1) 0 s

/-- `pop(i)`: read, then delete. -/
def pop (c : Cls α) (s : Key α) (i : Int) : Except PyErr α × Key α :=
  match getitem c s i with
  | (.error e, s) => (.error e, s)
  | (.ok x, s) =>
    match delitem s i with
    | (.error e, s) => (.error e, s)
    | (.ok _, s) => (.ok x, s)

/-- `extend(vs)`. -/
def extend (c : Cls α) (s : Key α) (vs : List α) : Key α := vs.foldl (append c) s

/-- `clear()`: pop until `IndexError`. -/
def clearLoop (c : Cls α) : Nat → Key α → Key α
  | 0, s => s
  | fuel + 1, s =>
    match pop c s (-1) with
    | (.ok _, s) => clearLoop c fuel s
    | (.error _, s) => s

def clear (c : Cls α) (s : Key α) : Key α := clearLoop c (len s + 1) s

/-- One turn of `reverse()`: `self[i], self[n-i-1] = self[n-i-1], self[i]`. -/
def swapAt (c : Cls α) (s : Key α) (i j : Nat) : Except PyErr Unit × Key α :=
  match getitem c s j with
  | (.error e, s) => (.error e, s)
  | (.ok a, s) =>
    match getitem c s i with
    | (.error e, s) => (.error e, s)
    | (.ok b, s) =>
      match setitem c s i a with
      | (.error e, s) => (.error e, s)
      | (.ok _, s) => setitem c s j b

/-- `reverse()`: the turns from `i` on, `k` of them. -/
def reverseLoop (c : Cls α) (n : Nat) : Nat → Nat → Key α → Except PyErr Unit × Key α
  | 0, _, s => (.ok (), s)
  | k + 1, i, s =>
    match swapAt c s i (n - i - 1) with
    | (.error e, s) => (.error e, s)
    | (.ok _, s) => reverseLoop c n k (i + 1) s

def reverse (c : Cls α) (s : Key α) : Except PyErr Unit × Key α :=
  reverseLoop c (len s) (len s / 2) 0 s

/-- `index(v)`: the first position that compares equal. -/
def index [DecidableEq α] (c : Cls α) (s : Key α) (v : α) : Except PyErr Nat × Key α :=
  let (xs, s) := iter c s
  match xs.findIdx? (fun x => x == v) with
  | some k => (.ok k, s)
  | none => (.error .value, s)

/-- `remove(v)`: `del self[self.index(v)]`. -/
def remove [DecidableEq α] (c : Cls α) (s : Key α) (v : α) : Except PyErr Unit × Key α :=
  match index c s v with
  | (.error e, s) => (.error e, s)
  | (.ok k, s) => delitem s k

/-- The setter of the property with a list of values (535-539, 403-407). -/
def assign (c : Cls α) (vs : List α) : Key α :=
  if c.labels then extend c (some []) vs
  else if vs.length = 0 then none else some vs

/-- The setter given the view of the same grain.  For time labels, line 537 empties the list before the view is
read; for unit offsets `list(value)` is made first (and an empty view removes the key). -/
def assignSelf (c : Cls α) (s : Key α) : Key α :=
  if c.labels then extend c (some []) (iter c (some [])).1
  else if len s = 0 then none else some (iter c s).1

/-- `grain.timelabels += vs`: `__iadd__` extends and returns the view, which is then assigned. -/
def iadd (c : Cls α) (s : Key α) (vs : List α) : Key α := assignSelf c (extend c s vs)

end Verif.Views

/-!
# The list-like attributes of grains

`timelabels` (`mediagrains/grains/Grain.py` 625-678), `unit_offsets` (`mediagrains/grains/CodedVideoGrain.py` 336-407) and
`components` (`mediagrains/grains/VideoGrain.py` 201-246) are objects that work on a list inside the metadata; the first two are made
anew at each access. Each defines five methods; the others come from `collections.abc.MutableSequence`, which is modelled here on top of the
five, as the standard library writes them (`_collections_abc.py`, python 3.10 to 3.12).
-/

namespace Verif.Seqs

inductive Err where
  /-- `IndexError` -/
  | index
  /-- `TypeError` -/
  | type
  /-- `ValueError` -/
  | value
  /-- `StopIteration` -/
  | stop
deriving DecidableEq, Repr

/-! ## Lists of python -/

/-- The position an index stands for in a list of length `n`. -/
def pyIndex (n : Nat) (i : Int) : Option Nat :=
  if 0 ≤ i ∧ i < n then some i.toNat else if -n ≤ i ∧ i < 0 then some (i + n).toNat else none

/-- `l[i]` -/
def pyGet {T : Type} (l : List T) (i : Int) : Except Err T :=
  match pyIndex l.length i with
  | none => .error .index
  | some k => match l[k]? with
    | none => .error .index
    | some v => .ok v

/-- `l[i] = v` -/
def pySet {T : Type} (l : List T) (i : Int) (v : T) : Except Err (List T) :=
  match pyIndex l.length i with
  | none => .error .index
  | some k => .ok (l.set k v)

/-- `del l[i]` -/
def pyDel {T : Type} (l : List T) (i : Int) : Except Err (List T) :=
  match pyIndex l.length i with
  | none => .error .index
  | some k => .ok (l.eraseIdx k)

/-- Where `l.insert(i, v)` puts `v`. -/
def pyPlace (n : Nat) (i : Int) : Nat :=
  if i < 0 then (i + n).toNat else min i.toNat n

/-- `l.insert(i, v)` -/
def pyInsert {T : Type} (l : List T) (i : Int) (v : T) : List T :=
  l.take (pyPlace l.length i) ++ v :: l.drop (pyPlace l.length i)

/-! ## The five methods -/

/-- The five methods a list-like object defines, for integer indices. `S`: the metadata they work on. -/
structure Prim (S T : Type) where
  len : S → Nat
  get : S → Int → Except Err T
  set : S → Int → T → Except Err S
  del : S → Int → Except Err S
  insert : S → Int → T → S

section
variable {S T : Type} (P : Prim S T)

/-! ## What `MutableSequence` adds

Loops have a number of rounds as first argument; `none`: not finished after so many rounds. -/

/-- `for v in self`, from index `i`: the values seen until `IndexError`. -/
def iterFrom : Nat → S → Nat → Option (List T)
  | 0, _, _ => none
  | n + 1, s, i =>
    match P.get s (i : Nat) with
    | .error _ => some []
    | .ok v => (iterFrom n s (i + 1)).map (fun r => v :: r)

/-- `list(self)` -/
def iter (n : Nat) (s : S) : Option (List T) := iterFrom P n s 0

/-- `reversed(self)` -/
def reversed (s : S) : List (Except Err T) := ((List.range (P.len s)).reverse).map (fun i => P.get s (i : Nat))

/-- `self.index(value)` from index `i`. -/
def indexFrom [DecidableEq T] : Nat → S → T → Nat → Option (Except Err Nat)
  | 0, _, _, _ => none
  | n + 1, s, v, i =>
    match P.get s (i : Nat) with
    | .error _ => some (.error .value)
    | .ok w => if w = v then some (.ok i) else indexFrom n s v (i + 1)

/-- `value in self` -/
def contains [DecidableEq T] (n : Nat) (s : S) (v : T) : Option Bool := (iter P n s).map (fun l => l.any (fun w => w = v))

/-- `self.count(value)` -/
def count [DecidableEq T] (n : Nat) (s : S) (v : T) : Option Nat := (iter P n s).map (fun l => (l.filter (fun w => w = v)).length)

/-- `self.append(value)` -/
def append (s : S) (v : T) : S := P.insert s (P.len s : Nat) v

/-- `self.extend(values)` for values that do not depend on this grain. -/
def extend (s : S) (vs : List T) : S := vs.foldl (append P) s

/-- `self.extend(values)` where `values` is another list-like object on the same grain, such as in
`g.timelabels.extend(g.timelabels)`: values are fetched while they are appended. (`extend` only guards against `values is self`, and each access
to the attribute makes a new object.) -/
def extendView : Nat → S → Nat → Option S
  | 0, _, _ => none
  | n + 1, s, i =>
    match P.get s (i : Nat) with
    | .error _ => some s
    | .ok v => extendView n (append P s v) (i + 1)

/-- `self.extend(self)`: the values are fetched first. -/
def extendSelf (n : Nat) (s : S) : Option S := (iter P n s).map (extend P s)

/-- `self.pop(index)` -/
def pop (s : S) (i : Int) : Except Err (T × S) :=
  match P.get s i with
  | .error e => .error e
  | .ok v => match P.del s i with
    | .error e => .error e
    | .ok s' => .ok (v, s')

/-- `self.remove(value)` -/
def remove [DecidableEq T] (n : Nat) (s : S) (v : T) : Option (Except Err S) :=
  match indexFrom P n s v 0 with
  | none => none
  | some (.error e) => some (.error e)
  | some (.ok i) => some (P.del s (i : Nat))

/-- `self.clear()` -/
def clear : Nat → S → Option S
  | 0, _ => none
  | n + 1, s =>
    match pop P s (-1) with
    | .error _ => some s
    | .ok (_, s') => clear n s'

/-- `self[i], self[n-i-1] = self[n-i-1], self[i]` -/
def swap (n : Nat) (s : S) (i : Nat) : Except Err S :=
  match P.get s ((n - i - 1 : Nat) : Int) with
  | .error e => .error e
  | .ok a => match P.get s (i : Nat) with
    | .error e => .error e
    | .ok b => match P.set s (i : Nat) a with
      | .error e => .error e
      | .ok s1 => P.set s1 ((n - i - 1 : Nat) : Int) b

/-- Rounds `i`, `i + 1`, … of `reverse`, `k` of them. -/
def reverseFrom (n : Nat) : Nat → S → Nat → Except Err S
  | 0, s, _ => .ok s
  | k + 1, s, i =>
    match swap P n s i with
    | .error e => .error e
    | .ok s' => reverseFrom n k s' (i + 1)

/-- `self.reverse()` -/
def reverse (s : S) : Except Err S := reverseFrom P (P.len s) (P.len s / 2) s 0

end

/-! ## Slices -/

/-- A `slice` object. -/
structure Slice where
  start : Option Int
  stop : Option Int
  step : Option Int
deriving DecidableEq, Repr

/-- One bound of `slice.indices(n)` with step `d`: `i` counts from the end if it is negative, and is then kept in the range the step allows. -/
def bound (n : Nat) (d : Int) (i : Int) : Int :=
  if i < 0 then
    if i + n < 0 then (if d < 0 then -1 else 0) else i + n
  else if (n : Int) ≤ i then (if d < 0 then n - 1 else n) else i

/-- `slice.indices(n)`, as `PySlice_Unpack` and `PySlice_AdjustIndices` of CPython work it out; a step of zero is `ValueError`. -/
def Slice.indices (k : Slice) (n : Nat) : Except Err (Int × Int × Int) :=
  let d := k.step.getD 1
  if d = 0 then .error .value else
    .ok (match k.start with
        | none => if d < 0 then n - 1 else 0
        | some i => bound n d i,
      match k.stop with
        | none => if d < 0 then -1 else n
        | some i => bound n d i,
      d)

/-- The number of values of `range(a, b, d)`. -/
def rangeLen (a b d : Int) : Nat :=
  if 0 < d then (if a < b then ((b - a - 1) / d + 1).toNat else 0)
  else (if b < a then ((a - b - 1) / (-d) + 1).toNat else 0)

/-- `range(a, b, d)` -/
def pyRange (a b d : Int) : List Int := (List.range (rangeLen a b d)).map (fun m : Nat => a + m * d)

/-- The numbers of `range(n)[key]`. -/
def Slice.nums (k : Slice) (n : Nat) : Except Err (List Nat) :=
  match k.indices n with
  | .error e => .error e
  | .ok (a, b, d) => .ok ((pyRange a b d).map Int.toNat)

/-- `l[key]` -/
def pyGetSlice {T : Type} (l : List T) (k : Slice) : Except Err (List T) :=
  match k.nums l.length with
  | .error e => .error e
  | .ok is => .ok (is.filterMap (fun i => l[i]?))

/-- `del l[key]` -/
def pyDelSlice {T : Type} (l : List T) (k : Slice) : Except Err (List T) :=
  match k.nums l.length with
  | .error e => .error e
  | .ok is => .ok ((List.range l.length).filterMap (fun i => if i ∈ is then none else l[i]?))

/-- Storing values at places, one after the other. -/
def storeAt {T : Type} (l : List T) : List Nat → List T → List T
  | i :: is, v :: vs => storeAt (l.set i v) is vs
  | _, _ => l

/-- `l[key] = vs`: with a step of 1 the part is replaced, whatever its length; with another step there must be as many values as places
(`ValueError` otherwise). -/
def pySetSlice {T : Type} (l : List T) (k : Slice) (vs : List T) : Except Err (List T) :=
  match k.indices l.length with
  | .error e => .error e
  | .ok (a, b, d) =>
    if d = 1 then .ok (l.take a.toNat ++ vs ++ l.drop (max a b).toNat)
    else match k.nums l.length with
      | .error e => .error e
      | .ok is => if vs.length = is.length then .ok (storeAt l is vs) else .error .value

/-! ## Time labels -/

/-- A dictionary for a time label, as a caller may give it: any part may be missing. -/
structure Label where
  tag : Option String
  count : Option Int
  rateNum : Option Int
  rateDen : Option Int
  drop : Option Bool
deriving DecidableEq, Repr

/-- `dict(TIMELABEL(x))`, Grain.py 547-565: missing parts are filled in. -/
def fill (l : Label) : Label :=
  ⟨some (l.tag.getD ""), some (l.count.getD 0), some (l.rateNum.getD 0), some (l.rateDen.getD 1), some (l.drop.getD false)⟩

/-- `TIMELABELS` on `meta['grain'].get('timelabels')`, lines 625-678. `TIMELABEL(d)` also fills in the dictionary `d` in place; what
is seen of it is the same. -/
def labels : Prim (Option (List Label)) Label where
  len
    | none => 0
    | some l => l.length
  get s i :=
    match s with
    | none => .error .index
    | some l => match pyGet l i with
      | .error e => .error e
      | .ok v => .ok (fill v)
  set s i v :=
    match s with
    | none => .error .index
    | some l => match pySet l i (fill v) with
      | .error e => .error e
      | .ok l' => .ok (some l')
  del s i :=
    match s with
    | none => .error .index
    | some l => match pyDel l i with
      | .error e => .error e
      | .ok l' => .ok (if l'.length = 0 then none else some l')
  insert s i v :=
    match s with
    | none => some (pyInsert [] i (fill v))
    | some l => some (pyInsert l i (fill v))

/-- `labels[slice]`, lines 638-643. -/
def labelsGetSlice (s : Option (List Label)) (k : Slice) : Except Err (List Label) :=
  match s with
  | none => .error .index
  | some l => match k.nums l.length with
    | .error e => .error e
    | .ok is => .ok (is.filterMap (fun i => l[i]?.map fill))

/-- `labels[slice] = values`, lines 651-659: `for n in key` on a slice object. -/
def labelsSetSlice (s : Option (List Label)) (_ : Slice) (_ : List Label) : Except Err (Option (List Label)) :=
  match s with
  | none => .error .index
  | some _ => .error .type

/-- `del labels[slice]`, lines 661-667. -/
def labelsDelSlice (s : Option (List Label)) (k : Slice) : Except Err (Option (List Label)) :=
  match s with
  | none => .error .index
  | some l => match pyDelSlice l k with
    | .error e => .error e
    | .ok l' => .ok (if l'.length = 0 then none else some l')

/-- The setter of `timelabels` given a list, lines 535-538. -/
def assignLabels (_ : Option (List Label)) (vs : List Label) : Option (List Label) := extend labels (some []) vs

/-- The setter of `timelabels` given `timelabels` of the same grain: the list is emptied first, and then asked for its values. -/
def assignLabelsView (n : Nat) (_ : Option (List Label)) : Option (Option (List Label)) := extendView labels n (some []) 0

/-- `g.timelabels += vs`: `MutableSequence.__iadd__` extends the list and returns the list-like object, which python then assigns to the attribute. -/
def iaddLabels (n : Nat) (s : Option (List Label)) (vs : List Label) : Option (Option (List Label)) :=
  assignLabelsView n (extend labels s vs)

/-- `add_timelabel`, lines 540-546; the rate as numerator and denominator of the fraction. -/
def addLabel (s : Option (List Label)) (tag : String) (count num den : Int) (drop : Bool) : Option (List Label) :=
  append labels s ⟨some tag, some count, some num, some den, some drop⟩

/-! ## Unit offsets -/

/-- `UNITOFFSETS` on `meta['grain']['cog_coded_frame'].get('unit_offsets')`, CodedVideoGrain.py 336-390. -/
def offsets : Prim (Option (List Int)) Int where
  len
    | none => 0
    | some l => l.length
  get s i :=
    match s with
    | none => .error .index
    | some l => pyGet l i
  set s i v :=
    match s with
    | none => .error .index
    | some l => match pySet l i v with
      | .error e => .error e
      | .ok l' => .ok (some l')
  del s i :=
    match s with
    | none => .error .index
    | some l => match pyDel l i with
      | .error e => .error e
      | .ok l' => .ok (if l'.length = 0 then none else some l')
  insert s i v :=
    match s with
    | none => some (pyInsert [] i v)
    | some l => some (pyInsert l i v)

/-- `offsets[slice]`, lines 346-350: the list does it. -/
def offsetsGetSlice (s : Option (List Int)) (k : Slice) : Except Err (List Int) :=
  match s with
  | none => .error .index
  | some l => pyGetSlice l k

/-- `offsets[slice] = values`, lines 358-362; a list that is empty afterwards stays. -/
def offsetsSetSlice (s : Option (List Int)) (k : Slice) (vs : List Int) : Except Err (Option (List Int)) :=
  match s with
  | none => .error .index
  | some l => match pySetSlice l k vs with
    | .error e => .error e
    | .ok l' => .ok (some l')

/-- `del offsets[slice]`, lines 364-370. -/
def offsetsDelSlice (s : Option (List Int)) (k : Slice) : Except Err (Option (List Int)) :=
  match s with
  | none => .error .index
  | some l => match pyDelSlice l k with
    | .error e => .error e
    | .ok l' => .ok (if l'.length = 0 then none else some l')

/-- The setter of `unit_offsets` given a list, lines 402-407. -/
def assignOffsets (_ : Option (List Int)) (vs : List Int) : Option (List Int) := if vs.length = 0 then none else some vs

/-- The setter given `unit_offsets` of the same grain: `list(value)` is made before it is stored. -/
def assignOffsetsView (n : Nat) (s : Option (List Int)) : Option (Option (List Int)) :=
  if offsets.len s = 0 then some none else (iter offsets n s).map some

/-- `g.unit_offsets += vs` -/
def iaddOffsets (n : Nat) (s : Option (List Int)) (vs : List Int) : Option (Option (List Int)) :=
  assignOffsetsView n (extend offsets s vs)

/-! ## Components -/

/-- A component: `offset`, `stride`, `width`, `height`, `length`. -/
structure Comp where
  offset : Int
  stride : Int
  width : Int
  height : Int
  length : Int
deriving DecidableEq, Repr

/-- `COMPONENT_LIST` on `meta['grain']['cog_frame']['components']`, VideoGrain.py 201-246. A `COMPONENT` object stored in the list shows the same
values as the dictionary it wraps. -/
def comps : Prim (List Comp) Comp where
  len := List.length
  get := pyGet
  set := pySet
  del := pyDel
  insert := pyInsert

/-- `components[slice]`, lines 213-215. -/
def compsGetSlice (l : List Comp) (k : Slice) : Except Err (List Comp) :=
  match k.nums l.length with
  | .error e => .error e
  | .ok is => .ok (is.filterMap (fun i => l[i]?))

/-- `del components[slice]`, lines 233-234. -/
def compsDelSlice (l : List Comp) (k : Slice) : Except Err (List Comp) := pyDelSlice l k

/-- `components[slice] = values`, lines 228-231: value after value; too few values end with `StopIteration`, after those there are have been
stored. -/
def assignEach (l : List Comp) : List Nat → List Comp → List Comp × Option Err
  | [], _ => (l, none)
  | _ :: _, [] => (l, some .stop)
  | i :: is, v :: vs => assignEach (l.set i v) is vs

/-- `components[slice] = values`: the list afterwards and the exception, if any. -/
def compsSetSlice (l : List Comp) (k : Slice) (vs : List Comp) : List Comp × Option Err :=
  match k.nums l.length with
  | .error e => (l, some e)
  | .ok is => assignEach l is vs

end Verif.Seqs

import Verif.Bytes

/-!
# Grains as objects that share parts

The other modules model a grain's metadata as a value. This one models it as python has it: dictionaries, lists and buffers are
objects that variables and other objects refer to, so that two grains may share parts. It covers `copy` and `deepcopy` of grains
(`mediagrains/grains/Grain.py` 368-372), making a grain from a dictionary (272-276) and the setter of `timelabels` (534-538 with
546-551 and 664-667).
-/

namespace Verif.Heap

open Verif

/-- A python value: something that cannot change (`A`: numbers, text, `bytes`, `None`), or a reference to an object. -/
inductive Val (A : Type) where
  | atom (a : A)
  | ref (r : Nat)
deriving DecidableEq, Repr

/-- An object: a dictionary (in insertion order, keys are text), a list, or a buffer of bytes (`bytearray`, an array of
numpy). -/
inductive Obj (A : Type) where
  | dict (kvs : List (String × Val A))
  | list (vs : List (Val A))
  | buf (bs : Bytes)
deriving DecidableEq, Repr

/-- All objects there are; an address is a position. Nothing is ever removed. -/
abbrev Heap (A : Type) := List (Obj A)

variable {A : Type}

/-- The values an object holds. -/
def Obj.children : Obj A → List (Val A)
  | .dict kvs => kvs.map Prod.snd
  | .list vs => vs
  | .buf _ => []

/-- The same kind of object with the same keys, or bytes, and other values. -/
def Obj.refill : Obj A → List (Val A) → Obj A
  | .dict kvs, vs => .dict ((kvs.map Prod.fst).zip vs)
  | .list _, vs => .list vs
  | .buf bs, _ => .buf bs

/-- One access: `d[k]` or `l[i]`. -/
inductive Acc where
  | key (k : String)
  | idx (i : Nat)
deriving DecidableEq, Repr

def Obj.at : Obj A → Acc → Option (Val A)
  | .dict kvs, .key k => (kvs.find? (fun p => p.1 == k)).map Prod.snd
  | .list vs, .idx i => vs[i]?
  | _, _ => none

/-- What can be seen of a value without following references. -/
inductive Shape (A : Type) where
  | atom (a : A)
  | dict (keys : List String)
  | list (length : Nat)
  | buf (bs : Bytes)
deriving DecidableEq, Repr

def Obj.shape : Obj A → Shape A
  | .dict kvs => .dict (kvs.map Prod.fst)
  | .list vs => .list vs.length
  | .buf bs => .buf bs

/-- Following a path from a value and looking at what is there. -/
def look (h : Heap A) : Val A → List Acc → Option (Shape A)
  | .atom a, [] => some (.atom a)
  | .atom _, _ :: _ => none
  | .ref r, [] => h[r]?.map Obj.shape
  | .ref r, a :: p =>
    match h[r]? with
    | none => none
    | some o =>
      match o.at a with
      | none => none
      | some v => look h v p
termination_by _ p => p.length

/-! ## `copy.deepcopy` -/

structure St (A : Type) where
  heap : Heap A
  /-- `memo`: the copies made so far -/
  memo : Nat → Option Nat

/-- Copying values one after the other. -/
def eachVal (f : St A → Val A → Option (Val A × St A)) : St A → List (Val A) → Option (List (Val A) × St A)
  | s, [] => some ([], s)
  | s, v :: vs =>
    match f s v with
    | none => none
    | some (w, s1) =>
      match eachVal f s1 vs with
      | none => none
      | some (ws, s2) => some (w :: ws, s2)

/-- `copy.deepcopy` of the standard library on values, dictionaries, lists and buffers. The new object is entered in `memo`
before its contents are copied; here it is filled at the end, where python fills it piece by piece. `none`: recursion deeper than
`depth` (`RecursionError`). -/
def deep : Nat → St A → Val A → Option (Val A × St A)
  | _, s, .atom a => some (.atom a, s)
  | 0, _, .ref _ => none
  | n + 1, s, .ref r =>
    match s.memo r with
    | some r' => some (.ref r', s)
    | none =>
      match s.heap[r]? with
      | none => none
      | some o =>
        match eachVal (deep n) ⟨s.heap ++ [.list []], fun x => if x = r then some s.heap.length else s.memo x⟩ o.children with
        | none => none
        | some (vs, s') => some (.ref s.heap.length, ⟨s'.heap.set s.heap.length (o.refill vs), s'.memo⟩)

/-- `copy.copy` of a dictionary or list: a new object with the same values. -/
def shallow (h : Heap A) : Val A → Option (Val A × Heap A)
  | .atom a => some (.atom a, h)
  | .ref r => h[r]?.map (fun o => (.ref h.length, h ++ [o]))

/-! ## Grains -/

/-- A grain object: `meta` and `_data`, and whether a load is pending (`_data_fetcher_coroutine`). -/
structure GObj (A : Type) where
  info : Val A
  data : Val A
  pending : Bool
deriving DecidableEq, Repr

/-- `GrainFactory(meta, data)`, Grain.py 111-122 and 272-288: the dictionary is kept, not copied. `VideoGrain`, `AudioGrain`,
`CodedVideoGrain` and `CodedAudioGrain` put a `bytearray` in the place of data that is `None` (VideoGrain.py 335-337, AudioGrain.py 155-157,
CodedVideoGrain.py 182-183, CodedAudioGrain.py 157-158), of no bytes, since its size comes from arguments that are not given here;
`Grain` keeps `None`. `fill` says which data the class replaces. What the constructors add to incomplete metadata is in `Grain/Meta`;
metadata of a grain is complete and stays as it is (C28). `EventGrain`, whose constructor writes the payload again, is in `Grain/EventLive`. -/
def make (fill : A → Bool) (h : Heap A) (info data : Val A) : GObj A × Heap A :=
  match data with
  | .atom a => if fill a then (⟨info, .ref h.length, false⟩, h ++ [.buf []]) else (⟨info, .atom a, false⟩, h)
  | .ref r => (⟨info, .ref r, false⟩, h)

/-- `deepcopy(self.meta), deepcopy(self.data)`, lines 371-372: copied one after the other, each with a `memo` of its own. -/
def deepParts (depth : Nat) (h : Heap A) (g : GObj A) : Option ((Val A × Val A) × Heap A) :=
  match deep depth ⟨h, fun _ => none⟩ g.info with
  | none => none
  | some (m, s) =>
    match deep depth ⟨s.heap, fun _ => none⟩ g.data with
    | none => none
    | some (d, s') => some ((m, d), s'.heap)

/-- `__deepcopy__`, lines 371-372. -/
def deepcopyGrain (fill : A → Bool) (depth : Nat) (h : Heap A) (g : GObj A) : Option (GObj A × Heap A) :=
  (deepParts depth h g).map (fun x => make fill x.2 x.1.1 x.1.2)

/-- `__copy__`, lines 368-369. -/
def copyGrain (fill : A → Bool) (h : Heap A) (g : GObj A) : Option (GObj A × Heap A) :=
  (shallow h g.info).map (fun x => make fill x.2 x.1 g.data)

/-- `d[k] = v` -/
def Obj.setKey (k : String) (v : Val A) : Obj A → Obj A
  | .dict kvs => if kvs.any (fun p => p.1 == k) then .dict (kvs.map (fun p => if p.1 == k then (k, v) else p)) else .dict (kvs ++ [(k, v)])
  | o => o

/-- `d[k] = v` for the object at `r`. -/
def store (h : Heap A) (r : Val A) (k : String) (v : Val A) : Option (Heap A) :=
  match r with
  | .atom _ => none
  | .ref r => h[r]?.map (fun o => h.set r (o.setKey k v))

/-- `meta['grain'][k] = v`: what the setters of identifiers, times, rate and duration come to (Grain.py 427-528). -/
def setInner (h : Heap A) (g : GObj A) (k : String) (v : Val A) : Option (Heap A) :=
  match g.info with
  | .atom _ => none
  | .ref r =>
    match h[r]? with
    | none => none
    | some o =>
      match o.at (.key "grain") with
      | none => none
      | some i => store h i k v

/-- `list(value).append`, one round of the setter of `timelabels` (lines 534-538, 664-667): `dict(TIMELABEL(x))` for a complete time label is a
new dictionary with the same values. -/
def appendLabel (h : Heap A) (target : Nat) (x : Val A) : Option (Heap A) :=
  match shallow h x with
  | none => none
  | some (v, h') =>
    match h'[target]? with
    | some (.list vs) => some (h'.set target (.list (vs ++ [v])))
    | _ => none

end Verif.Heap

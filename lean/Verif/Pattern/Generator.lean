/-!
# Pattern generators: indexing, ranges and copies

Models `mediagrains/patterngenerators/abc.py` (`__getitem__`, `get_range`, `FixedRatePatternGenerator`), `video/still.py`
(`StillPatternGenerator.get`) and the copying part of `video/movingbaroverlay.py`. Time values and ranges come from another library: a time
value is an element of any type `T`, and a range is the list of the time values its iterator yields (of an infinite range, as many as are
looked at).
-/

namespace Verif.Pattern

/-- How the iterator of `get_range` ends: `ZeroDivisionError` is raised when the first position is looked at. -/
inductive Positions (T : Type) where
  | zeroDivision
  | ok (l : List T)
deriving DecidableEq, Repr

/-- The positions whose grains `get_range` asks for, abc.py 107-113: `i % skip == 0`. -/
def positionsOf {T : Type} (rng : List T) (skip : Int) : Positions T :=
  if skip = 1 then .ok rng
  else if skip = 0 ∧ rng ≠ [] then .zeroDivision
  else .ok ((rng.zipIdx.filter (fun p => (p.2 : Int) % skip = 0)).map (fun p => p.1))

/-- A range as made by `TimeValueRange`: whether it has a first value, its rate if any, and the values it yields at a rate. -/
structure Range (T R : Type) where
  bounded : Bool
  rate : Option R
  values : Option R → List T

/-- The step of a slice. -/
inductive Step (R : Type) where
  | none
  | skip (n : Int)
  /-- a time between grains: it gives the rate -/
  | every (r : R)

/-- The argument of `__getitem__`, abc.py 60-92: a slice, with the range of its `start` and `stop`, a range, a value, or something else. -/
inductive Key (T R : Type) where
  | slice (values : Option R → List T) (bounded : Bool) (step : Step R)
  | range (r : Range T R)
  | value (t : T)
  | invalid

/-- What `__getitem__` does: an exception, one call of `get` (with `KeyError` for `None`), or an iterator over positions. -/
inductive Indexed (T : Type) where
  | valueError
  | one (t : T)
  | many (p : Positions T)

/-- `get_range` of a generator with a fixed rate, abc.py 132-135. -/
def fixedRange {T R : Type} (own : R) (r : Range T R) (skip : Int) : Positions T :=
  positionsOf (r.values (match r.rate with | none => some own | some x => some x)) skip

/-- `__getitem__`, abc.py 60-105. -/
def getItem {T R : Type} (own : R) : Key T R → Indexed T
  | .slice values bounded step =>
    let rate := match step with | .every r => some r | _ => none
    let skip := match step with | .skip n => n | _ => 1
    if bounded = false then .valueError else .many (fixedRange own ⟨bounded, rate, values⟩ skip)
  | .range r => if r.bounded = false then .valueError else .many (fixedRange own r 1)
  | .value t => .one t
  | .invalid => .valueError

/-- A grain as an object: two timestamps, and everything else (identifiers, format, data) in `body`. -/
structure Obj (M : Type) where
  origin : Int
  sync : Int
  body : M
deriving DecidableEq, Repr

/-- `TimeValue(key, rate=self.rate)` and `as_timestamp`. Converting twice is converting once. -/
structure Clock (T : Type) where
  snap : T → T
  stamp : T → Int
  twice : ∀ t, snap (snap t) = snap t

/-- A still generator, or bars moving over another generator: `draw` is what the overlay does to the grain at a timestamp. -/
inductive Pattern (M : Type) where
  | still
  | overlay (source : Pattern M) (draw : Int → M → M)

/-- What a call of `get` gives; references are indices in the heap. -/
inductive Result where
  | absent
  | keyError
  | grain (ref : Nat)
deriving DecidableEq, Repr

/-- `get`, still.py 40-49 and movingbaroverlay.py 69-98, with `default` left out. The template is the object `t` in the heap; `deepcopy`
makes a new object at the end of the heap; the overlay changes the object it got from its source. -/
def Pattern.get {T M : Type} [DecidableEq T] (c : Clock T) (t : Nat) : Pattern M → T → List (Obj M) → Result × List (Obj M)
  | .still, key, heap =>
    if c.snap key = key then
      match heap[t]? with
      | none => (.absent, heap)
      | some o => (.grain heap.length, heap ++ [{ o with origin := c.stamp key, sync := c.stamp key }])
    else (.absent, heap)
  | .overlay source draw, key, heap =>
    match source.get c t (c.snap key) heap with
    | (.absent, heap) => (.keyError, heap)
    | (.keyError, heap) => (.keyError, heap)
    | (.grain r, heap) => (.grain r, heap.modify r (fun o => { o with body := draw o.origin o.body }))

/-- A client: it asks for grains, and it may overwrite any grain it holds. -/
inductive Act (T M : Type) where
  | ask (key : T)
  | write (held : Nat) (o : Obj M)

/-- The heap, and the references the client holds. -/
structure World (M : Type) where
  heap : List (Obj M)
  held : List Nat

def World.act {T M : Type} [DecidableEq T] (c : Clock T) (t : Nat) (p : Pattern M) (w : World M) : Act T M → World M
  | .ask key =>
    match p.get c t key w.heap with
    | (.grain r, heap) => ⟨heap, w.held ++ [r]⟩
    | (_, heap) => { w with heap := heap }
  | .write i o =>
    match w.held[i]? with
    | none => w
    | some r => { w with heap := w.heap.set r o }

def World.run {T M : Type} [DecidableEq T] (c : Clock T) (t : Nat) (p : Pattern M) (w : World M) (as : List (Act T M)) : World M :=
  as.foldl (World.act c t p) w

/-- The iterator of `get_range` over given positions: after each grain the client acts as it likes. Yields the grains as they are when they
are yielded; `none` stands for `KeyError`. -/
def iterate {T M : Type} [DecidableEq T] (c : Clock T) (t : Nat) (p : Pattern M) (client : Nat → List (Act T M)) :
    List T → World M → List (Option (Obj M))
  | [], _ => []
  | key :: keys, w =>
    match p.get c t key w.heap with
    | (.absent, heap) => iterate c t p client keys { w with heap := heap }
    | (.keyError, _) => [none]
    | (.grain r, heap) => heap[r]? :: iterate c t p client keys (World.run c t p ⟨heap, w.held ++ [r]⟩ (client r))

end Verif.Pattern

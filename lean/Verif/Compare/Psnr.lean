import Verif.Numpy.Arrays
import Verif.Compare.Model

/-!
# Peak signal to noise ratios

Models `mediagrains/comparison/psnr.py` and the operators of `mediagrains/comparison/options.py` that make options
(lines 57-166).

Simplifications: arithmetic is exact, where numpy uses doubles; a ratio in decibels, `10 * log10(r)`, is represented
by `r`, of which it is a growing function; infinite and undefined floating point samples are left out; `max_val` is not given.
-/

namespace Verif.Compare.Psnr

open Verif Verif.Cog Verif.Numpy.Arrays Verif.Compare

/-- A two dimensional array; the arrays of audio channels have one line. -/
structure Arr where
  width : Nat
  height : Nat
  val : Nat → Nat → Rat

/-- Broadcasting of one dimension: arrays of length one are repeated. -/
def bdim (m n : Nat) : Option Nat :=
  if m = n then some m else if m = 1 then some n else if n = 1 then some m else none

/-- The element of a broadcast array. -/
def Arr.at (a : Arr) (x y : Nat) : Rat := a.val (if a.width = 1 then 0 else x) (if a.height = 1 then 0 else y)

/-- The sum of all elements. -/
def sum2 (w h : Nat) (f : Nat → Nat → Rat) : Rat :=
  ((List.range w).map (fun x => ((List.range h).map (fun y => f x y)).sum)).sum

/-- A ratio: `nan` is the mean of nothing, `inf` is what is returned for no error. -/
inductive Psnr where
  | nan
  | inf
  | ratio (r : Rat)
  deriving DecidableEq, Repr

/-- `_compute_element_psnr` with `_compute_element_mse`, lines 39-63; `none`: the shapes do not fit (`ValueError`).
For an array without elements the mean is `nan`, and so is the result. -/
def elemPsnr (a b : Arr) (peak : Rat) : Option Psnr :=
  match bdim a.width b.width, bdim a.height b.height with
  | some w, some h =>
    if w * h = 0 then some .nan
    else
      let mse := sum2 w h (fun x y => (a.at x y - b.at x y) * (a.at x y - b.at x y)) / ((w * h : Nat) : Rat)
      if mse = 0 then some .inf else some (.ratio (peak * peak / mse))
  | _, _ => none

/-- The loop over `zip(…)` of lines 101-102 and 132-133. -/
def each (peak : Rat) : List Arr → List Arr → Option (List Psnr)
  | a :: as, b :: bs =>
    match elemPsnr a b peak with
    | none => none
    | some p => (each peak as bs).map (fun l => p :: l)
  | _, _ => some []

/-- A grain: what is used of it. `writable`: the data is something that numpy can write to. -/
inductive PGrain where
  | video (fmt width height : Nat) (comps : List Component) (data : Option Bytes)
  | audio (fmt channels samples : Nat) (writable : Bool) (data : Option Bytes)
  | other (type : String)

/-- The component array as an array of numbers; all video types are unsigned. Memory outside the data has no known
content. -/
def viewArr (v : View) (data : Bytes) : Arr := ⟨v.width, v.height, fun x y => (uintOf ((v.get data x y).getD []) : Nat)⟩

/-- A channel array: signed integers, or floating point numbers with the value `fl`. -/
def chanArr (fl : Bytes → Rat) (fmt : Nat) (v : ChanView) (mem : Bytes) : Arr :=
  ⟨v.count, 1, fun k _ =>
    let b := (v.get mem k).getD []
    if audioIsInt fmt then (signFix (uintOf b) b.length : Int) else fl b⟩

/-- `numpy_VideoGrain(grain=…).component_data`. -/
def videoArrs (fmt : Nat) (comps : List Component) : Option Bytes → Except ArrErr (List Arr)
  | none => .ok []
  | some data => (videoArrays fmt data.length comps).map (fun vs => vs.map (fun v => viewArr v data))

/-- `numpy_AudioGrain(grain=…).channel_data`. -/
def audioArrs (fl : Bytes → Rat) (fmt channels samples : Nat) (writable : Bool) : Option Bytes → Except ArrErr (List Arr)
  | none => .ok []
  | some data => (audioChannels fmt samples channels writable data).map (fun r => r.views.map (fun v => chanArr fl fmt v r.mem))

/-- The exceptions that `PSNRComparisonResult` distinguishes. -/
def outOf {α : Type} : ArrErr → PsnrOut α
  | .notImplemented => .unsupported
  | .value => .raised

/-- Two lists of arrays compared. -/
def arrsPsnr (peak : Rat) (a b : Except ArrErr (List Arr)) : PsnrOut (List Psnr) :=
  match a with
  | .error e => outOf e
  | .ok as =>
    match b with
    | .error e => outOf e
    | .ok bs =>
      match each peak as bs with
      | none => .raised
      | some l => .ok l

/-- Lines 86-96; for 64 bit samples there is no maximum. -/
def audioPeak (fmt : Nat) : Option Rat :=
  if audioIsFloat fmt ∨ audioIsDouble fmt then some 1
  else if audioDepth fmt = 0 then some (1 <<< 15 : Nat)
  else if audioDepth fmt = 4 then some (1 <<< 31 : Nat)
  else if audioDepth fmt = 8 then some (1 <<< 31 : Nat)
  else none

/-- Line 129. -/
def videoPeak (fmt : Nat) : Rat := ((1 <<< activeBits fmt - 1 : Nat) : Rat)

/-- `compute_psnr`, lines 66-157. Audio samples of 64 bits raise (unless there is no error in any channel, which is left
out). -/
def computePsnr (fl : Bytes → Rat) : PGrain → PGrain → PsnrOut (List Psnr)
  | .video fa wa ha ca da, .video fb wb hb cb db =>
    if wa ≠ wb ∨ ha ≠ hb then .raised
    else if isCompressed fa then .unsupported
    else arrsPsnr (videoPeak fa) (videoArrs fa ca da) (videoArrs fb cb db)
  | .audio fa ca sa wa da, .audio fb cb sb wb db =>
    if ca ≠ cb then .raised
    else if sa ≠ sb then .raised
    else if fa ≠ fb then .unsupported
    else if audioIsCompressed fa then .unsupported
    else
      match audioPeak fa with
      | none => .raised
      | some peak => arrsPsnr peak (audioArrs fl fa ca sa wa da) (audioArrs fl fb cb sb wb db)
  | _, _ => .raised

/-- The data of an audio grain after a numpy grain was made over it. -/
def dataAfter (fmt channels samples : Nat) (writable : Bool) (data : Bytes) : Bytes :=
  match audioChannels fmt samples channels writable data with
  | .ok r => r.data
  | .error _ => data

/-! ## The operators that make options -/

/-- The six comparisons. -/
inductive Cmp where
  | eq | ne | lt | le | gt | ge
  deriving DecidableEq, Repr

/-- `ExpectedDifference.x < t` and so on, lines 64-86, for a time `t` in nanoseconds. -/
def expected {P : Type} (attr : String) (c : Cmp) (t : Int) : Opt P :=
  .diff ("{}." ++ attr) (fun x => match c with
    | .eq => x == t
    | .ne => x != t
    | .lt => decide (x < t)
    | .le => decide (x ≤ t)
    | .gt => decide (x > t)
    | .ge => decide (x ≥ t))

/-- `_compare_psnr`, lines 128-163: `zip` of the ratios with the limits; `test` is the comparison of numbers. -/
def meets {F : Type} (test : F → F → Bool) (x : List F) (limits : List (Option F)) : Bool :=
  (x.zip limits).all (fun p => match p.2 with | none => true | some l => test p.1 l)

/-- `PSNR.data > limits` and so on, for one comparison. -/
def psnrOpt {F : Type} (test : F → F → Bool) (attr : String) (limits : List (Option F)) : Opt (List F) :=
  .psnr ("{}." ++ attr) (fun x => meets test x limits)

/-- What can stand beside `&` and `|`: `ExpectedDifference.x` itself or an option made from it. -/
inductive Operand where
  | bare (path : String)
  | made (path : String) (matcher : Int → Bool)

/-- What becomes of a combination: an exception when it is made, or an option whose matcher raises when it is used. -/
inductive Combined where
  | raises
  | raisesLater
  | works (m : Int → Bool)

/-- `left & right` or `left | right`, lines 88-112. An option has no such operator, and there is none for the right side,
so python raises `TypeError`; `ExpectedDifference.x` has one, which checks that the other is an option with the same path, and then
makes a matcher with `self.matcher`, which is not there: `__getattr__` makes it an object that cannot be called. -/
def combine : Operand → Operand → Combined
  | .made _ _, _ => .raises
  | .bare _, .bare _ => .raises
  | .bare p, .made q _ => if q ≠ p then .raises else .raisesLater

end Verif.Compare.Psnr

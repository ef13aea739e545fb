import Verif.Props.C41

/-!
# C62: H.264 parameter sets and slice headers are read as they are written

The specification is the syntax of ISO/IEC 14496-10, 7.3.2.1.1 (sequence parameter sets), 7.3.2.2 (picture parameter sets),
7.3.3 (slice headers) and E.1.1 (VUI), as far as the fields the parser looks at and those it skips on the way to them: records of
the syntax elements, and the bits they are written as.
-/

namespace Verif.Props.H264Syntax

open Verif Verif.Wrap Verif.Props.H264Bits

/-! ## Specification -/

/-- A presence flag and what it announces. -/
def announced {α : Type} (w : α → List Bool) : Option α → List Bool
  | none => [false]
  | some a => true :: w a

/-- 7.3.2.1.1.1: the `delta_scale` of a scaling list with `n` entries to come after one of `last`. A next scale of zero ends the
list. -/
def Deltas : Nat → Int → List Int → Prop
  | 0, _, ds => ds = []
  | _ + 1, _, [] => False
  | n + 1, last, d :: ds =>
    ((last + d + 256) % 256 = 0 ∧ ds = []) ∨ ((last + d + 256) % 256 ≠ 0 ∧ Deltas n ((last + d + 256) % 256) ds)

/-- The fields of the high profiles. -/
structure Chroma where
  format : Nat
  separatePlanes : Bool
  lumaDepthMinus8 : Nat
  chromaDepthMinus8 : Nat
  bypass : Bool
  scaling : Option (List (Option (List Int)))

def Chroma.bits (c : Chroma) : List Bool :=
  [ueCode c.format, if c.format = 3 then [c.separatePlanes] else [], ueCode c.lumaDepthMinus8, ueCode c.chromaDepthMinus8, [c.bypass],
    announced (fun lists => lists.flatMap (announced (fun ds => ds.flatMap seCode))) c.scaling].flatten

structure Chroma.Valid (c : Chroma) : Prop where
  format : c.format ≤ 3
  separate : c.separatePlanes = true → c.format = 3
  luma : c.lumaDepthMinus8 ≤ 6
  chroma : c.chromaDepthMinus8 ≤ 6
  lists : ∀ l, c.scaling = some l → l.length = if c.format = 3 then 12 else 8
  deltas : ∀ l i ds, c.scaling = some l → l[i]? = some (some ds) → Deltas (if i < 6 then 16 else 64) 8 ds

/-- Picture order counts. -/
inductive Poc
  | lsb (log2MaxMinus4 : Nat)
  | cycle (alwaysZero : Bool) (nonRef topToBottom : Int) (refs : List Int)
  | output

def Poc.type : Poc → Nat
  | .lsb _ => 0
  | .cycle .. => 1
  | .output => 2

def Poc.log2MaxMinus4 : Poc → Nat
  | .lsb n => n
  | _ => 0

def Poc.alwaysZero : Poc → Bool
  | .cycle z .. => z
  | _ => false

def Poc.bits : Poc → List Bool
  | .lsb n => [ueCode 0, ueCode n].flatten
  | .cycle z a b refs => [ueCode 1, [z], seCode a, seCode b, ueCode refs.length, refs.flatMap seCode].flatten
  | .output => ueCode 2

structure Crop where
  left : Nat
  right : Nat
  top : Nat
  bottom : Nat

def Crop.bits (c : Crop) : List Bool := [ueCode c.left, ueCode c.right, ueCode c.top, ueCode c.bottom].flatten

/-- The sample aspect ratio: an entry of Table E-1, or 255 and the numbers. -/
inductive Aspect
  | entry (idc : Nat)
  | extended (width height : Nat)

def Aspect.bits : Aspect → List Bool
  | .entry n => bin 8 n
  | .extended w h => [bin 8 255, bin 16 w, bin 16 h].flatten

def Aspect.Valid : Aspect → Prop
  | .entry n => n < 255
  | .extended w h => w < 2 ^ 16 ∧ h < 2 ^ 16

def aspectIdc : Option Aspect → Nat
  | none => 0
  | some (.entry n) => n
  | some (.extended _ _) => 255

def sarWidth : Option Aspect → Nat
  | some (.extended w _) => w
  | _ => 0

def sarHeight : Option Aspect → Nat
  | some (.extended _ h) => h
  | _ => 0

structure Signal where
  format : Nat
  fullRange : Bool
  colour : Option (Nat × Nat × Nat)

def Signal.bits (s : Signal) : List Bool :=
  [bin 3 s.format, [s.fullRange], announced (fun c => [bin 8 c.1, bin 8 c.2.1, bin 8 c.2.2].flatten) s.colour].flatten

structure Signal.Valid (s : Signal) : Prop where
  format : s.format < 8
  colour : ∀ c, s.colour = some c → c.1 < 256 ∧ c.2.1 < 256 ∧ c.2.2 < 256

structure Timing where
  unitsInTick : Nat
  timeScale : Nat
  fixed : Bool

def Timing.bits (t : Timing) : List Bool := [bin 32 t.unitsInTick, bin 32 t.timeScale, [t.fixed]].flatten

/-- E.1.1, up to the timing. -/
structure Vui where
  aspect : Option Aspect
  overscan : Option Bool
  signal : Option Signal
  chromaLoc : Option (Nat × Nat)
  timing : Option Timing

def Vui.bits (v : Vui) : List Bool :=
  [announced Aspect.bits v.aspect, announced (fun b => [b]) v.overscan, announced Signal.bits v.signal,
    announced (fun l => [ueCode l.1, ueCode l.2].flatten) v.chromaLoc, announced Timing.bits v.timing].flatten

structure Vui.Valid (v : Vui) : Prop where
  aspect : ∀ a, v.aspect = some a → a.Valid
  signal : ∀ s, v.signal = some s → s.Valid
  timing : ∀ t, v.timing = some t → t.unitsInTick < 2 ^ 32 ∧ t.timeScale < 2 ^ 32

/-- 7.3.2.1.1; `fields` is `none` for `frame_mbs_only_flag` 1, otherwise it has `mb_adaptive_frame_field_flag`. -/
structure Sps where
  refIdc : Nat
  profile : Nat
  flags : Nat
  level : Nat
  id : Nat
  chroma : Option Chroma
  log2MaxFrameNumMinus4 : Nat
  poc : Poc
  maxRefFrames : Nat
  gaps : Bool
  widthMbsMinus1 : Nat
  heightMapUnitsMinus1 : Nat
  fields : Option Bool
  direct : Bool
  crop : Option Crop
  vui : Option Vui

/-- The unit header (type 7) and the fields. -/
def Sps.bits (x : Sps) : List Bool :=
  [bin 1 0, bin 2 x.refIdc, bin 5 7, bin 8 x.profile, bin 8 x.flags, bin 8 x.level, ueCode x.id,
    match x.chroma with | none => [] | some c => c.bits,
    ueCode x.log2MaxFrameNumMinus4, x.poc.bits, ueCode x.maxRefFrames, [x.gaps], ueCode x.widthMbsMinus1,
    ueCode x.heightMapUnitsMinus1, match x.fields with | none => [true] | some a => [false, a],
    [x.direct], announced Crop.bits x.crop, announced Vui.bits x.vui].flatten

/-- The profiles with chroma fields, 7.3.2.1.1. -/
def highProfile (n : Nat) : Prop := n ∈ [44, 83, 86, 100, 110, 118, 122, 128, 134, 135, 138, 139, 244]

structure Sps.Valid (x : Sps) : Prop where
  refIdc : x.refIdc < 4
  profile : x.profile < 256
  flags : x.flags < 256
  level : x.level < 256
  id : x.id ≤ 31
  high : x.chroma.isSome = true ↔ highProfile x.profile
  chroma : ∀ c, x.chroma = some c → c.Valid
  refs : ∀ z a b refs, x.poc = .cycle z a b refs → refs.length ≤ 255
  vui : ∀ v, x.vui = some v → v.Valid

/-- 7.4.2.1.1: `ChromaArrayType`; the format is 1 (4:2:0) if it is not written. -/
def Sps.chromaArrayType (x : Sps) : Nat :=
  match x.chroma with
  | none => 1
  | some c => if c.separatePlanes then 0 else c.format

def Sps.separatePlanes (x : Sps) : Bool := match x.chroma with | none => false | some c => c.separatePlanes

/-- What the parser should have found. -/
def Sps.found (x : Sps) : H264.SPS where
  id := x.id
  profileIdc := x.profile
  flags := x.flags
  levelIdc := x.level
  chromaArrayType := x.chromaArrayType
  separateColourPlane := x.separatePlanes
  bitDepthLumaMinus8 := match x.chroma with | none => 0 | some c => c.lumaDepthMinus8
  log2MaxFrameNumMinus4 := x.log2MaxFrameNumMinus4
  pocType := x.poc.type
  log2MaxPocLsbMinus4 := x.poc.log2MaxMinus4
  deltaPicOrderAlwaysZero := x.poc.alwaysZero
  widthMbsMinus1 := x.widthMbsMinus1
  heightMapUnitsMinus1 := x.heightMapUnitsMinus1
  frameMbsOnly := x.fields.isNone
  cropLeft := match x.crop with | none => 0 | some c => c.left
  cropRight := match x.crop with | none => 0 | some c => c.right
  cropTop := match x.crop with | none => 0 | some c => c.top
  cropBottom := match x.crop with | none => 0 | some c => c.bottom
  aspectRatioIdc := aspectIdc (x.vui.bind Vui.aspect)
  sarWidth := H264Syntax.sarWidth (x.vui.bind Vui.aspect)
  sarHeight := H264Syntax.sarHeight (x.vui.bind Vui.aspect)
  timing := (x.vui.bind Vui.timing).map (fun t => (t.unitsInTick, t.timeScale, t.fixed))

/-- 7.3.2.2: how the picture is divided into `countMinus1 + 1` slice groups. -/
inductive Map
  | interleaved (runs : List Nat)
  | dispersed
  | foreground (corners : List (Nat × Nat))
  | changing (type : Nat) (direction : Bool) (rateMinus1 : Nat)
  | explicit (ids : List Nat)

structure Groups where
  countMinus1 : Nat
  map : Map

/-- `Ceil(Log2(n))` -/
def ceilLog2 (n : Nat) : Nat := if n ≤ 1 then 0 else Nat.log2 (n - 1) + 1

def Groups.bits (g : Groups) : List Bool :=
  match g.map with
  | .interleaved runs => [ueCode 0, runs.flatMap ueCode].flatten
  | .dispersed => ueCode 1
  | .foreground corners => [ueCode 2, corners.flatMap (fun c => [ueCode c.1, ueCode c.2].flatten)].flatten
  | .changing type direction rate => [ueCode type, [direction], ueCode rate].flatten
  | .explicit ids => [ueCode 6, ueCode (ids.length - 1), ids.flatMap (bin (ceilLog2 (g.countMinus1 + 1)))].flatten

/-- `num_slice_groups_minus1` is zero if there is one group. -/
def groupsBits : Option Groups → List Bool
  | none => ueCode 0
  | some g => [ueCode g.countMinus1, g.bits].flatten

structure Groups.Valid (g : Groups) : Prop where
  count : 0 < g.countMinus1
  runs : ∀ runs, g.map = .interleaved runs → runs.length = g.countMinus1 + 1
  corners : ∀ c, g.map = .foreground c → c.length = g.countMinus1
  type : ∀ t d r, g.map = .changing t d r → t = 3 ∨ t = 4 ∨ t = 5
  ids : ∀ ids, g.map = .explicit ids → 0 < ids.length ∧ ∀ i ∈ ids, i ≤ g.countMinus1

/-- 7.3.2.2, up to the last field the parser looks at. -/
structure Pps where
  refIdc : Nat
  id : Nat
  spsId : Nat
  entropy : Bool
  bottomFieldPicOrder : Bool
  groups : Option Groups
  l0Minus1 : Nat
  l1Minus1 : Nat
  weighted : Bool
  bipred : Nat
  qp : Int
  qs : Int
  chromaQp : Int
  deblocking : Bool
  constrained : Bool
  redundantPicCntPresent : Bool

def Pps.bits (x : Pps) : List Bool :=
  [bin 1 0, bin 2 x.refIdc, bin 5 8, ueCode x.id, ueCode x.spsId, [x.entropy], [x.bottomFieldPicOrder],
    groupsBits x.groups,
    ueCode x.l0Minus1, ueCode x.l1Minus1, [x.weighted], bin 2 x.bipred, seCode x.qp, seCode x.qs, seCode x.chromaQp, [x.deblocking],
    [x.constrained], [x.redundantPicCntPresent]].flatten

structure Pps.Valid (x : Pps) : Prop where
  refIdc : x.refIdc < 4
  groups : ∀ g, x.groups = some g → g.Valid
  bipred : x.bipred < 4

/-- No slice groups by explicit assignment. -/
def Pps.NotExplicit (x : Pps) : Prop := ∀ g ids, x.groups = some g → g.map ≠ .explicit ids

def Pps.found (x : Pps) : H264.PPS := ⟨x.id, x.spsId, x.bottomFieldPicOrder, x.redundantPicCntPresent⟩

/-- 7.3.3, up to the last field the parser looks at; `field` is `none` for a frame, and whether it is the bottom one for a field. -/
structure SliceHeader where
  refIdc : Nat
  unitType : Nat
  firstMb : Nat
  type : Nat
  ppsId : Nat
  colourPlane : Nat
  frameNum : Nat
  field : Option Bool
  idrPicId : Nat
  pocLsb : Nat
  deltaPocBottom : Int
  deltaPoc0 : Int
  deltaPoc1 : Int
  redundantPicCnt : Nat

/-- `field_pic_flag` and `bottom_field_flag`. -/
def fieldBits : Option Bool → Option Bool → List Bool
  | none, _ => []
  | some _, none => [false]
  | some _, some bottom => [true, bottom]

/-- The fields after the picture parameter set is known. -/
def SliceHeader.restBits (p : Pps) (s : Sps) (x : SliceHeader) : List Bool :=
  [if s.separatePlanes = true then bin 2 x.colourPlane else [],
    bin (s.log2MaxFrameNumMinus4 + 4) x.frameNum,
    fieldBits s.fields x.field,
    if x.unitType = 5 then ueCode x.idrPicId else [],
    match s.poc with
      | .lsb n => bin (n + 4) x.pocLsb ++ if p.bottomFieldPicOrder = true ∧ x.field = none then seCode x.deltaPocBottom else []
      | .cycle false _ _ _ => seCode x.deltaPoc0 ++ if p.bottomFieldPicOrder = true ∧ x.field = none then seCode x.deltaPoc1 else []
      | _ => [],
    if p.redundantPicCntPresent = true then ueCode x.redundantPicCnt else []].flatten

/-- The unit header and the fields. -/
def SliceHeader.bits (p : Pps) (s : Sps) (x : SliceHeader) : List Bool :=
  [bin 1 0, bin 2 x.refIdc, bin 5 x.unitType, ueCode x.firstMb, ueCode x.type, ueCode x.ppsId, x.restBits p s].flatten

/-- The fields fit; those that are not written have the values 7.4.3 infers: zero. -/
structure SliceHeader.Valid (p : Pps) (s : Sps) (x : SliceHeader) : Prop where
  refIdc : x.refIdc < 4
  unitType : x.unitType < 32
  colourPlane : x.colourPlane < 4
  frameNum : x.frameNum < 2 ^ (s.log2MaxFrameNumMinus4 + 4)
  field : s.fields = none → x.field = none
  idrPicId : x.unitType ≠ 5 → x.idrPicId = 0
  pocLsb : ∀ n, s.poc = .lsb n → x.pocLsb < 2 ^ (n + 4)
  noLsb : (∀ n, s.poc ≠ .lsb n) → x.pocLsb = 0 ∧ x.deltaPocBottom = 0
  noCycle : (∀ a b r, s.poc ≠ .cycle false a b r) → x.deltaPoc0 = 0 ∧ x.deltaPoc1 = 0
  noBottom : ¬(p.bottomFieldPicOrder = true ∧ x.field = none) → x.deltaPocBottom = 0 ∧ x.deltaPoc1 = 0
  redundant : p.redundantPicCntPresent = false → x.redundantPicCnt = 0

def SliceHeader.found (x : SliceHeader) : H264.Slice where
  sliceType := x.type
  refIdc := x.refIdc
  ppsId := x.ppsId
  fieldPic := x.field.isSome
  idr := x.unitType == 5
  idrPicId := x.idrPicId
  pocLsb := x.pocLsb
  deltaPocBottom := x.deltaPocBottom
  deltaPoc0 := x.deltaPoc0
  deltaPoc1 := x.deltaPoc1
  redundantPicCnt := x.redundantPicCnt
  frameNum := x.frameNum
  bottomField := x.field == some true

/-! ## Reading what was written -/

/-- The program reads the bits as the value, whatever follows. -/
def Reads {α : Type} (p : Prog α) (l : List Bool) (a : α) : Prop := ∀ r, p.run (l ++ r) = .ok a r

theorem run_bind {α β : Type} (p : Prog α) (g : α → Prog β) (l : List Bool) :
    (p.bind g).run l = match p.run l with | .ok a r => (g a).run r | .short => .short | .invalid => .invalid := by
  induction p generalizing l with
  | ret a => rfl
  | fail => rfl
  | u n k ih =>
    rw [Prog.bind, Prog.run, Prog.run]
    cases readU n l with
    | ok a r => exact ih a r
    | short => rfl
    | invalid => rfl
  | ue k ih =>
    rw [Prog.bind, Prog.run, Prog.run]
    cases readUe l with
    | ok a r => exact ih a r
    | short => rfl
    | invalid => rfl
  | se k ih =>
    rw [Prog.bind, Prog.run, Prog.run]
    cases readSe l with
    | ok a r => exact ih a r
    | short => rfl
    | invalid => rfl

theorem reads_ret {α : Type} (a : α) : Reads (.ret a) [] a := fun _ => rfl

theorem reads_append {α β : Type} {p : Prog α} {g : α → Prog β} {l m : List Bool} {a : α} {b : β} (h : Reads p l a)
    (h' : Reads (g a) m b) : Reads (p >>= g) (l ++ m) b := by
  intro r
  show (p.bind g).run _ = _
  rw [run_bind, List.append_assoc, h]
  exact h' r

theorem reads_cons {α β : Type} {p : Prog α} {g : α → Prog β} {l : List Bool} {ls : List (List Bool)} {a : α} {b : β}
    (h : Reads p l a) (h' : Reads (g a) ls.flatten b) : Reads (p >>= g) (l :: ls).flatten b := reads_append h h'

theorem reads_last {α β : Type} {p : Prog α} {g : α → Prog β} {l : List Bool} {a : α} {b : β} (h : Reads p l a)
    (h' : Reads (g a) [] b) : Reads (p >>= g) l b := by
  have := reads_append h h'
  rwa [List.append_nil] at this

theorem reads_skip {α β : Type} {p : Prog α} {g : α → Prog β} {l : List Bool} {a : α} {b : β} (h : Reads p [] a)
    (h' : Reads (g a) l b) : Reads (p >>= g) l b := reads_append (l := []) h h'

theorem reads_ue (n : Nat) : Reads ue (ueCode n) n := by
  intro r
  rw [ue, Prog.run, (C41_ue n _ r).2 rfl]
  rfl

theorem reads_se (v : Int) : Reads se (seCode v) v := by
  intro r
  rw [se, Prog.run, (C41_se v _ r).2 rfl]
  rfl

theorem reads_uint {w n : Nat} (hw : 0 < w) (hn : n < 2 ^ w) : Reads (uint w) (bin w n) n := by
  intro r
  rw [uint, Prog.run, (C41_uint w n hw hn _ r).2 rfl]
  rfl

theorem reads_flag (b : Bool) : Reads flag [b] b := by
  intro r
  have : bin 1 b.toNat = [b] := by cases b <;> rfl
  rw [flag, Prog.run, ← this, (C41_uint 1 b.toNat (by omega) (by cases b <;> decide) _ r).2 rfl]
  cases b <;> rfl

theorem reads_require {c : Bool} (h : c = true) : Reads (require c) [] () := by
  rw [h]; exact reads_ret ()

theorem reads_optional_none {α : Type} {c : Bool} (h : c = false) (p : Prog α) (d : α) : Reads (optional c p d) [] d := by
  rw [h]; exact reads_ret d

theorem reads_optional_some {α : Type} {c : Bool} (h : c = true) {p : Prog α} {l : List Bool} {a : α} (d : α) (hp : Reads p l a) :
    Reads (optional c p d) l a := by
  rw [h]; exact hp

theorem reads_when_none {c : Bool} (h : c = false) (p : Prog Unit) : Reads (when' c p) [] () := by
  rw [h]; exact reads_ret ()

theorem reads_when_some {c : Bool} (h : c = true) {p : Prog Unit} {l : List Bool} (hp : Reads p l ()) : Reads (when' c p) l () := by
  rw [h]; exact hp

theorem reads_times {α : Type} {p : Prog Unit} {w : α → List Bool} (as : List α) (h : ∀ a ∈ as, Reads p (w a) ()) :
    Reads (times as.length p) (as.flatMap w) () := by
  induction as with
  | nil => exact reads_ret ()
  | cons a as ih =>
    rw [List.flatMap_cons]
    exact reads_append (h a (by simp)) (ih (fun b hb => h b (by simp [hb])))

/-- A flag and a value, with a default. -/
theorem reads_announced {α β γ : Type} {p : Prog β} {w : α → List Bool} (x : Option α) (d : β) (f : α → β)
    (h : ∀ a, x = some a → Reads p (w a) (f a)) {g : β → Prog γ} {l : List Bool} {c : γ}
    (hg : Reads (g (match x with | none => d | some a => f a)) l c) :
    Reads (flag >>= fun b => optional b p d >>= g) (announced w x ++ l) c := by
  cases x with
  | none => exact reads_append (reads_flag false) (reads_skip (reads_ret d) hg)
  | some a =>
    show Reads _ ([true] ++ (w a ++ l)) c
    exact reads_append (reads_flag true) (reads_append (h a rfl) hg)

/-- A flag and something skipped. -/
theorem reads_skipped {α γ : Type} {p : Prog Unit} {w : α → List Bool} (x : Option α) (h : ∀ a, x = some a → Reads p (w a) ())
    {q : Prog γ} {ls : List (List Bool)} {c : γ} (hq : Reads q ls.flatten c) :
    Reads (flag >>= fun b => when' b p >>= fun _ => q) (announced w x :: ls).flatten c := by
  cases x with
  | none => exact reads_append (reads_flag false) (reads_skip (reads_ret ()) hq)
  | some a =>
    show Reads _ ([true] ++ (w a ++ ls.flatten)) c
    exact reads_append (reads_flag true) (reads_append (h a rfl) hq)

/-! ## Sequence parameter sets -/

open Verif.Wrap.H264

theorem reads_scaling_rest (n : Nat) (last : Int) : Reads (scalingList n last 0) [] () := by
  induction n generalizing last with
  | zero => exact reads_ret ()
  | succ n ih =>
    rw [scalingList, if_neg (by simp)]
    exact ih last

theorem reads_scaling (n : Nat) (last next : Int) (hn : next ≠ 0) (ds : List Int) (h : Deltas n last ds) :
    Reads (scalingList n last next) (ds.flatMap seCode) () := by
  induction n generalizing last next ds with
  | zero => rw [show ds = [] from h]; exact reads_ret ()
  | succ n ih =>
    cases ds with
    | nil => exact h.elim
    | cons d ds =>
      rw [scalingList, if_pos hn, List.flatMap_cons]
      refine reads_append (reads_se d) ?_
      rcases h with ⟨h0, h1⟩ | ⟨h0, h1⟩
      · rw [h1]
        simp only [h0, if_true]
        exact reads_scaling_rest n last
      · simp only [if_neg h0]
        exact ih _ _ h0 ds h1

theorem reads_scalings (lists : List (Option (List Int))) (n i : Nat) (hl : lists.length = n)
    (h : ∀ j ds, lists[j]? = some (some ds) → Deltas (if i + j < 6 then 16 else 64) 8 ds) :
    Reads (scalingLists n i) (lists.flatMap (announced (fun ds => ds.flatMap seCode))) () := by
  induction lists generalizing n i with
  | nil => rw [← hl]; exact reads_ret ()
  | cons x xs ih =>
    rw [← hl, List.length_cons, scalingLists, List.flatMap_cons]
    have hx : Reads (scalingLists xs.length (i + 1)) ([xs.flatMap (announced (fun ds => ds.flatMap seCode))] : List _).flatten () := by
      rw [List.flatten_singleton]
      refine ih _ _ rfl (fun j ds hj => ?_)
      have := h (j + 1) ds (by rw [List.getElem?_cons_succ]; exact hj)
      rwa [show i + (j + 1) = i + 1 + j by omega] at this
    have := reads_skipped (w := fun ds => ds.flatMap seCode) x (p := scalingList (if i < 6 then 16 else 64) 8 8) (fun ds hds => by
      refine reads_scaling _ 8 8 (by decide) ds ?_
      exact h 0 ds (by rw [hds]; rfl)) hx
    rwa [List.flatten_cons, List.flatten_singleton] at this

theorem reads_chroma (c : Chroma) (h : c.Valid) :
    Reads parseChroma c.bits (if c.separatePlanes then 0 else c.format, c.separatePlanes, c.lumaDepthMinus8) := by
  unfold parseChroma Chroma.bits
  refine reads_cons (reads_ue _) (reads_skip (reads_require (by simpa using h.format)) ?_)
  refine reads_cons (a := c.separatePlanes) ?_ ?_
  · by_cases h3 : c.format = 3
    · rw [if_pos h3]
      exact reads_optional_some (by simpa using h3) _ (reads_flag _)
    · rw [if_neg h3]
      have : c.separatePlanes = false := by
        cases hs : c.separatePlanes with
        | false => rfl
        | true => exact absurd (h.separate hs) h3
      rw [this]
      exact reads_optional_none (by simpa using h3) _ _
  · refine reads_cons (reads_ue _) (reads_skip (reads_require (by simpa using h.luma)) ?_)
    refine reads_cons (reads_ue _) (reads_skip (reads_require (by simpa using h.chroma)) ?_)
    refine reads_cons (reads_flag _) ?_
    refine reads_skipped _ (fun lists hl => ?_) (reads_ret _)
    refine reads_scalings lists _ 0 (h.lists lists hl) (fun j ds hj => ?_)
    rw [Nat.zero_add]
    exact h.deltas lists j ds hl hj

theorem reads_poc (p : Poc) (hp : ∀ z a b refs, p = .cycle z a b refs → refs.length ≤ 255) {γ : Type} {g : Nat → Nat × Bool → Prog γ}
    {l : List Bool} {c : γ}
    (hg : Reads (g p.type (p.log2MaxMinus4, p.alwaysZero)) l c) :
    Reads (ue >>= fun t => parsePoc t >>= g t) (p.bits ++ l) c := by
  cases p with
  | lsb n =>
    show Reads _ ((ueCode 0 ++ (ueCode n ++ [])) ++ l) c
    rw [List.append_nil, List.append_assoc]
    refine reads_append (reads_ue 0) (reads_append ?_ hg)
    exact reads_last (reads_ue n) (reads_ret _)
  | output => exact reads_append (reads_ue 2) (reads_skip (reads_ret _) hg)
  | cycle z a b refs =>
    show Reads _ ((ueCode 1 ++ _) ++ l) c
    rw [List.append_assoc]
    refine reads_append (reads_ue 1) (reads_append ?_ hg)
    refine reads_cons (reads_flag z) (reads_cons (reads_se a) (reads_cons (reads_se b) (reads_cons (reads_ue refs.length)
      (reads_skip (reads_require (by simpa using hp z a b refs rfl)) (reads_cons (a := ()) ?_ (reads_ret _))))))
    exact reads_times refs (fun v _ => reads_last (reads_se v) (reads_ret ()))

theorem reads_aspect (a : Option Aspect) (ha : ∀ x, a = some x → x.Valid) :
    Reads parseAspect (announced Aspect.bits a)
      (aspectIdc a, sarWidth a, sarHeight a) := by
  cases a with
  | none => exact reads_append (l := [false]) (reads_flag false) (reads_ret _)
  | some x =>
    refine reads_append (l := [true]) (reads_flag true) ?_
    cases x with
    | entry n =>
      have hv : n < 255 := ha _ rfl
      exact reads_last (reads_uint (by omega) (by omega)) (reads_optional_none (by simp; omega) _ _)
    | extended w h =>
      have hv : w < 2 ^ 16 ∧ h < 2 ^ 16 := ha _ rfl
      refine reads_cons (reads_uint (by omega) (by omega)) ?_
      exact reads_optional_some rfl _ (reads_cons (reads_uint (by omega) hv.1) (reads_cons (reads_uint (by omega) hv.2) (reads_ret _)))

theorem reads_signal (s : Signal) (h : s.Valid) :
    Reads (do
      let _ ← uint 3
      let _ ← flag
      let colour ← flag
      when' colour (do
        let _ ← uint 8
        let _ ← uint 8
        let _ ← uint 8
        .ret ())) s.bits () := by
  refine reads_cons (reads_uint (by omega) (by have := h.format; omega)) (reads_cons (reads_flag _) ?_)
  rw [List.flatten_singleton]
  cases hc : s.colour with
  | none => exact reads_append (l := [false]) (reads_flag false) (reads_ret _)
  | some c =>
    obtain ⟨h1, h2, h3⟩ := h.colour c hc
    refine reads_append (l := [true]) (reads_flag true) ?_
    refine reads_when_some rfl ?_
    show Reads _ [bin 8 c.1, bin 8 c.2.1, bin 8 c.2.2].flatten _
    exact (reads_cons (reads_uint (n := c.1) (by omega) (by omega)) (reads_cons
      (reads_uint (n := c.2.1) (by omega) (by omega)) (reads_cons (reads_uint (n := c.2.2) (by omega) (by omega)) (reads_ret _))))

theorem reads_timing (t : Option Timing) (h : ∀ x, t = some x → x.unitsInTick < 2 ^ 32 ∧ x.timeScale < 2 ^ 32) :
    Reads parseTiming (announced Timing.bits t) (t.map (fun t => (t.unitsInTick, t.timeScale, t.fixed))) := by
  cases t with
  | none => exact reads_append (l := [false]) (reads_flag false) (reads_ret _)
  | some x =>
    obtain ⟨h1, h2⟩ := h x rfl
    have e : announced Timing.bits (some x) = [true] ++ [bin 32 x.unitsInTick, bin 32 x.timeScale, [x.fixed]].flatten := by
      rw [announced, Timing.bits, List.singleton_append]
    rw [e]
    refine reads_append (reads_flag true) ?_
    refine reads_optional_some rfl _ ?_
    refine reads_cons (a := x.unitsInTick) ?_ ?_
    · exact reads_uint (by omega) h1
    · refine reads_cons (a := x.timeScale) ?_ ?_
      · exact reads_uint (by omega) h2
      · exact reads_cons (reads_flag _) (reads_ret _)

theorem reads_vui (v : Option Vui) (h : ∀ x, v = some x → x.Valid) :
    Reads parseVui (announced Vui.bits v)
      ((aspectIdc (v.bind Vui.aspect), sarWidth (v.bind Vui.aspect), sarHeight (v.bind Vui.aspect)),
       (v.bind Vui.timing).map (fun t => (t.unitsInTick, t.timeScale, t.fixed))) := by
  cases v with
  | none => exact reads_append (l := [false]) (reads_flag false) (reads_ret _)
  | some x =>
    have hv := h x rfl
    refine reads_append (l := [true]) (reads_flag true) ?_
    refine reads_cons (reads_aspect x.aspect hv.aspect) ?_
    refine reads_skipped _ (fun a _ => reads_last (reads_flag a) (reads_ret ())) ?_
    refine reads_skipped _ (fun s hs => reads_signal s (hv.signal s hs)) ?_
    refine reads_skipped _ (fun l _ => reads_cons (reads_ue _) (reads_cons (reads_ue _) (reads_ret ()))) ?_
    exact reads_cons (reads_timing x.timing hv.timing) (reads_ret _)

theorem reads_crop (c : Option Crop) :
    Reads parseCrop (announced Crop.bits c)
      (match c with | none => 0 | some c => c.left, match c with | none => 0 | some c => c.right,
       match c with | none => 0 | some c => c.top, match c with | none => 0 | some c => c.bottom) := by
  cases c with
  | none => exact reads_append (l := [false]) (reads_flag false) (reads_ret _)
  | some x =>
    refine reads_append (l := [true]) (reads_flag true) ?_
    exact reads_cons (reads_ue _) (reads_cons (reads_ue _) (reads_cons (reads_ue _) (reads_cons (reads_ue _) (reads_ret _))))

theorem high_iff (n : Nat) : highProfile n ↔ highProfiles.contains n = true := by
  unfold highProfile highProfiles
  simp only [List.contains_eq_mem, decide_eq_true_eq, List.mem_cons, List.not_mem_nil, or_false]
  omega

theorem reads_sps (x : Sps) (h : x.Valid) : Reads parseSps x.bits x.found := by
  unfold parseSps Sps.bits
  refine reads_cons (reads_uint (by omega) (by omega)) (reads_cons (reads_uint (by omega) (by have := h.refIdc; omega))
    (reads_cons (reads_uint (by omega) (by omega)) (reads_cons (reads_uint (by omega) (by have := h.profile; omega))
    (reads_cons (reads_uint (by omega) (by have := h.flags; omega)) (reads_cons (reads_uint (by omega) (by have := h.level; omega))
    (reads_cons (reads_ue _) (reads_skip (reads_require (by simpa using h.id)) ?_)))))))
  refine reads_cons (a := (x.chromaArrayType, x.separatePlanes, match x.chroma with | none => 0 | some c => c.lumaDepthMinus8)) ?_ ?_
  · unfold Sps.chromaArrayType Sps.separatePlanes
    cases hc : x.chroma with
    | none =>
      refine reads_optional_none ?_ _ _
      have := h.high
      rw [hc, high_iff] at this
      cases hh : highProfiles.contains x.profile with
      | false => rfl
      | true => rw [hh] at this; exact absurd (this.2 rfl) (by simp)
    | some c =>
      refine reads_optional_some ?_ _ (reads_chroma c (h.chroma c hc))
      have := h.high
      rw [hc, high_iff] at this
      exact this.1 rfl
  · refine reads_cons (reads_ue _) ?_
    refine reads_poc x.poc h.refs ?_
    refine reads_cons (reads_ue _) (reads_cons (reads_flag _) (reads_cons (reads_ue _) (reads_cons (reads_ue _) ?_)))
    have key : ∀ {γ : Type} (g : Bool → Prog γ) (l : List Bool) (c : γ), Reads (g x.fields.isNone) l c →
        Reads (flag >>= fun m => when' (!m) (do let _ ← flag; .ret ()) >>= fun _ => g m)
          ((match x.fields with | none => [true] | some a => [false, a]) ++ l) c := by
      intro γ g l c hg
      cases hf : x.fields with
      | none =>
        rw [hf] at hg
        exact reads_append (l := [true]) (reads_flag true) (reads_skip (reads_ret ()) hg)
      | some a =>
        rw [hf] at hg
        exact reads_append (l := [false]) (reads_flag false) (reads_append (l := [a]) (reads_last (reads_flag a) (reads_ret ())) hg)
    refine key _ _ _ ?_
    exact reads_cons (reads_flag _) (reads_cons (reads_crop x.crop) (reads_cons (reads_vui x.vui h.vui) (reads_ret _)))

/-! ## Picture parameter sets -/

theorem reads_groups (o : Option Groups) (h : ∀ g, o = some g → g.Valid)
    (hw : ∀ g ids, o = some g → g.map = .explicit ids → Nat.log2 ids.length = ceilLog2 (g.countMinus1 + 1)) :
    Reads parseSliceGroups (groupsBits o) () := by
  unfold parseSliceGroups
  cases o with
  | none => exact reads_last (reads_ue 0) (reads_ret ())
  | some g =>
    have hv := h g rfl
    refine reads_cons (reads_ue _) (reads_when_some (by simpa using hv.count) ?_)
    rw [List.flatten_singleton]
    unfold Groups.bits
    cases hm : g.map with
    | interleaved runs =>
      refine reads_cons (reads_ue 0) ?_
      rw [if_pos rfl, List.flatten_singleton, ← hv.runs runs hm]
      exact reads_times runs (fun n _ => reads_last (reads_ue n) (reads_ret ()))
    | dispersed => exact reads_last (reads_ue 1) (reads_ret ())
    | foreground cs =>
      refine reads_cons (reads_ue 2) ?_
      rw [if_neg (by decide), if_pos rfl, List.flatten_singleton, ← hv.corners cs hm]
      exact reads_times cs (fun c _ => reads_cons (reads_ue _) (reads_cons (reads_ue _) (reads_ret ())))
    | changing t d r =>
      refine reads_cons (reads_ue t) ?_
      have ht := hv.type t d r hm
      rw [if_neg (by omega), if_neg (by omega), if_pos ht]
      exact reads_cons (reads_flag d) (reads_cons (reads_ue r) (reads_ret ()))
    | explicit ids =>
      obtain ⟨h1, h2⟩ := hv.ids ids hm
      refine reads_cons (reads_ue 6) ?_
      rw [if_neg (by decide), if_neg (by decide), if_neg (by decide), if_pos rfl]
      refine reads_cons (reads_ue (ids.length - 1)) ?_
      have hl : ids.length - 1 + 1 = ids.length := by omega
      rw [hl, List.flatten_singleton]
      refine reads_times ids (fun i hi => ?_)
      have hb : bitsRequired ids.length = ceilLog2 (g.countMinus1 + 1) := hw g ids rfl hm
      rw [hb]
      have hc := hv.count
      have hi' := h2 i hi
      have e : ceilLog2 (g.countMinus1 + 1) = Nat.log2 g.countMinus1 + 1 := by
        unfold ceilLog2
        rw [if_neg (by omega)]
        rfl
      rw [e]
      refine reads_last (reads_uint (by omega) ?_) (reads_ret ())
      have := Nat.lt_log2_self (n := g.countMinus1)
      omega

theorem reads_pps (x : Pps) (h : x.Valid)
    (hw : ∀ g ids, x.groups = some g → g.map = .explicit ids → Nat.log2 ids.length = ceilLog2 (g.countMinus1 + 1)) :
    Reads parsePps x.bits x.found := by
  unfold parsePps Pps.bits
  refine reads_cons (reads_uint (by omega) (by omega)) (reads_cons (reads_uint (by omega) (by have := h.refIdc; omega))
    (reads_cons (reads_uint (by omega) (by omega)) (reads_cons (reads_ue _) (reads_cons (reads_ue _) (reads_cons (reads_flag _)
    (reads_cons (reads_flag _) (reads_cons (reads_groups x.groups h.groups hw) (reads_cons (reads_ue _) (reads_cons (reads_ue _)
    (reads_cons (reads_flag _) (reads_cons (reads_uint (by omega) (by have := h.bipred; omega)) (reads_cons (reads_se _)
    (reads_cons (reads_se _) (reads_cons (reads_se _) (reads_cons (reads_flag _) (reads_cons (reads_flag _) (reads_cons (reads_flag _)
    (reads_ret _))))))))))))))))))

/-! ## Slice headers -/

theorem reads_slice_rest (p : Pps) (s : Sps) (x : SliceHeader) (h : x.Valid p s) :
    Reads (parseSliceRest x.refIdc x.unitType x.type x.ppsId p.found s.found) (x.restBits p s) x.found := by
  unfold parseSliceRest SliceHeader.restBits
  refine reads_cons (a := ()) ?_ ?_
  · by_cases hs : s.separatePlanes = true
    · rw [if_pos hs]
      exact reads_when_some hs (reads_last (reads_uint (by omega) (by have := h.colourPlane; omega)) (reads_ret ()))
    · rw [if_neg hs]
      exact reads_when_none (c := s.separatePlanes) (by simpa using hs) _
  refine reads_cons (reads_uint (by omega) h.frameNum) ?_
  have field : ∀ {γ : Type} (g : Bool → Bool → Prog γ) (l : List Bool) (c : γ), Reads (g x.field.isSome (x.field == some true)) l c →
      Reads (optional (!s.found.frameMbsOnly) flag false >>= fun f => optional f flag false >>= g f)
        (fieldBits s.fields x.field ++ l) c := by
    intro γ g l c hg
    have hs : s.found.frameMbsOnly = s.fields.isNone := rfl
    rw [hs]
    have hf := h.field
    generalize s.fields = sf at hf ⊢
    generalize x.field = xf at hf hg ⊢
    cases sf with
    | none =>
      rw [hf rfl] at hg ⊢
      exact reads_skip (reads_optional_none rfl _ _) (reads_skip (reads_optional_none rfl _ _) hg)
    | some a =>
      cases xf with
      | none =>
        exact reads_append (l := [false]) (reads_optional_some rfl _ (reads_flag false)) (reads_skip (reads_optional_none rfl _ _) hg)
      | some b =>
        refine reads_append (l := [true]) (m := [b] ++ l) (reads_optional_some rfl _ (reads_flag true)) ?_
        refine reads_append (reads_optional_some rfl _ (reads_flag b)) ?_
        cases b <;> exact hg
  refine field _ _ _ ?_
  refine reads_cons (a := x.idrPicId) ?_ ?_
  · by_cases h5 : x.unitType = 5
    · rw [if_pos h5]
      exact reads_optional_some (by simpa using h5) _ (reads_ue _)
    · rw [if_neg h5, h.idrPicId h5]
      exact reads_optional_none (by simpa using h5) _ _
  have hb : (p.found.bottomFieldPicOrder && !x.field.isSome) = decide (p.bottomFieldPicOrder = true ∧ x.field = none) := by
    show (p.bottomFieldPicOrder && _) = _
    cases p.bottomFieldPicOrder <;> cases x.field <;> simp
  have hz : s.found.deltaPicOrderAlwaysZero = s.poc.alwaysZero := rfl
  have ht : s.found.pocType = s.poc.type := rfl
  have hn : s.found.log2MaxPocLsbMinus4 = s.poc.log2MaxMinus4 := rfl
  rw [hb, hz, ht, hn]
  have hred : Reads (optional p.found.redundantPicCntPresent ue 0 >>= fun redundant =>
      Prog.ret (Slice.mk x.type x.refIdc x.ppsId x.field.isSome (x.unitType == 5) x.idrPicId x.pocLsb x.deltaPocBottom x.deltaPoc0
        x.deltaPoc1 redundant x.frameNum (x.field == some true)))
      [if p.redundantPicCntPresent = true then ueCode x.redundantPicCnt else []].flatten x.found := by
    refine reads_cons (a := x.redundantPicCnt) ?_ (reads_ret _)
    by_cases hr : p.redundantPicCntPresent = true
    · rw [if_pos hr]
      exact reads_optional_some hr _ (reads_ue _)
    · rw [if_neg hr, h.redundant (by simpa using hr)]
      exact reads_optional_none (c := p.redundantPicCntPresent) (by simpa using hr) _ _
  have key : ∀ (l : List Bool) (v : Int), (if p.bottomFieldPicOrder = true ∧ x.field = none then l = seCode v else l = [] ∧ v = 0) →
      Reads (optional (true && decide (p.bottomFieldPicOrder = true ∧ x.field = none)) se 0) l v := by
    intro l v hl
    by_cases hc : p.bottomFieldPicOrder = true ∧ x.field = none
    · rw [if_pos hc] at hl
      rw [hl]
      exact reads_optional_some (by simpa using hc) _ (reads_se v)
    · rw [if_neg hc] at hl
      rw [hl.1, hl.2]
      exact reads_optional_none (by simpa using hc) _ _
  have key' : ∀ v : Int, (¬(p.bottomFieldPicOrder = true ∧ x.field = none) → v = 0) →
      Reads (optional (true && decide (p.bottomFieldPicOrder = true ∧ x.field = none)) se 0)
        (if p.bottomFieldPicOrder = true ∧ x.field = none then seCode v else []) v := by
    intro v hv
    apply key
    by_cases hc : p.bottomFieldPicOrder = true ∧ x.field = none
    · rw [if_pos hc, if_pos hc]
    · rw [if_neg hc, if_neg hc]
      exact ⟨rfl, hv hc⟩
  cases hp : s.poc with
  | lsb n =>
    obtain ⟨h0, h1⟩ := h.noCycle (by rw [hp]; intro a b r hh; cases hh)
    show Reads _ ((bin (n + 4) x.pocLsb ++ _) ++ _) _
    rw [List.append_assoc]
    refine reads_append (reads_optional_some rfl _ (reads_uint (by omega) (h.pocLsb n hp))) ?_
    refine reads_append (key' x.deltaPocBottom (fun hc => (h.noBottom hc).1)) ?_
    refine reads_skip (reads_optional_none rfl _ _) (reads_skip (reads_optional_none rfl _ _) ?_)
    rw [h0, h1] at hred
    exact hred
  | output =>
    obtain ⟨h0, h1⟩ := h.noCycle (by rw [hp]; intro a b r hh; cases hh)
    obtain ⟨h2, h3⟩ := h.noLsb (by rw [hp]; intro n hh; cases hh)
    refine reads_skip (reads_optional_none rfl _ _) (reads_skip (reads_optional_none rfl _ _) (reads_skip (reads_optional_none rfl _ _)
      (reads_skip (reads_optional_none rfl _ _) ?_)))
    rw [h0, h1, h2, h3] at hred
    exact hred
  | cycle z a b r =>
    obtain ⟨h2, h3⟩ := h.noLsb (by rw [hp]; intro n hh; cases hh)
    refine reads_skip (reads_optional_none rfl _ _) (reads_skip (reads_optional_none rfl _ _) ?_)
    cases z with
    | true =>
      obtain ⟨h0, h1⟩ := h.noCycle (by rw [hp]; intro a b r hh; cases hh)
      refine reads_skip (reads_optional_none rfl _ _) (reads_skip (reads_optional_none rfl _ _) ?_)
      rw [h0, h1, h2, h3] at hred
      exact hred
    | false =>
      show Reads _ ((seCode x.deltaPoc0 ++ _) ++ _) _
      rw [List.append_assoc]
      refine reads_append (reads_optional_some rfl _ (reads_se _)) ?_
      refine reads_append (key' x.deltaPoc1 (fun hc => (h.noBottom hc).2)) ?_
      rw [h2, h3] at hred
      exact hred

theorem reads_slice (p : Pps) (s : Sps) (x : SliceHeader) (h : x.Valid p s) (st : Sets) (hs : st.lookup x.ppsId = some (p.found, s.found)) :
    Reads (parseSlice st) (x.bits p s) x.found := by
  unfold parseSlice SliceHeader.bits
  refine reads_cons (reads_uint (by omega) (by omega)) (reads_cons (reads_uint (by omega) (by have := h.refIdc; omega))
    (reads_cons (reads_uint (by omega) (by have := h.unitType; omega)) (reads_cons (reads_ue _) (reads_cons (reads_ue _)
    (reads_cons (reads_ue _) ?_)))))
  rw [hs, List.flatten_singleton]
  exact reads_slice_rest p s x h

end Verif.Props.H264Syntax

namespace Verif.Props

open Verif Verif.Wrap Verif.Wrap.H264 Verif.Props.H264Bits H264Syntax

/-- **C62**, sequence parameter sets: whatever is written in the syntax of the standard is read, and every field the parser keeps
has the value that was written or, if it was not, the one the standard infers. What follows is not touched. -/
theorem C62_sps (x : Sps) (h : x.Valid) (r : List Bool) : parseSps.run (x.bits ++ r) = .ok x.found r := reads_sps x h r

/-- **C62**, picture parameter sets, unless slice groups are assigned explicitly. -/
theorem C62_pps_partial (x : Pps) (h : x.Valid) (he : x.NotExplicit) (r : List Bool) : parsePps.run (x.bits ++ r) = .ok x.found r :=
  reads_pps x h (fun g ids hg hm => absurd hm (he g ids hg)) r

/-- **C62**, with explicit slice groups: read correctly if the width the parser takes (from the number of map units) happens to be
the one of the standard (from the number of groups). -/
theorem C62_pps_explicit (x : Pps) (h : x.Valid) (g : Groups) (ids : List Nat) (hg : x.groups = some g) (hm : g.map = .explicit ids)
    (hw : Nat.log2 ids.length = ceilLog2 (g.countMinus1 + 1)) (r : List Bool) : parsePps.run (x.bits ++ r) = .ok x.found r := by
  refine reads_pps x h (fun g' ids' hg' hm' => ?_) r
  rw [hg] at hg'
  injection hg' with hg'
  subst hg'
  rw [hm] at hm'
  injection hm' with hm'
  subst hm'
  exact hw

/-- **C62**, slice headers, for a parser that has seen the parameter sets the slice refers to. -/
theorem C62_slice (st : Sets) (p : Pps) (s : Sps) (x : SliceHeader) (h : x.Valid p s) (hp : st.pps x.ppsId = some p.found)
    (hs : st.sps p.spsId = some s.found) (r : List Bool) : (parseSlice st).run (x.bits p s ++ r) = .ok x.found r := by
  refine reads_slice p s x h st ?_ r
  unfold Sets.lookup
  rw [hp]
  show (st.sps p.spsId).map _ = _
  rw [hs]
  rfl

/-- Table 6-1, and one for `ChromaArrayType` 0 (7.4.2.1.1, `CropUnitX`). -/
def H264Syntax.Sps.cropUnitX (s : Sps) : Nat :=
  match s.chromaArrayType with
  | 1 => 2
  | 2 => 2
  | _ => 1

/-- Table 6-1 and the height of a row of map units in frames. -/
def H264Syntax.Sps.cropUnitY (s : Sps) : Nat :=
  (match s.chromaArrayType with | 1 => 2 | _ => 1) * (match s.fields with | none => 1 | some _ => 2)

def H264Syntax.Sps.codedWidth (s : Sps) : Nat := 16 * (s.widthMbsMinus1 + 1)

/-- `FrameHeightInMbs` is twice `PicHeightInMapUnits` unless there are only frame macroblocks. -/
def H264Syntax.Sps.codedHeight (s : Sps) : Nat := 16 * (s.heightMapUnitsMinus1 + 1) * (match s.fields with | none => 1 | some _ => 2)

/-- What is known of a picture: the size of the cropping rectangle, the rate, and whether there are only I and SI slices
(Table 7-6). -/
def H264Syntax.infoOf (s : Sps) (first : SliceHeader) (rest : List SliceHeader) : Info where
  codedWidth := s.codedWidth
  codedHeight := s.codedHeight
  width := match s.crop with
    | none => s.codedWidth
    | some c => s.codedWidth - s.cropUnitX * (c.left + c.right)
  height := match s.crop with
    | none => s.codedHeight
    | some c => s.codedHeight - s.cropUnitY * (c.top + c.bottom)
  frameRate := (s.vui.bind Vui.timing).map (fun t => (t.timeScale, if first.field.isSome then t.unitsInTick else 2 * t.unitsInTick))
  keyFrame := (first :: rest).all (fun x => x.type < 10 && (x.type % 5 == 2 || x.type % 5 == 4))

/-- E.2.1: the clock and its unit are above zero; an extended aspect ratio is not a division by zero. -/
structure H264Syntax.Sps.Sound (s : Sps) : Prop where
  clock : ∀ t, s.vui.bind Vui.timing = some t → 0 < t.unitsInTick ∧ 0 < t.timeScale
  aspect : ∀ w h, s.vui.bind Vui.aspect = some (.extended w h) → 0 < h

/-- **C62**, what the parser reports of a picture: the sizes, the rate and the kind of its slices as the standard defines them. -/
theorem C62_info (st : Sets) (p : Pps) (s : Sps) (x : SliceHeader) (xs : List SliceHeader) (hp : st.pps x.ppsId = some p.found)
    (hs : st.sps p.spsId = some s.found) (hd : s.Valid) (h : s.Sound) :
    extractInfo st x.found (xs.map SliceHeader.found) = some (infoOf s x xs) := by
  have hl : st.lookup x.ppsId = some (p.found, s.found) := by
    unfold Sets.lookup
    rw [hp]
    show (st.sps p.spsId).map _ = _
    rw [hs]
    rfl
  have hk : (x.found :: xs.map SliceHeader.found).all (fun h => [2, 4, 7, 9].contains h.sliceType) = (infoOf s x xs).keyFrame := by
    have one : ∀ y : SliceHeader, [2, 4, 7, 9].contains y.found.sliceType = (y.type < 10 && (y.type % 5 == 2 || y.type % 5 == 4)) := by
      intro y
      show [2, 4, 7, 9].contains y.type = _
      rw [Bool.eq_iff_iff]
      simp only [List.contains_eq_mem, decide_eq_true_eq, List.mem_cons, List.not_mem_nil, or_false, Bool.and_eq_true, Bool.or_eq_true,
        beq_iff_eq]
      omega
    show _ = (x :: xs).all (fun x => x.type < 10 && (x.type % 5 == 2 || x.type % 5 == 4))
    rw [← List.map_cons (f := SliceHeader.found), List.all_map]
    congr 1
    funext y
    exact one y
  have ht : s.chromaArrayType = 0 ∨ s.chromaArrayType = 1 ∨ s.chromaArrayType = 2 ∨ s.chromaArrayType = 3 := by
    unfold Sps.chromaArrayType
    cases hc : s.chroma with
    | none => simp
    | some c =>
      have := (hd.chroma c hc).format
      simp only
      split <;> omega
  have hf : (if s.found.frameMbsOnly = true then 1 else 2) = (match s.fields with | none => 1 | some _ => 2) := by
    show (if s.fields.isNone = true then 1 else 2) = _
    cases s.fields <;> rfl
  have hx : (if s.found.chromaArrayType = 1 ∨ s.found.chromaArrayType = 2 then (2 : Int) else 1) = s.cropUnitX := by
    show (if s.chromaArrayType = 1 ∨ s.chromaArrayType = 2 then (2 : Int) else 1) = _
    unfold Sps.cropUnitX
    rcases ht with ht | ht | ht | ht <;> rw [ht] <;> rfl
  have hy : (if s.found.chromaArrayType = 1 then 2 else 1) * (if s.found.frameMbsOnly = true then 1 else 2) = s.cropUnitY := by
    rw [hf]
    show (if s.chromaArrayType = 1 then 2 else 1) * _ = _
    unfold Sps.cropUnitY
    rcases ht with ht | ht | ht | ht <;> rw [ht] <;> rfl
  have hcw : (s.found.widthMbsMinus1 + 1) * 16 = s.codedWidth := Nat.mul_comm _ _
  have hch : (s.found.heightMapUnitsMinus1 + 1) * 16 * (if s.found.frameMbsOnly = true then 1 else 2) = s.codedHeight := by
    rw [hf, Nat.mul_comm (s.found.heightMapUnitsMinus1 + 1) 16]
    rfl
  have hw : (s.codedWidth : Int) - s.cropUnitX * s.found.cropRight - s.cropUnitX * s.found.cropLeft = (infoOf s x xs).width := by
    show _ = (match s.crop with | none => (s.codedWidth : Int) | some c => s.codedWidth - s.cropUnitX * (c.left + c.right))
    show (s.codedWidth : Int) - s.cropUnitX * ((match s.crop with | none => 0 | some c => c.right : Nat) : Int) -
      s.cropUnitX * ((match s.crop with | none => 0 | some c => c.left : Nat) : Int) = _
    cases s.crop with
    | none => simp
    | some c => simp only [Int.mul_add]; omega
  have hh : (s.codedHeight : Int) - s.cropUnitY * s.found.cropBottom - s.cropUnitY * s.found.cropTop = (infoOf s x xs).height := by
    show _ = (match s.crop with | none => (s.codedHeight : Int) | some c => s.codedHeight - s.cropUnitY * (c.top + c.bottom))
    show (s.codedHeight : Int) - s.cropUnitY * ((match s.crop with | none => 0 | some c => c.bottom : Nat) : Int) -
      s.cropUnitY * ((match s.crop with | none => 0 | some c => c.top : Nat) : Int) = _
    cases s.crop with
    | none => simp
    | some c => simp only [Int.mul_add]; omega
  have ha : ¬(s.found.aspectRatioIdc = 255 ∧ s.found.sarHeight = 0) := by
    show ¬(aspectIdc (s.vui.bind Vui.aspect) = 255 ∧ H264Syntax.sarHeight (s.vui.bind Vui.aspect) = 0)
    have h1 := h.aspect
    have h2 : ∀ a, s.vui.bind Vui.aspect = some a → a.Valid := by
      intro a ha
      cases hv : s.vui with
      | none => rw [hv] at ha; cases ha
      | some v => rw [hv] at ha; exact (hd.vui v hv).aspect a ha
    generalize s.vui.bind Vui.aspect = a at h1 h2
    cases a with
    | none => simp [aspectIdc]
    | some a =>
      cases a with
      | entry n => have := h2 _ rfl; simp only [Aspect.Valid] at this; simp only [aspectIdc]; omega
      | extended w h => have := h1 w h rfl; simp only [aspectIdc, H264Syntax.sarHeight]; omega
  unfold extractInfo
  rw [show x.found.ppsId = x.ppsId from rfl, hl]
  simp only
  rw [if_neg ha, hk, hx, hcw, hch, hy, hw, hh]
  have hr : s.found.timing = (s.vui.bind Vui.timing).map (fun t => (t.unitsInTick, t.timeScale, t.fixed)) := rfl
  have hi : infoOf s x xs = ⟨s.codedWidth, s.codedHeight, (infoOf s x xs).width, (infoOf s x xs).height,
      (s.vui.bind Vui.timing).map (fun t => (t.timeScale, if x.field.isSome then t.unitsInTick else 2 * t.unitsInTick)),
      (infoOf s x xs).keyFrame⟩ := rfl
  rw [hr, hi]
  have hc := h.clock
  generalize s.vui.bind Vui.timing = o at hc ⊢
  cases o with
  | none => rfl
  | some t =>
    obtain ⟨h1, h2⟩ := hc t rfl
    show (if t.timeScale = 0 ∨ t.unitsInTick = 0 then none else _) = _
    rw [if_neg (by omega)]
    have : t.unitsInTick * (if x.found.fieldPic = true then 1 else 2) = if x.field.isSome then t.unitsInTick else 2 * t.unitsInTick := by
      show t.unitsInTick * (if x.field.isSome = true then 1 else 2) = _
      split <;> omega
    rw [this]
    rfl

/-! ## Examples -/

/-- High profile, 4:2:0, scaling lists (one of them cut short, the others absent), 1920×1080 at 25 frames a second. -/
def h264Sps : Sps where
  refIdc := 3
  profile := 100
  flags := 0
  level := 40
  id := 0
  chroma := some ⟨1, false, 0, 0, false, some ([some [2, -10], none, none, none, none, none, some (List.replicate 64 1), none])⟩
  log2MaxFrameNumMinus4 := 2
  poc := .cycle false (-3) 4 [1, -2]
  maxRefFrames := 4
  gaps := false
  widthMbsMinus1 := 119
  heightMapUnitsMinus1 := 33
  fields := some true
  direct := true
  crop := some ⟨0, 0, 0, 2⟩
  vui := some ⟨some (.extended 4 3), some true, some ⟨5, false, some (1, 1, 1)⟩, some (0, 1), some ⟨1, 50, true⟩⟩

theorem h264Sps_valid : h264Sps.Valid where
  refIdc := by decide
  profile := by decide
  flags := by decide
  level := by decide
  id := by decide
  high := by unfold highProfile; decide
  chroma := by
    intro c hc
    injection hc with hc
    subst hc
    refine ⟨by decide, by decide, by decide, by decide, ?_, ?_⟩
    · intro l hl
      injection hl with hl
      subst hl
      rfl
    · intro l i ds hl hi
      injection hl with hl
      subst hl
      have hlt : i < 8 := by
        have := (List.getElem?_eq_some_iff.1 hi).1
        simpa using this
      match i, hlt with
      | 0, _ =>
        injection hi with hi
        injection hi with hi
        subst hi
        exact .inr ⟨by decide, .inl ⟨by decide, rfl⟩⟩
      | 1, _ => cases hi
      | 2, _ => cases hi
      | 3, _ => cases hi
      | 4, _ => cases hi
      | 5, _ => cases hi
      | 6, _ =>
        injection hi with hi
        injection hi with hi
        subst hi
        have key : ∀ n : Nat, ∀ last : Int, 0 ≤ last → last + n < 256 → Deltas n last (List.replicate n 1) := by
          intro n
          induction n with
          | zero => intro _ _ _; rfl
          | succ n ih =>
            intro last h0 h1
            have e : (last + 1 + 256) % 256 = last + 1 := by omega
            refine .inr ⟨by omega, ?_⟩
            rw [e]
            exact ih _ (by omega) (by omega)
        exact key 64 8 (by decide) (by decide)
      | 7, _ => cases hi
  refs := by
    intro z a b refs h
    injection h with _ _ _ h
    subst h
    decide
  vui := by
    intro v hv
    injection hv with hv
    subst hv
    refine ⟨?_, ?_, ?_⟩
    · intro a ha
      injection ha with ha
      subst ha
      exact ⟨by decide, by decide⟩
    · intro a ha
      injection ha with ha
      subst ha
      refine ⟨by decide, ?_⟩
      intro c hc
      injection hc with hc
      subst hc
      decide
    · intro a ha
      injection ha with ha
      subst ha
      decide

example : parseSps.run h264Sps.bits = .ok h264Sps.found [] := by
  have := C62_sps h264Sps h264Sps_valid []
  rwa [List.append_nil] at this

/-- Three slice groups, a rectangle for each but the last. -/
def h264Pps : Pps := ⟨3, 1, 0, true, true, some ⟨2, .foreground [(0, 10), (20, 30)]⟩, 0, 0, false, 2, -3, 0, 5, true, false, true⟩

theorem h264Pps_valid : h264Pps.Valid ∧ h264Pps.NotExplicit := by
  refine ⟨⟨by decide, ?_, by decide⟩, ?_⟩
  · intro g hg
    injection hg with hg
    subst hg
    refine ⟨by decide, ?_, ?_, ?_, ?_⟩
    · intro _ h; cases h
    · intro _ h; injection h with h; subst h; rfl
    · intro _ _ _ h; cases h
    · intro _ h; cases h
  · intro g ids hg
    injection hg with hg
    subst hg
    intro h
    cases h

/-- A bottom field, with the differences of both kinds of parameter sets. -/
def h264Slice : SliceHeader := ⟨2, 5, 0, 7, 1, 0, 33, some true, 6, 0, 0, -9, 0, 0⟩

theorem h264Slice_valid : h264Slice.Valid h264Pps h264Sps where
  refIdc := by decide
  unitType := by decide
  colourPlane := by decide
  frameNum := by decide
  field := by intro h; cases h
  idrPicId := by intro h; exact absurd rfl h
  pocLsb := by intro n h; cases h
  noLsb := fun _ => ⟨rfl, rfl⟩
  noCycle := by intro h; exact absurd rfl (h (-3) 4 [1, -2])
  noBottom := fun _ => ⟨rfl, rfl⟩
  redundant := fun _ => rfl

def h264Sets : Sets := ⟨fun i => if i = 0 then some h264Sps.found else none, fun i => if i = 1 then some h264Pps.found else none⟩

example : (parseSlice h264Sets).run (h264Slice.bits h264Pps h264Sps ++ [true, false]) = .ok h264Slice.found [true, false] :=
  C62_slice _ _ _ _ h264Slice_valid rfl rfl _

/-- 120 macroblocks by 34 rows of pairs: 1920×1088, cropped to 1080 lines; fields at twice the frame rate. -/
example : extractInfo h264Sets h264Slice.found [] = some ⟨1920, 1088, 1920, 1080, some (50, 1), true⟩ := by
  rw [show ([] : List Slice) = [].map SliceHeader.found from rfl, C62_info h264Sets h264Pps h264Sps h264Slice [] rfl rfl h264Sps_valid
    ⟨by intro t h; injection h with h; subst h; decide, by intro w h hh; injection hh with hh; injection hh with _ hh; subst hh; decide⟩]
  rfl

/-- Two slice groups, assigned explicitly to four map units. -/
def h264Explicit : Pps := ⟨3, 1, 0, true, true, some ⟨1, .explicit [0, 1, 0, 1]⟩, 0, 0, false, 1, 0, 0, 0, true, true, true⟩

theorem h264Explicit_valid : h264Explicit.Valid := by
  refine ⟨by decide, ?_, by decide⟩
  intro g hg
  injection hg with hg
  subst hg
  refine ⟨by decide, ?_, ?_, ?_, ?_⟩
  · intro _ h; cases h
  · intro _ h; cases h
  · intro _ _ _ h; cases h
  · intro _ h; injection h with h; subst h; decide


/-- Explicit slice groups are not read as they are written: the parser takes a width of two bits instead of one, so four bits too
many, and from then on everything is shifted. Here, with the stop bit and three zeros after the set, it reports that no redundant
pictures are announced although they are. -/
theorem C62_explicit_counterexample : h264Explicit.Valid ∧ h264Explicit.found.redundantPicCntPresent = true ∧
    parsePps.run (h264Explicit.bits ++ [true, false, false, false]) = .ok ⟨1, 0, true, false⟩ [] :=
  ⟨h264Explicit_valid, by decide +kernel, by decide +kernel⟩

end Verif.Props

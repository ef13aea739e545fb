import Verif.Props.C40
import Verif.Props.C62

/-!
# C63: the frames of an H.264 stream are its pictures
-/

namespace Verif.Props.H264Stream

open Verif Verif.Wrap Verif.Wrap.H264 Verif.Props.H264Bits Verif.Props.H264Syntax Verif.Props.H264Frames

/-! ## Specification -/

/-- What a unit is: a parameter set, a slice with the sets it is written with, or another unit (reference number and type). -/
inductive Nal
  | sps (x : Sps)
  | pps (x : Pps)
  | slice (p : Pps) (s : Sps) (x : SliceHeader)
  | other (refIdc type : Nat)

/-- The bits a unit begins with. -/
def Nal.bits : Nal → List Bool
  | .sps x => x.bits
  | .pps x => x.bits
  | .slice p s x => x.bits p s
  | .other r t => bin 1 0 ++ (bin 2 r ++ bin 5 t)

/-- A unit in a stream: `body` is what it holds, before emulation prevention; `long` is whether there is a `zero_byte` before the
start code (Annex B). -/
structure NalUnit where
  nal : Nal
  long : Bool
  body : Bytes

def NalUnit.bytes (u : NalUnit) : Bytes := (if u.long then [0] else []) ++ ([0, 0, 1] ++ escape 0 u.body)

/-- The body begins with the fields and goes on in any way, but does not end with a zero byte (7.4.1). -/
structure NalUnit.Holds (u : NalUnit) : Prop where
  bits : ∃ r, bitsOf u.body = u.nal.bits ++ r
  ends : ∃ x, u.body.getLast? = some x ∧ x ≠ 0

/-- A coded picture: what comes before its first slice, that slice, and what follows; with the parameter sets of the slices. -/
structure Picture where
  pps : Pps
  sps : Sps
  before : List NalUnit
  first : SliceHeader
  long : Bool
  body : Bytes
  after : List NalUnit

def Picture.units (p : Picture) : List NalUnit := p.before ++ (⟨.slice p.pps p.sps p.first, p.long, p.body⟩ :: p.after)

def Picture.bytes (p : Picture) : Bytes := p.units.flatMap NalUnit.bytes

/-- The slices after the first one. -/
def Picture.others (p : Picture) : List SliceHeader :=
  p.after.filterMap (fun u => match u.nal with | .slice _ _ x => some x | _ => none)

/-- The positions of the start codes of units one after the other from `n` on. -/
def positions : Nat → List NalUnit → List Nat
  | _, [] => []
  | n, u :: us => (n + if u.long then 1 else 0) :: positions (n + u.bytes.length) us

/-- The parameter sets a decoder has. -/
structure Active where
  sps : Nat → Option Sps
  pps : Nat → Option Pps

def Active.none : Active := ⟨fun _ => .none, fun _ => .none⟩

/-- 7.4.1.2.1: a set replaces an earlier one of the same number. -/
def Active.add (a : Active) (u : NalUnit) : Active :=
  match u.nal with
  | .sps x => { a with sps := fun i => if i = x.id then some x else a.sps i }
  | .pps x => { a with pps := fun i => if i = x.id then some x else a.pps i }
  | _ => a

/-- Units that begin the next picture once a slice has been seen (7.4.1.2.3): delimiters, parameter sets, supplemental information
and types 15 to 18. -/
def boundary (t : Nat) : Prop := t = 6 ∨ t = 9 ∨ (15 ≤ t ∧ t ≤ 18)

/-- 7.4.1.2.4: two slices are of different pictures. -/
def Differs (s : Sps) (a b : SliceHeader) : Prop :=
  a.frameNum ≠ b.frameNum ∨ a.ppsId ≠ b.ppsId ∨ a.field.isSome ≠ b.field.isSome ∨
  (∃ x y, a.field = some x ∧ b.field = some y ∧ x ≠ y) ∨
  (a.refIdc ≠ b.refIdc ∧ (a.refIdc = 0 ∨ b.refIdc = 0)) ∨
  (s.poc.type = 0 ∧ (a.pocLsb ≠ b.pocLsb ∨ a.deltaPocBottom ≠ b.deltaPocBottom)) ∨
  (s.poc.type = 1 ∧ (a.deltaPoc0 ≠ b.deltaPoc0 ∨ a.deltaPoc1 ≠ b.deltaPoc1)) ∨
  ¬(a.unitType = 5 ↔ b.unitType = 5) ∨
  (a.unitType = 5 ∧ b.unitType = 5 ∧ a.idrPicId ≠ b.idrPicId)

/-- Coded slices: whole, the first of a data partition, or of an IDR picture. -/
def sliceType (t : Nat) : Prop := t = 1 ∨ t = 2 ∨ t = 5

/-- A unit that may come before the slices of a picture. -/
def NalUnit.Before (u : NalUnit) : Prop :=
  match u.nal with
  | .sps x => x.Valid
  | .pps x => x.Valid ∧ x.NotExplicit ∧ x.redundantPicCntPresent = false
  | .slice _ _ _ => False
  | .other r t => r < 4 ∧ t < 32 ∧ 6 ≤ t ∧ t ≠ 7 ∧ t ≠ 8

/-- A slice of the picture. -/
structure Picture.Slice (p : Picture) (x : SliceHeader) : Prop where
  valid : x.Valid p.pps p.sps
  type : sliceType x.unitType

/-- A unit that may come after the first slice of a picture. -/
def Picture.After (p : Picture) (u : NalUnit) : Prop :=
  match u.nal with
  | .slice q s x => q = p.pps ∧ s = p.sps ∧ p.Slice x ∧ ¬Differs p.sps p.first x ∧ x.refIdc = p.first.refIdc
  | .other r t => r < 4 ∧ t < 32 ∧ 10 ≤ t ∧ ¬boundary t
  | _ => False

/-- A picture for a decoder that has the sets `a`. -/
structure Picture.Valid (a : Active) (p : Picture) : Prop where
  holds : ∀ u ∈ p.units, u.Holds
  before : ∀ u ∈ p.before, u.Before
  pps : (p.before.foldl Active.add a).pps p.first.ppsId = some p.pps
  sps : (p.before.foldl Active.add a).sps p.pps.spsId = some p.sps
  valid : p.sps.Valid ∧ p.sps.Sound ∧ p.pps.redundantPicCntPresent = false
  first : p.Slice p.first
  after : ∀ u ∈ p.after, p.After u

/-- A picture can be told from the one before it: it begins with a unit that only comes at the beginning of one, or its first slice
differs. -/
def Picture.Follows (q p : Picture) : Prop :=
  match q.before with
  | [] => Differs q.sps q.first p.first
  | u :: _ => match u.nal with
    | .other _ t => boundary t
    | _ => True

/-- The pictures of a stream. -/
inductive Stream : Active → List Picture → Prop
  | nil (a : Active) : Stream a []
  | one {a : Active} {p : Picture} (h : p.Valid a) : Stream a [p]
  | cons {a : Active} {p q : Picture} {ps : List Picture} (h : p.Valid a) (hf : q.Follows p)
      (hs : Stream (p.before.foldl Active.add a) (q :: ps)) : Stream a (p :: q :: ps)

/-- The frame of a picture. -/
def Picture.frame (p : Picture) : Frame := ⟨p.bytes, positions 0 p.units, some (infoOf p.sps p.first p.others)⟩

/-! ## Units of a stream -/

theorem escape_last (b : Bytes) (z : Nat) : (escape z b).getLast? = b.getLast? := by
  induction b generalizing z with
  | nil => rfl
  | cons x r ih =>
    have key : ∀ w y : Bytes, w.getLast? = y.getLast? → (x :: w).getLast? = (x :: y).getLast? := by
      intro w y h
      rw [List.getLast?_cons, List.getLast?_cons, h]
    rw [escape]
    by_cases h : 2 ≤ z ∧ x ≤ 3
    · rw [if_pos h, List.getLast?_cons_cons]
      exact key _ _ (ih _)
    · rw [if_neg h]
      exact key _ _ (ih _)

theorem offsets_cons (x : UInt8) (r : Bytes) :
    offsets (x :: r) = (if isCode (x :: r) 0 then [0] else []) ++ (offsets r).map (fun i => i + 1) := by
  unfold offsets
  rw [List.length_cons, List.range_succ_eq_map, List.filter_cons, List.filter_map]
  have : (isCode (x :: r) ∘ Nat.succ) = isCode r := by funext i; rfl
  rw [this]
  split <;> rfl

theorem offsets_skip (e r : Bytes) (h : ∀ i, i < e.length → isCode (e ++ r) i = false) :
    offsets (e ++ r) = (offsets r).map (fun i => i + e.length) := by
  induction e with
  | nil => simp
  | cons x e ih =>
    rw [List.cons_append, offsets_cons, ih (fun i hi => h (i + 1) (by simpa using hi))]
    have h0 := h 0 (by simp)
    rw [List.cons_append] at h0
    rw [h0, List.map_map]
    simp only [List.length_cons]
    show [] ++ _ = _
    rw [List.nil_append]
    congr 1

theorem payload_skip (b r : Bytes) (h : ∃ x, b.getLast? = some x ∧ x ≠ 0) (i : Nat) (hi : i < (escape 0 b).length) :
    isCode (escape 0 b ++ r) i = false := by
  cases hc : isCode (escape 0 b ++ r) i with
  | false => rfl
  | true =>
    obtain ⟨x, hx, h0⟩ := h
    rw [← escape_last b 0] at hx
    have hn := noCode_isCode _ (noCode_escape b).1 i
    generalize escape 0 b = e at *
    by_cases h3 : i + 3 ≤ e.length
    · rw [isCode_prefix hc h3] at hn
      exact hn
    · unfold isCode at hc
      rw [beq_iff_eq] at hc
      have h1 : (e ++ r)[i]? = some 0 := by
        have := congrArg (fun l => l[0]?) hc
        simpa [List.getElem?_take, List.getElem?_drop] using this
      have h2 : (e ++ r)[i + 1]? = some 0 := by
        have := congrArg (fun l => l[1]?) hc
        simpa [List.getElem?_take, List.getElem?_drop] using this
      rw [List.getLast?_eq_getElem?] at hx
      have : i = e.length - 1 ∨ i + 1 = e.length - 1 := by omega
      exfalso
      rcases this with hh | hh
      · rw [hh, List.getElem?_append_left (by omega), hx] at h1
        injection h1 with h1
        exact h0 h1
      · rw [hh, List.getElem?_append_left (by omega), hx] at h2
        injection h2 with h2
        exact h0 h2

/-- Where the start code of a unit is. -/
def NalUnit.zeros (u : NalUnit) : Nat := if u.long then 1 else 0

/-- The zero byte of the next unit. -/
def pad : List NalUnit → Bytes
  | [] => []
  | u :: _ => if u.long then [0] else []

/-- The units of a stream as the parser sees them. -/
def layout : Nat → List NalUnit → List (Nat × Bytes)
  | _, [] => []
  | n, u :: us => (n + u.zeros, [0, 0, 1] ++ (escape 0 u.body ++ pad us)) :: layout (n + u.bytes.length) us

theorem offsets_unit (u : NalUnit) (h : ∃ x, u.body.getLast? = some x ∧ x ≠ 0) (r : Bytes) :
    offsets (u.bytes ++ r) = u.zeros :: (offsets r).map (fun i => i + u.bytes.length) := by
  have hp := offsets_skip (escape 0 u.body) r (payload_skip u.body r h)
  have h1 : ∀ y : Bytes, isCode (0 :: 0 :: 1 :: y) 0 = true := by intro y; simp [isCode]
  have h2 : ∀ y : Bytes, isCode (0 :: 1 :: y) 0 = false := by intro y; cases y <;> simp [isCode]
  have h3 : ∀ y : Bytes, isCode (1 :: y) 0 = false := by intro y; rcases y with _ | ⟨a, _ | ⟨b, y⟩⟩ <;> simp [isCode]
  have h4 : ∀ y : Bytes, isCode (0 :: 0 :: 0 :: y) 0 = false := by intro y; simp [isCode]
  have key : offsets (0 :: 0 :: 1 :: (escape 0 u.body ++ r)) = 0 :: (offsets r).map (fun i => i + ((escape 0 u.body).length + 3)) := by
    rw [offsets_cons, h1, offsets_cons, h2, offsets_cons, h3, hp]
    simp only [Bool.false_eq_true, if_false, if_true, List.nil_append, List.map_map]
    show 0 :: _ = _
    congr 1
  unfold NalUnit.bytes NalUnit.zeros
  cases u.long with
  | false =>
    show offsets (0 :: 0 :: 1 :: (escape 0 u.body ++ r)) = _
    rw [key]
    simp
  | true =>
    show offsets (0 :: 0 :: 0 :: 1 :: (escape 0 u.body ++ r)) = _
    rw [offsets_cons, h4, key]
    simp
    intro a _
    omega

theorem segs_shift (c r : Bytes) (os : List Nat) (e : Nat) :
    segs (c ++ r) (os.map (fun i => i + c.length)) (e + c.length) = (segs r os e).map (fun x => (x.1 + c.length, x.2)) := by
  have hd : ∀ o, (c ++ r).drop (o + c.length) = r.drop o := by
    intro o
    rw [Nat.add_comm, ← List.drop_drop, List.drop_left]
  induction os with
  | nil => rfl
  | cons o os ih =>
    cases os with
    | nil =>
      simp only [List.map_cons, List.map_nil, segs]
      rw [hd, show e + c.length - (o + c.length) = e - o by omega]
    | cons o' os =>
      simp only [List.map_cons] at ih ⊢
      rw [segs, ih, segs, List.map_cons, hd, show o' + c.length - (o + c.length) = o' - o by omega]

theorem units_layout (us : List NalUnit) (h : ∀ u ∈ us, ∃ x, u.body.getLast? = some x ∧ x ≠ 0) (n : Nat) :
    (units (us.flatMap NalUnit.bytes)).map (fun x => (x.1 + n, x.2)) = layout n us := by
  induction us generalizing n with
  | nil => rfl
  | cons u us ih =>
    have hu := h u (by simp)
    have ih := fun n => ih (fun v hv => h v (by simp [hv])) n
    rw [List.flatMap_cons, layout]
    have hsplit : u.bytes = (if u.long then [0] else []) ++ ([0, 0, 1] ++ escape 0 u.body) := rfl
    have hz : ((if u.long then [0] else []) : Bytes).length = u.zeros := by unfold NalUnit.zeros; cases u.long <;> rfl
    have hdrop : ∀ r : Bytes, (u.bytes ++ r).drop u.zeros = [0, 0, 1] ++ (escape 0 u.body ++ r) := by
      intro r
      rw [hsplit, ← hz, List.append_assoc, List.drop_left, List.append_assoc]
    have hlen : u.bytes.length = u.zeros + ([0, 0, 1] ++ escape 0 u.body).length := by rw [hsplit, List.length_append, hz]
    rw [units_eq, offsets_unit u hu]
    cases us with
    | nil =>
      show (segs (u.bytes ++ []) [u.zeros] (u.bytes ++ []).length).map _ = [(n + u.zeros, [0, 0, 1] ++ (escape 0 u.body ++ []))]
      rw [segs, hdrop, List.map_cons, List.map_nil, List.take_of_length_le (by
        rw [List.append_nil, List.append_nil, hlen]; omega), Nat.add_comm u.zeros n]
    | cons v vs =>
      have hv := h v (by simp)
      have hov : offsets ((v :: vs).flatMap NalUnit.bytes) = v.zeros :: (offsets (vs.flatMap NalUnit.bytes)).map (fun i => i + v.bytes.length) := by
        rw [List.flatMap_cons, offsets_unit v hv]
      have := ih (n + u.bytes.length)
      rw [← this, units_eq, hov, List.map_cons, segs, hdrop, List.map_cons]
      generalize hos : (offsets (vs.flatMap NalUnit.bytes)).map (fun i => i + v.bytes.length) = os
      have e1 : (v.zeros + u.bytes.length) :: os.map (fun i => i + u.bytes.length) = (v.zeros :: os).map (fun i => i + u.bytes.length) := rfl
      rw [e1, List.length_append, Nat.add_comm u.bytes.length, segs_shift, List.map_map, Nat.add_comm u.zeros n]
      congr 1
      · congr 1
        have e2 : v.zeros + u.bytes.length - u.zeros = ([0, 0, 1] ++ escape 0 u.body : Bytes).length + v.zeros := by omega
        rw [e2, ← List.append_assoc, List.take_length_add_append, List.flatMap_cons, ← List.append_assoc]
        refine congrArg (fun y : Bytes => [0, 0, 1] ++ escape 0 u.body ++ y) ?_
        show _ = (if v.long then [0] else [])
        have hzv : ((if v.long then [0] else []) : Bytes).length = v.zeros := by unfold NalUnit.zeros; cases v.long <;> rfl
        rw [show v.bytes = (if v.long then [0] else []) ++ ([0, 0, 1] ++ escape 0 v.body) from rfl, List.append_assoc, ← hzv, List.take_left]
      · congr 1
        funext x
        show (x.1 + u.bytes.length + n, x.2) = (x.1 + (n + u.bytes.length), x.2)
        congr 1
        omega

/-! ## Reading units -/

def Nal.type : Nal → Nat
  | .sps _ => 7
  | .pps _ => 8
  | .slice _ _ x => x.unitType
  | .other _ t => t

def Nal.ref : Nal → Nat
  | .sps x => x.refIdc
  | .pps x => x.refIdc
  | .slice _ _ x => x.refIdc
  | .other r _ => r

theorem Nal.bits_head (u : Nal) : ∃ l, u.bits = (bin 1 0 ++ (bin 2 u.ref ++ bin 5 u.type)) ++ l := by
  cases u with
  | sps x =>
    simp only [Nal.bits, Sps.bits, Nal.ref, Nal.type, List.flatten_cons, List.append_assoc]
    exact ⟨_, rfl⟩
  | pps x =>
    simp only [Nal.bits, Pps.bits, Nal.ref, Nal.type, List.flatten_cons, List.append_assoc]
    exact ⟨_, rfl⟩
  | slice p s x =>
    simp only [Nal.bits, SliceHeader.bits, Nal.ref, Nal.type, List.flatten_cons, List.append_assoc]
    exact ⟨_, rfl⟩
  | other r t => exact ⟨[], by rw [List.append_nil]; rfl⟩

/-- A unit as the parser sees it. -/
def seen (u : NalUnit) (y : Bytes) : Bytes := [0, 0, 1] ++ (escape 0 u.body ++ y)

theorem seen_bits {u : NalUnit} (h : u.Holds) (y : Bytes) : ∃ r, rbsp (seen u y) = u.nal.bits ++ r := by
  obtain ⟨r, hr⟩ := h.bits
  obtain ⟨z, hz⟩ := rbsp_ext ([0, 0, 1] ++ escape 0 u.body) y (by simp)
  rw [(C41_no_start_code u.body).2, hr, List.append_assoc, List.append_assoc] at hz
  exact ⟨_, hz⟩

theorem seen_reads {u : NalUnit} (h : u.Holds) (y : Bytes) {α : Type} {p : Prog α} {a : α} (hp : Reads p u.nal.bits a) :
    ∃ r, p.run (rbsp (seen u y)) = .ok a r := by
  obtain ⟨r, hr⟩ := seen_bits h y
  exact ⟨r, by rw [hr]; exact hp r⟩

theorem seen_type {u : NalUnit} (h : u.Holds) (hr : u.nal.ref < 4) (ht : u.nal.type < 32) (y : Bytes) :
    ∃ r, unitType (seen u y) = .ok u.nal.type r := by
  obtain ⟨r, hb⟩ := h.bits
  obtain ⟨l, hl⟩ := u.nal.bits_head
  obtain ⟨x, hx, _⟩ := h.ends
  cases hbody : u.body with
  | nil => rw [hbody] at hx; cases hx
  | cons c b =>
    have e : bitsOf (c :: b) = (List.range 8).map (fun i => c.toNat.testBit (7 - i)) ++ bitsOf b := List.flatMap_cons
    rw [hl, hbody, e, List.append_assoc] at hb
    have h8 : (List.range 8).map (fun i => c.toNat.testBit (7 - i)) = bin 1 0 ++ (bin 2 u.nal.ref ++ bin 5 u.nal.type) := by
      refine (List.append_inj hb ?_).1
      simp [bin_length]
    have hs : (seen u y).drop 3 = c :: (escape (if c = 0 then 0 + 1 else 0) b ++ y) := by
      unfold seen
      rw [hbody, escape, if_neg (by omega)]
      rfl
    have hr' : Reads (do let _ ← uint 1; let _ ← uint 2; uint 5 : Prog Nat) (bin 1 0 ++ (bin 2 u.nal.ref ++ bin 5 u.nal.type)) u.nal.type :=
      reads_append (reads_uint (by omega) (by omega)) (reads_append (reads_uint (by omega) (by omega)) (reads_uint (by omega) (by omega)))
    unfold unitType
    rw [hs]
    have e' : ∀ q : Bytes, bitsOf (c :: q) = (List.range 8).map (fun i => c.toNat.testBit (7 - i)) ++ bitsOf q := fun _ => List.flatMap_cons
    rw [e', h8]
    exact ⟨_, hr' _⟩

theorem layout_cons (n : Nat) (u : NalUnit) (us : List NalUnit) :
    layout n (u :: us) = (n + u.zeros, seen u (pad us)) :: layout (n + u.bytes.length) us := rfl

/-! ## Sets -/

def updOf (u : NalUnit) : Option Upd :=
  match u.nal with
  | .sps x => some (.sps x.found)
  | .pps x => some (.pps x.found)
  | _ => none

def upds (us : List NalUnit) : List Upd := us.filterMap updOf

/-- The sets of the parser for those of a decoder. -/
def Active.found (a : Active) : Sets := ⟨fun i => (a.sps i).map Sps.found, fun i => (a.pps i).map Pps.found⟩

theorem found_adds (us : List NalUnit) (a : Active) : (us.foldl Active.add a).found = apply (upds us) a.found := by
  induction us generalizing a with
  | nil => rfl
  | cons u us ih =>
    rw [List.foldl_cons, ih]
    unfold upds updOf Active.add
    rw [List.filterMap_cons]
    cases u.nal with
    | sps x =>
      show apply _ _ = apply _ (a.found.addSps x.found)
      congr 1
      apply Sets.ext'
      · intro i
        show (if i = x.id then some x else a.sps i).map Sps.found = if i = x.id then some x.found else (a.sps i).map Sps.found
        split <;> rfl
      · intro i; rfl
    | pps x =>
      show apply _ _ = apply _ (a.found.addPps x.found)
      congr 1
      apply Sets.ext'
      · intro i; rfl
      · intro i
        show (if i = x.id then some x else a.pps i).map Pps.found = if i = x.id then some x.found else (a.pps i).map Pps.found
        split <;> rfl
    | slice p s x => rfl
    | other r t => rfl

/-! ## The loop of the parser -/

def len (us : List NalUnit) : Nat := (us.flatMap NalUnit.bytes).length

theorem len_cons (u : NalUnit) (us : List NalUnit) : len (u :: us) = u.bytes.length + len us := by
  unfold len; rw [List.flatMap_cons, List.length_append]

theorem positions_cons (n : Nat) (u : NalUnit) (us : List NalUnit) :
    positions n (u :: us) = (n + u.zeros) :: positions (n + u.bytes.length) us := rfl

theorem positions_append (n : Nat) (us vs : List NalUnit) : positions n (us ++ vs) = positions n us ++ positions (n + len us) vs := by
  induction us generalizing n with
  | nil => rfl
  | cons u us ih =>
    rw [List.cons_append, positions_cons, ih, positions_cons, len_cons, List.cons_append, Nat.add_assoc]

theorem before_cases {u : NalUnit} (h : u.Before) (hu : u.Holds) (y : Bytes) :
    (∃ x r r', updOf u = some (.sps x) ∧ unitType (seen u y) = .ok 7 r ∧ parseSps.run (rbsp (seen u y)) = .ok x r') ∨
    (∃ x r r', updOf u = some (.pps x) ∧ unitType (seen u y) = .ok 8 r ∧ parsePps.run (rbsp (seen u y)) = .ok x r' ∧
      x.redundantPicCntPresent = false) ∨
    (∃ t r, updOf u = none ∧ unitType (seen u y) = .ok t r ∧ 6 ≤ t ∧ t ≠ 7 ∧ t ≠ 8) := by
  unfold NalUnit.Before at h
  cases hn : u.nal with
  | sps x =>
    rw [hn] at h
    obtain ⟨r, hr⟩ := seen_type hu (by rw [hn]; exact h.refIdc) (by rw [hn]; show 7 < 32; decide) y
    obtain ⟨r', hr'⟩ := seen_reads hu y (p := parseSps) (a := x.found) (by rw [hn]; exact reads_sps x h)
    rw [hn] at hr
    exact .inl ⟨x.found, r, r', by rw [updOf, hn], hr, hr'⟩
  | pps x =>
    rw [hn] at h
    obtain ⟨h1, h2, h3⟩ := h
    obtain ⟨r, hr⟩ := seen_type hu (by rw [hn]; exact h1.refIdc) (by rw [hn]; show 8 < 32; decide) y
    obtain ⟨r', hr'⟩ := seen_reads hu y (p := parsePps) (a := x.found)
      (by rw [hn]; exact reads_pps x h1 (fun g ids hg hm => absurd hm (h2 g ids hg)))
    rw [hn] at hr
    exact .inr (.inl ⟨x.found, r, r', by rw [updOf, hn], hr, hr', h3⟩)
  | slice p s x => rw [hn] at h; exact h.elim
  | other r t =>
    rw [hn] at h
    obtain ⟨h1, h2, h3⟩ := h
    obtain ⟨r', hr⟩ := seen_type hu (by rw [hn]; exact h1) (by rw [hn]; exact h2) y
    rw [hn] at hr
    exact .inr (.inr ⟨t, r', by rw [updOf, hn], hr, h3⟩)

theorem loop_before (b : Bytes) (us rest : List NalUnit) (hb : ∀ u ∈ us, u.Before) (hh : ∀ u ∈ us, u.Holds) (n : Nat) (st : Sets)
    (offs : List Nat) : loop b (layout n (us ++ rest)) st [] offs =
      loop b (layout (n + len us) rest) (apply (upds us) st) [] (offs ++ positions n us) := by
  induction us generalizing n st offs with
  | nil => simp [len, upds, apply, positions]
  | cons u us ih =>
    have ih := fun n st offs => ih (fun v hv => hb v (by simp [hv])) (fun v hv => hh v (by simp [hv])) n st offs
    rw [List.cons_append, layout_cons, loop, len_cons, positions_cons, ← Nat.add_assoc]
    have e : offs ++ (n + u.zeros) :: positions (n + u.bytes.length) us = (offs ++ [n + u.zeros]) ++ positions (n + u.bytes.length) us := by
      simp
    rw [e]
    rcases before_cases (hb u (by simp)) (hh u (by simp)) (pad (us ++ rest)) with ⟨x, r, r', h1, h2, h3⟩ | ⟨x, r, r', h1, h2, h3, _⟩ |
      ⟨t, r, h1, h2, h3⟩
    · rw [h2, h3]
      show loop b _ (st.addSps x) [] _ = _
      rw [ih]
      unfold upds
      rw [List.filterMap_cons, h1]
      rfl
    · rw [h2, h3]
      show loop b _ (st.addPps x) [] _ = _
      rw [ih]
      unfold upds
      rw [List.filterMap_cons, h1]
      rfl
    · rw [h2]
      have hk : kindOf t (!([] : List Slice).isEmpty) = .other := by
        unfold kindOf
        rw [if_neg (by omega), if_neg (by simp), if_neg (by omega), if_neg (by omega)]
      simp only [hk]
      rw [ih]
      unfold upds
      rw [List.filterMap_cons, h1]

theorem starts_differs {s : Sps} {a b : SliceHeader} (h : Differs s a b) : startsPicture s.found a.found b.found = true := by
  have h1 : s.found.pocType = s.poc.type := rfl
  unfold startsPicture SliceHeader.found
  simp only [h1, Bool.or_eq_true, Bool.and_eq_true, bne_iff_ne, ne_eq, beq_iff_eq]
  rcases h with h | h | h | ⟨x, y, hx, hy, h⟩ | ⟨h, h'⟩ | h | h | h | ⟨h, h', h''⟩
  · simp [h]
  · simp [h]
  · simp [h]
  · have : ¬x = y := h
    cases x <;> cases y <;> simp [hx, hy] at this ⊢
  · have : a.refIdc ≠ 0 ∨ b.refIdc ≠ 0 := by omega
    simp only [h, not_false_eq_true, true_and, this]
    simp
  · simp [h]
  · simp [h]
  · have : ¬((a.unitType == 5) = (b.unitType == 5)) := by
      intro he
      apply h
      rw [Bool.eq_iff_iff, beq_iff_eq, beq_iff_eq] at he
      exact he
    simp [this]
  · simp [h, h'']

theorem starts_same {s : Sps} {a b : SliceHeader} (h : ¬Differs s b a) (hr : a.refIdc = b.refIdc) :
    startsPicture s.found a.found b.found = false := by
  have h1 : s.found.pocType = s.poc.type := rfl
  unfold Differs at h
  simp only [not_or] at h
  obtain ⟨g1, g2, g3, g4, _, g6, g7, g8, g9⟩ := h
  unfold startsPicture SliceHeader.found
  simp only [h1]
  simp only [ne_eq, Decidable.not_not] at g1 g2 g3 g8
  have e3 : a.field = b.field := by
    cases ha : a.field with
    | none => cases hb : b.field with
      | none => rfl
      | some y => rw [ha, hb] at g3; cases g3
    | some x => cases hb : b.field with
      | none => rw [ha, hb] at g3; cases g3
      | some y =>
        congr 1
        by_cases he : x = y
        · exact he
        · exact absurd ⟨y, x, hb, ha, fun h => he h.symm⟩ g4
  have e8 : (a.unitType == 5) = (b.unitType == 5) := by
    rw [Bool.eq_iff_iff, beq_iff_eq, beq_iff_eq]
    exact g8.symm
  rw [g2, g1, e3, e8, hr]
  simp only [bne_self_eq_false, Bool.false_or, Bool.and_false, Bool.or_false, Bool.false_and]
  have k9 : ((b.unitType == 5) && a.idrPicId != b.idrPicId) = false := by
    cases hb : b.unitType == 5 with
    | false => rfl
    | true =>
      rw [beq_iff_eq] at hb
      have ha : a.unitType = 5 := g8.1 hb
      simp only [Bool.true_and, bne_eq_false_iff_eq]
      by_cases he : a.idrPicId = b.idrPicId
      · exact he
      · exact absurd ⟨hb, ha, fun h => he h.symm⟩ g9
  have k6 : ((s.poc.type == 0) && (a.pocLsb != b.pocLsb || a.deltaPocBottom != b.deltaPocBottom)) = false := by
    cases hb : s.poc.type == 0 with
    | false => rfl
    | true =>
      rw [beq_iff_eq] at hb
      simp only [Bool.true_and, Bool.or_eq_false_iff, bne_eq_false_iff_eq]
      by_cases he : a.pocLsb = b.pocLsb
      · by_cases he' : a.deltaPocBottom = b.deltaPocBottom
        · exact ⟨he, he'⟩
        · exact absurd ⟨hb, .inr fun h => he' h.symm⟩ g6
      · exact absurd ⟨hb, .inl fun h => he h.symm⟩ g6
  have k7 : ((s.poc.type == 1) && (a.deltaPoc0 != b.deltaPoc0 || a.deltaPoc1 != b.deltaPoc1)) = false := by
    cases hb : s.poc.type == 1 with
    | false => rfl
    | true =>
      rw [beq_iff_eq] at hb
      simp only [Bool.true_and, Bool.or_eq_false_iff, bne_eq_false_iff_eq]
      by_cases he : a.deltaPoc0 = b.deltaPoc0
      · by_cases he' : a.deltaPoc1 = b.deltaPoc1
        · exact ⟨he, he'⟩
        · exact absurd ⟨hb, .inr fun h => he' h.symm⟩ g7
      · exact absurd ⟨hb, .inl fun h => he h.symm⟩ g7
  rw [k9, k6, k7]
  rfl

/-- The parser has the sets of the picture. -/
structure Has (st : Sets) (p : Picture) : Prop where
  pps : st.pps p.first.ppsId = some p.pps.found
  sps : st.sps p.pps.spsId = some p.sps.found

theorem Has.lookup {st : Sets} {p : Picture} (h : Has st p) : st.lookup p.first.ppsId = some (p.pps.found, p.sps.found) := by
  unfold Sets.lookup
  rw [h.pps]
  show (st.sps p.pps.spsId).map _ = _
  rw [h.sps]
  rfl

/-- What the parser makes of a slice of a picture. -/
theorem slice_read {st : Sets} {p : Picture} (h : Has st p) {u : NalUnit} {x : SliceHeader} (hu : u.Holds)
    (hn : u.nal = .slice p.pps p.sps x) (hx : p.Slice x) (hid : x.ppsId = p.first.ppsId) (y : Bytes) :
    ∃ r r', unitType (seen u y) = .ok x.unitType r ∧ (parseSlice st).run (rbsp (seen u y)) = .ok x.found r' := by
  obtain ⟨r, hr⟩ := seen_type hu (by rw [hn]; exact hx.valid.refIdc) (by rw [hn]; exact hx.valid.unitType) y
  obtain ⟨r', hr'⟩ := seen_reads hu y (p := parseSlice st) (a := x.found)
    (by rw [hn]; exact reads_slice p.pps p.sps x hx.valid st (by rw [hid]; exact h.lookup))
  rw [hn] at hr
  exact ⟨r, r', hr, hr'⟩

theorem kind_slice {t : Nat} (h : sliceType t) (b : Bool) : kindOf t b = .slice := by
  unfold sliceType at h
  unfold kindOf
  rw [if_pos h]

theorem loop_first (b : Bytes) {st : Sets} {p : Picture} (h : Has st p) (hu : NalUnit.Holds ⟨.slice p.pps p.sps p.first, p.long, p.body⟩)
    (hx : p.Slice p.first) (hr : p.pps.redundantPicCntPresent = false) (rest : List NalUnit) (n : Nat) (offs : List Nat) :
    loop b (layout n (⟨.slice p.pps p.sps p.first, p.long, p.body⟩ :: rest)) st [] offs =
      loop b (layout (n + len [⟨.slice p.pps p.sps p.first, p.long, p.body⟩]) rest) st [p.first.found]
        (offs ++ positions n [⟨.slice p.pps p.sps p.first, p.long, p.body⟩]) := by
  obtain ⟨r, r', h1, h2⟩ := slice_read h hu rfl hx rfl (pad rest)
  rw [layout_cons, loop, h1]
  simp only [kind_slice hx.type]
  rw [h2]
  have h0 : p.first.found.redundantPicCnt = 0 := hx.valid.redundant hr
  simp only [h0, if_true]
  rw [if_neg (by simp [isNext]), len_cons]
  rfl

def headers (us : List NalUnit) : List SliceHeader := us.filterMap (fun u => match u.nal with | .slice _ _ x => some x | _ => none)

theorem loop_after (b : Bytes) {st : Sets} {p : Picture} (h : Has st p) (hr : p.pps.redundantPicCntPresent = false)
    (us rest : List NalUnit) (ha : ∀ u ∈ us, p.After u) (hh : ∀ u ∈ us, u.Holds) (n : Nat) (hs : List Slice) (offs : List Nat) :
    loop b (layout n (us ++ rest)) st (p.first.found :: hs) offs =
      loop b (layout (n + len us) rest) st (p.first.found :: (hs ++ (headers us).map SliceHeader.found)) (offs ++ positions n us) := by
  induction us generalizing n hs offs with
  | nil => simp [len, headers, positions]
  | cons u us ih =>
    have ih := fun n hs offs => ih (fun v hv => ha v (by simp [hv])) (fun v hv => hh v (by simp [hv])) n hs offs
    have hau := ha u (by simp)
    have hhu := hh u (by simp)
    rw [List.cons_append, layout_cons, len_cons, positions_cons, ← Nat.add_assoc]
    have e : offs ++ (n + u.zeros) :: positions (n + u.bytes.length) us = (offs ++ [n + u.zeros]) ++ positions (n + u.bytes.length) us := by
      simp
    rw [e]
    unfold Picture.After at hau
    unfold headers
    rw [List.filterMap_cons]
    cases hn : u.nal with
    | sps x => rw [hn] at hau; exact hau.elim
    | pps x => rw [hn] at hau; exact hau.elim
    | slice q s x =>
      rw [hn] at hau
      obtain ⟨hq, hs', hx, hd, href⟩ := hau
      subst hq hs'
      have hid : x.ppsId = p.first.ppsId := by
        by_cases he : p.first.ppsId = x.ppsId
        · exact he.symm
        · exact absurd (.inr (.inl he)) hd
      obtain ⟨r, r', h1, h2⟩ := slice_read h hhu hn hx hid (pad (us ++ rest))
      rw [loop, h1]
      simp only [kind_slice hx.type]
      rw [h2]
      have h0 : x.found.redundantPicCnt = 0 := hx.valid.redundant hr
      have hnext : isNext st (p.first.found :: hs) x.found = false := by
        unfold isNext
        rw [show x.found.ppsId = p.first.ppsId from hid, h.lookup]
        exact starts_same hd href
      simp only [h0, if_true, hnext, Bool.false_eq_true, if_false]
      rw [List.cons_append, ih]
      congr 1
      rw [List.map_cons, List.append_assoc]
      rfl
    | other r t =>
      rw [hn] at hau
      obtain ⟨h1, h2, h3, h4⟩ := hau
      obtain ⟨r', hr'⟩ := seen_type hhu (by rw [hn]; exact h1) (by rw [hn]; exact h2) (pad (us ++ rest))
      rw [hn] at hr'
      change unitType _ = .ok t _ at hr'
      rw [loop, hr']
      have hk : ∀ c, kindOf t c = .other := by
        intro c
        unfold boundary at h4
        unfold kindOf
        rw [if_neg (by omega), if_neg (by omega), if_neg (by omega), if_neg (by omega)]
      simp only [hk]
      rw [ih]
      rfl

/-! ## Whole pictures -/

theorem Picture.Valid.has {a : Active} {p : Picture} (h : p.Valid a) : Has (p.before.foldl Active.add a).found p := by
  constructor
  · show ((p.before.foldl Active.add a).pps _).map _ = _
    rw [h.pps]
    rfl
  · show ((p.before.foldl Active.add a).sps _).map _ = _
    rw [h.sps]
    rfl

theorem loop_picture (b : Bytes) {a : Active} {p : Picture} (h : p.Valid a) (rest : List NalUnit) :
    loop b (layout 0 (p.units ++ rest)) a.found [] [] =
      loop b (layout p.bytes.length rest) (p.before.foldl Active.add a).found (p.first.found :: p.others.map SliceHeader.found)
        (positions 0 p.units) := by
  have hh := h.holds
  unfold Picture.units at hh ⊢
  rw [List.append_assoc, loop_before b p.before _ h.before (fun u hu => hh u (by simp [hu])), ← found_adds, List.cons_append,
    loop_first b h.has (hh _ (by simp)) h.first h.valid.2.2,
    loop_after b h.has h.valid.2.2 p.after rest h.after (fun u hu => hh u (by simp [hu]))]
  have e1 : 0 + len p.before + len [⟨.slice p.pps p.sps p.first, p.long, p.body⟩] + len p.after = p.bytes.length := by
    unfold Picture.bytes Picture.units
    rw [List.flatMap_append, List.flatMap_cons, List.length_append, List.length_append, len_cons]
    simp only [len, List.flatMap_nil, List.length_nil]
    omega
  have e2 : [] ++ positions 0 p.before ++ positions (0 + len p.before) [⟨.slice p.pps p.sps p.first, p.long, p.body⟩] ++
      positions (0 + len p.before + len [⟨.slice p.pps p.sps p.first, p.long, p.body⟩]) p.after =
      positions 0 (p.before ++ ⟨.slice p.pps p.sps p.first, p.long, p.body⟩ :: p.after) := by
    rw [positions_append, positions_cons, List.nil_append, List.append_assoc, len_cons]
    rfl
  rw [e1, e2]
  rfl

theorem finish_picture (b : Bytes) {a : Active} {p : Picture} (h : p.Valid a) (offs : List Nat) (o : Nat) :
    finish b (p.before.foldl Active.add a).found (p.first.found :: p.others.map SliceHeader.found) offs o =
      .frame (frameSize b o) offs (infoOf p.sps p.first p.others) := by
  unfold finish
  simp only
  rw [C62_info _ p.pps p.sps p.first p.others h.has.pps h.has.sps h.valid.1 h.valid.2.1]

/-- The next picture is noticed. -/
theorem loop_next (b : Bytes) {a : Active} {p q : Picture} (hp : p.Valid a) (hq : q.Valid (p.before.foldl Active.add a))
    (hf : q.Follows p) (rest : List NalUnit) (n : Nat) (hs : List Slice) (offs : List Nat) :
    ∃ z, (z = 0 ∨ z = 1) ∧ (q.bytes.take z = List.replicate z 0) ∧
      loop b (layout n (q.units ++ rest)) (p.before.foldl Active.add a).found (p.first.found :: hs) offs =
        ((p.before.foldl Active.add a).found, finish b (p.before.foldl Active.add a).found (p.first.found :: hs) offs (n + z)) := by
  have hz : ∀ u : NalUnit, ∀ us, (u.zeros = 0 ∨ u.zeros = 1) ∧
      (((u :: us).flatMap NalUnit.bytes).take u.zeros = List.replicate u.zeros 0) := by
    intro u us
    unfold NalUnit.zeros NalUnit.bytes
    rw [List.flatMap_cons]
    cases u.long <;> simp
  unfold Picture.Follows at hf
  unfold Picture.bytes Picture.units
  cases hb : q.before with
  | nil =>
    rw [hb] at hf
    have hhas := hq.has
    rw [hb] at hhas
    obtain ⟨r, r', h1, h2⟩ := slice_read (u := ⟨.slice q.pps q.sps q.first, q.long, q.body⟩) hhas
      (hq.holds _ (by unfold Picture.units; simp)) rfl hq.first rfl (pad (q.after ++ rest))
    refine ⟨_, (hz _ []).1, (hz _ _).2, ?_⟩
    rw [List.nil_append, List.cons_append, layout_cons, loop, h1]
    simp only [kind_slice hq.first.type]
    rw [List.foldl_nil] at h2
    rw [h2]
    have h0 : q.first.found.redundantPicCnt = 0 := hq.first.valid.redundant hq.valid.2.2
    have hnext : isNext (p.before.foldl Active.add a).found (p.first.found :: hs) q.first.found = true := by
      have := hhas.lookup
      rw [List.foldl_nil] at this
      unfold isNext
      rw [show q.first.found.ppsId = q.first.ppsId from rfl, this]
      exact starts_differs hf
    simp only [h0, if_true, hnext]
  | cons u us =>
    rw [hb] at hf
    have hu := hq.before u (by rw [hb]; simp)
    have hhu := hq.holds u (by unfold Picture.units; rw [hb]; simp)
    refine ⟨_, (hz _ []).1, (hz _ _).2, ?_⟩
    rw [List.cons_append, List.cons_append, layout_cons, loop]
    have ht : ∃ t r, unitType (seen u (pad (us ++ ⟨.slice q.pps q.sps q.first, q.long, q.body⟩ :: q.after ++ rest))) = .ok t r ∧
        kindOf t true = .boundary := by
      unfold NalUnit.Before at hu
      simp only at hf
      generalize pad _ = y
      cases hn : u.nal with
      | sps x =>
        rw [hn] at hu
        obtain ⟨r, hr⟩ := seen_type hhu (by rw [hn]; exact hu.refIdc) (by rw [hn]; show 7 < 32; decide) y
        rw [hn] at hr
        exact ⟨7, r, hr, rfl⟩
      | pps x =>
        rw [hn] at hu
        obtain ⟨r, hr⟩ := seen_type hhu (by rw [hn]; exact hu.1.refIdc) (by rw [hn]; show 8 < 32; decide) y
        rw [hn] at hr
        exact ⟨8, r, hr, rfl⟩
      | slice _ _ x => rw [hn] at hu; exact hu.elim
      | other rr t =>
        rw [hn] at hu hf
        obtain ⟨r, hr⟩ := seen_type hhu (by rw [hn]; exact hu.1) (by rw [hn]; exact hu.2.1) y
        rw [hn] at hr
        refine ⟨t, r, hr, ?_⟩
        unfold boundary at hf
        unfold kindOf
        rw [if_neg (by omega), if_pos ⟨rfl, by omega⟩]
    obtain ⟨t, r, h1, h2⟩ := ht
    rw [h1]
    simp only
    rw [show (!(p.first.found :: hs).isEmpty) = true from rfl, h2]

theorem bytes_last {us : List NalUnit} (hne : us ≠ []) (h : ∀ u ∈ us, u.Holds) :
    ∃ x, (us.flatMap NalUnit.bytes).getLast? = some x ∧ x ≠ 0 := by
  induction us with
  | nil => exact absurd rfl hne
  | cons u us ih =>
    rw [List.flatMap_cons]
    cases us with
    | nil =>
      obtain ⟨x, hx, h0⟩ := (h u (by simp)).ends
      refine ⟨x, ?_, h0⟩
      rw [List.flatMap_nil, List.append_nil]
      unfold NalUnit.bytes
      rw [List.getLast?_append, List.getLast?_append, escape_last, hx]
      rfl
    | cons v vs =>
      obtain ⟨x, hx, h0⟩ := ih (by simp) (fun w hw => h w (by simp [hw]))
      exact ⟨x, by rw [List.getLast?_append, hx]; rfl, h0⟩

/-- The size of a frame before the next. -/
theorem frameSize_next {c d : Bytes} {z : Nat} (hc : ∃ x, c.getLast? = some x ∧ x ≠ 0) (hz : z = 0 ∨ z = 1)
    (hd : d.take z = List.replicate z 0) : frameSize (c ++ d) (c.length + z) = c.length := by
  obtain ⟨x, hx, h0⟩ := hc
  have hpos : 0 < c.length := by
    cases c with
    | nil => cases hx
    | cons _ _ => simp
  unfold frameSize
  rcases hz with hz | hz
  · subst hz
    rw [Nat.add_zero, if_neg, ]
    rintro ⟨_, h⟩
    rw [List.getElem?_append_left (by omega), ← List.getLast?_eq_getElem?, hx] at h
    injection h with h
    exact h0 h
  · subst hz
    have : d[0]? = some 0 := by
      have := congrArg (fun l => l[0]?) hd
      simpa using this
    rw [if_pos]
    · omega
    · refine ⟨by omega, ?_⟩
      rw [Nat.add_sub_cancel, List.getElem?_append_right (by omega), Nat.sub_self]
      exact this

/-! ## The last picture -/

theorem info_before (us rest : List NalUnit) (hb : ∀ u ∈ us, u.Before) (hh : ∀ u ∈ us, u.Holds) (n : Nat) (st : Sets)
    (hs : List Slice) : infoLoop (layout n (us ++ rest)) st hs = infoLoop (layout (n + len us) rest) (apply (upds us) st) hs := by
  induction us generalizing n st with
  | nil => simp [len, upds, apply]
  | cons u us ih =>
    have ih := fun n st => ih (fun v hv => hb v (by simp [hv])) (fun v hv => hh v (by simp [hv])) n st
    rw [List.cons_append, layout_cons, infoLoop, len_cons, ← Nat.add_assoc]
    rcases before_cases (hb u (by simp)) (hh u (by simp)) (pad (us ++ rest)) with ⟨x, r, r', h1, h2, h3⟩ | ⟨x, r, r', h1, h2, h3, _⟩ |
      ⟨t, r, h1, h2, h3⟩
    · rw [h2, h3]
      show infoLoop _ (st.addSps x) hs = _
      rw [ih]
      unfold upds
      rw [List.filterMap_cons, h1]
      rfl
    · rw [h2, h3]
      show infoLoop _ (st.addPps x) hs = _
      rw [ih]
      unfold upds
      rw [List.filterMap_cons, h1]
      rfl
    · rw [h2]
      simp only
      rw [if_neg (by omega), if_neg (by omega), if_neg (by omega), if_neg (by omega), ih]
      unfold upds
      rw [List.filterMap_cons, h1]

theorem info_after {st : Sets} {p : Picture} (h : Has st p) (hr : p.pps.redundantPicCntPresent = false)
    (us : List NalUnit) (ha : ∀ u ∈ us, p.After u) (hh : ∀ u ∈ us, u.Holds) (n : Nat) (hs : List Slice) :
    infoLoop (layout n us) st hs = (st, some (hs ++ (headers us).map SliceHeader.found)) := by
  induction us generalizing n hs with
  | nil => simp [layout, infoLoop, headers]
  | cons u us ih =>
    have ih := fun n hs => ih (fun v hv => ha v (by simp [hv])) (fun v hv => hh v (by simp [hv])) n hs
    have hau := ha u (by simp)
    have hhu := hh u (by simp)
    rw [layout_cons]
    unfold Picture.After at hau
    unfold headers
    rw [List.filterMap_cons]
    cases hn : u.nal with
    | sps x => rw [hn] at hau; exact hau.elim
    | pps x => rw [hn] at hau; exact hau.elim
    | slice q s x =>
      rw [hn] at hau
      obtain ⟨hq, hs', hx, hd, href⟩ := hau
      subst hq hs'
      have hid : x.ppsId = p.first.ppsId := by
        by_cases he : p.first.ppsId = x.ppsId
        · exact he.symm
        · exact absurd (.inr (.inl he)) hd
      obtain ⟨r, r', h1, h2⟩ := slice_read h hhu hn hx hid (pad us)
      have ht := hx.type
      unfold sliceType at ht
      rw [infoLoop, h1]
      simp only
      rw [if_pos ht, h2]
      have h0 : x.found.redundantPicCnt = 0 := hx.valid.redundant hr
      simp only [h0]
      rw [if_neg (by simp), ih, List.map_cons, List.append_assoc]
      rfl
    | other r t =>
      rw [hn] at hau
      obtain ⟨h1, h2, h3, h4⟩ := hau
      obtain ⟨r', hr'⟩ := seen_type hhu (by rw [hn]; exact h1) (by rw [hn]; exact h2) (pad us)
      rw [hn] at hr'
      change unitType _ = .ok t _ at hr'
      rw [infoLoop, hr']
      simp only
      rw [if_neg (by omega), if_neg (by omega), if_neg (by omega), if_neg (by omega), ih]
      rfl

theorem differs_self (s : Sps) (a : SliceHeader) : ¬Differs s a a := by
  rintro (h | h | h | ⟨x, y, h1, h2, h⟩ | h | h | h | h | h)
  · exact h rfl
  · exact h rfl
  · exact h rfl
  · rw [h1] at h2
    injection h2 with h2
    exact h h2
  · exact h.1 rfl
  · rcases h.2 with h | h <;> exact h rfl
  · rcases h.2 with h | h <;> exact h rfl
  · exact h Iff.rfl
  · exact h.2.2 rfl

theorem remainder_picture {a : Active} {p : Picture} (h : p.Valid a) :
    remainder (p.before.foldl Active.add a).found p.bytes = ([p.frame], .done) := by
  have hh := h.holds
  have hl : units p.bytes = layout 0 p.units := by
    have := units_layout p.units (fun u hu => (hh u hu).ends) 0
    unfold Picture.bytes
    simpa using this
  have ho : offsets p.bytes = positions 0 p.units := by
    rw [← units_fst, hl]
    have : ∀ n us, (layout n us).map (fun x => x.1) = positions n us := by
      intro n us
      induction us generalizing n with
      | nil => rfl
      | cons u us ih => rw [layout_cons, positions_cons, List.map_cons, ih]
    exact this _ _
  have hi : infoLoop (units p.bytes) (p.before.foldl Active.add a).found [] =
      ((p.before.foldl Active.add a).found, some (p.first.found :: p.others.map SliceHeader.found)) := by
    have hfirst : p.After ⟨.slice p.pps p.sps p.first, p.long, p.body⟩ :=
      ⟨rfl, rfl, h.first, differs_self _ _, rfl⟩
    rw [hl]
    unfold Picture.units at hh ⊢
    rw [info_before p.before _ h.before (fun u hu => hh u (by simp [hu])), found_adds, apply_twice, ← found_adds,
      info_after h.has h.valid.2.2 _ (by
        intro u hu
        rcases List.mem_cons.1 hu with hu | hu
        · rw [hu]; exact hfirst
        · exact h.after u hu) (fun u hu => hh u (List.mem_append_right _ hu))]
    rfl
  unfold remainder
  have hne : offsets p.bytes ≠ [] := by
    rw [ho]
    unfold Picture.units
    rw [positions_append, positions_cons]
    simp
  rw [if_neg hne]
  unfold parseFrameInfo
  rw [hi]
  simp only
  rw [C62_info _ p.pps p.sps p.first p.others h.has.pps h.has.sps h.valid.1 h.valid.2.1, ho]
  rfl

theorem mem_layout {n o : Nat} {us : List NalUnit} {x : Bytes} (h : (o, x) ∈ layout n us) : ∃ v ∈ us, ∃ y, x = seen v y := by
  induction us generalizing n with
  | nil => cases h
  | cons u us ih =>
    rw [layout_cons] at h
    rcases List.mem_cons.1 h with h | h
    · injection h with _ h
      exact ⟨u, by simp, _, h⟩
    · obtain ⟨v, hv, y, hy⟩ := ih h
      exact ⟨v, by simp [hv], y, hy⟩

theorem picture_noRedundant {a : Active} {p : Picture} (h : p.Valid a) {u : NalUnit} (hu : u ∈ p.units) {y : Bytes} {x : H264.PPS}
    {t : Nat} {r r' : List Bool} (h1 : unitType (seen u y) = .ok t r) (h2 : t = 8)
    (h3 : parsePps.run (rbsp (seen u y)) = .ok x r') : x.redundantPicCntPresent = false := by
  have hh := h.holds u hu
  have slice : ∀ s, u.nal = .slice p.pps p.sps s → p.Slice s → False := by
    intro s hn hs
    have hr := hs.valid.refIdc
    have ht := hs.type
    unfold sliceType at ht
    obtain ⟨r'', h4⟩ := seen_type hh (by rw [hn]; exact hr) (by rw [hn]; show s.unitType < 32; omega) y
    rw [hn] at h4
    rw [h4] at h1
    injection h1 with h1
    change s.unitType = t at h1
    omega
  unfold Picture.units at hu
  rcases List.mem_append.1 hu with hu | hu
  · rcases before_cases (h.before u hu) hh y with ⟨z, _, _, _, h4, _⟩ | ⟨z, _, _, _, h4, h5, h6⟩ | ⟨t', _, _, h4, _, _, h5⟩
    · rw [h4] at h1; injection h1 with h1; omega
    · rw [h5] at h3; injection h3 with h3; rw [← h3]; exact h6
    · rw [h4] at h1; injection h1 with h1; omega
  · rcases List.mem_cons.1 hu with hu | hu
    · exact (slice p.first (by rw [hu]) h.first).elim
    · have ha := h.after u hu
      unfold Picture.After at ha
      cases hn : u.nal with
      | sps x => rw [hn] at ha; exact ha.elim
      | pps x => rw [hn] at ha; exact ha.elim
      | slice q s x =>
        rw [hn] at ha
        obtain ⟨hq, hs', hx, _⟩ := ha
        subst hq hs'
        exact (slice x hn hx).elim
      | other r t' =>
        rw [hn] at ha
        obtain ⟨r'', h4⟩ := seen_type hh (by rw [hn]; exact ha.1) (by rw [hn]; exact ha.2.1) y
        rw [hn] at h4
        rw [h4] at h1
        injection h1 with h1
        change t' = t at h1
        omega

theorem Stream.valid {a : Active} {ps : List Picture} (h : Stream a ps) : ∀ p ∈ ps, ∃ a, p.Valid a := by
  induction h with
  | nil => simp
  | one h => intro p hp; simp at hp; subst hp; exact ⟨_, h⟩
  | cons h _ _ ih =>
    intro p hp
    rcases List.mem_cons.1 hp with hp | hp
    · subst hp; exact ⟨_, h⟩
    · exact ih p hp

theorem bytes_flat (ps : List Picture) : ps.flatMap Picture.bytes = (ps.flatMap Picture.units).flatMap NalUnit.bytes := by
  rw [List.flatMap_assoc]
  rfl

theorem stream_units {a : Active} {ps : List Picture} (h : Stream a ps) :
    units (ps.flatMap Picture.bytes) = layout 0 (ps.flatMap Picture.units) := by
  rw [bytes_flat]
  have := units_layout (ps.flatMap Picture.units) (by
    intro u hu
    obtain ⟨p, hp, hu⟩ := List.mem_flatMap.1 hu
    obtain ⟨a, ha⟩ := h.valid p hp
    exact (ha.holds u hu).ends) 0
  simpa using this

theorem stream_noRedundant {a : Active} {ps : List Picture} (h : Stream a ps) : NoRedundant (ps.flatMap Picture.bytes) := by
  intro o u p t r r' hm h1 h2 h3
  rw [stream_units h] at hm
  obtain ⟨v, hv, y, hy⟩ := mem_layout hm
  subst hy
  obtain ⟨q, hq, hv⟩ := List.mem_flatMap.1 hv
  obtain ⟨a, ha⟩ := h.valid q hq
  exact picture_noRedundant ha hv h1 h2 h3

theorem stream_splits {a : Active} {ps : List Picture} (h : Stream a ps) :
    Splits a.found (ps.flatMap Picture.bytes) (ps.map Picture.frame) := by
  induction h with
  | nil a => exact .last (st' := a.found) rfl rfl
  | @one a p h =>
    rw [List.flatMap_cons, List.flatMap_nil, List.append_nil]
    refine .last (st' := (p.before.foldl Active.add a).found) ?_ (remainder_picture h)
    have hu := stream_units (Stream.one h)
    rw [List.flatMap_cons, List.flatMap_nil, List.append_nil, List.flatMap_cons, List.flatMap_nil] at hu
    unfold parseFrame
    rw [hu, loop_picture _ h]
    rfl
  | @cons a p q ps h hf hs ih =>
    have hq : q.Valid (p.before.foldl Active.add a) := by cases hs <;> assumption
    have hu := stream_units (Stream.cons h hf hs)
    rw [List.flatMap_cons (xs := q :: ps), List.flatMap_cons (xs := q :: ps)] at hu
    rw [List.flatMap_cons (xs := q :: ps)]
    have hx : Splits (p.before.foldl Active.add a).found ((p.bytes ++ (q :: ps).flatMap Picture.bytes).drop p.bytes.length)
        ((q :: ps).map Picture.frame) := by
      rw [List.drop_left]; exact ih
    have ht : (p.bytes ++ (q :: ps).flatMap Picture.bytes).take p.bytes.length = p.bytes := List.take_left
    have := Splits.frame (st := a.found) (offs := positions 0 p.units) (info := infoOf p.sps p.first p.others) ?_ hx
    · rw [ht] at this
      exact this
    · unfold parseFrame
      rw [hu, loop_picture _ h, List.flatMap_cons (f := Picture.units)]
      obtain ⟨z, hz, h0, hl⟩ := loop_next (p.bytes ++ (q :: ps).flatMap Picture.bytes) h hq hf (ps.flatMap Picture.units)
        p.bytes.length (p.others.map SliceHeader.found) (positions 0 p.units)
      rw [hl, finish_picture _ h, frameSize_next (c := p.bytes) (bytes_last (by unfold Picture.units; simp) h.holds) hz]
      rw [List.flatMap_cons]
      have hqpos : z ≤ q.bytes.length := by
        have := congrArg List.length h0
        simp at this
        omega
      rw [List.take_append_of_le_length hqpos]
      exact h0

end Verif.Props.H264Stream

namespace Verif.Props

open Verif Verif.Wrap Verif.Wrap.H264 Verif.Props.H264Bits Verif.Props.H264Syntax Verif.Props.H264Frames Verif.Props.H264Stream

/-- **C63**: the frames of a stream are its pictures, whatever the sizes of the reads: each with all its bytes, the positions of its
units and what its headers say. -/
theorem C63_frames_partial (ps : List Picture) (h : Stream Active.none ps) (limits : List Nat) :
    frames (ps.flatMap Picture.bytes) limits = (ps.map Picture.frame, .done) :=
  C40_chunking _ _ (stream_splits h) (stream_noRedundant h) limits

/-! ## A stream -/

/-- Eight bits each, the rest completed with a stop bit and zeros. -/
def h264Pack : List Bool → Bytes
  | a :: b :: c :: d :: e :: f :: g :: h :: r =>
    UInt8.ofNat (natOf [a, b, c, d, e, f, g, h]) :: h264Pack r
  | l => [UInt8.ofNat (natOf (l ++ true :: List.replicate (7 - l.length) false))]

/-- Without redundant pictures. -/
def h264Plain : Pps := { h264Pps with redundantPicCntPresent := false }

theorem h264Plain_valid : h264Plain.Valid ∧ h264Plain.NotExplicit :=
  ⟨⟨h264Pps_valid.1.1, h264Pps_valid.1.2, h264Pps_valid.1.3⟩, h264Pps_valid.2⟩

/-- A unit with its fields and some more bytes. -/
def h264Unit (n : Nal) (long : Bool) (more : Bytes) : NalUnit := ⟨n, long, h264Pack n.bits ++ more⟩

def h264Picture (before : List NalUnit) (x : SliceHeader) (long : Bool) (after : List NalUnit) : Picture :=
  ⟨h264Plain, h264Sps, before, x, long, h264Pack (x.bits h264Plain h264Sps) ++ [0, 0, 0, 0, 1], after⟩

/-- Another slice of the same picture. -/
def h264Slice2 : SliceHeader := { h264Slice with firstMb := 40, type := 2 }

/-- A slice of the next picture. -/
def h264Next : SliceHeader := ⟨2, 1, 0, 5, 1, 0, 34, some false, 0, 0, 0, 4, 0, 0⟩

/-- A delimiter, the sets, a field of two slices with filler data; then the next field, without anything before; then another one
after a delimiter. -/
def h264Pictures : List Picture :=
  [h264Picture [h264Unit (.other 0 9) true [], h264Unit (.sps h264Sps) true [], h264Unit (.pps h264Plain) true []] h264Slice false
    [h264Unit (.slice h264Plain h264Sps h264Slice2) false [1, 2, 3], h264Unit (.other 0 12) false [255, 128]],
   h264Picture [] h264Next true [],
   h264Picture [h264Unit (.other 0 9) true []] h264Next false []]

theorem h264Slice_plain : h264Slice.Valid h264Plain h264Sps where
  refIdc := by decide
  unitType := by decide
  colourPlane := by decide
  frameNum := by decide
  field := by intro h; cases h
  idrPicId := by intro h; exact absurd rfl h
  pocLsb := by intro n h; cases h
  noLsb := fun _ => ⟨rfl, rfl⟩
  noCycle := by intro h; exact absurd rfl (h (-3) 4 [1, -2])
  noBottom := fun _ => ⟨rfl, rfl⟩
  redundant := fun _ => rfl

theorem h264Slice2_valid : h264Slice2.Valid h264Plain h264Sps where
  refIdc := by decide
  unitType := by decide
  colourPlane := by decide
  frameNum := by decide
  field := by intro h; cases h
  idrPicId := by intro h; exact absurd rfl h
  pocLsb := by intro n h; cases h
  noLsb := fun _ => ⟨rfl, rfl⟩
  noCycle := by intro h; exact absurd rfl (h (-3) 4 [1, -2])
  noBottom := fun _ => ⟨rfl, rfl⟩
  redundant := fun _ => rfl

theorem h264Next_valid : h264Next.Valid h264Plain h264Sps where
  refIdc := by decide
  unitType := by decide
  colourPlane := by decide
  frameNum := by decide
  field := by intro h; cases h
  idrPicId := fun _ => rfl
  pocLsb := by intro n h; cases h
  noLsb := fun _ => ⟨rfl, rfl⟩
  noCycle := by intro h; exact absurd rfl (h (-3) 4 [1, -2])
  noBottom := fun _ => ⟨rfl, rfl⟩
  redundant := fun _ => rfl

theorem h264Sps_sound : h264Sps.Sound :=
  ⟨by intro t h; injection h with h; subst h; decide, by intro w h hh; injection hh with hh; injection hh with _ hh; subst hh; decide⟩

theorem h264Holds (u : NalUnit) (h : (bitsOf u.body).take u.nal.bits.length = u.nal.bits) (h' : u.body.getLast?.any (· ≠ 0) = true) :
    u.Holds := by
  refine ⟨⟨(bitsOf u.body).drop u.nal.bits.length, ?_⟩, ?_⟩
  · conv => lhs; rw [← List.take_append_drop u.nal.bits.length (bitsOf u.body), h]
  · cases hl : u.body.getLast? with
    | none => rw [hl] at h'; cases h'
    | some x => rw [hl] at h'; exact ⟨x, rfl, by simpa using h'⟩

theorem h264Pictures_stream : Stream Active.none h264Pictures := by
  have hv : h264Sps.Valid ∧ h264Sps.Sound ∧ h264Plain.redundantPicCntPresent = false := ⟨h264Sps_valid, h264Sps_sound, rfl⟩
  have hn : ∀ p : Picture, p.pps = h264Plain → p.sps = h264Sps → p.first = h264Next → p.Slice p.first := by
    intro p h1 h2 h3
    exact ⟨by rw [h1, h2, h3]; exact h264Next_valid, by rw [h3]; exact .inl rfl⟩
  refine .cons ?_ ?_ (.cons ?_ ?_ (.one ?_))
  · refine ⟨?_, ?_, rfl, rfl, hv, ⟨h264Slice_plain, .inr (.inr rfl)⟩, ?_⟩
    · intro u hu
      simp only [Picture.units, h264Picture, List.cons_append, List.nil_append, List.mem_cons, List.not_mem_nil, or_false] at hu
      rcases hu with rfl | rfl | rfl | rfl | rfl | rfl <;> exact h264Holds _ (by decide +kernel) (by decide +kernel)
    · intro u hu
      simp only [h264Picture, List.mem_cons, List.not_mem_nil, or_false] at hu
      rcases hu with rfl | rfl | rfl
      · show 0 < 4 ∧ _; decide
      · exact h264Sps_valid
      · exact ⟨h264Plain_valid.1, h264Plain_valid.2, rfl⟩
    · intro u hu
      simp only [h264Picture, List.mem_cons, List.not_mem_nil, or_false] at hu
      rcases hu with rfl | rfl
      · exact ⟨rfl, rfl, ⟨h264Slice2_valid, .inr (.inr rfl)⟩, differs_self _ h264Slice, rfl⟩
      · show 0 < 4 ∧ 12 < 32 ∧ 10 ≤ 12 ∧ ¬boundary 12
        unfold boundary
        decide
  · exact .inl (by decide)
  · refine ⟨?_, (by intro u hu; cases hu), rfl, rfl, hv, hn _ rfl rfl rfl, by intro u hu; cases hu⟩
    intro u hu
    simp only [Picture.units, h264Picture, List.cons_append, List.nil_append, List.mem_cons, List.not_mem_nil, or_false] at hu
    subst hu
    exact h264Holds _ (by decide +kernel) (by decide +kernel)
  · exact .inr (.inl rfl)
  · refine ⟨?_, ?_, rfl, rfl, hv, hn _ rfl rfl rfl, by intro u hu; cases hu⟩
    · intro u hu
      simp only [Picture.units, h264Picture, List.cons_append, List.nil_append, List.mem_cons, List.not_mem_nil, or_false] at hu
      rcases hu with rfl | rfl <;> exact h264Holds _ (by decide +kernel) (by decide +kernel)
    · intro u hu
      simp only [h264Picture, List.mem_cons, List.not_mem_nil, or_false] at hu
      subst hu
      show 0 < 4 ∧ _
      decide

example (limits : List Nat) : frames (h264Pictures.flatMap Picture.bytes) limits = (h264Pictures.map Picture.frame, .done) :=
  C63_frames_partial _ h264Pictures_stream limits

/-! ## Reference numbers -/

/-- Two slices of one picture (7.4.1.2.4: `nal_ref_idc` differs, but neither is zero). -/
def h264Ref : Picture :=
  h264Picture [h264Unit (.sps h264Sps) true [], h264Unit (.pps h264Plain) true []] h264Slice false
    [h264Unit (.slice h264Plain h264Sps { h264Slice2 with refIdc := 1 }) false [1, 2, 3]]

/-- **C63**, what is missing: slices that do not differ in the sense of 7.4.1.2.4 are taken for two pictures if their reference
numbers differ, since lines 205-206 compare the numbers only. -/
theorem C63_ref_idc_counterexample :
    ¬Differs h264Sps h264Slice { h264Slice2 with refIdc := 1 } ∧
    (frames h264Ref.bytes []).1.map (fun f => f.data.length) = [94, 12] := by
  refine ⟨?_, by decide +kernel⟩
  rintro (h | h | h | ⟨x, y, h1, h2, h⟩ | h | h | h | h | h)
  · exact h rfl
  · exact h rfl
  · exact h rfl
  · injection h1 with h1
    injection h2 with h2
    exact h (h1.symm.trans h2)
  · exact absurd h.2 (by decide)
  · rcases h.2 with h | h <;> exact h rfl
  · rcases h.2 with h | h <;> exact h rfl
  · exact h Iff.rfl
  · exact h.2.2 rfl


end Verif.Props

import Mathlib.Algebra.Order.Field.Rat
import Mathlib.Tactic.Linarith
import Mathlib.Tactic.FieldSimp
import Mathlib.Tactic.Ring
import Mathlib.Tactic.Positivity
import Mathlib.Tactic.NormNum
import Mathlib.Algebra.Order.Ring.Abs
import Verif.Numpy.Colour
import Verif.Numpy.Shape
import Verif.Props.C50

/-!
# C66: conversions between RGB and YUV
-/

namespace Verif.Numpy.Colour

open Verif Verif.Cog Verif.Numpy

/-! ## Specification: ITU-R BT.709 -/

/-- The luma of a colour. -/
def luma (r g b : Rat) : Rat := 0.2126 * r + 0.7152 * g + 0.0722 * b

/-- The first colour difference, scaled to the range of samples of `d` bits: half of the range for grey, from the scale factor
`2 * (1 - 0.0722)`. -/
def cb (d : Nat) (r g b : Rat) : Rat := (b - luma r g b) / 1.8556 + 2 ^ d / 2

/-- The second colour difference, scaled by `2 * (1 - 0.2126)`. -/
def cr (d : Nat) (r g b : Rat) : Rat := (r - luma r g b) / 1.5748 + 2 ^ d / 2

/-- `(r, g, b)` is the colour with luma `y` and colour differences `u` and `v`. -/
def IsColour (d : Nat) (y u v r g b : Rat) : Prop := luma r g b = y ∧ cb d r g b = u ∧ cr d r g b = v

/-- What the calculation may be off for samples of `d` bits: the constants in the code have six digits. -/
def tol (d : Nat) : Rat := 2 ^ d / 3000000 + 1 / 10000

/-- `n` is what remains of `x` when the fraction is dropped, up to the tolerance. -/
def Truncated (d : Nat) (x : Rat) (n : Nat) : Prop := x - 1 - tol d < n ∧ n ≤ x + tol d

/-- The three samples at a position. -/
def pixel (f : Frame) (x y : Nat) : Nat × Nat × Nat :=
  match f.pixels with
  | .planes a b c => ((a.getD x []).getD y 0, (b.getD x []).getD y 0, (c.getD x []).getD y 0)
  | .words _ => (0, 0, 0)

/-- The frame has three arrays with `width` columns of `height` samples of at most `d` bits. -/
def Samples (d : Nat) (f : Frame) : Prop :=
  ∃ a b c, f.pixels = .planes a b c ∧
    ∀ p ∈ [a, b, c], p.length = f.width ∧ ∀ col ∈ p, col.length = f.height ∧ ∀ v ∈ col, v < 2 ^ d

namespace C66

/-! ## Rounding to doubles -/

theorem pow2_pos (e : Int) : 0 < pow2 e := by
  unfold pow2
  split <;> positivity

theorem pow2_sub_one (e : Int) : pow2 (e - 1) * 2 = pow2 e := by
  unfold pow2
  by_cases h : 0 ≤ e - 1
  · rw [if_pos h, if_pos (by omega), ← pow_succ, show (e - 1).toNat + 1 = e.toNat by omega]
  · rw [if_neg h]
    by_cases h0 : e = 0
    · subst h0; norm_num
    · rw [if_neg (by omega), show (-(e - 1)).toNat = (-e).toNat + 1 by omega, pow_succ]
      field_simp

theorem pow2_sub (e : Int) (n : Nat) : pow2 (e - n) * 2 ^ n = pow2 e := by
  induction n with
  | zero => simp
  | succ n ih =>
    rw [← ih, ← pow2_sub_one (e - n), pow_succ]
    rw [show e - (n + 1 : Nat) = e - n - 1 by push_cast; ring]
    ring

/-- `2 ** (a - b)`. -/
theorem pow2_nat_sub (a b : Nat) : pow2 ((a : Int) - b) * 2 ^ b = 2 ^ a := by
  rw [pow2_sub]
  unfold pow2
  rw [if_pos (by omega)]
  rfl

theorem exponent_le {x : Rat} (hx : 0 < x) : pow2 (exponent x) ≤ x := by
  unfold exponent
  simp only
  by_cases h : pow2 ((x.num.toNat.log2 : Int) - (x.den.log2 : Int)) ≤ x
  · rw [if_pos h]; exact h
  · rw [if_neg h]
    have hn : 0 < x.num := Rat.num_pos.2 hx
    have h1 : 2 ^ x.num.toNat.log2 ≤ x.num.toNat := Nat.log2_self_le (by omega)
    have h2 : x.den < 2 ^ (x.den.log2 + 1) := Nat.lt_log2_self
    have h1' : (2 : Rat) ^ x.num.toNat.log2 ≤ (x.num : Rat) := by
      have : ((2 ^ x.num.toNat.log2 : Nat) : Int) ≤ x.num := by omega
      exact_mod_cast this
    have h2' : (x.den : Rat) ≤ 2 ^ (x.den.log2 + 1) := by exact_mod_cast h2.le
    have hd : (0 : Rat) < x.den := by exact_mod_cast x.den_pos
    have e := pow2_nat_sub x.num.toNat.log2 x.den.log2
    have e1 := pow2_sub_one ((x.num.toNat.log2 : Int) - (x.den.log2 : Int))
    have hp := pow2_pos ((x.num.toNat.log2 : Int) - (x.den.log2 : Int) - 1)
    have hxe : x * x.den = x.num := Rat.mul_den_eq_num x
    generalize pow2 ((x.num.toNat.log2 : Int) - (x.den.log2 : Int) - 1) = p at *
    have : p * x.den ≤ x * x.den := by
      rw [hxe]
      calc p * x.den ≤ p * 2 ^ (x.den.log2 + 1) := mul_le_mul_of_nonneg_left h2' hp.le
        _ = p * 2 * 2 ^ x.den.log2 := by rw [pow_succ]; ring
        _ = 2 ^ x.num.toNat.log2 := by rw [e1, e]
        _ ≤ x.num := h1'
    exact le_of_mul_le_mul_right this hd

theorem lt_exponent {x : Rat} (hx : 0 < x) : x < pow2 (exponent x + 1) := by
  unfold exponent
  simp only
  by_cases h : pow2 ((x.num.toNat.log2 : Int) - (x.den.log2 : Int)) ≤ x
  · rw [if_pos h]
    have hn : 0 < x.num := Rat.num_pos.2 hx
    have h1 : x.num.toNat < 2 ^ (x.num.toNat.log2 + 1) := Nat.lt_log2_self
    have h2 : 2 ^ x.den.log2 ≤ x.den := Nat.log2_self_le x.den_nz
    have h1' : (x.num : Rat) < 2 ^ (x.num.toNat.log2 + 1) := by
      have : x.num < ((2 ^ (x.num.toNat.log2 + 1) : Nat) : Int) := by omega
      exact_mod_cast this
    have h2' : (2 : Rat) ^ x.den.log2 ≤ x.den := by exact_mod_cast h2
    have hd : (0 : Rat) < x.den := by exact_mod_cast x.den_pos
    have e := pow2_nat_sub x.num.toNat.log2 x.den.log2
    have e1 := pow2_sub_one ((x.num.toNat.log2 : Int) - (x.den.log2 : Int) + 1)
    rw [show (x.num.toNat.log2 : Int) - (x.den.log2 : Int) + 1 - 1 = (x.num.toNat.log2 : Int) - (x.den.log2 : Int) by ring] at e1
    have hp := pow2_pos ((x.num.toNat.log2 : Int) - (x.den.log2 : Int))
    have hxe : x * x.den = x.num := Rat.mul_den_eq_num x
    rw [← e1]
    generalize pow2 ((x.num.toNat.log2 : Int) - (x.den.log2 : Int)) = p at *
    have : x * x.den < p * 2 * x.den := by
      rw [hxe]
      calc (x.num : Rat) < 2 ^ (x.num.toNat.log2 + 1) := h1'
        _ = p * 2 * 2 ^ x.den.log2 := by rw [pow_succ, ← e]; ring
        _ ≤ p * 2 * x.den := mul_le_mul_of_nonneg_left h2' (by linarith)
    exact lt_of_mul_lt_mul_right this hd.le
  · rw [if_neg h, sub_add_cancel]
    exact lt_of_not_ge h

theorem nearest_near (x : Rat) : |(nearest x : Rat) - x| ≤ 1 / 2 := by
  have h1 := Rat.floor_le x
  have h2 := Rat.lt_floor_add_one x
  push_cast at h2
  unfold nearest
  simp only
  rw [abs_le]
  split
  · constructor <;> linarith
  · split
    · push_cast; constructor <;> linarith
    · split
      · constructor <;> linarith
      · push_cast; constructor <;> linarith

theorem rnd_pos_near {x : Rat} (hx : 0 < x) :
    |(nearest (x / pow2 (exponent x - 52)) * pow2 (exponent x - 52) : Rat) - x| ≤ x / 2 ^ 53 := by
  have hp := pow2_pos (exponent x - 52)
  have h := nearest_near (x / pow2 (exponent x - 52))
  have he := exponent_le hx
  have hs := pow2_sub (exponent x) 52
  rw [show ((52 : Nat) : Int) = 52 from rfl] at hs
  generalize pow2 (exponent x - 52) = p at *
  have e : (nearest (x / p) * p : Rat) - x = (nearest (x / p) - x / p) * p := by field_simp
  rw [e, abs_mul, abs_of_pos hp]
  have h3 : p ≤ x / 2 ^ 52 := by
    rw [le_div_iff₀ (by positivity), hs]
    exact he
  calc |(nearest (x / p) : Rat) - x / p| * p ≤ 1 / 2 * p := mul_le_mul_of_nonneg_right h hp.le
    _ ≤ 1 / 2 * (x / 2 ^ 52) := by linarith
    _ = x / 2 ^ 53 := by rw [show (2 : Rat) ^ 53 = 2 * 2 ^ 52 by norm_num]; field_simp

/-- The error of rounding. -/
theorem rnd_near (x : Rat) : |rnd x - x| ≤ |x| / 2 ^ 53 := by
  unfold rnd
  by_cases h0 : x = 0
  · rw [if_pos h0, h0]; simp
  · rw [if_neg h0]
    by_cases hx : 0 < x
    · rw [if_pos hx, abs_of_pos hx]
      exact rnd_pos_near hx
    · rw [if_neg hx]
      have hn : 0 < -x := by
        rcases lt_trichotomy x 0 with h | h | h
        · linarith
        · exact absurd h h0
        · exact absurd h hx
      have := rnd_pos_near hn
      rw [abs_of_neg (by linarith : x < 0)]
      rw [← abs_neg]
      convert this using 2
      ring

/-- Rounding gives numbers of 53 bits. -/
theorem rnd_double (x : Rat) : ∃ (m : Int) (e : Int), rnd x = m * pow2 e ∧ |m| ≤ 2 ^ 53 := by
  have pos : ∀ x : Rat, 0 < x → |nearest (x / pow2 (exponent x - 52))| ≤ 2 ^ 53 := by
    intro x hx
    have hp := pow2_pos (exponent x - 52)
    have h := nearest_near (x / pow2 (exponent x - 52))
    have hs := pow2_sub (exponent x + 1) 53
    rw [show exponent x + 1 - (53 : Nat) = exponent x - 52 by push_cast; ring] at hs
    have hl := lt_exponent hx
    rw [← hs] at hl
    generalize pow2 (exponent x - 52) = p at *
    have h2 : x / p < 2 ^ 53 := by rw [div_lt_iff₀ hp]; linarith
    have h3 : 0 < x / p := div_pos hx hp
    rw [abs_le] at h
    have h4 : ((nearest (x / p) : Int) : Rat) < ((2 ^ 53 + 1 : Int) : Rat) := by push_cast; linarith [h.2]
    have h5 : ((-1 : Int) : Rat) < ((nearest (x / p) : Int) : Rat) := by push_cast; linarith [h.1]
    have h4' := Rat.intCast_lt_intCast.1 h4
    have h5' := Rat.intCast_lt_intCast.1 h5
    rw [abs_le]
    omega
  unfold rnd
  by_cases h0 : x = 0
  · rw [if_pos h0]; exact ⟨0, 0, by simp, by norm_num⟩
  · rw [if_neg h0]
    by_cases hx : 0 < x
    · rw [if_pos hx]; exact ⟨_, _, rfl, pos x hx⟩
    · rw [if_neg hx]
      have hn : 0 < -x := by
        rcases lt_trichotomy x 0 with h | h | h
        · linarith
        · exact absurd h h0
        · exact absurd h hx
      refine ⟨-nearest (-x / pow2 (exponent (-x) - 52)), exponent (-x) - 52, ?_, ?_⟩
      · push_cast; ring
      · rw [abs_neg]; exact pos _ hn

/-! ## Errors of the formulas -/

theorem op_near {x : Rat} (h : |x| ≤ 2 ^ 35) : |rnd x - x| ≤ 1 / 2 ^ 18 := by
  refine (rnd_near x).trans ?_
  calc |x| / 2 ^ 53 ≤ 2 ^ 35 / 2 ^ 53 := div_le_div_of_nonneg_right h (by positivity)
    _ = 1 / 2 ^ 18 := by norm_num

theorem mul_near {a c : Rat} (ha : |a| ≤ 2 ^ 33) (hc : |c| ≤ 2) : |mul a c - a * c| ≤ 1 / 2 ^ 17 := by
  have h1 : |rnd c - c| ≤ 1 / 2 ^ 52 := by
    refine (rnd_near c).trans ?_
    calc |c| / 2 ^ 53 ≤ 2 / 2 ^ 53 := div_le_div_of_nonneg_right hc (by positivity)
      _ = 1 / 2 ^ 52 := by norm_num
  have h2 : |a * rnd c - a * c| ≤ 1 / 2 ^ 19 := by
    rw [← mul_sub, abs_mul]
    calc |a| * |rnd c - c| ≤ 2 ^ 33 * (1 / 2 ^ 52) := mul_le_mul ha h1 (abs_nonneg _) (by positivity)
      _ = 1 / 2 ^ 19 := by norm_num
  have h3 : |a * c| ≤ 2 ^ 34 := by
    rw [abs_mul]
    calc |a| * |c| ≤ 2 ^ 33 * 2 := mul_le_mul ha hc (abs_nonneg _) (by positivity)
      _ = 2 ^ 34 := by norm_num
  have h4 : |a * rnd c| ≤ 2 ^ 35 := by
    rw [abs_le] at h2 h3 ⊢
    constructor <;> linarith [h2.1, h2.2, h3.1, h3.2]
  have h5 := op_near h4
  unfold mul
  rw [abs_le] at h2 h5 ⊢
  constructor <;> linarith [h2.1, h2.2, h5.1, h5.2]

theorem add_near {x y x' y' e : Rat} (h : |x - x'| ≤ e) {d : Rat} (h' : |y - y'| ≤ d) (hb : |x' + y'| ≤ 2 ^ 34) (he : e + d ≤ 1) :
    |add x y - (x' + y')| ≤ e + d + 1 / 2 ^ 18 := by
  have hb' : |x + y| ≤ 2 ^ 35 := by
    rw [abs_le] at *
    constructor <;> linarith [h.1, h.2, h'.1, h'.2, hb.1, hb.2]
  have := op_near hb'
  unfold add
  rw [abs_le] at *
  constructor <;> linarith [h.1, h.2, h'.1, h'.2, this.1, this.2]

theorem sub_near {x y x' y' e : Rat} (h : |x - x'| ≤ e) {d : Rat} (h' : |y - y'| ≤ d) (hb : |x' - y'| ≤ 2 ^ 34) (he : e + d ≤ 1) :
    |sub x y - (x' - y')| ≤ e + d + 1 / 2 ^ 18 := by
  have hb' : |x - y| ≤ 2 ^ 35 := by
    rw [abs_le] at *
    constructor <;> linarith [h.1, h.2, h'.1, h'.2, hb.1, hb.2]
  have := op_near hb'
  unfold sub
  rw [abs_le] at *
  constructor <;> linarith [h.1, h.2, h'.1, h'.2, this.1, this.2]

theorem self_near (x : Rat) : |x - x| ≤ 0 := by simp

macro "bnd" : tactic => `(tactic| (rw [abs_le]; constructor <;> linarith))

theorem yOf_near {r g b : Rat} (r0 : 0 ≤ r) (g0 : 0 ≤ g) (b0 : 0 ≤ b) (r1 : r ≤ 2 ^ 32) (g1 : g ≤ 2 ^ 32) (b1 : b ≤ 2 ^ 32) :
    |yOf r g b - (r * 0.2126 + g * 0.7152 + b * 0.0722)| ≤ 1 / 2 ^ 14 := by
  have h1 := mul_near (a := r) (c := 0.2126) (by bnd) (by norm_num [abs_le])
  have h2 := mul_near (a := g) (c := 0.7152) (by bnd) (by norm_num [abs_le])
  have h3 := mul_near (a := b) (c := 0.0722) (by bnd) (by norm_num [abs_le])
  have h4 := add_near h1 h2 (by bnd) (by norm_num)
  have h5 := add_near h4 h3 (by bnd) (by norm_num)
  exact h5.trans (by norm_num)

theorem uOf_near {r g b : Rat} {bd : Nat} (r0 : 0 ≤ r) (g0 : 0 ≤ g) (b0 : 0 ≤ b) (r1 : r ≤ 2 ^ 32) (g1 : g ≤ 2 ^ 32) (b1 : b ≤ 2 ^ 32)
    (h0 : 0 ≤ half bd) (hh : half bd ≤ 2 ^ 32) :
    |uOf bd r g b - (r * -0.114572 - g * 0.385428 + b * 0.5 + half bd)| ≤ 1 / 2 ^ 14 := by
  have h1 := mul_near (a := r) (c := -0.114572) (by bnd) (by norm_num [abs_le])
  have h2 := mul_near (a := g) (c := 0.385428) (by bnd) (by norm_num [abs_le])
  have h3 := mul_near (a := b) (c := 0.5) (by bnd) (by norm_num [abs_le])
  have h4 := sub_near h1 h2 (by bnd) (by norm_num)
  have h5 := add_near h4 h3 (by bnd) (by norm_num)
  have h6 := add_near h5 (self_near (half bd)) (by bnd) (by norm_num)
  exact h6.trans (by norm_num)

theorem vOf_near {r g b : Rat} {bd : Nat} (r0 : 0 ≤ r) (g0 : 0 ≤ g) (b0 : 0 ≤ b) (r1 : r ≤ 2 ^ 32) (g1 : g ≤ 2 ^ 32) (b1 : b ≤ 2 ^ 32)
    (h0 : 0 ≤ half bd) (hh : half bd ≤ 2 ^ 32) :
    |vOf bd r g b - (r * 0.5 - g * 0.454153 - b * 0.045847 + half bd)| ≤ 1 / 2 ^ 14 := by
  have h1 := mul_near (a := r) (c := 0.5) (by bnd) (by norm_num [abs_le])
  have h2 := mul_near (a := g) (c := 0.454153) (by bnd) (by norm_num [abs_le])
  have h3 := mul_near (a := b) (c := 0.045847) (by bnd) (by norm_num [abs_le])
  have h4 := sub_near h1 h2 (by bnd) (by norm_num)
  have h5 := sub_near h4 h3 (by bnd) (by norm_num)
  have h6 := add_near h5 (self_near (half bd)) (by bnd) (by norm_num)
  exact h6.trans (by norm_num)

theorem diff_near {u : Rat} {bd : Nat} (u0 : 0 ≤ u) (u1 : u ≤ 2 ^ 32) (h0 : 0 ≤ half bd) (hh : half bd ≤ 2 ^ 32) :
    |sub u (half bd) - (u - half bd)| ≤ 1 / 2 ^ 18 :=
  (sub_near (self_near u) (self_near (half bd)) (by bnd) (by norm_num)).trans (by norm_num)

/-- Multiplying a number that has an error. -/
theorem mul_near' {a a' c : Rat} (h : |a - a'| ≤ 1 / 2 ^ 18) (ha : |a'| ≤ 2 ^ 32) (hc : |c| ≤ 2) : |mul a c - a' * c| ≤ 1 / 2 ^ 16 := by
  have h1 := mul_near (a := a) (c := c) (by rw [abs_le] at *; constructor <;> linarith [h.1, h.2, ha.1, ha.2]) hc
  have h2 : |a * c - a' * c| ≤ 1 / 2 ^ 17 := by
    rw [← sub_mul, abs_mul]
    calc |a - a'| * |c| ≤ 1 / 2 ^ 18 * 2 := mul_le_mul h hc (abs_nonneg _) (by positivity)
      _ = 1 / 2 ^ 17 := by norm_num
  rw [abs_le] at *
  constructor <;> linarith [h1.1, h1.2, h2.1, h2.2]

theorem rOf_near {y v : Rat} {bd : Nat} (y0 : 0 ≤ y) (y1 : y ≤ 2 ^ 32) (v0 : 0 ≤ v) (v1 : v ≤ 2 ^ 32) (h0 : 0 ≤ half bd)
    (hh : half bd ≤ 2 ^ 32) : |rOf y (sub v (half bd)) - (y + (v - half bd) * 1.5748)| ≤ 1 / 2 ^ 14 := by
  have h1 := mul_near' (c := 1.5748) (diff_near v0 v1 h0 hh) (by bnd) (by norm_num [abs_le])
  have h2 := add_near (self_near y) h1 (by bnd) (by norm_num)
  exact h2.trans (by norm_num)

theorem bOf_near {y u : Rat} {bd : Nat} (y0 : 0 ≤ y) (y1 : y ≤ 2 ^ 32) (u0 : 0 ≤ u) (u1 : u ≤ 2 ^ 32) (h0 : 0 ≤ half bd)
    (hh : half bd ≤ 2 ^ 32) : |bOf y (sub u (half bd)) - (y + (u - half bd) * 1.8556)| ≤ 1 / 2 ^ 14 := by
  have h1 := mul_near' (c := 1.8556) (diff_near u0 u1 h0 hh) (by bnd) (by norm_num [abs_le])
  have h2 := add_near (self_near y) h1 (by bnd) (by norm_num)
  exact h2.trans (by norm_num)

theorem gOf_near {y u v : Rat} {bd : Nat} (y0 : 0 ≤ y) (y1 : y ≤ 2 ^ 32) (u0 : 0 ≤ u) (u1 : u ≤ 2 ^ 32) (v0 : 0 ≤ v) (v1 : v ≤ 2 ^ 32)
    (h0 : 0 ≤ half bd) (hh : half bd ≤ 2 ^ 32) :
    |gOf y (sub u (half bd)) (sub v (half bd)) - (y - (u - half bd) * 0.187324 - (v - half bd) * 0.468124)| ≤ 1 / 2 ^ 14 := by
  have h1 := mul_near' (c := 0.187324) (diff_near u0 u1 h0 hh) (by bnd) (by norm_num [abs_le])
  have h2 := mul_near' (c := 0.468124) (diff_near v0 v1 h0 hh) (by bnd) (by norm_num [abs_le])
  have h3 := sub_near (self_near y) h1 (by bnd) (by norm_num)
  have h4 := sub_near h3 h2 (by bnd) (by norm_num)
  exact h4.trans (by norm_num)

/-! ## Storing -/

theorem store_rat (bd : Nat) (x : Rat) : (store bd x : Rat) ≤ min (max x 0) (2 ^ bd) ∧ min (max x 0) (2 ^ bd) < store bd x + 1 := by
  have h0 : 0 ≤ min (max x 0) (2 ^ bd : Rat) := le_min (le_max_right _ _) (by positivity)
  unfold store
  have h1 := Rat.floor_le (min (max x 0) (2 ^ bd))
  have h2 := Rat.lt_floor_add_one (min (max x 0) (2 ^ bd))
  have h3 : 0 ≤ (min (max x 0) (2 ^ bd : Rat)).floor := Rat.le_floor_iff.2 (by exact_mod_cast h0)
  generalize (min (max x 0) (2 ^ bd : Rat)).floor = n at *
  obtain ⟨k, rfl⟩ := Int.eq_ofNat_of_zero_le h3
  push_cast at h1 h2 ⊢
  exact ⟨h1, h2⟩

theorem store_low {bd : Nat} {x : Rat} (h : x < 2 ^ bd) : (store bd x : Rat) ≤ max x 0 ∧ max x 0 < store bd x + 1 := by
  have := store_rat bd x
  rwa [min_eq_left (max_le h.le (by positivity))] at this

theorem store_lt {bd : Nat} {x : Rat} (h : x < 2 ^ bd) : store bd x < 2 ^ bd := by
  have := (store_low h).1
  have h2 : max x 0 < (2 : Rat) ^ bd := max_lt h (by positivity)
  have h3 : (store bd x : Rat) < ((2 ^ bd : Nat) : Rat) := by push_cast; linarith
  exact_mod_cast h3

theorem store_high {bd : Nat} {x : Rat} (h : 2 ^ bd ≤ x) : store bd x = 2 ^ bd := by
  have := store_rat bd x
  rw [min_eq_right (h.trans (le_max_left _ _))] at this
  have h1 : (store bd x : Rat) ≤ ((2 ^ bd : Nat) : Rat) := by push_cast; exact this.1
  have h2 : ((2 ^ bd : Nat) : Rat) < ((store bd x + 1 : Nat) : Rat) := by push_cast; exact this.2
  have h1' : store bd x ≤ 2 ^ bd := by exact_mod_cast h1
  have h2' : 2 ^ bd < store bd x + 1 := by exact_mod_cast h2
  omega

/-! ## Pixels -/

theorem half_two {d : Nat} (hd : 1 ≤ d) : half d * 2 = 2 ^ d := by
  unfold half
  rw [← pow_succ, Nat.sub_add_cancel hd]

theorem pow_le {d : Nat} (hd : d ≤ 32) : (2 : Rat) ^ d ≤ 2 ^ 32 := by
  have : 2 ^ d ≤ 2 ^ 32 := Nat.pow_le_pow_right (by norm_num) hd
  exact_mod_cast this

theorem lt_rat {d n : Nat} (h : n < 2 ^ d) : (n : Rat) ≤ 2 ^ d - 1 := by
  have : n + 1 ≤ 2 ^ d := h
  have : ((n + 1 : Nat) : Rat) ≤ ((2 ^ d : Nat) : Rat) := by exact_mod_cast this
  push_cast at this
  linarith

/-- A stored number that does not exceed the range. -/
theorem store_near {d : Nat} {x z e : Rat} (h : |x - z| ≤ e) (hz : z + e < 2 ^ d) :
    store d x < 2 ^ d ∧ (store d x : Rat) ≤ max z 0 + e ∧ z - 1 - e < store d x := by
  rw [abs_le] at h
  have hx : x < 2 ^ d := by linarith [h.2]
  have hs := store_low hx
  have h1 : max x 0 ≤ max z 0 + e := max_le (by linarith [h.2, le_max_left z 0]) (by linarith [h.1, h.2, le_max_right z 0])
  refine ⟨store_lt hx, by linarith [hs.1], ?_⟩
  have := le_max_left x 0
  linarith [hs.2, h.1]

/-- What `toYuv` stores, against its own formulas. -/
theorem toYuv_near {d r g b : Nat} (hd : 1 ≤ d) (hd' : d ≤ 32) (hr : r < 2 ^ d) (hg : g < 2 ^ d) (hb : b < 2 ^ d) :
    (∀ n, (n = (toYuv d (r, g, b)).1 ∨ n = (toYuv d (r, g, b)).2.1 ∨ n = (toYuv d (r, g, b)).2.2) → n < 2 ^ d) ∧
    (((toYuv d (r, g, b)).1 : Rat) ≤ (r * 0.2126 + g * 0.7152 + b * 0.0722) + 1 / 2 ^ 14 ∧
      (r * 0.2126 + g * 0.7152 + b * 0.0722) - 1 - 1 / 2 ^ 14 < ((toYuv d (r, g, b)).1 : Rat)) ∧
    (((toYuv d (r, g, b)).2.1 : Rat) ≤ (r * -0.114572 - g * 0.385428 + b * 0.5 + half d) + 1 / 2 ^ 14 ∧
      (r * -0.114572 - g * 0.385428 + b * 0.5 + half d) - 1 - 1 / 2 ^ 14 < ((toYuv d (r, g, b)).2.1 : Rat)) ∧
    (((toYuv d (r, g, b)).2.2 : Rat) ≤ (r * 0.5 - g * 0.454153 - b * 0.045847 + half d) + 1 / 2 ^ 14 ∧
      (r * 0.5 - g * 0.454153 - b * 0.045847 + half d) - 1 - 1 / 2 ^ 14 < ((toYuv d (r, g, b)).2.2 : Rat)) := by
  have h2 := half_two hd
  have hp := pow_le hd'
  have hr1 := lt_rat hr
  have hg1 := lt_rat hg
  have hb1 := lt_rat hb
  have hr0 : (0 : Rat) ≤ r := Nat.cast_nonneg r
  have hg0 : (0 : Rat) ≤ g := Nat.cast_nonneg g
  have hb0 : (0 : Rat) ≤ b := Nat.cast_nonneg b
  have hy := yOf_near hr0 hg0 hb0 (by linarith) (by linarith) (by linarith)
  have hu := uOf_near (bd := d) hr0 hg0 hb0 (by linarith) (by linarith) (by linarith) (by linarith) (by linarith)
  have hv := vOf_near (bd := d) hr0 hg0 hb0 (by linarith) (by linarith) (by linarith) (by linarith) (by linarith)
  have sy := store_near (d := d) hy (by norm_num; linarith)
  have su := store_near (d := d) hu (by norm_num; linarith)
  have sv := store_near (d := d) hv (by norm_num; linarith)
  rw [max_eq_left (by linarith)] at sy su sv
  refine ⟨?_, ⟨sy.2.1, sy.2.2⟩, ⟨su.2.1, su.2.2⟩, ⟨sv.2.1, sv.2.2⟩⟩
  rintro n (rfl | rfl | rfl)
  · exact sy.1
  · exact su.1
  · exact sv.1

theorem cb_eq (d : Nat) (r g b : Rat) : cb d r g b = (b - luma r g b) * (2500 / 4639) + 2 ^ d / 2 := by
  unfold cb
  rw [show (1.8556 : Rat) = 4639 / 2500 by norm_num]
  ring

theorem cr_eq (d : Nat) (r g b : Rat) : cr d r g b = (r - luma r g b) * (2500 / 3937) + 2 ^ d / 2 := by
  unfold cr
  rw [show (1.5748 : Rat) = 3937 / 2500 by norm_num]
  ring

/-- What `toYuv` stores, against BT.709. -/
theorem toYuv_spec {d r g b : Nat} (hd : 1 ≤ d) (hd' : d ≤ 32) (hr : r < 2 ^ d) (hg : g < 2 ^ d) (hb : b < 2 ^ d) :
    Truncated d (luma r g b) (toYuv d (r, g, b)).1 ∧ Truncated d (cb d r g b) (toYuv d (r, g, b)).2.1 ∧
      Truncated d (cr d r g b) (toYuv d (r, g, b)).2.2 := by
  obtain ⟨_, ⟨y1, y2⟩, ⟨u1, u2⟩, ⟨v1, v2⟩⟩ := toYuv_near hd hd' hr hg hb
  have h2 := half_two hd
  have hr1 := lt_rat hr
  have hg1 := lt_rat hg
  have hb1 := lt_rat hb
  have hr0 : (0 : Rat) ≤ r := Nat.cast_nonneg r
  have hg0 : (0 : Rat) ≤ g := Nat.cast_nonneg g
  have hb0 : (0 : Rat) ≤ b := Nat.cast_nonneg b
  have hpos : (0 : Rat) < 2 ^ d := by positivity
  rw [cb_eq, cr_eq]
  unfold Truncated tol luma
  generalize toYuv d (r, g, b) = t at *
  generalize (2 : Rat) ^ d = P at *
  generalize half d = H at *
  refine ⟨⟨?_, ?_⟩, ⟨?_, ?_⟩, ⟨?_, ?_⟩⟩ <;> linarith

/-- How a component of a colour is stored. -/
def Stored (d : Nat) (z : Rat) (n : Nat) : Prop :=
  (z + tol d < 2 ^ d → n < 2 ^ d ∧ Truncated d (max z 0) n) ∧ (2 ^ d + tol d ≤ z → n = 2 ^ d)

theorem stored {d : Nat} {x z' z : Rat} (h : |x - z'| ≤ 1 / 2 ^ 14) (h' : |z' - z| ≤ 2 ^ d / 3000000) : Stored d z (store d x) := by
  have hx : |x - z| ≤ tol d := by
    unfold tol
    rw [abs_le] at *
    generalize (2 : Rat) ^ d = P at *
    constructor <;> linarith [h.1, h.2, h'.1, h'.2]
  constructor
  · intro hz
    have := store_near hx hz
    refine ⟨this.1, ?_, this.2.1⟩
    have hn : (0 : Rat) ≤ store d x := Nat.cast_nonneg _
    have ht : 0 ≤ tol d := (abs_nonneg _).trans hx
    rcases max_choice z 0 with e | e <;> rw [e]
    · exact this.2.2
    · linarith
  · intro hz
    apply store_high
    rw [abs_le] at hx
    linarith [hx.1]

/-- What `toRgb` stores, against BT.709. -/
theorem toRgb_spec {d y u v : Nat} (hd : 1 ≤ d) (hd' : d ≤ 32) (hy : y < 2 ^ d) (hu : u < 2 ^ d) (hv : v < 2 ^ d) {r g b : Rat}
    (h : IsColour d y u v r g b) :
    Stored d r (toRgb d (y, u, v)).1 ∧ Stored d g (toRgb d (y, u, v)).2.1 ∧ Stored d b (toRgb d (y, u, v)).2.2 := by
  have h2 := half_two hd
  have hp := pow_le hd'
  have hy1 := lt_rat hy
  have hu1 := lt_rat hu
  have hv1 := lt_rat hv
  have hy0 : (0 : Rat) ≤ y := Nat.cast_nonneg y
  have hu0 : (0 : Rat) ≤ u := Nat.cast_nonneg u
  have hv0 : (0 : Rat) ≤ v := Nat.cast_nonneg v
  have hr := rOf_near (bd := d) hy0 (by linarith) hv0 (by linarith) (by linarith) (by linarith)
  have hg := gOf_near (bd := d) hy0 (by linarith) hu0 (by linarith) hv0 (by linarith) (by linarith) (by linarith)
  have hb := bOf_near (bd := d) hy0 (by linarith) hu0 (by linarith) (by linarith) (by linarith)
  obtain ⟨e1, e2, e3⟩ := h
  rw [cb_eq, e1] at e2
  rw [cr_eq, e1] at e3
  unfold luma at e1
  refine ⟨stored hr ?_, stored hg ?_, stored hb ?_⟩
  all_goals
    rw [abs_le]
    generalize (2 : Rat) ^ d = P at *
    generalize half d = H at *
    constructor <;> linarith

/-- There and back. -/
theorem back {d r g b : Nat} (hd : 1 ≤ d) (hd' : d ≤ 16) (hr : r < 2 ^ d) (hg : g < 2 ^ d) (hb : b < 2 ^ d) :
    (∀ n, (n = (toRgb d (toYuv d (r, g, b))).1 ∨ n = (toRgb d (toYuv d (r, g, b))).2.1 ∨ n = (toRgb d (toYuv d (r, g, b))).2.2) →
      n < 2 ^ d) ∧
    ((toRgb d (toYuv d (r, g, b))).1 ≤ r ∧ r ≤ (toRgb d (toYuv d (r, g, b))).1 + 3) ∧
    ((toRgb d (toYuv d (r, g, b))).2.1 ≤ g ∧ g ≤ (toRgb d (toYuv d (r, g, b))).2.1 + 2) ∧
    ((toRgb d (toYuv d (r, g, b))).2.2 ≤ b ∧ b ≤ (toRgb d (toYuv d (r, g, b))).2.2 + 3) := by
  obtain ⟨hn, ⟨y1, y2⟩, ⟨u1, u2⟩, ⟨v1, v2⟩⟩ := toYuv_near hd (by omega : d ≤ 32) hr hg hb
  have h2 := half_two hd
  have hp : (2 : Rat) ^ d ≤ 2 ^ 16 := by
    have : 2 ^ d ≤ 2 ^ 16 := Nat.pow_le_pow_right (by norm_num) hd'
    exact_mod_cast this
  have hr1 := lt_rat hr
  have hg1 := lt_rat hg
  have hb1 := lt_rat hb
  have hr0 : (0 : Rat) ≤ r := Nat.cast_nonneg r
  have hg0 : (0 : Rat) ≤ g := Nat.cast_nonneg g
  have hb0 : (0 : Rat) ≤ b := Nat.cast_nonneg b
  generalize toYuv d (r, g, b) = t at *
  obtain ⟨y, u, v⟩ := t
  dsimp only at *
  have hy := hn y (Or.inl rfl)
  have hu := hn u (Or.inr (Or.inl rfl))
  have hv := hn v (Or.inr (Or.inr rfl))
  have hy1 := lt_rat hy
  have hu1 := lt_rat hu
  have hv1 := lt_rat hv
  have hy0 : (0 : Rat) ≤ y := Nat.cast_nonneg y
  have hu0 : (0 : Rat) ≤ u := Nat.cast_nonneg u
  have hv0 : (0 : Rat) ≤ v := Nat.cast_nonneg v
  have er := rOf_near (bd := d) hy0 (by linarith) hv0 (by linarith) (by linarith) (by linarith)
  have eg := gOf_near (bd := d) hy0 (by linarith) hu0 (by linarith) hv0 (by linarith) (by linarith) (by linarith)
  have eb := bOf_near (bd := d) hy0 (by linarith) hu0 (by linarith) (by linarith) (by linarith)
  have key : ∀ {x z : Rat} {n k : Nat}, |x - z| ≤ 1 / 2 ^ 14 → n < 2 ^ d → z < n + 0.9 → (n : Rat) < z + (k : Rat) + 0.9 →
      store d x < 2 ^ d ∧ store d x ≤ n ∧ n ≤ store d x + (k + 1) := by
    intro x z n k hx hnd h1 h3
    have hn1 := lt_rat hnd
    have hn0 : (0 : Rat) ≤ n := Nat.cast_nonneg n
    have := store_near (d := d) hx (by linarith)
    refine ⟨this.1, ?_, ?_⟩
    · have : (store d x : Rat) < ((n + 1 : Nat) : Rat) := by
        push_cast
        have hm : max z 0 < n + 0.9 := max_lt h1 (by linarith)
        linarith [this.2.1]
      have : store d x < n + 1 := by exact_mod_cast this
      omega
    · have : (n : Rat) < ((store d x + (k + 1) + 1 : Nat) : Rat) := by
        push_cast
        linarith [this.2.2]
      have : n < store d x + (k + 1) + 1 := by exact_mod_cast this
      omega
  have kr := key (n := r) (k := 2) er hr (by linarith) (by push_cast; linarith)
  have kg := key (n := g) (k := 1) eg hg (by linarith) (by push_cast; linarith)
  have kb := key (n := b) (k := 2) eb hb (by linarith) (by push_cast; linarith)
  refine ⟨?_, kr.2, kg.2, kb.2⟩
  rintro n (rfl | rfl | rfl)
  · exact kr.1
  · exact kg.1
  · exact kb.1

/-! ## Frames -/

open Verif.Props Verif.Props.NumpyTable

theorem facts : ∀ s ∈ formats, s.2.1 ≠ .packed422 → activeBits s.1 = s.2.2 ∧ 1 ≤ s.2.2 ∧ s.2.2 ≤ 32 ∧ s.2.2 ≤ typeBits s.1 := by
  decide +kernel

theorem tableYuv : ∀ s ∈ formats, s.2.1 = .rgb → ∀ t ∈ formats, t.2.1 = .yuv444 → s.2.2 = t.2.2 →
    convert 4 s.1 t.1 = some (.run [⟨s.1, t.1, .rgbToYuv444⟩]) := by
  decide +kernel

theorem tableRgb : ∀ s ∈ formats, s.2.1 = .yuv444 → ∀ t ∈ formats, t.2.1 = .rgb → s.2.2 = t.2.2 →
    convert 4 s.1 t.1 = some (.run [⟨s.1, t.1, .yuv444ToRgb⟩]) := by
  decide +kernel

theorem one_step (env : Env) {s t : Nat × Model × Nat} (hs : s ∈ formats) (ht : t ∈ formats) (hne : s.1 ≠ t.1) {k : Kind}
    (hc : convert 4 s.1 t.1 = some (.run [⟨s.1, t.1, k⟩])) {f : Frame} (hf : f.fmt = s.1) {fuel : Nat} (hfuel : 4 ≤ fuel) :
    convertFrame env fuel f t.1 = (applyKind env k t.1 f).map (fun p => ⟨t.1, f.width, f.height, p⟩) := by
  obtain ⟨l, hl, _⟩ := C50_chain s t hs ht hne
  have h4 := hl 4 (Nat.le_refl 4)
  rw [hc] at h4
  have : l = [⟨s.1, t.1, k⟩] := by
    injection h4 with h4
    injection h4 with h4
    exact h4.symm
  subst this
  unfold convertFrame
  rw [hf, hl fuel hfuel]
  simp only [List.foldlM_cons, List.foldlM_nil, applyStep]
  cases applyKind env k t.1 f <;> rfl

theorem ne_of_model {s t : Nat × Model × Nat} (hs : s ∈ formats) (ht : t ∈ formats) (h : s.2.1 ≠ t.2.1) : s.1 ≠ t.1 := by
  have : ∀ s ∈ formats, ∀ t ∈ formats, s.1 = t.1 → s.2.1 = t.2.1 := by decide +kernel
  exact fun e => h (this s hs t ht e)

theorem shape_of {d w h : Nat} {p : Plane} (hp : p.length = w ∧ ∀ col ∈ p, col.length = h ∧ ∀ v ∈ col, v < 2 ^ d) : hasShape w h p = true :=
  (hasShape_iff w h p).2 ⟨hp.1, fun c hc => (hp.2 c hc).1⟩

/-- A function of three samples applied to whole frames. -/
theorem mapped {F : Nat × Nat × Nat → Nat × Nat × Nat} {w h bits : Nat} {a b c : Plane} (ha : hasShape w h a = true)
    (hb : hasShape w h b = true) (hc : hasShape w h c = true) :
    ∃ a' b' c', ((zipPlanes3 F a b c).bind (fun x => planes3 (assign bits w h x.1) (assign bits w h x.2.1) (assign bits w h x.2.2)) =
        some (.planes a' b' c')) ∧
      (hasShape w h a' = true ∧ hasShape w h b' = true ∧ hasShape w h c' = true) ∧
      ∀ x y, x < w → y < h → sample a' x y = wrap bits (F (sample a x y, sample b x y, sample c x y)).1 ∧
        sample b' x y = wrap bits (F (sample a x y, sample b x y, sample c x y)).2.1 ∧
        sample c' x y = wrap bits (F (sample a x y, sample b x y, sample c x y)).2.2 := by
  obtain ⟨p, q, r, e, hp, hq, hr, hs⟩ := zipPlanes3_some F ha hb hc
  refine ⟨mapPlane (wrap bits) p, mapPlane (wrap bits) q, mapPlane (wrap bits) r, ?_, ⟨mapPlane_shape _ hp, mapPlane_shape _ hq,
    mapPlane_shape _ hr⟩, ?_⟩
  · rw [e, Option.bind_some, assign_some hp, assign_some hq, assign_some hr]
    rfl
  · intro x y hx hy
    rw [mapPlane_sample _ hp hx hy, mapPlane_sample _ hq hx hy, mapPlane_sample _ hr hx hy, ← hs x y hx hy]
    exact ⟨rfl, rfl, rfl⟩

/-- The samples of a frame are in range. -/
theorem pixel_lt {d : Nat} {f : Frame} (h : Samples d f) {x y : Nat} (hx : x < f.width) (hy : y < f.height) :
    (pixel f x y).1 < 2 ^ d ∧ (pixel f x y).2.1 < 2 ^ d ∧ (pixel f x y).2.2 < 2 ^ d := by
  obtain ⟨a, b, c, e, hp⟩ := h
  unfold pixel
  rw [e]
  exact ⟨good_sample (hp a (by simp)) hx hy, good_sample (hp b (by simp)) hx hy, good_sample (hp c (by simp)) hx hy⟩

/-- A frame converted pixel by pixel. -/
theorem frame_step (random : Nat → Nat → Nat → Nat) {s t : Nat × Model × Nat} (hs : s ∈ formats) (ht : t ∈ formats)
    (hm : (s.2.1 = .rgb ∧ t.2.1 = .yuv444) ∨ (s.2.1 = .yuv444 ∧ t.2.1 = .rgb)) (hd : s.2.2 = t.2.2) {f : Frame} (hf : f.fmt = s.1)
    (hsam : Samples s.2.2 f) {fuel : Nat} (hfuel : 4 ≤ fuel) :
    ∃ g, convertFrame (colours random) fuel f t.1 = some g ∧ g.fmt = t.1 ∧ g.width = f.width ∧ g.height = f.height ∧
      Samples (typeBits t.1) g ∧
      ∀ x y, x < f.width → y < f.height →
        let F := if s.2.1 = .rgb then toYuv s.2.2 else toRgb s.2.2
        (pixel g x y).1 = (F (pixel f x y)).1 % 2 ^ typeBits t.1 ∧ (pixel g x y).2.1 = (F (pixel f x y)).2.1 % 2 ^ typeBits t.1 ∧
          (pixel g x y).2.2 = (F (pixel f x y)).2.2 % 2 ^ typeBits t.1 := by
  obtain ⟨a, b, c, e, hp⟩ := hsam
  have ha := shape_of (hp a (by simp))
  have hb := shape_of (hp b (by simp))
  have hc := shape_of (hp c (by simp))
  have hsh : shifts t.1 = (0, 0) := by
    rw [(factsFormats t ht).1]
    rcases hm with hm | hm <;> rw [hm.2] <;> rfl
  have finish : ∀ (F : Nat × Nat × Nat → Nat × Nat × Nat) (k : Kind),
      convert 4 s.1 t.1 = some (.run [⟨s.1, t.1, k⟩]) → s.1 ≠ t.1 →
      applyKind (colours random) k t.1 f = (zipPlanes3 F a b c).bind (fun x => planes3 (assign (typeBits t.1) f.width f.height x.1)
        (assign (typeBits t.1) f.width f.height x.2.1) (assign (typeBits t.1) f.width f.height x.2.2)) →
      ∃ g, convertFrame (colours random) fuel f t.1 = some g ∧ g.fmt = t.1 ∧ g.width = f.width ∧ g.height = f.height ∧
        Samples (typeBits t.1) g ∧
        ∀ x y, x < f.width → y < f.height →
          (pixel g x y).1 = (F (pixel f x y)).1 % 2 ^ typeBits t.1 ∧ (pixel g x y).2.1 = (F (pixel f x y)).2.1 % 2 ^ typeBits t.1 ∧
            (pixel g x y).2.2 = (F (pixel f x y)).2.2 % 2 ^ typeBits t.1 := by
    intro F k hk hne hap
    obtain ⟨a', b', c', e', ⟨ha', hb', hc'⟩, hpix⟩ := mapped (F := F) (bits := typeBits t.1) ha hb hc
    refine ⟨⟨t.1, f.width, f.height, .planes a' b' c'⟩, ?_, rfl, rfl, rfl, ⟨a', b', c', rfl, ?_⟩, ?_⟩
    · rw [one_step _ hs ht hne hk hf hfuel, hap, e']
      rfl
    · have good : ∀ p, hasShape f.width f.height p = true → (∀ x y, x < f.width → y < f.height → sample p x y < 2 ^ typeBits t.1) →
          Good (typeBits t.1) f.width f.height p := fun p h1 h2 => good_of_sample h1 h2
      have lt : ∀ n, wrap (typeBits t.1) n < 2 ^ typeBits t.1 := fun n => Nat.mod_lt _ (Nat.pos_of_ne_zero (by positivity))
      intro p hp
      simp only [List.mem_cons, List.not_mem_nil, or_false] at hp
      rcases hp with rfl | rfl | rfl
      · exact good _ ha' (fun x y hx hy => by rw [(hpix x y hx hy).1]; exact lt _)
      · exact good _ hb' (fun x y hx hy => by rw [(hpix x y hx hy).2.1]; exact lt _)
      · exact good _ hc' (fun x y hx hy => by rw [(hpix x y hx hy).2.2]; exact lt _)
    · intro x y hx hy
      have := hpix x y hx hy
      unfold pixel
      rw [e]
      exact this
  rcases hm with hm | hm
  · rw [if_pos hm.1]
    have hne := ne_of_model hs ht (by rw [hm.1, hm.2]; decide)
    refine finish (toYuv s.2.2) .rgbToYuv444 (tableYuv s hs hm.1 t ht hm.2 hd) hne ?_
    unfold applyKind
    rw [e, hsh]
    simp only
    rw [hd, ← (facts t ht (by rw [hm.2]; decide)).1]
    rfl
  · rw [if_neg (by rw [hm.1]; decide)]
    have hne := ne_of_model hs ht (by rw [hm.1, hm.2]; decide)
    refine finish (toRgb s.2.2) .yuv444ToRgb (tableRgb s hs hm.1 t ht hm.2 hd) hne ?_
    unfold applyKind
    rw [e, hsh, hf]
    simp only
    rw [← (facts s hs (by rw [hm.1]; decide)).1]
    rfl

end C66

end Verif.Numpy.Colour

namespace Verif.Props

open Verif Verif.Cog Verif.Numpy Verif.Numpy.Colour

/-- Converting a frame of RGB to YUV 4:4:4 of the same depth always succeeds. Every sample of the result fits the depth, and is the BT.709
value of the pixel with the fraction dropped, up to the tolerance: 1/10000 and a third of a millionth of the range. -/
theorem C66_to_yuv (random : Nat → Nat → Nat → Nat) (s t : Nat × Model × Nat) (hs : s ∈ formats) (ht : t ∈ formats)
    (hsm : s.2.1 = .rgb) (htm : t.2.1 = .yuv444) (hd : s.2.2 = t.2.2) (f : Frame) (hf : f.fmt = s.1) (hsam : Samples s.2.2 f)
    (fuel : Nat) (hfuel : 4 ≤ fuel) :
    ∃ g, convertFrame (colours random) fuel f t.1 = some g ∧ g.fmt = t.1 ∧ g.width = f.width ∧ g.height = f.height ∧
      ∀ x y, x < f.width → y < f.height →
        let r : Rat := (pixel f x y).1
        let g' : Rat := (pixel f x y).2.1
        let b : Rat := (pixel f x y).2.2
        ((pixel g x y).1 < 2 ^ t.2.2 ∧ (pixel g x y).2.1 < 2 ^ t.2.2 ∧ (pixel g x y).2.2 < 2 ^ t.2.2) ∧
        Truncated t.2.2 (luma r g' b) (pixel g x y).1 ∧ Truncated t.2.2 (cb t.2.2 r g' b) (pixel g x y).2.1 ∧
        Truncated t.2.2 (cr t.2.2 r g' b) (pixel g x y).2.2 := by
  obtain ⟨g, e, h1, h2, h3, _, hp⟩ := C66.frame_step random hs ht (Or.inl ⟨hsm, htm⟩) hd hf hsam hfuel
  refine ⟨g, e, h1, h2, h3, ?_⟩
  intro x y hx hy
  have fs := C66.facts t ht (by rw [htm]; decide)
  have hp := hp x y hx hy
  have hl := C66.pixel_lt hsam hx hy
  simp only [if_pos hsm] at hp
  rw [hd] at hp hl
  generalize pixel f x y = q at *
  obtain ⟨r, g', b⟩ := q
  have hn := (C66.toYuv_near fs.2.1 fs.2.2.1 hl.1 hl.2.1 hl.2.2).1
  have hspec := C66.toYuv_spec fs.2.1 fs.2.2.1 hl.1 hl.2.1 hl.2.2
  have hty : 2 ^ t.2.2 ≤ 2 ^ typeBits t.1 := Nat.pow_le_pow_right (by decide) fs.2.2.2
  have hn1 := hn _ (Or.inl rfl)
  have hn2 := hn _ (Or.inr (Or.inl rfl))
  have hn3 := hn _ (Or.inr (Or.inr rfl))
  rw [Nat.mod_eq_of_lt (Nat.lt_of_lt_of_le hn1 hty), Nat.mod_eq_of_lt (Nat.lt_of_lt_of_le hn2 hty),
    Nat.mod_eq_of_lt (Nat.lt_of_lt_of_le hn3 hty)] at hp
  rw [hp.1, hp.2.1, hp.2.2]
  exact ⟨⟨hn1, hn2, hn3⟩, hspec⟩

/-- Greys up to 16 bits keep their value or lose one, and their colour differences are half of the range or one less. -/
theorem C66_grey_partial (random : Nat → Nat → Nat → Nat) (s t : Nat × Model × Nat) (hs : s ∈ formats) (ht : t ∈ formats)
    (hsm : s.2.1 = .rgb) (htm : t.2.1 = .yuv444) (hd : s.2.2 = t.2.2) (hd16 : s.2.2 ≤ 16) (f : Frame) (hf : f.fmt = s.1)
    (hsam : Samples s.2.2 f) (fuel : Nat) (hfuel : 4 ≤ fuel) :
    ∃ g, convertFrame (colours random) fuel f t.1 = some g ∧
      ∀ x y v, x < f.width → y < f.height → pixel f x y = (v, v, v) →
        ((pixel g x y).1 = v ∨ (pixel g x y).1 + 1 = v) ∧
        ((pixel g x y).2.1 = 2 ^ (t.2.2 - 1) ∨ (pixel g x y).2.1 + 1 = 2 ^ (t.2.2 - 1)) ∧
        ((pixel g x y).2.2 = 2 ^ (t.2.2 - 1) ∨ (pixel g x y).2.2 + 1 = 2 ^ (t.2.2 - 1)) := by
  obtain ⟨g, e, _, _, _, h⟩ := C66_to_yuv random s t hs ht hsm htm hd f hf hsam fuel hfuel
  refine ⟨g, e, ?_⟩
  intro x y v hx hy hv
  have fs := C66.facts t ht (by rw [htm]; decide)
  obtain ⟨_, hy', hu, hv'⟩ := h x y hx hy
  rw [hv] at hy' hu hv'
  have hl : luma (v : Rat) v v = v := by unfold luma; ring
  have hh : (2 : Rat) ^ t.2.2 / 2 = ((2 ^ (t.2.2 - 1) : Nat) : Rat) := by
    have := C66.half_two fs.2.1
    unfold half at this
    push_cast
    linarith
  have htol : tol t.2.2 ≤ 1 / 2 := by
    have : (2 : Rat) ^ t.2.2 ≤ 2 ^ 16 := by
      have : 2 ^ t.2.2 ≤ 2 ^ 16 := Nat.pow_le_pow_right (by norm_num) (by omega)
      exact_mod_cast this
    unfold tol
    linarith
  have close : ∀ {z n : Nat}, Truncated t.2.2 (z : Rat) n → n = z ∨ n + 1 = z := by
    intro z n ⟨a, b⟩
    have h1 : (z : Rat) < ((n + 2 : Nat) : Rat) := by push_cast; linarith
    have h2 : (n : Rat) < ((z + 1 : Nat) : Rat) := by push_cast; linarith
    have h1' : z < n + 2 := by exact_mod_cast h1
    have h2' : n < z + 1 := by exact_mod_cast h2
    omega
  unfold cb at hu
  unfold cr at hv'
  rw [hl] at hy' hu hv'
  rw [sub_self, zero_div, zero_add, hh] at hu hv'
  exact ⟨close hy', close hu, close hv'⟩

/-- Converting YUV 4:4:4 to RGB of the same depth: a component whose BT.709 value is below the top of the range becomes this value (or 0
if it is negative) with the fraction dropped, up to the tolerance. This should be so for the other ones too, with the highest sample value
in place of theirs. -/
theorem C66_to_rgb_partial (random : Nat → Nat → Nat → Nat) (s t : Nat × Model × Nat) (hs : s ∈ formats) (ht : t ∈ formats)
    (hsm : s.2.1 = .yuv444) (htm : t.2.1 = .rgb) (hd : s.2.2 = t.2.2) (f : Frame) (hf : f.fmt = s.1) (hsam : Samples s.2.2 f)
    (fuel : Nat) (hfuel : 4 ≤ fuel) :
    ∃ g, convertFrame (colours random) fuel f t.1 = some g ∧ g.fmt = t.1 ∧ g.width = f.width ∧ g.height = f.height ∧
      ∀ x y (red green blue : Rat), x < f.width → y < f.height →
        IsColour t.2.2 (pixel f x y).1 (pixel f x y).2.1 (pixel f x y).2.2 red green blue →
        ∀ z n, (z, n) ∈ [(red, (pixel g x y).1), (green, (pixel g x y).2.1), (blue, (pixel g x y).2.2)] →
          (z + tol t.2.2 < 2 ^ t.2.2 → n < 2 ^ t.2.2 ∧ Truncated t.2.2 (max z 0) n) := by
  obtain ⟨g, e, h1, h2, h3, _, hp⟩ := C66.frame_step random hs ht (Or.inr ⟨hsm, htm⟩) hd hf hsam hfuel
  refine ⟨g, e, h1, h2, h3, ?_⟩
  intro x y red green blue hx hy hc z n hzn hz
  have fs := C66.facts t ht (by rw [htm]; decide)
  have hp := hp x y hx hy
  have hl := C66.pixel_lt hsam hx hy
  simp only [if_neg (show ¬ s.2.1 = .rgb by rw [hsm]; decide)] at hp
  rw [hd] at hp hl
  generalize pixel f x y = q at *
  obtain ⟨y', u', v'⟩ := q
  have hspec := C66.toRgb_spec fs.2.1 fs.2.2.1 hl.1 hl.2.1 hl.2.2 hc
  have hty : 2 ^ t.2.2 ≤ 2 ^ typeBits t.1 := Nat.pow_le_pow_right (by decide) fs.2.2.2
  have key : ∀ {m}, C66.Stored t.2.2 z m → n = m % 2 ^ typeBits t.1 → n < 2 ^ t.2.2 ∧ Truncated t.2.2 (max z 0) n := by
    intro m hm hn
    have := hm.1 hz
    rw [hn, Nat.mod_eq_of_lt (Nat.lt_of_lt_of_le this.1 hty)]
    exact this
  simp only [List.mem_cons, Prod.mk.injEq, List.not_mem_nil, or_false] at hzn
  rcases hzn with ⟨rfl, rfl⟩ | ⟨rfl, rfl⟩ | ⟨rfl, rfl⟩
  · exact key hspec.1 hp.1
  · exact key hspec.2.1 hp.2.1
  · exact key hspec.2.2 hp.2.2

/-- A component whose BT.709 value is above the range becomes 0 where the samples fill their type (8, 16 and 32 bits), and
`2 ** depth`, which is no sample value of the format, in the other formats. -/
theorem C66_overflow (random : Nat → Nat → Nat → Nat) (s t : Nat × Model × Nat) (hs : s ∈ formats) (ht : t ∈ formats)
    (hsm : s.2.1 = .yuv444) (htm : t.2.1 = .rgb) (hd : s.2.2 = t.2.2) (f : Frame) (hf : f.fmt = s.1) (hsam : Samples s.2.2 f)
    (fuel : Nat) (hfuel : 4 ≤ fuel) :
    ∃ g, convertFrame (colours random) fuel f t.1 = some g ∧
      ∀ x y (red green blue : Rat), x < f.width → y < f.height →
        IsColour t.2.2 (pixel f x y).1 (pixel f x y).2.1 (pixel f x y).2.2 red green blue →
        ∀ z n, (z, n) ∈ [(red, (pixel g x y).1), (green, (pixel g x y).2.1), (blue, (pixel g x y).2.2)] →
          2 ^ t.2.2 + tol t.2.2 ≤ z → n = if t.2.2 = 10 ∨ t.2.2 = 12 then 2 ^ t.2.2 else 0 := by
  obtain ⟨g, e, _, _, _, _, hp⟩ := C66.frame_step random hs ht (Or.inr ⟨hsm, htm⟩) hd hf hsam hfuel
  refine ⟨g, e, ?_⟩
  intro x y red green blue hx hy hc z n hzn hz
  have fs := C66.facts t ht (by rw [htm]; decide)
  have hp := hp x y hx hy
  have hl := C66.pixel_lt hsam hx hy
  simp only [if_neg (show ¬ s.2.1 = .rgb by rw [hsm]; decide)] at hp
  rw [hd] at hp hl
  generalize pixel f x y = q at *
  obtain ⟨y', u', v'⟩ := q
  have hspec := C66.toRgb_spec fs.2.1 fs.2.2.1 hl.1 hl.2.1 hl.2.2 hc
  have hw : ∀ t ∈ formats, t.2.1 = .rgb → 2 ^ t.2.2 % 2 ^ typeBits t.1 = if t.2.2 = 10 ∨ t.2.2 = 12 then 2 ^ t.2.2 else 0 := by
    decide +kernel
  have key : ∀ {m}, C66.Stored t.2.2 z m → n = m % 2 ^ typeBits t.1 → n = if t.2.2 = 10 ∨ t.2.2 = 12 then 2 ^ t.2.2 else 0 := by
    intro m hm hn
    rw [hn, hm.2 hz]
    exact hw t ht htm
  simp only [List.mem_cons, Prod.mk.injEq, List.not_mem_nil, or_false] at hzn
  rcases hzn with ⟨rfl, rfl⟩ | ⟨rfl, rfl⟩ | ⟨rfl, rfl⟩
  · exact key hspec.1 hp.1
  · exact key hspec.2.1 hp.2.1
  · exact key hspec.2.2 hp.2.2

/-- Converting RGB of at most 16 bits to YUV 4:4:4 and back: red and blue lose at most 3, green at most 2, and nothing grows. -/
theorem C66_there_and_back_partial (random : Nat → Nat → Nat → Nat) (s t : Nat × Model × Nat) (hs : s ∈ formats) (ht : t ∈ formats)
    (hsm : s.2.1 = .rgb) (htm : t.2.1 = .yuv444) (hd : s.2.2 = t.2.2) (hd16 : s.2.2 ≤ 16) (f : Frame) (hf : f.fmt = s.1)
    (hsam : Samples s.2.2 f) (fuel : Nat) (hfuel : 4 ≤ fuel) :
    ∃ g h, convertFrame (colours random) fuel f t.1 = some g ∧ convertFrame (colours random) fuel g s.1 = some h ∧
      h.width = f.width ∧ h.height = f.height ∧
      ∀ x y, x < f.width → y < f.height →
        ((pixel h x y).1 ≤ (pixel f x y).1 ∧ (pixel f x y).1 ≤ (pixel h x y).1 + 3) ∧
        ((pixel h x y).2.1 ≤ (pixel f x y).2.1 ∧ (pixel f x y).2.1 ≤ (pixel h x y).2.1 + 2) ∧
        ((pixel h x y).2.2 ≤ (pixel f x y).2.2 ∧ (pixel f x y).2.2 ≤ (pixel h x y).2.2 + 3) := by
  obtain ⟨g, e, h1, h2, h3, hg, hp⟩ := C66.frame_step random hs ht (Or.inl ⟨hsm, htm⟩) hd hf hsam hfuel
  have ft := C66.facts t ht (by rw [htm]; decide)
  have fs := C66.facts s hs (by rw [hsm]; decide)
  have hty : 2 ^ t.2.2 ≤ 2 ^ typeBits t.1 := Nat.pow_le_pow_right (by decide) ft.2.2.2
  have hty' : 2 ^ s.2.2 ≤ 2 ^ typeBits s.1 := Nat.pow_le_pow_right (by decide) fs.2.2.2
  simp only [if_pos hsm] at hp
  have hpix : ∀ x y, x < f.width → y < f.height → pixel g x y = toYuv s.2.2 (pixel f x y) ∧
      ∀ n, (n = (pixel g x y).1 ∨ n = (pixel g x y).2.1 ∨ n = (pixel g x y).2.2) → n < 2 ^ t.2.2 := by
    intro x y hx hy
    have hp := hp x y hx hy
    have hl := C66.pixel_lt hsam hx hy
    generalize pixel g x y = q' at *
    generalize pixel f x y = q at *
    obtain ⟨r, g', b⟩ := q
    obtain ⟨y', u', v'⟩ := q'
    have hn := (C66.toYuv_near fs.2.1 fs.2.2.1 hl.1 hl.2.1 hl.2.2).1
    rw [hd] at hn hp
    rw [Nat.mod_eq_of_lt (Nat.lt_of_lt_of_le (hn _ (Or.inl rfl)) hty), Nat.mod_eq_of_lt (Nat.lt_of_lt_of_le (hn _ (Or.inr (Or.inl rfl))) hty),
      Nat.mod_eq_of_lt (Nat.lt_of_lt_of_le (hn _ (Or.inr (Or.inr rfl))) hty)] at hp
    have : (y', u', v') = toYuv s.2.2 (r, g', b) := by
      rw [hd]
      exact Prod.ext hp.1 (Prod.ext hp.2.1 hp.2.2)
    refine ⟨this, ?_⟩
    intro n h
    rw [this, hd] at h
    exact hn n h
  have hgs : Samples t.2.2 g := by
    obtain ⟨a, b, c, ea, hgood⟩ := hg
    have hpx : ∀ x y, pixel g x y = (sample a x y, sample b x y, sample c x y) := by
      intro x y
      unfold pixel
      rw [ea]
      rfl
    refine ⟨a, b, c, ea, ?_⟩
    have hh := hpix
    intro p hpm
    have hsh := C66.shape_of (hgood p hpm)
    rw [h2, h3] at hsh ⊢
    refine good_of_sample hsh ?_
    intro x y hx hy
    apply (hh x y hx hy).2
    rw [hpx x y]
    simp only [List.mem_cons, List.not_mem_nil, or_false] at hpm
    rcases hpm with rfl | rfl | rfl
    · exact Or.inl rfl
    · exact Or.inr (Or.inl rfl)
    · exact Or.inr (Or.inr rfl)
  obtain ⟨h, e', _, h2', h3', _, hp'⟩ := C66.frame_step random ht hs (Or.inr ⟨htm, hsm⟩) hd.symm h1 hgs hfuel
  refine ⟨g, h, e, e', by rw [h2', h2], by rw [h3', h3], ?_⟩
  intro x y hx hy
  have hp' := hp' x y (by rw [h2]; exact hx) (by rw [h3]; exact hy)
  simp only [if_neg (show ¬ t.2.1 = .rgb by rw [htm]; decide)] at hp'
  rw [(hpix x y hx hy).1, ← hd] at hp'
  have hl := C66.pixel_lt hsam hx hy
  generalize pixel f x y = q at *
  obtain ⟨r, g', b⟩ := q
  obtain ⟨hn, hb⟩ := C66.back fs.2.1 hd16 hl.1 hl.2.1 hl.2.2
  rw [Nat.mod_eq_of_lt (Nat.lt_of_lt_of_le (hn _ (Or.inl rfl)) hty'), Nat.mod_eq_of_lt (Nat.lt_of_lt_of_le (hn _ (Or.inr (Or.inl rfl))) hty'),
    Nat.mod_eq_of_lt (Nat.lt_of_lt_of_le (hn _ (Or.inr (Or.inr rfl))) hty')] at hp'
  rw [hp'.1, hp'.2.1, hp'.2.2]
  exact hb

/-! ## Examples and counterexamples -/

namespace ColourExample

/-- Two pixels. -/
def frame (fmt : Nat) (p q : Nat × Nat × Nat) : Frame := ⟨fmt, 2, 1, .planes [[p.1], [q.1]] [[p.2.1], [q.2.1]] [[p.2.2], [q.2.2]]⟩

def noNoise : Nat → Nat → Nat → Nat := fun _ _ _ => 0

def converted (f : Frame) (dst : Nat) : Option (Nat × Nat × Nat) := (convertFrame (colours noNoise) 4 f dst).map (fun g => pixel g 0 0)

end ColourExample

open ColourExample

example : ((FrameFormat.RGB, Model.rgb, 8) ∈ formats ∧ (FrameFormat.U8_444, Model.yuv444, 8) ∈ formats) ∧
    Samples 8 (frame FrameFormat.RGB (10, 200, 30) (255, 0, 17)) :=
  ⟨by decide, _, _, _, rfl, by decide⟩

example : converted (frame FrameFormat.RGB (10, 200, 30) (255, 0, 17)) FrameFormat.U8_444 = some (147, 64, 40) := by decide +kernel

example : converted (frame FrameFormat.U8_444 (147, 64, 40) (0, 0, 0)) FrameFormat.RGB = some (8, 200, 28) := by decide +kernel

/-- `C66_overflow` has colours to speak of. -/
example : ∃ red green blue, IsColour 8 (235 : Nat) (128 : Nat) (240 : Nat) red green blue ∧ 2 ^ 8 + tol 8 ≤ red :=
  ⟨235 + 1.5748 * 112, 235 - 0.2126 * 1.5748 * 112 / 0.7152, 235, by unfold IsColour cb cr luma; norm_num, by unfold tol; norm_num⟩

/-- White gets darker: its luma is 255, the calculation with doubles gives a little less, and dropping the fraction leaves 254. -/
theorem C66_white_counterexample : luma 255 255 255 = 255 ∧
    converted (frame FrameFormat.RGB (255, 255, 255) (0, 0, 0)) FrameFormat.U8_444 = some (254, 128, 128) := by
  decide +kernel

/-- A bright red (`Y` 235, `U` 128, `V` 240 are within the ranges that BT.709 gives for video) becomes a colour without red. -/
theorem C66_wrap_counterexample :
    converted (frame FrameFormat.U8_444 (235, 128, 240) (0, 0, 0)) FrameFormat.RGB = some (0, 182, 235) := by
  decide +kernel

/-- In ten bits the same red becomes 1024, which does not fit ten bits. -/
theorem C66_range_counterexample :
    converted (frame FrameFormat.S16_444_10BIT (940, 512, 960) (0, 0, 0)) FrameFormat.S16_444_10BIT_RGB = some (1024, 730, 940) := by
  decide +kernel

/-- In 32 bits even a colour that comes from RGB wraps: red goes from its highest value to 0. -/
theorem C66_deep_counterexample :
    ((convertFrame (colours noNoise) 4 (frame FrameFormat.S32_444_RGB (4294967295, 0, 4294967295) (0, 0, 0)) FrameFormat.S32_444).bind
      (fun g => converted g FrameFormat.S32_444_RGB)) = some (0, 714, 0) := by
  decide +kernel

end Verif.Props

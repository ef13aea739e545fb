import Verif.Numpy.Shape

/-!
# C49: chroma resampling and bit depth arithmetic

* `C49_mean`: the mean of two samples lies between them, is the true mean rounded up, and never wraps.
* `C49_chroma_444`, `C49_chroma_420`: frames converted to more chroma samples and back are unchanged (even widths and heights).
* `C49_lower_depth`: lowering the depth rounds to the nearest value.
* `C49_depth_partial`, `C49_depth_frame_partial`: raising then lowering the depth gives the same value or the next one, for every sample
  except the largest. For the largest the claim is false: `C49_wrap_counterexample`.
* `C49_narrow_counterexample`, `C49_range_counterexample`: lowering the depth alone wraps bright samples to black, or leaves the range.
-/

namespace Verif.Props

open Verif.Numpy Verif.Cog

namespace NumpyArith

theorem mean_eq (w a b : Nat) (ha : a < 2 ^ w) (hb : b < 2 ^ w) : mean w a b = (a + b + 1) / 2 := by
  have hor : (a &&& 1) ||| (b &&& 1) = if a % 2 = 0 ∧ b % 2 = 0 then 0 else 1 := by
    rw [Nat.and_one_is_mod, Nat.and_one_is_mod]
    rcases Nat.mod_two_eq_zero_or_one a with h | h <;> rcases Nat.mod_two_eq_zero_or_one b with h' | h' <;> rw [h, h'] <;> rfl
  have h1 : wrap w (a / 2 + b / 2) = a / 2 + b / 2 := Nat.mod_eq_of_lt (by omega)
  unfold mean
  rw [h1, hor]
  have h2 : a / 2 + b / 2 + (if a % 2 = 0 ∧ b % 2 = 0 then 0 else 1) = (a + b + 1) / 2 := by
    by_cases h : a % 2 = 0 ∧ b % 2 = 0
    · rw [if_pos h]; omega
    · rw [if_neg h]; omega
  rw [h2]
  exact Nat.mod_eq_of_lt (by omega)

theorem rightShift_raw (x n : Nat) (hn : 0 < n) : (x >>> n) + ((x >>> (n - 1)) &&& 1) = (x + 2 ^ (n - 1)) / 2 ^ n := by
  obtain ⟨m, rfl⟩ : ∃ m, n = m + 1 := ⟨n - 1, by omega⟩
  rw [Nat.add_sub_cancel, Nat.and_one_is_mod, Nat.shiftRight_eq_div_pow, Nat.shiftRight_eq_div_pow, Nat.pow_succ,
    ← Nat.div_div_eq_div_mul, ← Nat.div_div_eq_div_mul, Nat.add_div_right _ (Nat.two_pow_pos m)]
  generalize x / 2 ^ m = q
  omega

theorem rightShift_eq (w x n : Nat) (hn : 0 < n) (hx : x < 2 ^ w) : rightShift w x n = (x + 2 ^ (n - 1)) / 2 ^ n := by
  unfold rightShift
  rw [rightShift_raw x n hn]
  apply Nat.mod_eq_of_lt
  obtain ⟨m, rfl⟩ : ∃ m, n = m + 1 := ⟨n - 1, by omega⟩
  rw [Nat.add_sub_cancel, Nat.div_lt_iff_lt_mul (Nat.two_pow_pos _), Nat.pow_succ]
  have h1 := Nat.mul_le_mul_left (2 ^ w) (Nat.one_le_two_pow (n := m))
  have h2 := Nat.mul_le_mul_right (2 ^ m) (Nat.one_le_two_pow (n := w))
  rw [← Nat.mul_assoc]
  omega

theorem leftShift_eq (w a n r : Nat) (h : a * 2 ^ n + 2 ^ n ≤ 2 ^ w) : leftShift w a n r = a * 2 ^ n + r % 2 ^ n := by
  have hp := Nat.two_pow_pos n
  have hr := Nat.mod_lt r hp
  unfold leftShift
  rw [Nat.shiftLeft_eq, Nat.shiftLeft_eq, Nat.one_mul, Nat.and_two_pow_sub_one_eq_mod]
  have h1 : wrap w (a * 2 ^ n) = a * 2 ^ n := Nat.mod_eq_of_lt (by omega)
  rw [h1]
  exact Nat.mod_eq_of_lt (by omega)

/-- Raising by `n` bits in `w` bits and lowering again. -/
theorem up_down (w a n r : Nat) (hn : 0 < n) (h : a * 2 ^ n + 2 ^ n ≤ 2 ^ w) :
    rightShift w (leftShift w a n r) n = a ∨ rightShift w (leftShift w a n r) n = a + 1 := by
  have hp := Nat.two_pow_pos n
  have hr := Nat.mod_lt r hp
  rw [leftShift_eq w a n r h, rightShift_eq w _ n hn (by omega), Nat.add_assoc, Nat.mul_comm a, Nat.mul_add_div hp]
  have hq : (r % 2 ^ n + 2 ^ (n - 1)) / 2 ^ n < 2 := by
    rw [Nat.div_lt_iff_lt_mul hp]
    obtain ⟨m, rfl⟩ : ∃ m, n = m + 1 := ⟨n - 1, by omega⟩
    rw [Nat.add_sub_cancel]
    have : 2 ^ (m + 1) = 2 * 2 ^ m := by rw [Nat.pow_succ, Nat.mul_comm]
    omega
  generalize (r % 2 ^ n + 2 ^ (n - 1)) / 2 ^ n = q at *
  omega

end NumpyArith

open NumpyArith

/-! ## The mean -/

/-- The mean of two samples lies between them and is the true mean, rounded up to a whole number. -/
theorem C49_mean (w a b : Nat) (ha : a < 2 ^ w) (hb : b < 2 ^ w) :
    min a b ≤ mean w a b ∧ mean w a b ≤ max a b ∧ a + b ≤ 2 * mean w a b ∧ 2 * mean w a b ≤ a + b + 1 := by
  rw [mean_eq w a b ha hb]
  omega

example : mean 8 255 254 = 255 ∧ mean 8 254 252 = 253 := by decide

theorem C49_mean_self (w a : Nat) (ha : a < 2 ^ w) : mean w a a = a := by
  rw [mean_eq w a a ha ha]; omega

/-! ## Chroma resampling -/

/-- A frame of three component arrays, of the shape and type of its format. -/
def Shaped (f : Frame) : Prop :=
  ∃ a b c, f.pixels = .planes a b c ∧ Good (typeBits f.fmt) f.width f.height a ∧
    Good (typeBits f.fmt) (f.width >>> (shifts f.fmt).1) (f.height >>> (shifts f.fmt).2) b ∧
    Good (typeBits f.fmt) (f.width >>> (shifts f.fmt).1) (f.height >>> (shifts f.fmt).2) c

namespace NumpyArith

theorem convertFrame_direct (env : Env) (n : Nat) (f : Frame) (dst : Nat) (k : Kind) (hne : f.fmt ≠ dst)
    (hl : lookup f.fmt dst = some (.direct k)) : convertFrame env (n + 1) f dst = applyStep env f ⟨f.fmt, dst, k⟩ := by
  have hs : steps (n + 1) f.fmt dst = some [⟨f.fmt, dst, k⟩] := by
    rw [steps, hl]; rfl
  unfold convertFrame convert
  rw [if_neg hne, hs]
  show [_].foldlM _ f = _
  rw [List.foldlM_cons]
  cases applyStep env f ⟨f.fmt, dst, k⟩ <;> rfl

theorem convertFrame_composed (env : Env) (n : Nat) (f : Frame) (dst mid : Nat) (k₁ k₂ : Kind) (hne : f.fmt ≠ dst)
    (hl : lookup f.fmt dst = some (.composed k₁ mid k₂)) :
    convertFrame env (n + 1) f dst = (applyStep env f ⟨f.fmt, mid, k₁⟩).bind (fun g => applyStep env g ⟨mid, dst, k₂⟩) := by
  have hs : steps (n + 1) f.fmt dst = some [⟨f.fmt, mid, k₁⟩, ⟨mid, dst, k₂⟩] := by
    rw [steps, hl]; rfl
  unfold convertFrame convert
  rw [if_neg hne, hs]
  show [_, _].foldlM _ f = _
  rw [List.foldlM_cons]
  cases applyStep env f ⟨f.fmt, mid, k₁⟩ with
  | none => rfl
  | some g =>
    show ([_].foldlM _ g) = applyStep env g _
    rw [List.foldlM_cons]
    cases applyStep env g ⟨mid, dst, k₂⟩ <;> rfl

/-- Doubled columns of samples that fit, averaged again. -/
theorem columns_back (bits : Nat) {w h : Nat} {p r q : Plane} (hp : Good bits w h p)
    (hr : ∀ x y, x < 2 * w → y < h → sample r x y = wrap bits (sample p (x / 2) y)) (hq : hasShape w h q = true)
    (hm : ∀ x y, x < w → y < h → sample q x y = mean bits (sample r (2 * x) y) (sample r (2 * x + 1) y)) : q = p := by
  apply plane_ext hq hp.shape
  intro x y hx hy
  have hs := good_sample hp hx hy
  rw [hm x y hx hy, hr (2 * x) y (by omega) hy, hr (2 * x + 1) y (by omega) hy, show 2 * x / 2 = x by omega,
    show (2 * x + 1) / 2 = x by omega, show wrap bits (sample p x y) = sample p x y from Nat.mod_eq_of_lt hs]
  exact C49_mean_self bits _ hs

theorem rows_back (bits : Nat) {w h : Nat} {p r q : Plane} (hp : Good bits w h p)
    (hr : ∀ x y, x < w → y < 2 * h → sample r x y = wrap bits (sample p x (y / 2))) (hq : hasShape w h q = true)
    (hm : ∀ x y, x < w → y < h → sample q x y = mean bits (sample r x (2 * y)) (sample r x (2 * y + 1))) : q = p := by
  apply plane_ext hq hp.shape
  intro x y hx hy
  have hs := good_sample hp hx hy
  rw [hm x y hx hy, hr x (2 * y) hx (by omega), hr x (2 * y + 1) hx (by omega), show 2 * y / 2 = y by omega,
    show (2 * y + 1) / 2 = y by omega, show wrap bits (sample p x y) = sample p x y from Nat.mod_eq_of_lt hs]
  exact C49_mean_self bits _ hs

/-- 4:2:2 to 4:4:4 and back, as steps. -/
theorem step_444 (env : Env) (f : Frame) (s t : Nat) (hf : f.fmt = s) (hs : Shaped f) (hw : f.width % 2 = 0) (hb : typeBits s = typeBits t)
    (h1 : shifts s = (1, 0)) (h2 : shifts t = (0, 0)) :
    ∃ g, applyStep env f ⟨s, t, .dup422to444⟩ = some g ∧ g.fmt = t ∧ Shaped g ∧ g.width = f.width ∧ g.height = f.height ∧
      applyStep env g ⟨t, s, .mean444to422⟩ = some f := by
  obtain ⟨fmt, w, h, pix⟩ := f
  obtain ⟨a, b, c, hpix, ha, hb1, hc1⟩ := hs
  dsimp only at *
  subst hf hpix
  obtain ⟨m, rfl⟩ : ∃ m, w = 2 * m := ⟨w / 2, by omega⟩
  have hsh : (2 * m) >>> 1 = m := by rw [Nat.shiftRight_eq_div_pow]; omega
  rw [h1] at hb1 hc1
  dsimp only at hb1 hc1
  rw [hsh, Nat.shiftRight_zero] at hb1 hc1
  rw [hb] at ha hb1 hc1
  obtain ⟨rb, eb, gb, vb⟩ := dupColumns_some (typeBits t) hb1.shape
  obtain ⟨rc, ec, gc, vc⟩ := dupColumns_some (typeBits t) hc1.shape
  refine ⟨⟨t, 2 * m, h, .planes a rb rc⟩, ?_, rfl, ?_, rfl, rfl, ?_⟩
  · simp only [applyStep, applyKind, h2, Nat.shiftRight_zero, assign_good ha, eb, ec, planes3, Option.map_some]
  · refine ⟨a, rb, rc, rfl, ha, ?_, ?_⟩ <;> dsimp only <;> rw [h2] <;> simpa using by assumption
  · obtain ⟨qb, eqb, sqb, vqb⟩ := meanColumns_some (typeBits t) gb.shape
    obtain ⟨qc, eqc, sqc, vqc⟩ := meanColumns_some (typeBits t) gc.shape
    have hqb := columns_back _ hb1 vb sqb vqb
    have hqc := columns_back _ hc1 vc sqc vqc
    subst hqb hqc
    simp only [applyStep, applyKind, h1, hb, Nat.shiftRight_zero, hsh, assign_good ha, eqb, eqc, Option.bind_some, assign_good hb1,
      assign_good hc1, planes3, Option.map_some]

/-- 4:2:0 to 4:2:2 and back, as steps. -/
theorem step_420 (env : Env) (f : Frame) (s t : Nat) (hf : f.fmt = s) (hs : Shaped f) (hh : f.height % 2 = 0) (hb : typeBits s = typeBits t)
    (h1 : shifts s = (1, 1)) (h2 : shifts t = (1, 0)) :
    ∃ g, applyStep env f ⟨s, t, .dup420to422⟩ = some g ∧ g.fmt = t ∧ Shaped g ∧ g.width = f.width ∧ g.height = f.height ∧
      applyStep env g ⟨t, s, .mean422to420⟩ = some f := by
  obtain ⟨fmt, w, h, pix⟩ := f
  obtain ⟨a, b, c, hpix, ha, hb1, hc1⟩ := hs
  dsimp only at *
  subst hf hpix
  obtain ⟨m, rfl⟩ : ∃ m, h = 2 * m := ⟨h / 2, by omega⟩
  have hsh : (2 * m) >>> 1 = m := by rw [Nat.shiftRight_eq_div_pow]; omega
  rw [h1] at hb1 hc1
  dsimp only at hb1 hc1
  rw [hsh] at hb1 hc1
  rw [hb] at ha hb1 hc1
  obtain ⟨rb, eb, gb, vb⟩ := dupRows_some (typeBits t) hb1.shape
  obtain ⟨rc, ec, gc, vc⟩ := dupRows_some (typeBits t) hc1.shape
  refine ⟨⟨t, w, 2 * m, .planes a rb rc⟩, ?_, rfl, ?_, rfl, rfl, ?_⟩
  · simp only [applyStep, applyKind, h2, Nat.shiftRight_zero, assign_good ha, eb, ec, planes3, Option.map_some]
  · refine ⟨a, rb, rc, rfl, ha, ?_, ?_⟩ <;> dsimp only <;> rw [h2] <;> simpa using by assumption
  · obtain ⟨qb, eqb, sqb, vqb⟩ := meanRows_some (typeBits t) gb.shape
    obtain ⟨qc, eqc, sqc, vqc⟩ := meanRows_some (typeBits t) gc.shape
    have hqb := rows_back _ hb1 vb sqb vqb
    have hqc := rows_back _ hc1 vc sqc vqc
    subst hqb hqc
    simp only [applyStep, applyKind, h1, hb, hsh, assign_good ha, eqb, eqc, Option.bind_some, assign_good hb1,
      assign_good hc1, planes3, Option.map_some]

end NumpyArith

/-- The 4:2:2 formats with the 4:4:4 format of the same depth. -/
def pairs444 : List (Nat × Nat) :=
  [(FrameFormat.U8_422, FrameFormat.U8_444), (FrameFormat.UYVY, FrameFormat.U8_444), (FrameFormat.YUYV, FrameFormat.U8_444),
   (FrameFormat.S16_422_10BIT, FrameFormat.S16_444_10BIT), (FrameFormat.S16_422_12BIT, FrameFormat.S16_444_12BIT),
   (FrameFormat.S16_422, FrameFormat.S16_444), (FrameFormat.v216, FrameFormat.S16_444), (FrameFormat.S32_422, FrameFormat.S32_444)]

/-- The 4:2:0 formats with the 4:2:2 formats of the same depth. -/
def pairs420 : List (Nat × Nat) :=
  [(FrameFormat.U8_420, FrameFormat.U8_422), (FrameFormat.U8_420, FrameFormat.UYVY), (FrameFormat.U8_420, FrameFormat.YUYV),
   (FrameFormat.S16_420_10BIT, FrameFormat.S16_422_10BIT), (FrameFormat.S16_420_12BIT, FrameFormat.S16_422_12BIT),
   (FrameFormat.S16_420, FrameFormat.S16_422), (FrameFormat.S16_420, FrameFormat.v216), (FrameFormat.S32_420, FrameFormat.S32_422)]

/-- The 4:2:0 formats with the 4:4:4 format of the same depth, and the 4:2:2 format between. -/
def pairs420444 : List (Nat × Nat × Nat) :=
  [(FrameFormat.U8_420, FrameFormat.U8_422, FrameFormat.U8_444), (FrameFormat.S16_420_10BIT, FrameFormat.S16_422_10BIT, FrameFormat.S16_444_10BIT),
   (FrameFormat.S16_420_12BIT, FrameFormat.S16_422_12BIT, FrameFormat.S16_444_12BIT),
   (FrameFormat.S16_420, FrameFormat.S16_422, FrameFormat.S16_444), (FrameFormat.S32_420, FrameFormat.S32_422, FrameFormat.S32_444)]

namespace NumpyArith

theorem facts444 : ∀ p ∈ pairs444, lookup p.1 p.2 = some (.direct .dup422to444) ∧ lookup p.2 p.1 = some (.direct .mean444to422) ∧
    typeBits p.1 = typeBits p.2 ∧ shifts p.1 = (1, 0) ∧ shifts p.2 = (0, 0) ∧ p.1 ≠ p.2 := by
  decide +kernel

theorem facts420 : ∀ p ∈ pairs420, lookup p.1 p.2 = some (.direct .dup420to422) ∧ lookup p.2 p.1 = some (.direct .mean422to420) ∧
    typeBits p.1 = typeBits p.2 ∧ shifts p.1 = (1, 1) ∧ shifts p.2 = (1, 0) ∧ p.1 ≠ p.2 := by
  decide +kernel

theorem facts420444 : ∀ p ∈ pairs420444,
    lookup p.1 p.2.2 = some (.composed .dup420to422 p.2.1 .dup422to444) ∧
    lookup p.2.2 p.1 = some (.composed .mean444to422 p.2.1 .mean422to420) ∧
    typeBits p.1 = typeBits p.2.1 ∧ typeBits p.2.1 = typeBits p.2.2 ∧ shifts p.1 = (1, 1) ∧ shifts p.2.1 = (1, 0) ∧
    shifts p.2.2 = (0, 0) ∧ p.1 ≠ p.2.2 := by
  decide +kernel

end NumpyArith

/-- A 4:2:2 frame of even width, converted to 4:4:4 of the same depth and back, is unchanged: every sample of every component. -/
theorem C49_chroma_444 (s t : Nat) (hst : (s, t) ∈ pairs444) (env : Env) (n : Nat) (f : Frame) (hf : f.fmt = s) (hs : Shaped f)
    (hw : f.width % 2 = 0) : ∃ g, convertFrame env (n + 1) f t = some g ∧ g.fmt = t ∧ Shaped g ∧ convertFrame env (n + 1) g s = some f := by
  obtain ⟨l1, l2, hb, h1, h2, hne⟩ := facts444 _ hst
  obtain ⟨g, e1, hg, sg, _, _, e2⟩ := step_444 env f s t hf hs hw hb h1 h2
  subst hf hg
  refine ⟨g, ?_, rfl, sg, ?_⟩
  · rw [convertFrame_direct env n f _ _ hne l1]; exact e1
  · rw [convertFrame_direct env n g _ _ (fun h => hne h.symm) l2]; exact e2

/-- A 4:2:0 frame of even height, converted to 4:2:2 of the same depth and back, is unchanged. -/
theorem C49_chroma_420 (s t : Nat) (hst : (s, t) ∈ pairs420) (env : Env) (n : Nat) (f : Frame) (hf : f.fmt = s) (hs : Shaped f)
    (hh : f.height % 2 = 0) : ∃ g, convertFrame env (n + 1) f t = some g ∧ g.fmt = t ∧ Shaped g ∧ convertFrame env (n + 1) g s = some f := by
  obtain ⟨l1, l2, hb, h1, h2, hne⟩ := facts420 _ hst
  obtain ⟨g, e1, hg, sg, _, _, e2⟩ := step_420 env f s t hf hs hh hb h1 h2
  subst hf hg
  refine ⟨g, ?_, rfl, sg, ?_⟩
  · rw [convertFrame_direct env n f _ _ hne l1]; exact e1
  · rw [convertFrame_direct env n g _ _ (fun h => hne h.symm) l2]; exact e2

/-- A 4:2:0 frame of even width and height, converted to 4:4:4 of the same depth and back, is unchanged. -/
theorem C49_chroma_420_444 (s m t : Nat) (hst : (s, m, t) ∈ pairs420444) (env : Env) (n : Nat) (f : Frame) (hf : f.fmt = s) (hs : Shaped f)
    (hw : f.width % 2 = 0) (hh : f.height % 2 = 0) :
    ∃ g, convertFrame env (n + 1) f t = some g ∧ g.fmt = t ∧ Shaped g ∧ convertFrame env (n + 1) g s = some f := by
  obtain ⟨l1, l2, hb, hb', h1, h2, h3, hne⟩ := facts420444 _ hst
  obtain ⟨g, e1, hg, sg, wg, _, e2⟩ := step_420 env f s m hf hs hh hb h1 h2
  obtain ⟨k, e3, hk, sk, _, _, e4⟩ := step_444 env g m t hg sg (by rw [wg]; exact hw) hb' h2 h3
  subst hf hg hk
  refine ⟨k, ?_, rfl, sk, ?_⟩
  · rw [convertFrame_composed env n f _ _ _ _ hne l1, e1]; exact e3
  · rw [convertFrame_composed env n k _ _ _ _ (fun h => hne h.symm) l2, e4]; exact e2

/-- A frame of 4 by 2 pixels of 8 bits. -/
def frame422 : Frame := ⟨FrameFormat.U8_422, 4, 2, .planes [[1, 2], [3, 4], [5, 6], [255, 0]] [[7, 255], [9, 10]] [[0, 128], [13, 14]]⟩

example : Shaped frame422 ∧ frame422.width % 2 = 0 ∧ (frame422.fmt, FrameFormat.U8_444) ∈ pairs444 := by
  refine ⟨⟨_, _, _, rfl, ?_, ?_, ?_⟩, by decide, by decide⟩ <;> (constructor <;> decide)

/-- Without the evenness the chroma cannot be doubled: a 4:2:2 frame 5 pixels wide has 2 chroma columns, which do not fill 3 columns. -/
theorem C49_odd_counterexample :
    ∃ f, Shaped f ∧ (f.fmt, FrameFormat.U8_444) ∈ pairs444 ∧ ∀ env n, convertFrame env (n + 1) f FrameFormat.U8_444 = none := by
  refine ⟨⟨FrameFormat.U8_422, 5, 1, .planes [[1], [2], [3], [4], [5]] [[6], [7]] [[8], [9]]⟩, ⟨_, _, _, rfl, ?_, ?_, ?_⟩, by decide, ?_⟩
  · constructor <;> decide
  · constructor <;> decide
  · constructor <;> decide
  · intro env n
    rw [convertFrame_direct env n _ _ .dup422to444 (by decide) (by decide +kernel)]
    rfl

/-! ## Bit depth -/

/-- Lowering the depth by `n` bits rounds to the nearest value (halves up): the result, scaled up again, is within half a step. -/
theorem C49_lower_depth (w x n : Nat) (hn : 0 < n) (hx : x < 2 ^ w) :
    rightShift w x n * 2 ^ n ≤ x + 2 ^ (n - 1) ∧ x < rightShift w x n * 2 ^ n + 2 ^ (n - 1) := by
  rw [rightShift_eq w x n hn hx]
  have hp := Nat.two_pow_pos n
  have h1 := Nat.div_add_mod (x + 2 ^ (n - 1)) (2 ^ n)
  have h2 := Nat.mod_lt (x + 2 ^ (n - 1)) hp
  have h3 : 2 ^ n = 2 * 2 ^ (n - 1) := by
    obtain ⟨m, rfl⟩ : ∃ m, n = m + 1 := ⟨n - 1, by omega⟩
    rw [Nat.add_sub_cancel, Nat.pow_succ, Nat.mul_comm]
  rw [Nat.mul_comm (2 ^ n)] at h1
  generalize (x + 2 ^ (n - 1)) / 2 ^ n * 2 ^ n = q at *
  omega

example : rightShift 16 0x1ff 2 = 0x80 ∧ rightShift 16 0x1fd 2 = 0x7f ∧ rightShift 16 0x1fe 2 = 0x80 := by decide

/-- The lowered sample fits the lower depth unless it is in the upper half step of the range. -/
theorem C49_lower_fits (w d x n : Nat) (hn : 0 < n) (hd : d + n ≤ w) (hx : x < 2 ^ (d + n)) :
    rightShift w x n ≤ 2 ^ d ∧ (rightShift w x n < 2 ^ d ↔ x + 2 ^ (n - 1) < 2 ^ (d + n)) := by
  have hw : 2 ^ (d + n) ≤ 2 ^ w := Nat.pow_le_pow_right (by omega) hd
  rw [rightShift_eq w x n hn (by omega)]
  have hp := Nat.two_pow_pos n
  have hle : 2 ^ (n - 1) ≤ 2 ^ n := Nat.pow_le_pow_right (by omega) (by omega)
  rw [Nat.pow_add] at hx ⊢
  constructor
  · rw [← Nat.lt_succ_iff, Nat.div_lt_iff_lt_mul hp, Nat.succ_mul]; omega
  · rw [Nat.div_lt_iff_lt_mul hp]

/-- Raising a sample of `d` bits by `n` bits (in a number of `w` bits) gives a sample of `d + n` bits; lowering it again gives the sample
or the next one, whatever the random bits were. If the sample is not the largest this still has `d` bits. -/
theorem C49_depth_partial (w d a n r : Nat) (hn : 0 < n) (hd : d + n ≤ w) (ha : a < 2 ^ d) :
    leftShift w a n r < 2 ^ (d + n) ∧
    (rightShift w (leftShift w a n r) n = a ∨ rightShift w (leftShift w a n r) n = a + 1) ∧
    (a + 1 < 2 ^ d → rightShift w (leftShift w a n r) n < 2 ^ d) := by
  have hp := Nat.two_pow_pos n
  have hfit : a * 2 ^ n + 2 ^ n ≤ 2 ^ (d + n) := by
    rw [Nat.pow_add, ← Nat.succ_mul]
    exact Nat.mul_le_mul_right _ ha
  have hw : 2 ^ (d + n) ≤ 2 ^ w := Nat.pow_le_pow_right (by omega) hd
  have h := up_down w a n r hn (by omega)
  refine ⟨?_, h, ?_⟩
  · rw [leftShift_eq w a n r (by omega)]
    have hr := Nat.mod_lt r hp
    omega
  · intro hlt; omega

example : leftShift 16 200 2 7 = 803 ∧ rightShift 16 803 2 = 201 ∧ rightShift 16 (leftShift 16 200 2 5) 2 = 200 := by decide

/-- The largest sample of 8 bits, raised to 10 bits with random bits 3 and lowered to 8 bits again, becomes 256, which is stored as 0:
white turns black. -/
theorem C49_wrap_counterexample :
    ∃ (a r : Nat), a < 2 ^ 8 ∧ a = 255 ∧ wrap 8 (rightShift 16 (leftShift 16 a 2 r) 2) = 0 := ⟨255, 3, by decide⟩

/-- Lowering the depth alone: 1022 and 1023 in 10 bits become 0 in 8 bits. -/
theorem C49_narrow_counterexample : ∀ x, x < 2 ^ 10 → (wrap 8 (rightShift 16 x 2) = 0 ↔ x < 2 ∨ 1022 ≤ x) := by
  decide +kernel

/-- Lowering the depth where the type is wide enough: 4094 and 4095 in 12 bits become 1024 in 10 bits, which is out of range. -/
theorem C49_range_counterexample : ∀ x, x < 2 ^ 12 → (wrap 16 (rightShift 16 x 2) < 2 ^ 10 ↔ x < 4094) := by
  intro x hx
  have h := C49_lower_fits 16 10 x 2 (by decide) (by decide) hx
  rw [show wrap 16 (rightShift 16 x 2) = rightShift 16 x 2 from Nat.mod_eq_of_lt (by omega), h.2]
  omega

/-! ## Bit depth of whole frames -/

/-- A frame whose samples are in the range of its depth, and (for `top = 1`) not the largest value. -/
def InRange (top : Nat) (f : Frame) : Prop :=
  ∃ a b c, f.pixels = .planes a b c ∧ ∀ p ∈ [a, b, c], ∀ col ∈ p, ∀ v ∈ col, v + top < 2 ^ activeBits f.fmt

/-- The arrays of two frames have the same shapes, and each sample of the second is the sample of the first or one more. -/
def OneOff (f g : Frame) : Prop :=
  ∃ a b c a' b' c', f.pixels = .planes a b c ∧ g.pixels = .planes a' b' c' ∧
    ∀ p ∈ [(a, a'), (b, b'), (c, c')], p.1.map List.length = p.2.map List.length ∧
      ∀ x y, sample p.2 x y = sample p.1 x y ∨ sample p.2 x y = sample p.1 x y + 1

/-- The formats of one kind, with increasing depths. -/
def depthFamilies : List (List (List Nat)) :=
  [[[FrameFormat.U8_420], [FrameFormat.S16_420_10BIT], [FrameFormat.S16_420_12BIT], [FrameFormat.S16_420], [FrameFormat.S32_420]],
   [[FrameFormat.U8_422, FrameFormat.UYVY, FrameFormat.YUYV], [FrameFormat.S16_422_10BIT], [FrameFormat.S16_422_12BIT],
    [FrameFormat.S16_422, FrameFormat.v216], [FrameFormat.S32_422]],
   [[FrameFormat.U8_444], [FrameFormat.S16_444_10BIT], [FrameFormat.S16_444_12BIT], [FrameFormat.S16_444], [FrameFormat.S32_444]],
   [[FrameFormat.RGB, FrameFormat.U8_444_RGB, FrameFormat.RGBx, FrameFormat.xRGB, FrameFormat.BGRx, FrameFormat.xBGR],
    [FrameFormat.S16_444_10BIT_RGB], [FrameFormat.S16_444_12BIT_RGB], [FrameFormat.S16_444_RGB], [FrameFormat.S32_444_RGB]]]

/-- A format and one of the same kind with more bits. -/
def deeperPairs : List (Nat × Nat) :=
  depthFamilies.flatMap (fun fam => (distinctPairs fam).flatMap (fun p => p.1.flatMap (fun s => p.2.map (fun t => (s, t)))))


namespace NumpyArith

theorem factsDeeper : ∀ p ∈ deeperPairs,
    ((lookup p.1 p.2 = some (.direct .upYuv) ∨ lookup p.1 p.2 = some (.direct .upRgb)) ∧
     (lookup p.2 p.1 = some (.direct .downYuv) ∨ lookup p.2 p.1 = some (.direct .downRgb))) ∧
    shifts p.1 = shifts p.2 ∧ activeBits p.1 < activeBits p.2 ∧ activeBits p.2 ≤ typeBits p.2 ∧ activeBits p.1 ≤ typeBits p.1 ∧ p.1 ≠ p.2 := by
  decide +kernel

theorem sample_out {w h : Nat} {p : Plane} (hp : hasShape w h p = true) {x y : Nat} (hxy : ¬(x < w ∧ y < h)) : sample p x y = 0 := by
  rw [hasShape_iff] at hp
  unfold sample
  by_cases hx : x < p.length
  · have hc := hp.2 _ (getD_mem [] p x hx)
    rw [List.getD_eq_getElem?_getD (l := p.getD x []), List.getElem?_eq_none (by rw [hc]; omega)]; rfl
  · rw [List.getD_eq_getElem?_getD (l := p), List.getElem?_eq_none (by omega)]; rfl

theorem lengths_eq {w h : Nat} {p : Plane} (hp : hasShape w h p = true) : p.map List.length = List.replicate w h := by
  rw [hasShape_iff] at hp
  rw [List.eq_replicate_iff]
  refine ⟨by rw [List.length_map, hp.1], ?_⟩
  intro n hn
  obtain ⟨c', hc', rfl⟩ := List.mem_map.1 hn
  exact hp.2 c' hc'

theorem plane_depth (bs W d n w h : Nat) (rnd : Nat → Nat → Nat) (p : Plane) (hp : hasShape w h p = true) (hn : 0 < n) (hd : d + n ≤ W)
    (hbs : d ≤ bs) (hv : ∀ c ∈ p, ∀ v ∈ c, v + 1 < 2 ^ d) :
    ∃ q r, assign W w h (mapPlaneIdx (fun x y v => leftShift W (wrap W v) n (rnd x y)) p) = some q ∧ Good W w h q ∧
      Good (d + n) w h q ∧
      assign bs w h (mapPlane (fun v => rightShift W v n) q) = some r ∧ p.map List.length = r.map List.length ∧
      ∀ x y, sample r x y = sample p x y ∨ sample r x y = sample p x y + 1 := by
  have hg : Good d w h p := ⟨((hasShape_iff w h p).1 hp).1, fun c hc =>
    ⟨((hasShape_iff w h p).1 hp).2 c hc, fun v hvm => by have := hv c hc v hvm; omega⟩⟩
  have hs1 : ∀ x y, x < w → y < h → sample p x y + 1 < 2 ^ d := by
    intro x y hx hy
    have hc := getD_mem [] p x (by rw [hg.1]; exact hx)
    exact hv _ hc _ (getD_mem 0 _ y (by rw [(hg.2 _ hc).1]; exact hy))
  have hdW : 2 ^ d ≤ 2 ^ W := Nat.pow_le_pow_right (by omega) (by omega)
  have hdnW : 2 ^ (d + n) ≤ 2 ^ W := Nat.pow_le_pow_right (by omega) (by omega)
  have hdbs : 2 ^ d ≤ 2 ^ bs := Nat.pow_le_pow_right (by omega) hbs
  have hi := mapPlaneIdx_shape (fun x y v => leftShift W (wrap W v) n (rnd x y)) hp
  have hq : ∀ x y, x < w → y < h →
      sample (mapPlaneIdx (fun x y v => leftShift W (wrap W v) n (rnd x y)) p) x y = leftShift W (sample p x y) n (rnd x y) := by
    intro x y hx hy
    have := hs1 x y hx hy
    rw [mapPlaneIdx_sample _ hp hx hy, show wrap W (sample p x y) = sample p x y from Nat.mod_eq_of_lt (by omega)]
  have hgn : Good (d + n) w h (mapPlaneIdx (fun x y v => leftShift W (wrap W v) n (rnd x y)) p) := by
    apply good_of_sample hi
    intro x y hx hy
    have := hs1 x y hx hy
    rw [hq x y hx hy]
    exact (C49_depth_partial W d (sample p x y) n (rnd x y) hn hd (by omega)).1
  have hgW : Good W w h (mapPlaneIdx (fun x y v => leftShift W (wrap W v) n (rnd x y)) p) :=
    ⟨hgn.1, fun c hc => ⟨(hgn.2 c hc).1, fun v hvm => by have := (hgn.2 c hc).2 v hvm; omega⟩⟩
  have hm := mapPlane_shape (fun v => rightShift W v n) hi
  refine ⟨_, _, assign_good hgW, hgW, hgn, assign_some hm, ?_, ?_⟩
  · rw [lengths_eq hp, lengths_eq (mapPlane_shape _ hm)]
  · intro x y
    by_cases hxy : x < w ∧ y < h
    · have := hs1 x y hxy.1 hxy.2
      obtain ⟨_, h2, h3⟩ := C49_depth_partial W d (sample p x y) n (rnd x y) hn hd (by omega)
      have h3 := h3 this
      rw [mapPlane_sample _ hm hxy.1 hxy.2, mapPlane_sample _ hi hxy.1 hxy.2, hq x y hxy.1 hxy.2]
      rw [show wrap bs (rightShift W (leftShift W (sample p x y) n (rnd x y)) n) = rightShift W (leftShift W (sample p x y) n (rnd x y)) n from
        Nat.mod_eq_of_lt (by omega)]
      exact h2
    · rw [sample_out hp hxy, sample_out (mapPlane_shape _ hm) hxy]; exact Or.inl rfl

end NumpyArith

/-- A frame whose samples are in range and not the largest value, converted to a format of the same kind with more bits and back: the
frame between has its samples in range, and each sample at the end is the one at the start or the next. -/
theorem C49_depth_frame_partial (s t : Nat) (hst : (s, t) ∈ deeperPairs) (env : Env) (n : Nat) (f : Frame) (hf : f.fmt = s) (hs : Shaped f)
    (hr : InRange 1 f) : ∃ g e, convertFrame env (n + 1) f t = some g ∧ g.fmt = t ∧ Shaped g ∧ InRange 0 g ∧
      convertFrame env (n + 1) g s = some e ∧ e.fmt = s ∧ OneOff f e := by
  obtain ⟨⟨l1, l2⟩, hsh, hlt, hat, has, hne⟩ := factsDeeper _ hst
  obtain ⟨fmt, w, h, pix⟩ := f
  obtain ⟨a, b, c, hpix, ha, hb, hc⟩ := hs
  obtain ⟨a', b', c', hpix', hin⟩ := hr
  dsimp only at *
  subst hf
  rw [hpix] at hpix'
  obtain ⟨rfl, rfl, rfl⟩ := Pixels.planes.inj hpix'
  subst hpix
  have hdn : activeBits fmt + (activeBits t - activeBits fmt) = activeBits t := by omega
  obtain ⟨qa, ra, ea, ga, na, da, la, va⟩ := plane_depth (typeBits fmt) (typeBits t) (activeBits fmt) (activeBits t - activeBits fmt) w h
    (env.random 0) a ha.shape (by omega) (by omega) has (hin a (by simp))
  obtain ⟨qb, rb, eb, gb, nb, db, lb, vb⟩ := plane_depth (typeBits fmt) (typeBits t) (activeBits fmt) (activeBits t - activeBits fmt) _ _
    (env.random 1) b hb.shape (by omega) (by omega) has (hin b (by simp))
  obtain ⟨qc, rc, ec, gc, nc, dc, lc, vc⟩ := plane_depth (typeBits fmt) (typeBits t) (activeBits fmt) (activeBits t - activeBits fmt) _ _
    (env.random 2) c hc.shape (by omega) (by omega) has (hin c (by simp))
  rw [hdn] at na nb nc
  rw [hsh] at eb ec gb gc nb nc db dc
  refine ⟨⟨t, w, h, .planes qa qb qc⟩, ⟨fmt, w, h, .planes ra rb rc⟩, ?_, rfl, ⟨_, _, _, rfl, ga, gb, gc⟩, ⟨_, _, _, rfl, ?_⟩, ?_, rfl,
    ⟨_, _, _, _, _, _, rfl, rfl, ?_⟩⟩
  · rcases l1 with l1 | l1 <;> rw [convertFrame_direct env n ⟨fmt, w, h, .planes a b c⟩ t _ hne l1] <;>
      simp only [applyStep, applyKind, ea, eb, ec, planes3, Option.map_some]
  · intro p hp col hcol v hv
    simp only [List.mem_cons, List.not_mem_nil, or_false] at hp
    rcases hp with rfl | rfl | rfl
    · exact (na.2 col hcol).2 v hv
    · exact (nb.2 col hcol).2 v hv
    · exact (nc.2 col hcol).2 v hv
  · rcases l2 with l2 | l2 <;> rw [convertFrame_direct env n ⟨t, w, h, .planes qa qb qc⟩ fmt _ (Ne.symm hne) l2] <;>
      simp only [applyStep, applyKind, hsh, da, db, dc, planes3, Option.map_some]
  · intro p hp
    simp only [List.mem_cons, List.not_mem_nil, or_false] at hp
    rcases hp with rfl | rfl | rfl
    · exact ⟨la, va⟩
    · exact ⟨lb, vb⟩
    · exact ⟨lc, vc⟩

example : (FrameFormat.U8_422, FrameFormat.S16_422_10BIT) ∈ deeperPairs ∧
    InRange 1 ⟨FrameFormat.U8_422, 2, 1, .planes [[16], [254]] [[0]] [[128]]⟩ :=
  ⟨by decide +kernel, _, _, _, rfl, by decide +kernel⟩

end Verif.Props

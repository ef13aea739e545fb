import Mathlib.Algebra.Order.Field.Rat
import Mathlib.Tactic.Linarith
import Mathlib.Tactic.FieldSimp
import Mathlib.Tactic.Ring
import Mathlib.Tactic.Positivity
import Mathlib.Algebra.Order.Ring.Abs
import Verif.Compare.Psnr
import Verif.Props.C42
import Verif.Props.C54
import Verif.Props.C55

/-!
# C61: peak signal to noise ratios, and the options that use them
-/

namespace Verif.Compare.Psnr

open Verif Verif.Cog Verif.Numpy.Arrays

/-! ## Specification -/

/-- The sum of the squares of the differences of all samples of two arrays of the same shape. -/
def sqErr (a b : Arr) : Rat := sum2 a.width a.height (fun x y => (a.val x y - b.val x y) * (a.val x y - b.val x y))

def SameShape (a b : Arr) : Prop := a.width = b.width ∧ a.height = b.height

/-- The arrays have the same samples. -/
def SameArr (a b : Arr) : Prop := ∀ x y, x < a.width → y < a.height → a.val x y = b.val x y

/-- Not worse than. -/
inductive NotWorse : Psnr → Psnr → Prop where
  | inf (p : Psnr) : NotWorse p .inf
  | ratio {r s : Rat} (h : r ≤ s) : NotWorse (.ratio r) (.ratio s)

namespace C61

/-! ## Sums -/

theorem sum_nonneg {α : Type} (l : List α) (f : α → Rat) (h : ∀ x ∈ l, 0 ≤ f x) : 0 ≤ (l.map f).sum := by
  induction l with
  | nil => simp
  | cons a l ih =>
    rw [List.map_cons, List.sum_cons]
    have h1 := h a (List.mem_cons_self ..)
    have h2 := ih (fun x hx => h x (List.mem_cons_of_mem _ hx))
    linarith

theorem sum_le {α : Type} (l : List α) (f g : α → Rat) (h : ∀ x ∈ l, f x ≤ g x) : (l.map f).sum ≤ (l.map g).sum := by
  induction l with
  | nil => simp
  | cons a l ih =>
    rw [List.map_cons, List.sum_cons, List.map_cons, List.sum_cons]
    have h1 := h a (List.mem_cons_self ..)
    have h2 := ih (fun x hx => h x (List.mem_cons_of_mem _ hx))
    linarith

theorem sum_zero {α : Type} (l : List α) (f : α → Rat) (h : ∀ x ∈ l, 0 ≤ f x) :
    (l.map f).sum = 0 ↔ ∀ x ∈ l, f x = 0 := by
  induction l with
  | nil => simp
  | cons a l ih =>
    rw [List.map_cons, List.sum_cons]
    have h1 := h a (List.mem_cons_self ..)
    have h3 : ∀ x ∈ l, 0 ≤ f x := fun x hx => h x (List.mem_cons_of_mem _ hx)
    have h2 := sum_nonneg l f h3
    constructor
    · intro e x hx
      have e1 : f a = 0 := by linarith
      have e2 : (l.map f).sum = 0 := by linarith
      rcases List.mem_cons.1 hx with rfl | hx
      · exact e1
      · exact (ih h3).1 e2 x hx
    · intro e
      rw [e a (List.mem_cons_self ..), (ih h3).2 (fun x hx => e x (List.mem_cons_of_mem _ hx))]
      simp

theorem sum_const {α : Type} (l : List α) (c : Rat) : (l.map (fun _ => c)).sum = (l.length : Rat) * c := by
  induction l with
  | nil => simp
  | cons a l ih =>
    rw [List.map_cons, List.sum_cons, ih, List.length_cons]
    push_cast
    ring

variable {w h : Nat} {f g : Nat → Nat → Rat}

theorem sum2_nonneg (hf : ∀ x y, x < w → y < h → 0 ≤ f x y) : 0 ≤ sum2 w h f :=
  sum_nonneg _ _ (fun x hx => sum_nonneg _ _ (fun y hy => hf x y (List.mem_range.1 hx) (List.mem_range.1 hy)))

theorem sum2_le (hf : ∀ x y, x < w → y < h → f x y ≤ g x y) : sum2 w h f ≤ sum2 w h g :=
  sum_le _ _ _ (fun x hx => sum_le _ _ _ (fun y hy => hf x y (List.mem_range.1 hx) (List.mem_range.1 hy)))

theorem sum2_congr (hf : ∀ x y, x < w → y < h → f x y = g x y) : sum2 w h f = sum2 w h g :=
  le_antisymm (sum2_le (fun x y hx hy => (hf x y hx hy).le)) (sum2_le (fun x y hx hy => (hf x y hx hy).ge))

theorem sum2_zero (hf : ∀ x y, x < w → y < h → 0 ≤ f x y) : sum2 w h f = 0 ↔ ∀ x y, x < w → y < h → f x y = 0 := by
  unfold sum2
  rw [sum_zero _ _ (fun x hx => sum_nonneg _ _ (fun y hy => hf x y (List.mem_range.1 hx) (List.mem_range.1 hy)))]
  constructor
  · intro e x y hx hy
    exact (sum_zero _ _ (fun y hy => hf x y hx (List.mem_range.1 hy))).1 (e x (List.mem_range.2 hx)) y (List.mem_range.2 hy)
  · intro e x hx
    exact (sum_zero _ _ (fun y hy => hf x y (List.mem_range.1 hx) (List.mem_range.1 hy))).2
      (fun y hy => e x y (List.mem_range.1 hx) (List.mem_range.1 hy))

theorem sum2_const (c : Rat) : sum2 w h (fun _ _ => c) = ((w * h : Nat) : Rat) * c := by
  unfold sum2
  rw [sum_const, sum_const, List.length_range, List.length_range]
  push_cast
  ring

/-! ## One component -/

theorem sqErr_nonneg (a b : Arr) : 0 ≤ sqErr a b := sum2_nonneg (fun _ _ _ _ => mul_self_nonneg _)

theorem sqErr_zero (a b : Arr) : sqErr a b = 0 ↔ SameArr a b := by
  unfold sqErr SameArr
  rw [sum2_zero (fun _ _ _ _ => mul_self_nonneg _)]
  constructor
  · intro e x y hx hy
    have := mul_self_eq_zero.1 (e x y hx hy)
    linarith
  · intro e x y hx hy
    rw [e x y hx hy]; simp

theorem at_eq (a : Arr) {x y : Nat} (hx : x < a.width) (hy : y < a.height) : a.at x y = a.val x y := by
  unfold Arr.at
  have e1 : (if a.width = 1 then 0 else x) = x := by split <;> omega
  have e2 : (if a.height = 1 then 0 else y) = y := by split <;> omega
  rw [e1, e2]

/-- Two arrays of the same shape. -/
theorem elem_same {a b : Arr} (hs : SameShape a b) (peak : Rat) :
    elemPsnr a b peak = if a.width * a.height = 0 then some .nan
      else if sqErr a b = 0 then some .inf
      else some (.ratio (peak * peak * ((a.width * a.height : Nat) : Rat) / sqErr a b)) := by
  obtain ⟨hw, hh⟩ := hs
  have e : sum2 a.width a.height (fun x y => (a.at x y - b.at x y) * (a.at x y - b.at x y)) = sqErr a b := by
    refine sum2_congr (fun x y hx hy => ?_)
    rw [at_eq a hx hy, at_eq b (hw ▸ hx) (hh ▸ hy)]
  unfold elemPsnr
  simp only [bdim, hw, hh, if_true]
  simp only [hw, hh] at e
  by_cases h0 : b.width * b.height = 0
  · rw [if_pos h0, if_pos h0]
  · rw [if_neg h0, if_neg h0, e]
    have hn : ((b.width * b.height : Nat) : Rat) ≠ 0 := by exact_mod_cast h0
    by_cases hz : sqErr a b = 0
    · rw [if_pos (by rw [hz]; simp), if_pos hz]
    · rw [if_neg (div_ne_zero hz hn), if_neg hz]
      congr 2
      field_simp

end C61
end Verif.Compare.Psnr

namespace Verif.Props

open Verif Verif.Cog Verif.Compare Verif.Compare.Psnr Verif.Numpy.Arrays

/-! ## One component -/

/-- **C61**: the ratio of a component is infinite exactly if all its samples are the same. -/
theorem C61_infinite (a b : Arr) (hs : SameShape a b) (hn : 0 < a.width * a.height) (peak : Rat) :
    elemPsnr a b peak = some .inf ↔ SameArr a b := by
  rw [C61.elem_same hs, if_neg (by omega), ← C61.sqErr_zero]
  constructor
  · intro h
    by_contra hz
    rw [if_neg hz] at h
    cases h
  · intro h
    rw [if_pos h]

/-- **C61**: otherwise it is the square of the peak over the mean of the squares of the differences. -/
theorem C61_value (a b : Arr) (hs : SameShape a b) (hn : 0 < a.width * a.height) (peak : Rat) (hd : ¬ SameArr a b) :
    ∃ r, elemPsnr a b peak = some (.ratio r) ∧ r * (sqErr a b / ((a.width * a.height : Nat) : Rat)) = peak * peak := by
  have hz : sqErr a b ≠ 0 := fun e => hd ((C61.sqErr_zero a b).1 e)
  have hn' : ((a.width * a.height : Nat) : Rat) ≠ 0 := by exact_mod_cast (by omega : a.width * a.height ≠ 0)
  rw [C61.elem_same hs, if_neg (by omega), if_neg hz]
  refine ⟨_, rfl, ?_⟩
  field_simp

/-- **C61**: the order of the grains does not matter. -/
theorem C61_symmetric (a b : Arr) (hs : SameShape a b) (peak : Rat) : elemPsnr a b peak = elemPsnr b a peak := by
  have e : sqErr a b = sqErr b a := by
    unfold sqErr
    rw [hs.1, hs.2]
    refine C61.sum2_congr (fun x y _ _ => ?_)
    ring
  rw [C61.elem_same hs, C61.elem_same ⟨hs.1.symm, hs.2.symm⟩, e, hs.1, hs.2]

/-- **C61**: a component whose samples are all at least as close is not worse. -/
theorem C61_closer (a b c : Arr) (hb : SameShape a b) (hc : SameShape a c) (hn : 0 < a.width * a.height) (peak : Rat)
    (h : ∀ x y, x < a.width → y < a.height → |a.val x y - b.val x y| ≤ |a.val x y - c.val x y|) :
    ∃ p q, elemPsnr a c peak = some p ∧ elemPsnr a b peak = some q ∧ NotWorse p q := by
  have hle : sqErr a b ≤ sqErr a c := by
    refine C61.sum2_le (fun x y hx hy => ?_)
    have := mul_self_le_mul_self (abs_nonneg _) (h x y hx hy)
    rwa [abs_mul_abs_self, abs_mul_abs_self] at this
  have hnn : ¬ a.width * a.height = 0 := by omega
  rw [C61.elem_same hb, C61.elem_same hc]
  simp only [if_neg hnn]
  by_cases hz : sqErr a b = 0
  · rw [if_pos hz]
    by_cases hz' : sqErr a c = 0
    · rw [if_pos hz']; exact ⟨_, _, rfl, rfl, .inf _⟩
    · rw [if_neg hz']; exact ⟨_, _, rfl, rfl, .inf _⟩
  · have h0 := lt_of_le_of_ne (C61.sqErr_nonneg a b) (Ne.symm hz)
    have hz' : sqErr a c ≠ 0 := by linarith
    rw [if_neg hz, if_neg hz']
    refine ⟨_, _, rfl, rfl, .ratio ?_⟩
    apply div_le_div_of_nonneg_left _ h0 hle
    have := mul_self_nonneg peak
    positivity

/-- **C61**: samples that are all within `e` give a ratio of at least `(peak / e)²`. -/
theorem C61_within (a b : Arr) (hs : SameShape a b) (hn : 0 < a.width * a.height) (peak e : Rat) (he : 0 < e)
    (h : ∀ x y, x < a.width → y < a.height → |a.val x y - b.val x y| ≤ e) :
    ∃ p, elemPsnr a b peak = some p ∧ NotWorse (.ratio (peak / e * (peak / e))) p := by
  have hle : sqErr a b ≤ ((a.width * a.height : Nat) : Rat) * (e * e) := by
    rw [← C61.sum2_const]
    refine C61.sum2_le (fun x y hx hy => ?_)
    have := mul_self_le_mul_self (abs_nonneg _) (h x y hx hy)
    rwa [abs_mul_abs_self] at this
  rw [C61.elem_same hs, if_neg (by omega)]
  by_cases hz : sqErr a b = 0
  · rw [if_pos hz]; exact ⟨_, rfl, .inf _⟩
  · have h0 := lt_of_le_of_ne (C61.sqErr_nonneg a b) (Ne.symm hz)
    rw [if_neg hz]
    refine ⟨_, rfl, .ratio ?_⟩
    rw [le_div_iff₀ h0]
    have hp := mul_self_nonneg (peak / e)
    calc peak / e * (peak / e) * sqErr a b ≤ peak / e * (peak / e) * (((a.width * a.height : Nat) : Rat) * (e * e)) :=
          mul_le_mul_of_nonneg_left hle hp
      _ = peak * peak * ((a.width * a.height : Nat) : Rat) := by field_simp

/-! ## Grains -/

namespace C61

theorem each_same (peak : Rat) : ∀ (as bs : List Arr), as.length = bs.length →
    (∀ (i : Nat) (a b : Arr), as[i]? = some a → bs[i]? = some b → SameShape a b) →
    ∃ l, each peak as bs = some l ∧ l.length = as.length ∧
      ∀ (i : Nat) (a b : Arr), as[i]? = some a → bs[i]? = some b → l[i]? = elemPsnr a b peak
  | [], [], _, _ => ⟨[], rfl, rfl, fun i a b h => by simp at h⟩
  | [], _ :: _, h, _ => by simp at h
  | _ :: _, [], h, _ => by simp at h
  | a :: as, b :: bs, h, hs => by
    obtain ⟨l, h1, h2, h3⟩ := each_same peak as bs (by simpa using h) (fun i a b ha hb => hs (i + 1) a b (by simpa using ha) (by simpa using hb))
    have hab := hs 0 a b rfl rfl
    have : ∃ p, elemPsnr a b peak = some p := by
      rw [Psnr.C61.elem_same hab]
      split
      · exact ⟨_, rfl⟩
      · split <;> exact ⟨_, rfl⟩
    obtain ⟨p, hp⟩ := this
    refine ⟨p :: l, by simp [each, hp, h1], by simp [h2], ?_⟩
    intro i x y hx hy
    cases i with
    | zero =>
      simp only [List.getElem?_cons_zero, Option.some.injEq] at hx hy
      subst hx hy
      simpa using hp.symm
    | succ i =>
      simp only [List.getElem?_cons_succ] at hx hy ⊢
      exact h3 i x y hx hy

theorem uintOf_inj : ∀ (a b : Bytes), a.length = b.length → uintOf a = uintOf b → a = b
  | [], [], _, _ => rfl
  | [], _ :: _, h, _ => by simp at h
  | _ :: _, [], h, _ => by simp at h
  | x :: a, y :: b, h, e => by
    simp only [uintOf] at e
    have hx := x.toNat_lt
    have hy := y.toNat_lt
    have e1 : x.toNat = y.toNat := by omega
    have e2 : uintOf a = uintOf b := by omega
    rw [UInt8.toNat_inj.1 e1, uintOf_inj a b (by simpa using h) e2]

theorem signFix_inj (a b : Bytes) (n : Nat) (hn : 0 < n) (ha : a.length = n) (hb : b.length = n)
    (h : signFix (uintOf a) n = signFix (uintOf b) n) : a = b := by
  apply uintOf_inj a b (by rw [ha, hb])
  have h1 := uintOf_lt a
  have h2 := uintOf_lt b
  rw [ha] at h1
  rw [hb] at h2
  have e : 256 ^ n = 2 ^ (8 * n) := by rw [Nat.pow_mul]
  have e' : 2 ^ (8 * n) = 2 * 2 ^ (8 * n - 1) := by
    rw [← Nat.pow_succ']; congr 1; omega
  rw [e] at h1 h2
  unfold signFix at h
  rw [e'] at h h1 h2
  have hpos : 0 < 2 ^ (8 * n - 1) := Nat.pow_pos (by omega)
  generalize 2 ^ (8 * n - 1) = m at *
  have q1 : uintOf a / m = 1 ↔ m ≤ uintOf a := by
    rw [Nat.div_eq_iff hpos]; omega
  have q2 : uintOf b / m = 1 ↔ m ≤ uintOf b := by
    rw [Nat.div_eq_iff hpos]; omega
  simp only [q1, q2] at h
  split at h <;> split at h <;> omega

end C61

/-- The video grain of a format and size with that data. -/
def videoOf (fmt w h : Nat) (data : Bytes) : PGrain := .video fmt w h (componentsForFormat fmt w h) (some data)

/-- **C61** for video: two grains of the same size and format, of any format that numpy grains support but AYUV, have
one ratio for each component array; it is infinite exactly if all samples of the component are the same, and that of the
arrays as numbers otherwise. The order of the grains does not matter. -/
theorem C61_video (fl : Bytes → Rat) (fmt w h : Nat) (hne : fmt ≠ FrameFormat.AYUV) (hc : isCompressed fmt = false)
    (views : List View) (hv : arraysOf fmt w h = .ok views) (d d' : Bytes) (hd : d.length = sizeForFormat fmt w h)
    (hd' : d'.length = sizeForFormat fmt w h) :
    ∃ l, computePsnr fl (videoOf fmt w h d) (videoOf fmt w h d') = .ok l ∧
      computePsnr fl (videoOf fmt w h d') (videoOf fmt w h d) = .ok l ∧ l.length = views.length ∧
      ∀ (c : Nat) (v : View), views[c]? = some v →
        l[c]? = elemPsnr (viewArr v d) (viewArr v d') (videoPeak fmt) ∧
        (0 < v.width * v.height → (l[c]? = some .inf ↔ ∀ x y, x < v.width → y < v.height → v.get d x y = v.get d' x y)) := by
  have key : ∀ e : Bytes, e.length = sizeForFormat fmt w h →
      videoArrs fmt (componentsForFormat fmt w h) (some e) = .ok (views.map (fun v => viewArr v e)) := by
    intro e he
    unfold arraysOf at hv
    simp [videoArrs, he, hv, Except.map]
  have run : ∀ e e' : Bytes, e.length = sizeForFormat fmt w h → e'.length = sizeForFormat fmt w h →
      ∃ l, computePsnr fl (videoOf fmt w h e) (videoOf fmt w h e') = .ok l ∧ l.length = views.length ∧
        ∀ (c : Nat) (v : View), views[c]? = some v → l[c]? = elemPsnr (viewArr v e) (viewArr v e') (videoPeak fmt) := by
    intro e e' he he'
    obtain ⟨l, h1, h2, h3⟩ := C61.each_same (videoPeak fmt) (views.map (fun v => viewArr v e)) (views.map (fun v => viewArr v e'))
      (by simp) (by
        intro i a b ha hb
        rw [List.getElem?_map] at ha hb
        cases hi : views[i]? with
        | none => rw [hi] at ha; simp at ha
        | some v =>
          rw [hi] at ha hb
          simp only [Option.map_some, Option.some.injEq] at ha hb
          subst ha hb
          exact ⟨rfl, rfl⟩)
    refine ⟨l, ?_, by simpa using h2, ?_⟩
    · unfold videoOf
      simp [computePsnr, hc, arrsPsnr, key e he, key e' he', h1]
    · intro c v hcv
      exact h3 c _ _ (by rw [List.getElem?_map, hcv]; rfl) (by rw [List.getElem?_map, hcv]; rfl)
  obtain ⟨l, h1, h2, h3⟩ := run d d' hd hd'
  obtain ⟨l', h1', h2', h3'⟩ := run d' d hd' hd
  have hl : l = l' := by
    apply List.ext_getElem?
    intro i
    cases hi : views[i]? with
    | none =>
      have : views.length ≤ i := List.getElem?_eq_none_iff.1 hi
      rw [List.getElem?_eq_none (by omega), List.getElem?_eq_none (by omega)]
    | some v => rw [h3 i v hi, h3' i v hi, C61_symmetric (viewArr v d) (viewArr v d') ⟨rfl, rfl⟩]
  refine ⟨l, h1, hl ▸ h1', h2, ?_⟩
  intro c v hcv
  refine ⟨h3 c v hcv, fun hpos => ?_⟩
  rw [h3 c v hcv, C61_infinite (viewArr v d) (viewArr v d') ⟨rfl, rfl⟩ hpos]
  constructor
  · intro hs x y hx hy
    obtain ⟨b, hb, hbl⟩ := C55_inside fmt w h hne views hv d hd c v x y hcv hx hy
    obtain ⟨b', hb', hbl'⟩ := C55_inside fmt w h hne views hv d' hd' c v x y hcv hx hy
    have he : (uintOf ((v.get d x y).getD []) : Rat) = uintOf ((v.get d' x y).getD []) := hs x y hx hy
    rw [hb, hb'] at he ⊢
    have he' : uintOf b = uintOf b' := by exact_mod_cast he
    rw [C61.uintOf_inj b b' (by rw [← hbl'] at hbl; exact Option.some.inj hbl) he']
  · intro hs x y hx hy
    show (uintOf ((v.get d x y).getD []) : Rat) = uintOf ((v.get d' x y).getD [])
    rw [hs x y hx hy]

/-- The formats of integer samples that have a maximum, with the bytes of a sample in the data and in the arrays. -/
def intFormats : List (Nat × Nat) :=
  [(AudioFormat.S16_PLANES, 2), (AudioFormat.S16_PAIRS, 2), (AudioFormat.S16_INTERLEAVED, 2),
    (AudioFormat.S24_PAIRS, 3), (AudioFormat.S24_INTERLEAVED, 3),
    (AudioFormat.S32_PLANES, 4), (AudioFormat.S32_PAIRS, 4), (AudioFormat.S32_INTERLEAVED, 4)]

namespace C61

theorem ints : ∀ p ∈ intFormats, audioIsCompressed p.1 = false ∧ (audioPeak p.1).isSome = true ∧ audioIsInt p.1 = true ∧
    0 < p.2 ∧ p ∈ pcmFormats ∧ (p.1 ∉ s24Formats ∧ audioPeak p.1 = some ((2 ^ (8 * (0 + p.2) - 1) : Nat) : Rat) ∨
      (p.1 ∈ [AudioFormat.S24_PAIRS, AudioFormat.S24_INTERLEAVED] ∧ p.2 = 3) ∧ audioPeak p.1 = some ((2 ^ (8 * (1 + p.2) - 1) : Nat) : Rat)) := by
  decide +kernel

/-- The channel arrays over the data of samples `s`: each element is a sample, with a zero byte below those of 24 bits. -/
theorem channels (fmt b : Nat) (hf : (fmt, b) ∈ intFormats) : ∃ pre : Bytes, (pre = [] ∨ pre = [0]) ∧
    audioPeak fmt = some ((2 ^ (8 * (pre.length + b) - 1) : Nat) : Rat) ∧ ∀ (s : Nat → Nat → Bytes), (∀ c k, (s c k).length = b) →
    ∀ (samples channels : Nat) (writable : Bool),
    ∃ r, audioChannels fmt samples channels writable (audioData fmt s samples channels) = .ok r ∧ r.views.length = channels ∧
      ∀ (c : Nat) (v : ChanView), r.views[c]? = some v → v.count = samples ∧
        ∀ k, k < samples → v.get r.mem k = some (pre ++ s c k) := by
  obtain ⟨-, -, -, -, hp, ⟨h, hk⟩ | ⟨⟨h, hb⟩, hk⟩⟩ := ints _ hf
  · refine ⟨[], .inl rfl, hk, fun s hs samples channels writable => ?_⟩
    obtain ⟨r, h1, -, -, -, h2, h3⟩ := C54_channels fmt b hp h s hs samples channels writable
    exact ⟨r, h1, h2, h3⟩
  · refine ⟨[0], .inr rfl, hk, fun s hs samples channels writable => ?_⟩
    obtain ⟨r, h1, -, -, h2, h3⟩ := C54_s24 fmt h s (fun c k => by rw [hs]; exact hb) samples channels writable
    exact ⟨r, h1, h2, h3⟩

end C61

/-- The audio grain with samples `s`. -/
def audioOf (fmt channels samples : Nat) (writable : Bool) (s : Nat → Nat → Bytes) : PGrain :=
  .audio fmt channels samples writable (some (audioData fmt s samples channels))

/-- A signed sample of `b` bytes as a part of full scale: at least -1 and below 1. -/
def fullScale (b : Nat) (bs : Bytes) : Rat := ((signFix (uintOf bs) b : Int) : Rat) / ((2 ^ (8 * b - 1) : Nat) : Rat)

/-- The mean of the squares of the differences of two channels, in parts of full scale. -/
def meanSquare (b samples : Nat) (s s' : Nat → Bytes) : Rat :=
  ((List.range samples).map (fun k => (fullScale b (s k) - fullScale b (s' k)) * (fullScale b (s k) - fullScale b (s' k)))).sum / (samples : Rat)

namespace C61

/-- A zero byte below a sample. -/
theorem signFix_shift (bs : Bytes) (b : Nat) (hb : 0 < b) (hl : bs.length = b) :
    signFix (uintOf ([0] ++ bs)) (1 + b) = 256 * signFix (uintOf bs) b := by
  have h1 := uintOf_lt bs
  have e1 : 256 ^ b = 2 ^ (8 * b) := by rw [Nat.pow_mul]
  have e2 : 2 ^ (8 * b) = 2 * 2 ^ (8 * b - 1) := by
    rw [← Nat.pow_succ']; congr 1; omega
  have e3 : 2 ^ (8 * (1 + b) - 1) = 256 * 2 ^ (8 * b - 1) := by
    rw [show 8 * (1 + b) - 1 = 8 + (8 * b - 1) from by omega, Nat.pow_add]
  have e4 : 2 ^ (8 * (1 + b)) = 512 * 2 ^ (8 * b - 1) := by
    rw [show 8 * (1 + b) = 9 + (8 * b - 1) from by omega, Nat.pow_add]
  have e5 : uintOf ([0] ++ bs) = 256 * uintOf bs := by simp [uintOf]
  have hpos : 0 < 2 ^ (8 * b - 1) := Nat.pow_pos (by omega)
  rw [hl, e1, e2] at h1
  unfold signFix
  rw [e3, e4, e5, e2]
  generalize 2 ^ (8 * b - 1) = m at *
  generalize uintOf bs = u at *
  rw [Nat.mul_div_mul_left _ _ (by omega : 0 < 256)]
  by_cases h : u / m = 1
  · rw [if_pos h, if_pos h]; push_cast; omega
  · rw [if_neg h, if_neg h]; push_cast; omega

theorem element (pre bs : Bytes) (b : Nat) (hb : 0 < b) (hl : bs.length = b) (hp : pre = [] ∨ pre = [0]) :
    ((signFix (uintOf (pre ++ bs)) (pre.length + b) : Int) : Rat) = ((2 ^ (8 * (pre.length + b) - 1) : Nat) : Rat) * fullScale b bs := by
  have h0 : ((2 ^ (8 * b - 1) : Nat) : Rat) ≠ 0 := by positivity
  rcases hp with rfl | rfl
  · simp only [List.nil_append, List.length_nil, Nat.zero_add]
    unfold fullScale
    field_simp
  · rw [show ([0] : Bytes).length = 1 from rfl, signFix_shift bs b hb hl]
    have e : 8 * (1 + b) - 1 = 8 + (8 * b - 1) := by omega
    rw [e, Nat.pow_add]
    unfold fullScale
    push_cast
    field_simp

/-- A sum over an array of one row. -/
theorem sqErr_row (a b : Arr) (n : Nat) (p : Rat) (f g : Nat → Rat) (hw : a.width = n) (hh : a.height = 1)
    (ha : ∀ k, k < n → a.val k 0 = p * f k) (hb : ∀ k, k < n → b.val k 0 = p * g k) :
    sqErr a b = p * p * ((List.range n).map (fun k => (f k - g k) * (f k - g k))).sum := by
  unfold sqErr sum2
  rw [hw, hh]
  have h : ∀ l : List Nat, (∀ k ∈ l, k < n) →
      (l.map (fun x => ((List.range 1).map (fun y => (fun x y => (a.val x y - b.val x y) * (a.val x y - b.val x y)) x y)).sum)).sum =
        p * p * (l.map (fun k => (f k - g k) * (f k - g k))).sum := by
    intro l
    induction l with
    | nil => intro _; simp
    | cons k l ih =>
      intro hl
      rw [List.map_cons, List.sum_cons, ih (fun j hj => hl j (List.mem_cons_of_mem _ hj)), List.map_cons, List.sum_cons]
      have hk : k < n := hl k (List.mem_cons_self ..)
      simp only [List.range_one, List.map_cons, List.map_nil, List.sum_cons, List.sum_nil, ha k hk, hb k hk]
      ring
  exact h _ (fun k hk => List.mem_range.1 hk)

end C61

/-- **C61** for audio with integer samples (but for 24 bit planes): there is one ratio for each channel, infinite exactly
if all samples of the channel are the same. Otherwise it is one over the mean of the squares of the differences, in parts
of full scale. -/
theorem C61_audio (fl : Bytes → Rat) (fmt b : Nat) (hf : (fmt, b) ∈ intFormats) (s s' : Nat → Nat → Bytes)
    (hs : ∀ c k, (s c k).length = b) (hs' : ∀ c k, (s' c k).length = b) (samples channels : Nat) (hn : 0 < samples) (wr wr' : Bool) :
    ∃ l, computePsnr fl (audioOf fmt channels samples wr s) (audioOf fmt channels samples wr' s') = .ok l ∧ l.length = channels ∧
      ∀ c, c < channels → (l[c]? = some .inf ↔ ∀ k, k < samples → s c k = s' c k) ∧
        ((∃ k, k < samples ∧ s c k ≠ s' c k) →
          ∃ r, l[c]? = some (.ratio r) ∧ r * meanSquare b samples (s c) (s' c) = 1) := by
  obtain ⟨hcomp, -, hint, hb0, -, -⟩ := C61.ints _ hf
  obtain ⟨pre, hpre0, hp, hpre⟩ := C61.channels fmt b hf
  obtain ⟨r, h1, h2, h3⟩ := hpre s hs samples channels wr
  obtain ⟨r', h1', h2', h3'⟩ := hpre s' hs' samples channels wr'
  simp only at hcomp hint
  have hpk : ((2 ^ (8 * (pre.length + b) - 1) : Nat) : Rat) ≠ 0 := by positivity
  have helem : ∀ bs : Bytes, bs.length = b → ((signFix (uintOf (pre ++ bs)) (pre.length + b) : Int) : Rat) =
      ((2 ^ (8 * (pre.length + b) - 1) : Nat) : Rat) * fullScale b bs := fun bs hbs => C61.element pre bs b hb0 hbs hpre0
  generalize ((2 ^ (8 * (pre.length + b) - 1) : Nat) : Rat) = peak at hp hpk helem
  obtain ⟨l, hl1, hl2, hl3⟩ := C61.each_same peak (r.views.map (fun v => chanArr fl fmt v r.mem))
    (r'.views.map (fun v => chanArr fl fmt v r'.mem)) (by simp [h2, h2']) (by
      intro i x y hx hy
      rw [List.getElem?_map] at hx hy
      cases hi : r.views[i]? with
      | none => rw [hi] at hx; simp at hx
      | some v =>
        cases hi' : r'.views[i]? with
        | none => rw [hi'] at hy; simp at hy
        | some v' =>
          rw [hi] at hx
          rw [hi'] at hy
          simp only [Option.map_some, Option.some.injEq] at hx hy
          subst hx hy
          exact ⟨by show v.count = v'.count; rw [(h3 i v hi).1, (h3' i v' hi').1], rfl⟩)
  refine ⟨l, ?_, by rw [hl2, List.length_map, h2], ?_⟩
  · unfold audioOf
    simp [computePsnr, hcomp, hp, arrsPsnr, audioArrs, h1, h1', Except.map, hl1]
  · intro c hc
    obtain ⟨v, hv⟩ : ∃ v, r.views[c]? = some v := ⟨_, List.getElem?_eq_getElem (by omega)⟩
    obtain ⟨v', hv'⟩ : ∃ v', r'.views[c]? = some v' := ⟨_, List.getElem?_eq_getElem (by omega)⟩
    obtain ⟨e1, e2⟩ := h3 c v hv
    obtain ⟨e1', e2'⟩ := h3' c v' hv'
    rw [hl3 c _ _ (by rw [List.getElem?_map, hv]; rfl) (by rw [List.getElem?_map, hv']; rfl)]
    have hiff : elemPsnr (chanArr fl fmt v r.mem) (chanArr fl fmt v' r'.mem) peak = some .inf ↔ ∀ k, k < samples → s c k = s' c k := by
     rw [C61_infinite (chanArr fl fmt v r.mem) (chanArr fl fmt v' r'.mem) ⟨by show v.count = v'.count; rw [e1, e1'], rfl⟩ (by show 0 < v.count * 1; omega)]
     have val : ∀ k, k < samples → ((chanArr fl fmt v r.mem).val k 0 = (chanArr fl fmt v' r'.mem).val k 0 ↔ s c k = s' c k) := by
       intro k hk
       simp only [chanArr, hint, if_true, e2 k hk, e2' k hk, Option.getD_some, List.length_append, hs, hs']
       constructor
       · intro e
         have e' : signFix (uintOf (pre ++ s c k)) (pre.length + b) = signFix (uintOf (pre ++ s' c k)) (pre.length + b) := by
           exact_mod_cast e
         exact List.append_cancel_left (C61.signFix_inj _ _ _ (by omega) (by simp [hs]) (by simp [hs']) e')
       · intro e; rw [e]
     constructor
     · intro h k hk
       exact (val k hk).1 (h k 0 (by show k < v.count; omega) (by show 0 < 1; omega))
     · intro h x y hx hy
       have hx' : x < v.count := hx
       have hy' : y < 1 := hy
       have : y = 0 := by omega
       subst this
       exact (val x (by omega)).2 (h x (by omega))
    refine ⟨hiff, ?_⟩
    rintro ⟨k, hk, hne⟩
    have hnot : ¬ SameArr (chanArr fl fmt v r.mem) (chanArr fl fmt v' r'.mem) := by
      intro h
      exact hne (hiff.1 ((C61_infinite (chanArr fl fmt v r.mem) (chanArr fl fmt v' r'.mem) ⟨by show v.count = v'.count; rw [e1, e1'], rfl⟩ (by show 0 < v.count * 1; omega) _).2 h) k hk)
    obtain ⟨q, hq1, hq2⟩ := C61_value (chanArr fl fmt v r.mem) (chanArr fl fmt v' r'.mem)
      ⟨by show v.count = v'.count; rw [e1, e1'], rfl⟩ (by show 0 < v.count * 1; omega) peak hnot
    refine ⟨q, hq1, ?_⟩
    rw [C61.sqErr_row _ _ samples peak (fun k => fullScale b (s c k)) (fun k => fullScale b (s' c k)) e1 rfl
      (fun k hk => by
        simp only [chanArr, hint, if_true, e2 k hk, Option.getD_some, List.length_append, hs]
        exact helem _ (hs c k))
      (fun k hk => by
        simp only [chanArr, hint, if_true, e2' k hk, Option.getD_some, List.length_append, hs']
        exact helem _ (hs' c k))] at hq2
    have hw : (chanArr fl fmt v r.mem).width * (chanArr fl fmt v r.mem).height = samples := by
      show v.count * 1 = samples
      omega
    rw [hw] at hq2
    unfold meanSquare
    have hn' : (samples : Rat) ≠ 0 := by exact_mod_cast (by omega : samples ≠ 0)
    have hpp : peak * peak ≠ 0 := mul_ne_zero hpk hpk
    apply mul_left_cancel₀ hpp
    rw [mul_one]
    refine Eq.trans ?_ hq2
    ring

/-- **C61**: what has no ratio. Grains of other sizes, of other numbers of channels or samples and of different kinds
raise; compressed grains, and audio of two formats, are not supported, which the comparison reports as a failure. -/
theorem C61_refused (fl : Bytes → Rat) (fmt fmt' w h w' h' : Nat) (cs cs' : List Component) (d d' : Option Bytes) (wr wr' : Bool) :
    (¬ (w = w' ∧ h = h') → computePsnr fl (.video fmt w h cs d) (.video fmt' w' h' cs' d') = .raised) ∧
    (isCompressed fmt = true → computePsnr fl (.video fmt w h cs d) (.video fmt' w h cs' d') = .unsupported) ∧
    (¬ (w = w' ∧ h = h') → computePsnr fl (.audio fmt w h wr d) (.audio fmt' w' h' wr' d') = .raised) ∧
    (fmt ≠ fmt' → computePsnr fl (.audio fmt w h wr d) (.audio fmt' w h wr' d') = .unsupported) ∧
    (audioIsCompressed fmt = true → computePsnr fl (.audio fmt w h wr d) (.audio fmt w h wr' d') = .unsupported) ∧
    computePsnr fl (.video fmt w h cs d) (.audio fmt' w' h' wr' d') = .raised ∧
    computePsnr fl (.audio fmt w h wr d) (.video fmt' w' h' cs' d') = .raised := by
  refine ⟨fun hn => ?_, fun hc => ?_, fun hn => ?_, fun hc => ?_, fun hc => ?_, rfl, rfl⟩
  · simp only [computePsnr]
    rw [if_pos (by omega)]
  · simp [computePsnr, hc]
  · simp only [computePsnr]
    by_cases e : w = w'
    · rw [if_neg (by omega), if_pos (by omega)]
    · rw [if_pos (by omega)]
  · simp [computePsnr, hc]
  · simp [computePsnr, hc]

/-- An H.264 grain of a size and one of half the height. -/
example : isCompressed FrameFormat.H264 = true ∧ ¬ ((1920 = 1920) ∧ (1080 = 540)) := by decide +kernel

/-! ## Options -/

/-- **C61**, limits: `PSNR.data > [l₀, l₁, …]` (and the other comparisons) is met exactly if each component that has a
limit other than `None` meets it. -/
theorem C61_limits {F : Type} (test : F → F → Bool) (x : List F) (limits : List (Option F)) :
    meets test x limits = true ↔
      ∀ (i : Nat) (v l : F), x[i]? = some v → limits[i]? = some (some l) → test v l = true := by
  unfold meets
  induction x generalizing limits with
  | nil => simp
  | cons a x ih =>
    cases limits with
    | nil => simp
    | cons b limits =>
      rw [List.zip_cons_cons, List.all_cons, Bool.and_eq_true, ih]
      constructor
      · rintro ⟨h1, h2⟩ i v l hv hl
        cases i with
        | zero =>
          simp only [List.getElem?_cons_zero, Option.some.injEq] at hv hl
          subst hv hl
          exact h1
        | succ i =>
          simp only [List.getElem?_cons_succ] at hv hl
          exact h2 i v l hv hl
      · intro h
        refine ⟨?_, fun i v l hv hl => h (i + 1) v l (by simpa using hv) (by simpa using hl)⟩
        cases b with
        | none => rfl
        | some l => exact h 0 a l rfl rfl

/-- The relation that a comparison stands for. -/
def CmpHolds : Cmp → Int → Int → Prop
  | .eq, x, y => x = y
  | .ne, x, y => x ≠ y
  | .lt, x, y => x < y
  | .le, x, y => x ≤ y
  | .gt, x, y => y < x
  | .ge, x, y => y ≤ x

/-- **C61**, expected differences: with `ExpectedDifference.name < t` (and the other comparisons) as only option, a timestamp
passes exactly if the difference between the two grains compares so with `t`. -/
theorem C61_expected {P : Type} (name : String) (c : Cmp) (t x y : Int) :
    CompareSpec.TimeTest [(expected name c t : Opt P)] name x y ↔ CmpHolds c (x - y) t := by
  unfold CompareSpec.TimeTest expected
  constructor
  · rintro (⟨h, -⟩ | ⟨-, h⟩)
    · exact absurd (List.mem_singleton.2 rfl) (h _)
    · have := h _ (List.mem_singleton.2 rfl)
      cases c <;> simpa [CmpHolds] using this
  · intro h
    refine .inr ⟨⟨_, List.mem_singleton.2 rfl⟩, ?_⟩
    intro m hm
    have := List.mem_singleton.1 hm
    simp only [Opt.diff.injEq, true_and] at this
    subst this
    cases c <;> simpa [CmpHolds] using h

/-- **C61 is violated**: `&` and `|`, which are there to combine expected differences, never give an option that works. -/
theorem C61_combination (l r : Operand) (m : Int → Bool) : combine l r ≠ .works m := by
  cases l with
  | made p f => intro h; cases h
  | bare p =>
    cases r with
    | bare q => intro h; cases h
    | made q f =>
      by_cases h : q ≠ p
      · rw [combine, if_pos h]; intro h; cases h
      · rw [combine, if_neg h]; intro h; cases h

/-! ## Where the ratios mislead -/

deriving instance DecidableEq for PsnrOut

namespace C61

/-- The value of floating point samples plays no part in video. -/
theorem video_fl (fl : Bytes → Rat) (f f' w h w' h' : Nat) (d d' : Bytes) :
    computePsnr fl (videoOf f w h d) (videoOf f' w' h' d') = computePsnr (fun _ => 0) (videoOf f w h d) (videoOf f' w' h' d') := rfl

end C61

/-- **C61 is violated** for v210: there are no component arrays, so there are no ratios, and any limits are met, whatever
the data. -/
theorem C61_v210_counterexample (fl : Bytes → Rat) : ∃ d d' : Bytes, d.length = sizeForFormat FrameFormat.v210 48 1 ∧
    d'.length = d.length ∧ d ≠ d' ∧
    computePsnr fl (videoOf FrameFormat.v210 48 1 d) (videoOf FrameFormat.v210 48 1 d') = .ok [] ∧
    ∀ (test : Psnr → Psnr → Bool) limits, meets test [] limits = true :=
  ⟨List.replicate 128 0, List.replicate 128 7, by decide +kernel, by decide +kernel, by decide +kernel,
    by rw [C61.video_fl]; decide +kernel, fun _ _ => rfl⟩

/-- **C61 is violated** for grains without data (also when only one of them has none): no ratios, so any limits are
met. -/
theorem C61_no_data_counterexample (fl : Bytes → Rat) (d : Bytes) (hd : d.length = 4) :
    computePsnr fl (.video FrameFormat.U8_444 2 2 [] none) (.video FrameFormat.U8_444 2 2 [] (some d)) = .ok [] := by
  simp [computePsnr, arrsPsnr, videoArrs, videoArrays, itemsize, isPlanar, FrameFormat.U8_444, bytesPerValue, Nat.mod_one,
    componentViews, isCompressed, each, Except.map]

/-- **C61 is violated**: a component beyond the given limits is not looked at. -/
theorem C61_few_limits_counterexample :
    meets (fun a b : Nat => decide (b < a)) [50, 0, 0] [some 40] = true := by decide

/-- **C61 is violated** for different formats of the same size, which are not rejected: samples of 8 and of 10 bits are
compared as they are, and the result depends on the order. -/
theorem C61_formats_counterexample (fl : Bytes → Rat) : ∃ l l',
    computePsnr fl (videoOf FrameFormat.U8_444 1 1 [1, 2, 3]) (videoOf FrameFormat.S16_444_10BIT 1 1 [4, 0, 8, 0, 12, 0]) = .ok l ∧
    computePsnr fl (videoOf FrameFormat.S16_444_10BIT 1 1 [4, 0, 8, 0, 12, 0]) (videoOf FrameFormat.U8_444 1 1 [1, 2, 3]) = .ok l' ∧
    l ≠ l' := by
  refine ⟨[.ratio (255 * 255 / 9), .ratio (255 * 255 / 36), .ratio (255 * 255 / 81)],
    [.ratio (1023 * 1023 / 9), .ratio (1023 * 1023 / 36), .ratio (1023 * 1023 / 81)], ?_, ?_, by decide +kernel⟩
  · rw [C61.video_fl]; decide +kernel
  · rw [C61.video_fl]; decide +kernel

/-- **C61 is violated** for 24 bit planes in memory that can be written to: comparing the grains changes their data. -/
theorem C61_data_changes_counterexample : dataAfter AudioFormat.S24_PLANES 1 1 true [1, 2, 3, 0] = [0, 1, 2, 3] := by
  decide +kernel

/-! ## Examples -/

example : ∃ views, arraysOf FrameFormat.U8_422 4 2 = .ok views ∧ views.length = 3 ∧ isCompressed FrameFormat.U8_422 = false :=
  ⟨_, rfl, rfl, by decide⟩

/-- One of two samples is off by 3: the mean is 9/2. -/
example : elemPsnr ⟨2, 1, fun x _ => if x = 0 then 10 else 20⟩ ⟨2, 1, fun x _ => if x = 0 then 10 else 23⟩ 255 =
    some (.ratio (255 * 255 / (9 / 2))) := by decide +kernel

end Verif.Props

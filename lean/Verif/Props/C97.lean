import Verif.Props.C50

/-!
# C97: conversions between YUV formats change samples in their place only
-/

namespace Verif.Props

open Verif.Numpy Verif.Cog Verif.Props.NumpyArith Verif.Props.NumpyTable

/-! ## Specification -/

/-- The YUV formats, but for v210, with chroma subsampling and depth. -/
def yuvFormats : List (Nat × Model × Nat) := formats.filter (fun f => f.2.1 == .yuv444 || f.2.1 == .yuv422 || f.2.1 == .yuv420)

/-- The least value a sample `v` of `d` bits may become in `d'` bits: `v` followed by zeros, or `v` rounded (halves up). -/
def lowest (d d' v : Nat) : Nat := if d ≤ d' then v * 2 ^ (d' - d) else (v + 2 ^ (d - d' - 1)) / 2 ^ (d - d')

/-- The largest value a sample `v` of `d` bits may become in `d'` bits: `v` followed by ones, or `v` rounded (halves up). -/
def highest (d d' v : Nat) : Nat := if d ≤ d' then (v + 1) * 2 ^ (d' - d) - 1 else (v + 2 ^ (d - d' - 1)) / 2 ^ (d - d')

/-- The largest sample of `d` bits that is not rounded up to one that does not fit in `d'` bits. -/
def top (d d' : Nat) : Nat := if d ≤ d' then 2 ^ d - 1 else 2 ^ d - 2 ^ (d - d' - 1) - 1

/-- The three arrays of a frame. -/
def component (f : Frame) (i : Nat) : Plane :=
  match f.pixels with
  | .planes a b c => if i = 0 then a else if i = 1 then b else c
  | .words _ => []

/-- The samples of component `i` that belong to the block of two by two pixels number `X` across and `Y` down are all between `lo` and `hi`. The sample at
`(x, y)` of a component that is subsampled is that of the pixels from `(2 * x, 2 * y)` (or `(2 * x, y)`) on. -/
def InBlock (f : Frame) (i X Y lo hi : Nat) : Prop :=
  ∀ x y, x < f.width >>> (shifts f.fmt).1 → y < f.height >>> (shifts f.fmt).2 → x * 2 ^ (shifts f.fmt).1 / 2 = X → y * 2 ^ (shifts f.fmt).2 / 2 = Y →
    lo ≤ sample (component f i) x y ∧ sample (component f i) x y ≤ hi

namespace C97

/-! ## Planes -/

/-- `InBlock` for an array. -/
def PIn (sh : Nat × Nat) (W H : Nat) (p : Plane) (X Y lo hi : Nat) : Prop :=
  ∀ x y, x < W >>> sh.1 → y < H >>> sh.2 → x * 2 ^ sh.1 / 2 = X → y * 2 ^ sh.2 / 2 = Y → lo ≤ sample p x y ∧ sample p x y ≤ hi

theorem mapWrap_sample {bits w h : Nat} {p : Plane} (hp : Good bits w h p) {b' : Nat} (hb : bits = b') : assign b' w h p = some p := by
  subst hb; exact assign_good hp

/-- Means of columns. -/
theorem columns {bits w h : Nat} {p : Plane} (hp : Good bits (2 * w) (2 * h) p) :
    ∃ q, meanColumns bits p = some q ∧ Good bits w (2 * h) q ∧
      ∀ X Y lo hi, PIn (0, 0) (2 * w) (2 * h) p X Y lo hi → PIn (1, 0) (2 * w) (2 * h) q X Y lo hi := by
  obtain ⟨q, e, sq, vq⟩ := meanColumns_some bits hp.shape
  have hm : ∀ x y, x < w → y < 2 * h → min (sample p (2 * x) y) (sample p (2 * x + 1) y) ≤ sample q x y ∧
      sample q x y ≤ max (sample p (2 * x) y) (sample p (2 * x + 1) y) := by
    intro x y hx hy
    rw [vq x y hx hy]
    have := C49_mean bits _ _ (good_sample hp (x := 2 * x) (by omega) hy) (good_sample hp (x := 2 * x + 1) (by omega) hy)
    exact ⟨this.1, this.2.1⟩
  refine ⟨q, e, good_of_sample sq (fun x y hx hy => ?_), ?_⟩
  · have h1 := good_sample hp (x := 2 * x) (by omega) hy
    have h2 := good_sample hp (x := 2 * x + 1) (by omega) hy
    have := (hm x y hx hy).2
    omega
  · intro X Y lo hi hin x y hx hy eX eY
    simp only [Nat.shiftRight_eq_div_pow, Nat.pow_zero, Nat.pow_one, Nat.div_one, Nat.mul_one] at hx hy eX eY
    have h1 := hin (2 * x) y (by simp [Nat.shiftRight_eq_div_pow]; omega) (by simp [Nat.shiftRight_eq_div_pow]; omega) (by simp; omega) (by simp; omega)
    have h2 := hin (2 * x + 1) y (by simp [Nat.shiftRight_eq_div_pow]; omega) (by simp [Nat.shiftRight_eq_div_pow]; omega) (by simp; omega) (by simp; omega)
    have := hm x y (by omega) hy
    omega

/-- Means of rows. -/
theorem rows {bits w h : Nat} {p : Plane} (hp : Good bits w (2 * h) p) :
    ∃ q, meanRows bits p = some q ∧ Good bits w h q ∧
      ∀ X Y lo hi, PIn (1, 0) (2 * w) (2 * h) p X Y lo hi → PIn (1, 1) (2 * w) (2 * h) q X Y lo hi := by
  obtain ⟨q, e, sq, vq⟩ := meanRows_some bits hp.shape
  have hm : ∀ x y, x < w → y < h → min (sample p x (2 * y)) (sample p x (2 * y + 1)) ≤ sample q x y ∧
      sample q x y ≤ max (sample p x (2 * y)) (sample p x (2 * y + 1)) := by
    intro x y hx hy
    rw [vq x y hx hy]
    have := C49_mean bits _ _ (good_sample hp hx (y := 2 * y) (by omega)) (good_sample hp hx (y := 2 * y + 1) (by omega))
    exact ⟨this.1, this.2.1⟩
  refine ⟨q, e, good_of_sample sq (fun x y hx hy => ?_), ?_⟩
  · have h1 := good_sample hp hx (y := 2 * y) (by omega)
    have h2 := good_sample hp hx (y := 2 * y + 1) (by omega)
    have := (hm x y hx hy).2
    omega
  · intro X Y lo hi hin x y hx hy eX eY
    simp only [Nat.shiftRight_eq_div_pow, Nat.pow_zero, Nat.pow_one, Nat.div_one, Nat.mul_one] at hx hy eX eY
    have h1 := hin x (2 * y) (by simp [Nat.shiftRight_eq_div_pow]; omega) (by simp [Nat.shiftRight_eq_div_pow]; omega) (by simp; omega) (by simp; omega)
    have h2 := hin x (2 * y + 1) (by simp [Nat.shiftRight_eq_div_pow]; omega) (by simp [Nat.shiftRight_eq_div_pow]; omega) (by simp; omega) (by simp; omega)
    have := hm x y (by omega) (by omega)
    omega

/-- Doubled columns. -/
theorem columns2 {bits w h : Nat} {p : Plane} (hp : Good bits w (2 * h) p) :
    ∃ q, dupColumns bits (2 * w) (2 * h) p = some q ∧ Good bits (2 * w) (2 * h) q ∧
      ∀ X Y lo hi, PIn (1, 0) (2 * w) (2 * h) p X Y lo hi → PIn (0, 0) (2 * w) (2 * h) q X Y lo hi := by
  obtain ⟨q, e, gq, vq⟩ := dupColumns_some bits hp.shape
  refine ⟨q, e, gq, ?_⟩
  intro X Y lo hi hin x y hx hy eX eY
  simp only [Nat.shiftRight_eq_div_pow, Nat.pow_zero, Nat.div_one, Nat.mul_one] at hx hy eX eY
  rw [vq x y hx hy, show wrap bits (sample p (x / 2) y) = sample p (x / 2) y from Nat.mod_eq_of_lt (good_sample hp (by omega) hy)]
  exact hin (x / 2) y (by simp [Nat.shiftRight_eq_div_pow]; omega) (by simp [Nat.shiftRight_eq_div_pow]; omega) (by simp; omega) (by simp; omega)

/-- Doubled rows. -/
theorem rows2 {bits w h : Nat} {p : Plane} (hp : Good bits w h p) :
    ∃ q, dupRows bits w (2 * h) p = some q ∧ Good bits w (2 * h) q ∧
      ∀ X Y lo hi, PIn (1, 1) (2 * w) (2 * h) p X Y lo hi → PIn (1, 0) (2 * w) (2 * h) q X Y lo hi := by
  obtain ⟨q, e, gq, vq⟩ := dupRows_some bits hp.shape
  refine ⟨q, e, gq, ?_⟩
  intro X Y lo hi hin x y hx hy eX eY
  simp only [Nat.shiftRight_eq_div_pow, Nat.pow_zero, Nat.pow_one, Nat.div_one, Nat.mul_one] at hx hy eX eY
  rw [vq x y (by omega) hy, show wrap bits (sample p x (y / 2)) = sample p x (y / 2) from Nat.mod_eq_of_lt (good_sample hp (by omega) (by omega))]
  exact hin x (y / 2) (by simp [Nat.shiftRight_eq_div_pow]; omega) (by simp [Nat.shiftRight_eq_div_pow]; omega) (by simp; omega) (by simp; omega)

/-! ## Numbers -/

theorem lowest_mono {d d' v v' : Nat} (h : v ≤ v') : lowest d d' v ≤ lowest d d' v' := by
  unfold lowest
  split
  · exact Nat.mul_le_mul_right _ h
  · exact Nat.div_le_div_right (by omega)

theorem highest_mono {d d' v v' : Nat} (h : v ≤ v') : highest d d' v ≤ highest d d' v' := by
  unfold highest
  split
  · have := Nat.mul_le_mul_right (2 ^ (d' - d)) (Nat.succ_le_succ h)
    show (v + 1) * _ - 1 ≤ (v' + 1) * _ - 1
    simp only [Nat.succ_eq_add_one] at this
    omega
  · exact Nat.div_le_div_right (by omega)

theorem lowest_self (d v : Nat) : lowest d d v = v := by simp [lowest]

theorem highest_self (d v : Nat) : highest d d v = v := by simp [highest]

theorem top_lt (d d' : Nat) : top d d' < 2 ^ d := by
  have := Nat.two_pow_pos d
  have := Nat.two_pow_pos (d - d' - 1)
  unfold top
  split <;> omega

/-- Lowering the depth. -/
theorem down {d d' W W' v : Nat} (h : d' < d) (hW : d ≤ W) (hW' : d' ≤ W') (hv : v ≤ top d d') :
    wrap W' (rightShift W v (d - d')) = lowest d d' v ∧ lowest d d' v = highest d d' v := by
  have h1 : v < 2 ^ d := by have := top_lt d d'; omega
  have h2 : 2 ^ d ≤ 2 ^ W := Nat.pow_le_pow_right (by omega) hW
  have h3 : 2 ^ d' ≤ 2 ^ W' := Nat.pow_le_pow_right (by omega) hW'
  unfold lowest highest
  rw [if_neg (by omega), if_neg (by omega)]
  refine ⟨?_, rfl⟩
  rw [rightShift_eq W v (d - d') (by omega) (by omega)]
  apply Nat.mod_eq_of_lt
  refine Nat.lt_of_lt_of_le ?_ h3
  rw [Nat.div_lt_iff_lt_mul (Nat.two_pow_pos _), ← Nat.pow_add, show d' + (d - d') = d by omega]
  have h4 : 2 ^ (d - d' - 1) < 2 ^ d := Nat.pow_lt_pow_right (by omega) (by omega)
  unfold top at hv
  rw [if_neg (by omega)] at hv
  omega

/-- Raising the depth. -/
theorem up {d d' W v r : Nat} (h : d < d') (hW : d' ≤ W) (hv : v ≤ top d d') :
    lowest d d' v ≤ wrap W (leftShift W (wrap W v) (d' - d) r) ∧ wrap W (leftShift W (wrap W v) (d' - d) r) ≤ highest d d' v ∧ highest d d' v < 2 ^ d' := by
  have h1 : v < 2 ^ d := by have := top_lt d d'; omega
  have h2 : 2 ^ d ≤ 2 ^ W := Nat.pow_le_pow_right (by omega) (by omega)
  have h3 : (v + 1) * 2 ^ (d' - d) ≤ 2 ^ d' := by
    calc (v + 1) * 2 ^ (d' - d) ≤ 2 ^ d * 2 ^ (d' - d) := Nat.mul_le_mul_right _ h1
      _ = 2 ^ d' := by rw [← Nat.pow_add, show d + (d' - d) = d' by omega]
  have h4 : 2 ^ d' ≤ 2 ^ W := Nat.pow_le_pow_right (by omega) hW
  have h5 : (v + 1) * 2 ^ (d' - d) = v * 2 ^ (d' - d) + 2 ^ (d' - d) := Nat.succ_mul _ _
  have h6 : r % 2 ^ (d' - d) < 2 ^ (d' - d) := Nat.mod_lt _ (Nat.two_pow_pos _)
  have h7 := Nat.two_pow_pos (d' - d)
  have e1 : wrap W v = v := Nat.mod_eq_of_lt (by omega)
  have e2 := leftShift_eq W v (d' - d) r (by omega)
  rw [e1, e2, show wrap W (v * 2 ^ (d' - d) + r % 2 ^ (d' - d)) = v * 2 ^ (d' - d) + r % 2 ^ (d' - d) from Nat.mod_eq_of_lt (by omega)]
  unfold lowest highest
  rw [if_pos (by omega), if_pos (by omega)]
  omega

/-! ## Frames -/

/-- What a conversion from `d` to `d'` bits does to a frame. -/
structure Rel (d d' : Nat) (f g : Frame) : Prop where
  luma : ∀ x y, x < f.width → y < f.height →
    lowest d d' (sample (component f 0) x y) ≤ sample (component g 0) x y ∧ sample (component g 0) x y ≤ highest d d' (sample (component f 0) x y)
  chroma : ∀ i, i = 1 ∨ i = 2 → ∀ X Y lo hi, InBlock f i X Y lo hi → InBlock g i X Y (lowest d d' lo) (highest d d' hi)

/-- All samples of a frame are at most `M`. -/
structure AllLe (M : Nat) (f : Frame) : Prop where
  luma : ∀ x y, x < f.width → y < f.height → sample (component f 0) x y ≤ M
  chroma : ∀ i, i = 1 ∨ i = 2 → ∀ X Y, InBlock f i X Y 0 M

theorem AllLe.keep {d M : Nat} {f g : Frame} (h : AllLe M f) (r : Rel d d f g) (hw : g.width = f.width) (hh : g.height = f.height) : AllLe M g where
  luma x y hx hy := by
    have h1 := (r.luma x y (by omega) (by omega)).2
    rw [highest_self] at h1
    exact Nat.le_trans h1 (h.luma x y (by omega) (by omega))
  chroma i hi X Y := by
    have := r.chroma i hi X Y 0 M (h.chroma i hi X Y)
    rwa [lowest_self, highest_self] at this

theorem Rel.refl (d : Nat) (f : Frame) : Rel d d f f where
  luma x y _ _ := by rw [lowest_self, highest_self]; exact ⟨Nat.le_refl _, Nat.le_refl _⟩
  chroma i _ X Y lo hi h := by rw [lowest_self, highest_self]; exact h

theorem Rel.keep_left {d d' : Nat} {f g k : Frame} (h : Rel d d f g) (r : Rel d d' g k) (hw : g.width = f.width) (hh : g.height = f.height) :
    Rel d d' f k where
  luma x y hx hy := by
    have h1 := h.luma x y hx hy
    rw [lowest_self, highest_self] at h1
    have : sample (component g 0) x y = sample (component f 0) x y := by omega
    rw [← this]
    exact r.luma x y (by omega) (by omega)
  chroma i hi X Y lo hi' hin := by
    have := h.chroma i hi X Y lo hi' hin
    rw [lowest_self, highest_self] at this
    exact r.chroma i hi X Y _ _ this

theorem Rel.keep_right {d d' : Nat} {f g k : Frame} (h : Rel d d' f g) (r : Rel d' d' g k) (hw : g.width = f.width) (hh : g.height = f.height) :
    Rel d d' f k where
  luma x y hx hy := by
    have h1 := r.luma x y (by omega) (by omega)
    rw [lowest_self, highest_self] at h1
    have : sample (component k 0) x y = sample (component g 0) x y := by omega
    rw [this]
    exact h.luma x y hx hy
  chroma i hi X Y lo hi' hin := by
    have := r.chroma i hi X Y _ _ (h.chroma i hi X Y lo hi' hin)
    rwa [lowest_self, highest_self] at this

theorem rel_same {d s m W H : Nat} {a b c b' c' : Plane}
    (hb : ∀ X Y lo hi, PIn (shifts s) W H b X Y lo hi → PIn (shifts m) W H b' X Y lo hi)
    (hc : ∀ X Y lo hi, PIn (shifts s) W H c X Y lo hi → PIn (shifts m) W H c' X Y lo hi) :
    Rel d d ⟨s, W, H, .planes a b c⟩ ⟨m, W, H, .planes a b' c'⟩ where
  luma x y _ _ := by rw [lowest_self, highest_self]; exact ⟨Nat.le_refl _, Nat.le_refl _⟩
  chroma i hi X Y lo hi' hin := by
    rw [lowest_self, highest_self]
    rcases hi with rfl | rfl
    · exact hb X Y lo hi' hin
    · exact hc X Y lo hi' hin

theorem rel_depth {d d' s m W H : Nat} (hsm : shifts s = shifts m) {a b c a' b' c' : Plane}
    (ha : ∀ x y, x < W → y < H → lowest d d' (sample a x y) ≤ sample a' x y ∧ sample a' x y ≤ highest d d' (sample a x y))
    (hb : ∀ x y, x < W >>> (shifts s).1 → y < H >>> (shifts s).2 →
      lowest d d' (sample b x y) ≤ sample b' x y ∧ sample b' x y ≤ highest d d' (sample b x y))
    (hc : ∀ x y, x < W >>> (shifts s).1 → y < H >>> (shifts s).2 →
      lowest d d' (sample c x y) ≤ sample c' x y ∧ sample c' x y ≤ highest d d' (sample c x y)) :
    Rel d d' ⟨s, W, H, .planes a b c⟩ ⟨m, W, H, .planes a' b' c'⟩ where
  luma x y hx hy := ha x y hx hy
  chroma i hi X Y lo hi' hin := by
    intro x y hx hy eX eY
    dsimp only at hx hy eX eY
    rw [← hsm] at hx hy eX eY
    have h1 := hin x y hx hy eX eY
    have h2 := lowest_mono (d := d) (d' := d') h1.1
    have h3 := highest_mono (d := d) (d' := d') h1.2
    rcases hi with rfl | rfl
    · have := hb x y hx hy
      exact ⟨Nat.le_trans h2 this.1, Nat.le_trans this.2 h3⟩
    · have := hc x y hx hy
      exact ⟨Nat.le_trans h2 this.1, Nat.le_trans this.2 h3⟩

/-! ## Steps -/

def yuvKinds : List Kind := [.copyYuv, .mean444to422, .mean422to420, .dup422to444, .dup420to422, .downYuv, .upYuv]

def isDepth (k : Kind) : Bool := k == .downYuv || k == .upYuv

theorem facts : ∀ s ∈ yuvFormats, shifts s.1 = subsampling s.2.1 ∧ activeBits s.1 = s.2.2 ∧ s.2.2 ≤ typeBits s.1 ∧ s.1 ≠ FrameFormat.v210 := by
  decide +kernel

theorem sameType : ∀ s ∈ yuvFormats, ∀ m ∈ yuvFormats, s.2.2 = m.2.2 → typeBits s.1 = typeBits m.1 := by decide +kernel

theorem yuv_of_fits {k : Kind} (hk : k ∈ yuvKinds) {s m : Nat × Model × Nat} (hm : m ∈ formats) (hf : fits k s.2 m.2 = true) : m ∈ yuvFormats := by
  unfold yuvFormats
  rw [List.mem_filter]
  refine ⟨hm, ?_⟩
  unfold yuvKinds at hk
  cases k <;> simp at hk <;> simp only [fits, Bool.and_eq_true, Bool.or_eq_true, beq_iff_eq] at hf <;>
    simp only [Bool.or_eq_true, beq_iff_eq]
  · rw [← hf.2]; exact hf.1
  · exact .inl (.inr hf.1.2)
  · exact .inr hf.1.2
  · exact .inl (.inl hf.1.2)
  · exact .inl (.inr hf.1.2)
  · rw [← hf.1.2]; exact hf.1.1
  · rw [← hf.1.2]; exact hf.1.1

/-- Every sample of a plane at most `M`, from `AllLe`. -/
theorem le_of_chroma {M s W H : Nat} {a b c : Plane} (h : AllLe M ⟨s, W, H, .planes a b c⟩) :
    (∀ x y, x < W → y < H → sample a x y ≤ M) ∧
    (∀ x y, x < W >>> (shifts s).1 → y < H >>> (shifts s).2 → sample b x y ≤ M) ∧
    (∀ x y, x < W >>> (shifts s).1 → y < H >>> (shifts s).2 → sample c x y ≤ M) :=
  ⟨fun x y hx hy => h.luma x y hx hy, fun x y hx hy => (h.chroma 1 (.inl rfl) _ _ x y hx hy rfl rfl).2,
    fun x y hx hy => (h.chroma 2 (.inr rfl) _ _ x y hx hy rfl rfl).2⟩

theorem step (env : Env) (f : Frame) {s m : Nat × Model × Nat} (hs : s ∈ yuvFormats) (hm : m ∈ yuvFormats) {k : Kind} (hk : k ∈ yuvKinds)
    (hfit : fits k s.2 m.2 = true) (hf : f.fmt = s.1) (hw : f.width % 2 = 0) (hh : f.height % 2 = 0) (hsh : Shaped f)
    (hle : isDepth k = true → AllLe (top s.2.2 m.2.2) f) :
    (isDepth k = false → s.2.2 = m.2.2) ∧
    ∃ p, applyKind env k m.1 f = some p ∧ Shaped ⟨m.1, f.width, f.height, p⟩ ∧ Rel s.2.2 m.2.2 f ⟨m.1, f.width, f.height, p⟩ := by
  obtain ⟨fmt, w, h, pix⟩ := f
  obtain ⟨a, b, c, hpix, ga, gb, gc⟩ := hsh
  dsimp only at *
  subst hf hpix
  obtain ⟨ss, sa, sb, -⟩ := facts s hs
  obtain ⟨ms, ma, mb, -⟩ := facts m hm
  obtain ⟨w, rfl⟩ : ∃ k, w = 2 * k := ⟨w / 2, by omega⟩
  obtain ⟨h, rfl⟩ : ∃ k, h = 2 * k := ⟨h / 2, by omega⟩
  have s1 : ∀ x : Nat, (2 * x) >>> 1 = x := fun x => by rw [Nat.shiftRight_eq_div_pow]; omega
  unfold yuvKinds at hk
  cases k <;> simp at hk
  case copyYuv =>
    simp only [fits, Bool.and_eq_true, beq_iff_eq] at hfit
    have hd : s.2.2 = m.2.2 := by rw [hfit.2]
    have ht := sameType s hs m hm hd
    have hshift : shifts s.1 = shifts m.1 := by rw [ss, ms, hfit.2]
    refine ⟨fun _ => hd, .planes a b c, ?_, ⟨a, b, c, rfl, ?_, ?_, ?_⟩, ?_⟩
    · simp only [applyKind, ← hshift, ← ht, assign_good ga, assign_good gb, assign_good gc, planes3]
    · exact ht ▸ ga
    · dsimp only; rw [← hshift, ← ht]; exact gb
    · dsimp only; rw [← hshift, ← ht]; exact gc
    · rw [← hd]
      exact rel_same (fun X Y lo hi hin => by rw [← hshift]; exact hin) (fun X Y lo hi hin => by rw [← hshift]; exact hin)
  case mean444to422 =>
    simp only [fits, Bool.and_eq_true, beq_iff_eq] at hfit
    obtain ⟨⟨e1, e2⟩, hd⟩ := hfit
    have ht := sameType s hs m hm hd
    rw [e1] at ss
    rw [e2] at ms
    simp only [subsampling] at ss ms
    rw [ss] at gb gc
    simp only [Nat.shiftRight_zero] at gb gc
    obtain ⟨qb, eb, hb, pb⟩ := columns gb
    obtain ⟨qc, ec, hc, pc⟩ := columns gc
    refine ⟨fun _ => hd, .planes a qb qc, ?_, ⟨a, qb, qc, rfl, ?_, ?_, ?_⟩, ?_⟩
    · simp only [applyKind, ms, ← ht, s1, Nat.shiftRight_zero, assign_good ga, eb, ec, Option.bind_some, assign_good hb, assign_good hc, planes3]
    · exact ht ▸ ga
    · dsimp only; rw [ms, ← ht, s1, Nat.shiftRight_zero]; exact hb
    · dsimp only; rw [ms, ← ht, s1, Nat.shiftRight_zero]; exact hc
    · rw [← hd]
      exact rel_same (by rw [ss, ms]; exact pb) (by rw [ss, ms]; exact pc)
  case mean422to420 =>
    simp only [fits, Bool.and_eq_true, beq_iff_eq] at hfit
    obtain ⟨⟨e1, e2⟩, hd⟩ := hfit
    have ht := sameType s hs m hm hd
    rw [e1] at ss
    rw [e2] at ms
    simp only [subsampling] at ss ms
    rw [ss] at gb gc
    simp only [Nat.shiftRight_zero, s1] at gb gc
    obtain ⟨qb, eb, hb, pb⟩ := rows gb
    obtain ⟨qc, ec, hc, pc⟩ := rows gc
    refine ⟨fun _ => hd, .planes a qb qc, ?_, ⟨a, qb, qc, rfl, ?_, ?_, ?_⟩, ?_⟩
    · simp only [applyKind, ms, ← ht, s1, assign_good ga, eb, ec, Option.bind_some, assign_good hb, assign_good hc, planes3]
    · exact ht ▸ ga
    · dsimp only; rw [ms, ← ht, s1, s1]; exact hb
    · dsimp only; rw [ms, ← ht, s1, s1]; exact hc
    · rw [← hd]
      exact rel_same (by rw [ss, ms]; exact pb) (by rw [ss, ms]; exact pc)
  case dup422to444 =>
    simp only [fits, Bool.and_eq_true, beq_iff_eq] at hfit
    obtain ⟨⟨e1, e2⟩, hd⟩ := hfit
    have ht := sameType s hs m hm hd
    rw [e1] at ss
    rw [e2] at ms
    simp only [subsampling] at ss ms
    rw [ss] at gb gc
    simp only [Nat.shiftRight_zero, s1] at gb gc
    obtain ⟨qb, eb, hb, pb⟩ := columns2 gb
    obtain ⟨qc, ec, hc, pc⟩ := columns2 gc
    refine ⟨fun _ => hd, .planes a qb qc, ?_, ⟨a, qb, qc, rfl, ?_, ?_, ?_⟩, ?_⟩
    · simp only [applyKind, ms, ← ht, Nat.shiftRight_zero, assign_good ga, eb, ec, planes3]
    · exact ht ▸ ga
    · dsimp only; rw [ms, ← ht]; exact hb
    · dsimp only; rw [ms, ← ht]; exact hc
    · rw [← hd]
      exact rel_same (by rw [ss, ms]; exact pb) (by rw [ss, ms]; exact pc)
  case dup420to422 =>
    simp only [fits, Bool.and_eq_true, beq_iff_eq] at hfit
    obtain ⟨⟨e1, e2⟩, hd⟩ := hfit
    have ht := sameType s hs m hm hd
    rw [e1] at ss
    rw [e2] at ms
    simp only [subsampling] at ss ms
    rw [ss] at gb gc
    simp only [s1] at gb gc
    obtain ⟨qb, eb, hb, pb⟩ := rows2 gb
    obtain ⟨qc, ec, hc, pc⟩ := rows2 gc
    refine ⟨fun _ => hd, .planes a qb qc, ?_, ⟨a, qb, qc, rfl, ?_, ?_, ?_⟩, ?_⟩
    · simp only [applyKind, ms, ← ht, s1, Nat.shiftRight_zero, assign_good ga, eb, ec, planes3]
    · exact ht ▸ ga
    · dsimp only; rw [ms, ← ht, s1, Nat.shiftRight_zero]; exact hb
    · dsimp only; rw [ms, ← ht, s1, Nat.shiftRight_zero]; exact hc
    · rw [← hd]
      exact rel_same (by rw [ss, ms]; exact pb) (by rw [ss, ms]; exact pc)
  case downYuv =>
    simp only [fits, Bool.and_eq_true, beq_iff_eq, decide_eq_true_eq] at hfit
    obtain ⟨⟨-, e2⟩, hd⟩ := hfit
    have hshift : shifts s.1 = shifts m.1 := by rw [ss, ms, e2]
    obtain ⟨la, lb, lc⟩ := le_of_chroma (hle rfl)
    have go : ∀ {W H : Nat} {p : Plane}, Good (typeBits s.1) W H p → (∀ x y, x < W → y < H → sample p x y ≤ top s.2.2 m.2.2) →
        ∃ q, assign (typeBits m.1) W H (mapPlane (fun v => rightShift (typeBits s.1) v (s.2.2 - m.2.2)) p) = some q ∧ Good (typeBits m.1) W H q ∧
          ∀ x y, x < W → y < H → lowest s.2.2 m.2.2 (sample p x y) ≤ sample q x y ∧ sample q x y ≤ highest s.2.2 m.2.2 (sample p x y) := by
      intro W H p gp hp
      have hsp := mapPlane_shape (fun v => rightShift (typeBits s.1) v (s.2.2 - m.2.2)) gp.shape
      refine ⟨_, assign_some hsp, mapPlane_wrap_good _ hsp, ?_⟩
      intro x y hx hy
      rw [mapPlane_sample _ hsp hx hy, mapPlane_sample _ gp.shape hx hy]
      have := down hd sb mb (hp x y hx hy)
      rw [this.1]
      exact ⟨Nat.le_refl _, Nat.le_of_eq this.2⟩
    obtain ⟨qa, ea, ha, va⟩ := go ga la
    obtain ⟨qb, eb, hb, vb⟩ := go gb lb
    obtain ⟨qc, ec, hc, vc⟩ := go gc lc
    refine ⟨(fun h => by cases h), .planes qa qb qc, ?_, ⟨qa, qb, qc, rfl, ha, ?_, ?_⟩, rel_depth hshift va vb vc⟩
    · simp only [applyKind, ← hshift, sa, ma, ea, eb, ec, planes3]
    · dsimp only; rw [← hshift]; exact hb
    · dsimp only; rw [← hshift]; exact hc
  case upYuv =>
    simp only [fits, Bool.and_eq_true, beq_iff_eq, decide_eq_true_eq] at hfit
    obtain ⟨⟨-, e2⟩, hd⟩ := hfit
    have hshift : shifts s.1 = shifts m.1 := by rw [ss, ms, e2]
    obtain ⟨la, lb, lc⟩ := le_of_chroma (hle rfl)
    have go : ∀ (i : Nat) {W H : Nat} {p : Plane}, Good (typeBits s.1) W H p → (∀ x y, x < W → y < H → sample p x y ≤ top s.2.2 m.2.2) →
        ∃ q, assign (typeBits m.1) W H (mapPlaneIdx (fun x y v => leftShift (typeBits m.1) (wrap (typeBits m.1) v) (m.2.2 - s.2.2) (env.random i x y)) p) =
          some q ∧ Good (typeBits m.1) W H q ∧
          ∀ x y, x < W → y < H → lowest s.2.2 m.2.2 (sample p x y) ≤ sample q x y ∧ sample q x y ≤ highest s.2.2 m.2.2 (sample p x y) := by
      intro i W H p gp hp
      have hsp := mapPlaneIdx_shape (fun x y v => leftShift (typeBits m.1) (wrap (typeBits m.1) v) (m.2.2 - s.2.2) (env.random i x y)) gp.shape
      refine ⟨_, assign_some hsp, mapPlane_wrap_good _ hsp, ?_⟩
      intro x y hx hy
      rw [mapPlane_sample _ hsp hx hy, mapPlaneIdx_sample _ gp.shape hx hy]
      have := up (r := env.random i x y) hd mb (hp x y hx hy)
      exact ⟨this.1, this.2.1⟩
    obtain ⟨qa, ea, ha, va⟩ := go 0 ga la
    obtain ⟨qb, eb, hb, vb⟩ := go 1 gb lb
    obtain ⟨qc, ec, hc, vc⟩ := go 2 gc lc
    refine ⟨(fun h => by cases h), .planes qa qb qc, ?_, ⟨qa, qb, qc, rfl, ha, ?_, ?_⟩, rel_depth hshift va vb vc⟩
    · simp only [applyKind, ← hshift, sa, ma, ea, eb, ec, planes3]
    · dsimp only; rw [← hshift]; exact hb
    · dsimp only; rw [← hshift]; exact hc

/-! ## Conversions -/

/-- The steps between two YUV formats: all for YUV, and at most one that changes the depth. -/
def straight (l : List Step) : Bool := l.all (fun x => yuvKinds.contains x.kind) && decide ((l.filter (fun x => isDepth x.kind)).length ≤ 1)

theorem straightRow : ∀ s ∈ yuvFormats, ∀ t ∈ yuvFormats, s.1 ≠ t.1 → ((stepsRow 4 s.1 t.1).map straight).getD false = true := by decide +kernel

/-- Steps that do not change the depth. -/
theorem flat (env : Env) (depth : Nat) (t : Nat × Model × Nat) : ∀ (l : List Step) (s : Nat × Model × Nat) (f : Frame), s ∈ yuvFormats →
    Leads depth s l t = true → l.all (fun x => yuvKinds.contains x.kind) = true → l.filter (fun x => isDepth x.kind) = [] → f.fmt = s.1 →
    f.width % 2 = 0 → f.height % 2 = 0 → Shaped f →
    s.2.2 = t.2.2 ∧ ∃ g, l.foldlM (fun f s => applyStep env f s) f = some g ∧ g.fmt = t.1 ∧ g.width = f.width ∧ g.height = f.height ∧
      Shaped g ∧ Rel t.2.2 t.2.2 f g := by
  intro l
  induction l with
  | nil =>
    intro s f _ hl _ _ hf _ _ hwf
    simp only [Leads, beq_iff_eq] at hl
    subst hl
    exact ⟨rfl, f, rfl, hf, rfl, rfl, hwf, .refl _ _⟩
  | cons x xs ih =>
    intro s f hs hl hall hfil hf hw hh hsh
    simp only [Leads, List.any_eq_true, Bool.and_eq_true, beq_iff_eq] at hl
    obtain ⟨m, hm, ⟨⟨⟨_, hd⟩, _⟩, hfit⟩, hl⟩ := hl
    rw [List.all_cons, Bool.and_eq_true, List.contains_iff_mem] at hall
    have hm' := yuv_of_fits hall.1 hm hfit
    have hx : isDepth x.kind = false := by
      cases hb : isDepth x.kind with
      | false => rfl
      | true => rw [List.filter_cons, if_pos hb] at hfil; cases hfil
    rw [List.filter_cons, if_neg (by rw [hx]; decide)] at hfil
    obtain ⟨hsame, p, ep, hp, hr⟩ := step env f hs hm' hall.1 hfit hf hw hh hsh (fun h => by rw [hx] at h; cases h)
    obtain ⟨hmt, g, eg, h1, h2, h3, h4, h5⟩ := ih m ⟨m.1, f.width, f.height, p⟩ hm' hl hall.2 hfil rfl hw hh hp
    have hst : s.2.2 = t.2.2 := (hsame hx).trans hmt
    refine ⟨hst, g, ?_, h1, h2, h3, h4, ?_⟩
    · rw [List.foldlM_cons, applyStep, hd, ep]
      exact eg
    · rw [hst, hmt] at hr
      exact hr.keep_left h5 rfl rfl

theorem depths_flat (depth : Nat) (t : Nat × Model × Nat) : ∀ (l : List Step) (s : Nat × Model × Nat), s ∈ yuvFormats → Leads depth s l t = true →
    l.all (fun x => yuvKinds.contains x.kind) = true → l.filter (fun x => isDepth x.kind) = [] → s.2.2 = t.2.2 := by
  intro l
  induction l with
  | nil =>
    intro s _ hl _ _
    simp only [Leads, beq_iff_eq] at hl
    rw [hl]
  | cons x xs ih =>
    intro s hs hl hall hfil
    simp only [Leads, List.any_eq_true, Bool.and_eq_true, beq_iff_eq] at hl
    obtain ⟨m, hm, ⟨⟨⟨_, hd⟩, _⟩, hfit⟩, hl⟩ := hl
    rw [List.all_cons, Bool.and_eq_true, List.contains_iff_mem] at hall
    have hm' := yuv_of_fits hall.1 hm hfit
    have hx : isDepth x.kind = false := by
      cases hb : isDepth x.kind with
      | false => rfl
      | true => rw [List.filter_cons, if_pos hb] at hfil; cases hfil
    rw [List.filter_cons, if_neg (by rw [hx]; decide)] at hfil
    refine Eq.trans ?_ (ih m hm' hl hall.2 hfil)
    have hk := hall.1
    unfold yuvKinds at hk
    generalize x.kind = k at *
    cases k <;> simp at hk <;> simp [isDepth] at hx <;> simp only [fits, Bool.and_eq_true, beq_iff_eq] at hfit
    · rw [hfit.2]
    all_goals exact hfit.2

/-- Steps of which at most one changes the depth. -/
theorem bent (env : Env) (depth : Nat) (t : Nat × Model × Nat) : ∀ (l : List Step) (s : Nat × Model × Nat) (f : Frame), s ∈ yuvFormats →
    Leads depth s l t = true → l.all (fun x => yuvKinds.contains x.kind) = true → (l.filter (fun x => isDepth x.kind)).length ≤ 1 → f.fmt = s.1 →
    f.width % 2 = 0 → f.height % 2 = 0 → Shaped f → AllLe (top s.2.2 t.2.2) f →
    ∃ g, l.foldlM (fun f s => applyStep env f s) f = some g ∧ g.fmt = t.1 ∧ g.width = f.width ∧ g.height = f.height ∧
      Shaped g ∧ Rel s.2.2 t.2.2 f g := by
  intro l
  induction l with
  | nil =>
    intro s f _ hl _ _ hf _ _ hwf _
    simp only [Leads, beq_iff_eq] at hl
    subst hl
    exact ⟨f, rfl, hf, rfl, rfl, hwf, .refl _ _⟩
  | cons x xs ih =>
    intro s f hs hl hall hfil hf hw hh hsh hle
    simp only [Leads, List.any_eq_true, Bool.and_eq_true, beq_iff_eq] at hl
    obtain ⟨m, hm, ⟨⟨⟨_, hd⟩, _⟩, hfit⟩, hl⟩ := hl
    rw [List.all_cons, Bool.and_eq_true, List.contains_iff_mem] at hall
    have hm' := yuv_of_fits hall.1 hm hfit
    cases hx : isDepth x.kind with
    | false =>
      rw [List.filter_cons, if_neg (by rw [hx]; decide)] at hfil
      obtain ⟨hsame, p, ep, hp, hr⟩ := step env f hs hm' hall.1 hfit hf hw hh hsh (fun h => by rw [hx] at h; cases h)
      have hsm := hsame hx
      rw [hsm] at hr hle ⊢
      obtain ⟨g, eg, h1, h2, h3, h4, h5⟩ := ih m ⟨m.1, f.width, f.height, p⟩ hm' hl hall.2 hfil rfl hw hh hp (hle.keep hr rfl rfl)
      refine ⟨g, ?_, h1, h2, h3, h4, hr.keep_left h5 rfl rfl⟩
      rw [List.foldlM_cons, applyStep, hd, ep]
      exact eg
    | true =>
      rw [List.filter_cons, if_pos hx, List.length_cons] at hfil
      have hnil : xs.filter (fun x => isDepth x.kind) = [] := List.eq_nil_of_length_eq_zero (by omega)
      have hmt : m.2.2 = t.2.2 := depths_flat depth t xs m hm' hl hall.2 hnil
      obtain ⟨-, p, ep, hp, hr⟩ := step env f hs hm' hall.1 hfit hf hw hh hsh (fun _ => by rw [hmt]; exact hle)
      obtain ⟨-, g, eg, h1, h2, h3, h4, h5⟩ := flat env depth t xs m ⟨m.1, f.width, f.height, p⟩ hm' hl hall.2 hnil rfl hw hh hp
      refine ⟨g, ?_, h1, h2, h3, h4, ?_⟩
      · rw [List.foldlM_cons, applyStep, hd, ep]
        exact eg
      · rw [hmt] at hr
        exact hr.keep_right h5 rfl rfl

theorem flatRow : ∀ s ∈ yuvFormats, ∀ t ∈ yuvFormats, s.1 ≠ t.1 → s.2.2 = t.2.2 →
    ((stepsRow 4 s.1 t.1).map (fun l => (l.filter (fun x => isDepth x.kind)).isEmpty)).getD false = true := by decide +kernel

/-- The steps of a conversion. -/
theorem plan {s t : Nat × Model × Nat} (hs : s ∈ yuvFormats) (ht : t ∈ yuvFormats) (hne : s.1 ≠ t.1) :
    ∃ l, (∀ fuel, 4 ≤ fuel → convert fuel s.1 t.1 = some (.run l)) ∧ Leads (min s.2.2 t.2.2) s l t = true ∧
      l.all (fun x => yuvKinds.contains x.kind) = true ∧ (l.filter (fun x => isDepth x.kind)).length ≤ 1 ∧
      (s.2.2 = t.2.2 → l.filter (fun x => isDepth x.kind) = []) := by
  obtain ⟨l, hl, lead⟩ := C50_chain s t (List.mem_filter.1 hs).1 (List.mem_filter.1 ht).1 hne
  have h4 := hl 4 (Nat.le_refl _)
  unfold convert at h4
  rw [if_neg hne, steps_eq] at h4
  have h1 := straightRow s hs t ht hne
  have h2 := flatRow s hs t ht hne
  cases hr : stepsRow 4 s.1 t.1 with
  | none => rw [hr] at h4; cases h4
  | some l' =>
    rw [hr] at h1 h2 h4
    cases h4
    simp only [Option.map_some, Option.getD_some, straight, Bool.and_eq_true, decide_eq_true_eq] at h1
    simp only [Option.map_some, Option.getD_some, List.isEmpty_iff] at h2
    exact ⟨l, hl, lead, h1.1, h1.2, h2⟩

end C97

open C97 in
/-- A frame of even size in a YUV format, with no sample above `top`, is converted to every YUV format. Each sample of the luma of the result is the sample in
the same place of the source at the other depth. If the chroma samples of the source in a block of two by two pixels are between `lo` and `hi` then so are
those of the result in the same block, at the other depth. -/
theorem C97_local (env : Env) (f : Frame) (fuel : Nat) (hfuel : 4 ≤ fuel) (s t : Nat × Model × Nat) (hs : s ∈ yuvFormats) (ht : t ∈ yuvFormats)
    (hf : f.fmt = s.1) (hw : f.width % 2 = 0) (hh : f.height % 2 = 0) (hsh : Shaped f)
    (hluma : ∀ x y, x < f.width → y < f.height → sample (component f 0) x y ≤ top s.2.2 t.2.2)
    (hchroma : ∀ i, i = 1 ∨ i = 2 → ∀ X Y, InBlock f i X Y 0 (top s.2.2 t.2.2)) :
    ∃ g, convertFrame env fuel f t.1 = some g ∧ g.fmt = t.1 ∧ g.width = f.width ∧ g.height = f.height ∧ Shaped g ∧
      (∀ x y, x < f.width → y < f.height → lowest s.2.2 t.2.2 (sample (component f 0) x y) ≤ sample (component g 0) x y ∧
        sample (component g 0) x y ≤ highest s.2.2 t.2.2 (sample (component f 0) x y)) ∧
      ∀ i, i = 1 ∨ i = 2 → ∀ X Y lo hi, InBlock f i X Y lo hi → InBlock g i X Y (lowest s.2.2 t.2.2 lo) (highest s.2.2 t.2.2 hi) := by
  by_cases hne : s.1 = t.1
  · have hst : s.2.2 = t.2.2 := by
      have : ∀ s ∈ yuvFormats, ∀ t ∈ yuvFormats, s.1 = t.1 → s.2.2 = t.2.2 := by decide +kernel
      exact this s hs t ht hne
    rw [hst]
    have := Rel.refl t.2.2 f
    exact ⟨f, by rw [← hne, ← hf]; exact C50_same env fuel f, hf.trans hne, rfl, rfl, hsh, this.luma, this.chroma⟩
  · obtain ⟨l, hl, lead, hall, hlen, -⟩ := plan hs ht hne
    obtain ⟨g, eg, h1, h2, h3, h4, h5⟩ := bent env _ t l s f hs lead hall hlen hf hw hh hsh ⟨hluma, hchroma⟩
    refine ⟨g, ?_, h1, h2, h3, h4, h5.luma, h5.chroma⟩
    unfold convertFrame
    rw [hf, hl fuel hfuel]
    exact eg

open C97 in
/-- Between formats of the same depth the luma stays as it is, and chroma samples stay between those of their block, whatever the samples are. -/
theorem C97_same_depth (env : Env) (f : Frame) (fuel : Nat) (hfuel : 4 ≤ fuel) (s t : Nat × Model × Nat) (hs : s ∈ yuvFormats) (ht : t ∈ yuvFormats)
    (hd : s.2.2 = t.2.2) (hf : f.fmt = s.1) (hw : f.width % 2 = 0) (hh : f.height % 2 = 0) (hsh : Shaped f) :
    ∃ g, convertFrame env fuel f t.1 = some g ∧ g.fmt = t.1 ∧ g.width = f.width ∧ g.height = f.height ∧ Shaped g ∧
      (∀ x y, x < f.width → y < f.height → sample (component g 0) x y = sample (component f 0) x y) ∧
      ∀ i, i = 1 ∨ i = 2 → ∀ X Y lo hi, InBlock f i X Y lo hi → InBlock g i X Y lo hi := by
  by_cases hne : s.1 = t.1
  · exact ⟨f, by rw [← hne, ← hf]; exact C50_same env fuel f, hf.trans hne, rfl, rfl, hsh, fun _ _ _ _ => rfl, fun _ _ _ _ _ _ h => h⟩
  · obtain ⟨l, hl, lead, hall, -, hflat⟩ := plan hs ht hne
    obtain ⟨-, g, eg, h1, h2, h3, h4, h5⟩ := flat env _ t l s f hs lead hall (hflat hd) hf hw hh hsh
    refine ⟨g, ?_, h1, h2, h3, h4, fun x y hx hy => ?_, fun i hi X Y lo hi' hin => ?_⟩
    · unfold convertFrame
      rw [hf, hl fuel hfuel]
      exact eg
    · have := h5.luma x y hx hy
      rw [lowest_self, highest_self] at this
      omega
    · have := h5.chroma i hi X Y lo hi' hin
      rwa [lowest_self, highest_self] at this

/-! ## Formats that differ in the depth and the order of bytes only -/

/-- The place `(x, y)` is in component `i` of a frame. -/
def Place (f : Frame) (i x y : Nat) : Prop :=
  if i = 0 then x < f.width ∧ y < f.height else i < 3 ∧ x < f.width >>> (shifts f.fmt).1 ∧ y < f.height >>> (shifts f.fmt).2

namespace C97

def sameKinds : List Kind := [.copyYuv, .copyRgb, .downYuv, .downRgb, .upYuv, .upRgb]

def deepens (k : Kind) : Bool := k == .downYuv || k == .upYuv || k == .downRgb || k == .upRgb

/-- Every sample at its place. -/
def PRel (d d' : Nat) (f g : Frame) : Prop :=
  ∀ i x y, Place f i x y → lowest d d' (sample (component f i) x y) ≤ sample (component g i) x y ∧
    sample (component g i) x y ≤ highest d d' (sample (component f i) x y)

def PLe (M : Nat) (f : Frame) : Prop := ∀ i x y, Place f i x y → sample (component f i) x y ≤ M

/-- Frames of the same shape. -/
structure Like (f g : Frame) : Prop where
  width : g.width = f.width
  height : g.height = f.height
  shift : shifts g.fmt = shifts f.fmt

theorem Like.place {f g : Frame} (h : Like f g) {i x y : Nat} : Place g i x y ↔ Place f i x y := by
  unfold Place
  rw [h.width, h.height, h.shift]

theorem PRel.refl (d : Nat) (f : Frame) : PRel d d f f := by
  intro i x y _
  rw [lowest_self, highest_self]
  exact ⟨Nat.le_refl _, Nat.le_refl _⟩

theorem PRel.same {d : Nat} {f g : Frame} (h : PRel d d f g) {i x y : Nat} (hp : Place f i x y) :
    sample (component g i) x y = sample (component f i) x y := by
  have := h i x y hp
  rw [lowest_self, highest_self] at this
  omega

theorem PRel.keep_left {d d' : Nat} {f g k : Frame} (h : PRel d d f g) (r : PRel d d' g k) (hl : Like f g) : PRel d d' f k := by
  intro i x y hp
  rw [← h.same hp]
  exact r i x y (hl.place.2 hp)

theorem PRel.keep_right {d d' : Nat} {f g k : Frame} (h : PRel d d' f g) (r : PRel d' d' g k) (hl : Like f g) : PRel d d' f k := by
  intro i x y hp
  rw [r.same (hl.place.2 hp)]
  exact h i x y hp

theorem PLe.keep {d M : Nat} {f g : Frame} (h : PLe M f) (r : PRel d d f g) (hl : Like f g) : PLe M g := by
  intro i x y hp
  rw [r.same (hl.place.1 hp)]
  exact h i x y (hl.place.1 hp)

theorem prel {d d' s m W H : Nat} {a b c a' b' c' : Plane}
    (ha : ∀ x y, x < W → y < H → lowest d d' (sample a x y) ≤ sample a' x y ∧ sample a' x y ≤ highest d d' (sample a x y))
    (hb : ∀ x y, x < W >>> (shifts s).1 → y < H >>> (shifts s).2 →
      lowest d d' (sample b x y) ≤ sample b' x y ∧ sample b' x y ≤ highest d d' (sample b x y))
    (hc : ∀ x y, x < W >>> (shifts s).1 → y < H >>> (shifts s).2 →
      lowest d d' (sample c x y) ≤ sample c' x y ∧ sample c' x y ≤ highest d d' (sample c x y)) :
    PRel d d' ⟨s, W, H, .planes a b c⟩ ⟨m, W, H, .planes a' b' c'⟩ := by
  intro i x y hp
  unfold Place at hp
  match i, hp with
  | 0, hp => exact ha x y hp.1 hp.2
  | 1, hp => exact hb x y hp.2.1 hp.2.2
  | 2, hp => exact hc x y hp.2.1 hp.2.2
  | i + 3, hp => exact absurd hp.1 (by omega)

theorem ple {M s W H : Nat} {a b c : Plane} (h : PLe M ⟨s, W, H, .planes a b c⟩) :
    (∀ x y, x < W → y < H → sample a x y ≤ M) ∧
    (∀ x y, x < W >>> (shifts s).1 → y < H >>> (shifts s).2 → sample b x y ≤ M) ∧
    (∀ x y, x < W >>> (shifts s).1 → y < H >>> (shifts s).2 → sample c x y ≤ M) :=
  ⟨fun x y hx hy => h 0 x y ⟨hx, hy⟩, fun x y hx hy => h 1 x y ⟨by decide, hx, hy⟩, fun x y hx hy => h 2 x y ⟨by decide, hx, hy⟩⟩

theorem facts' : ∀ s ∈ formats, s.2.1 ≠ .packed422 → activeBits s.1 = s.2.2 ∧ s.2.2 ≤ typeBits s.1 := by decide +kernel

theorem pmodel {k : Kind} (hk : k ∈ sameKinds) {a b : Model × Nat} (hf : fits k a b = true) :
    a.1 = b.1 ∧ ((k = .copyYuv ∨ k = .copyRgb) ∧ a.2 = b.2 ∧ deepens k = false ∨ (k = .downYuv ∨ k = .downRgb) ∧ b.2 < a.2 ∧ deepens k = true ∨
      (k = .upYuv ∨ k = .upRgb) ∧ a.2 < b.2 ∧ deepens k = true) := by
  unfold sameKinds at hk
  cases k <;> simp at hk <;> simp only [fits, Bool.and_eq_true, Bool.or_eq_true, beq_iff_eq, decide_eq_true_eq] at hf
  · exact ⟨by rw [hf.2], .inl ⟨.inl rfl, by rw [hf.2], rfl⟩⟩
  · exact ⟨by rw [hf.2], .inl ⟨.inr rfl, by rw [hf.2], rfl⟩⟩
  · exact ⟨hf.1.2, .inr (.inl ⟨.inl rfl, hf.2, rfl⟩)⟩
  · exact ⟨hf.1.1.trans hf.1.2.symm, .inr (.inl ⟨.inr rfl, hf.2, rfl⟩)⟩
  · exact ⟨hf.1.2, .inr (.inr ⟨.inl rfl, hf.2, rfl⟩)⟩
  · exact ⟨hf.1.1.trans hf.1.2.symm, .inr (.inr ⟨.inr rfl, hf.2, rfl⟩)⟩

theorem pstep (env : Env) (f : Frame) {s m : Nat × Model × Nat} (hs : s ∈ formats) (hm : m ∈ formats) (hp : s.2.1 ≠ .packed422) {k : Kind}
    (hk : k ∈ sameKinds) (hfit : fits k s.2 m.2 = true) (hf : f.fmt = s.1) (hsh : Shaped f) :
    ∃ p, applyKind env k m.1 f = some p ∧ Shaped ⟨m.1, f.width, f.height, p⟩ ∧ Like f ⟨m.1, f.width, f.height, p⟩ ∧
      ((deepens k = true → PLe (top s.2.2 m.2.2) f) → PRel s.2.2 m.2.2 f ⟨m.1, f.width, f.height, p⟩) := by
  obtain ⟨hmod, hk⟩ := pmodel hk hfit
  obtain ⟨fmt, w, h, pix⟩ := f
  obtain ⟨a, b, c, hpix, ga, gb, gc⟩ := hsh
  dsimp only at *
  subst hf hpix
  obtain ⟨sa, sb⟩ := facts' s hs hp
  obtain ⟨ma, mb⟩ := facts' m hm (hmod ▸ hp)
  have hshift : shifts s.1 = shifts m.1 := by rw [(factsFormats s hs).1, (factsFormats m hm).1, hmod]
  rcases hk with ⟨hk, hd, -⟩ | ⟨hk, hd, hdeep⟩ | ⟨hk, hd, hdeep⟩
  · have ht : typeBits s.1 = typeBits m.1 := typeOf s hs m hm hp (hmod ▸ hp) hd
    refine ⟨.planes a b c, ?_, ⟨a, b, c, rfl, ?_, ?_, ?_⟩, ⟨rfl, rfl, hshift.symm⟩, ?_⟩
    · rcases hk with rfl | rfl <;> simp only [applyKind, ← hshift, ← ht, assign_good ga, assign_good gb, assign_good gc, planes3]
    · exact ht ▸ ga
    · dsimp only; rw [← hshift, ← ht]; exact gb
    · dsimp only; rw [← hshift, ← ht]; exact gc
    · intro _
      rw [← hd]
      exact PRel.refl _ _
  · have go : ∀ {W H : Nat} {p : Plane}, Good (typeBits s.1) W H p →
        ∃ q, assign (typeBits m.1) W H (mapPlane (fun v => rightShift (typeBits s.1) v (s.2.2 - m.2.2)) p) = some q ∧ Good (typeBits m.1) W H q ∧
          ((∀ x y, x < W → y < H → sample p x y ≤ top s.2.2 m.2.2) → ∀ x y, x < W → y < H → lowest s.2.2 m.2.2 (sample p x y) ≤ sample q x y ∧ sample q x y ≤ highest s.2.2 m.2.2 (sample p x y)) := by
      intro W H p gp
      have hsp := mapPlane_shape (fun v => rightShift (typeBits s.1) v (s.2.2 - m.2.2)) gp.shape
      refine ⟨_, assign_some hsp, mapPlane_wrap_good _ hsp, ?_⟩
      intro hp x y hx hy
      rw [mapPlane_sample _ hsp hx hy, mapPlane_sample _ gp.shape hx hy]
      have := down hd sb mb (hp x y hx hy)
      rw [this.1]
      exact ⟨Nat.le_refl _, Nat.le_of_eq this.2⟩
    obtain ⟨qa, ea, ha, va⟩ := go ga
    obtain ⟨qb, eb, hb, vb⟩ := go gb
    obtain ⟨qc, ec, hc, vc⟩ := go gc
    refine ⟨.planes qa qb qc, ?_, ⟨qa, qb, qc, rfl, ha, ?_, ?_⟩, ⟨rfl, rfl, hshift.symm⟩, fun hle => ?_⟩
    · rcases hk with rfl | rfl <;> simp only [applyKind, ← hshift, sa, ma, ea, eb, ec, planes3]
    · dsimp only; rw [← hshift]; exact hb
    · dsimp only; rw [← hshift]; exact hc
    · obtain ⟨la, lb, lc⟩ := ple (hle hdeep)
      exact prel (va la) (vb lb) (vc lc)
  · have go : ∀ (i : Nat) {W H : Nat} {p : Plane}, Good (typeBits s.1) W H p →
        ∃ q, assign (typeBits m.1) W H (mapPlaneIdx (fun x y v => leftShift (typeBits m.1) (wrap (typeBits m.1) v) (m.2.2 - s.2.2) (env.random i x y)) p) =
          some q ∧ Good (typeBits m.1) W H q ∧
          ((∀ x y, x < W → y < H → sample p x y ≤ top s.2.2 m.2.2) → ∀ x y, x < W → y < H → lowest s.2.2 m.2.2 (sample p x y) ≤ sample q x y ∧ sample q x y ≤ highest s.2.2 m.2.2 (sample p x y)) := by
      intro i W H p gp
      have hsp := mapPlaneIdx_shape (fun x y v => leftShift (typeBits m.1) (wrap (typeBits m.1) v) (m.2.2 - s.2.2) (env.random i x y)) gp.shape
      refine ⟨_, assign_some hsp, mapPlane_wrap_good _ hsp, ?_⟩
      intro hp x y hx hy
      rw [mapPlane_sample _ hsp hx hy, mapPlaneIdx_sample _ gp.shape hx hy]
      have := up (r := env.random i x y) hd mb (hp x y hx hy)
      exact ⟨this.1, this.2.1⟩
    obtain ⟨qa, ea, ha, va⟩ := go 0 ga
    obtain ⟨qb, eb, hb, vb⟩ := go 1 gb
    obtain ⟨qc, ec, hc, vc⟩ := go 2 gc
    refine ⟨.planes qa qb qc, ?_, ⟨qa, qb, qc, rfl, ha, ?_, ?_⟩, ⟨rfl, rfl, hshift.symm⟩, fun hle => ?_⟩
    · rcases hk with rfl | rfl <;> simp only [applyKind, ← hshift, sa, ma, ea, eb, ec, planes3]
    · dsimp only; rw [← hshift]; exact hb
    · dsimp only; rw [← hshift]; exact hc
    · obtain ⟨la, lb, lc⟩ := ple (hle hdeep)
      exact prel (va la) (vb lb) (vc lc)

theorem Like.trans {f g k : Frame} (h : Like f g) (h' : Like g k) : Like f k :=
  ⟨h'.width.trans h.width, h'.height.trans h.height, h'.shift.trans h.shift⟩

theorem pdepths (depth : Nat) (t : Nat × Model × Nat) : ∀ (l : List Step) (s : Nat × Model × Nat), Leads depth s l t = true →
    l.all (fun x => sameKinds.contains x.kind) = true → l.filter (fun x => deepens x.kind) = [] → s.2.2 = t.2.2 := by
  intro l
  induction l with
  | nil =>
    intro s hl _ _
    simp only [Leads, beq_iff_eq] at hl
    rw [hl]
  | cons x xs ih =>
    intro s hl hall hfil
    simp only [Leads, List.any_eq_true, Bool.and_eq_true, beq_iff_eq] at hl
    obtain ⟨m, hm, ⟨⟨⟨_, hd⟩, _⟩, hfit⟩, hl⟩ := hl
    rw [List.all_cons, Bool.and_eq_true, List.contains_iff_mem] at hall
    have hx : deepens x.kind = false := by
      cases hb : deepens x.kind with
      | false => rfl
      | true => rw [List.filter_cons, if_pos hb] at hfil; cases hfil
    rw [List.filter_cons, if_neg (by rw [hx]; decide)] at hfil
    refine Eq.trans ?_ (ih m hl hall.2 hfil)
    rcases (pmodel hall.1 hfit).2 with h | h | h
    · exact h.2.1
    · rw [hx] at h; cases h.2.2
    · rw [hx] at h; cases h.2.2

/-- Steps of which at most one changes the depth; with none the samples may be anything. -/
theorem pchain (env : Env) (depth : Nat) (t : Nat × Model × Nat) : ∀ (l : List Step) (s : Nat × Model × Nat) (f : Frame), s ∈ formats →
    s.2.1 ≠ .packed422 → Leads depth s l t = true → l.all (fun x => sameKinds.contains x.kind) = true →
    (l.filter (fun x => deepens x.kind)).length ≤ 1 → f.fmt = s.1 → Shaped f →
    ∃ g, l.foldlM (fun f s => applyStep env f s) f = some g ∧ g.fmt = t.1 ∧ Like f g ∧ Shaped g ∧
      ((l.filter (fun x => deepens x.kind) = [] ∨ PLe (top s.2.2 t.2.2) f) → PRel s.2.2 t.2.2 f g) := by
  intro l
  induction l with
  | nil =>
    intro s f _ _ hl _ _ hf hwf
    simp only [Leads, beq_iff_eq] at hl
    subst hl
    exact ⟨f, rfl, hf, ⟨rfl, rfl, rfl⟩, hwf, fun _ => .refl _ _⟩
  | cons x xs ih =>
    intro s f hs hp hl hall hfil hf hsh
    simp only [Leads, List.any_eq_true, Bool.and_eq_true, beq_iff_eq] at hl
    obtain ⟨m, hm, ⟨⟨⟨_, hd⟩, _⟩, hfit⟩, hl⟩ := hl
    rw [List.all_cons, Bool.and_eq_true, List.contains_iff_mem] at hall
    have hmod := pmodel hall.1 hfit
    cases hx : deepens x.kind with
    | false =>
      rw [List.filter_cons, if_neg (by rw [hx]; decide)] at hfil ⊢
      have hsm : s.2.2 = m.2.2 := by
        rcases hmod.2 with h | h | h
        · exact h.2.1
        · rw [hx] at h; cases h.2.2
        · rw [hx] at h; cases h.2.2
      obtain ⟨p, ep, hp', hlike, hr⟩ := pstep env f hs hm hp hall.1 hfit hf hsh
      have hr := hr (fun h => by rw [hx] at h; cases h)
      rw [hsm] at hr ⊢
      obtain ⟨g, eg, h1, h2, h3, h4⟩ := ih m ⟨m.1, f.width, f.height, p⟩ hm (hmod.1 ▸ hp) hl hall.2 hfil rfl hp'
      refine ⟨g, ?_, h1, hlike.trans h2, h3, fun hle => hr.keep_left (h4 (hle.imp id (fun h => h.keep hr hlike))) hlike⟩
      rw [List.foldlM_cons, applyStep, hd, ep]
      exact eg
    | true =>
      rw [List.filter_cons, if_pos hx] at hfil ⊢
      rw [List.length_cons] at hfil
      have hnil : xs.filter (fun x => deepens x.kind) = [] := List.eq_nil_of_length_eq_zero (by omega)
      have hmt : m.2.2 = t.2.2 := pdepths depth t xs m hl hall.2 hnil
      obtain ⟨p, ep, hp', hlike, hr⟩ := pstep env f hs hm hp hall.1 hfit hf hsh
      obtain ⟨g, eg, h1, h2, h3, h4⟩ := ih m ⟨m.1, f.width, f.height, p⟩ hm (hmod.1 ▸ hp) hl hall.2 (by rw [hnil]; exact Nat.zero_le _) rfl hp'
      refine ⟨g, ?_, h1, hlike.trans h2, h3, ?_⟩
      · rw [List.foldlM_cons, applyStep, hd, ep]
        exact eg
      · intro hle
        have hr := hr (fun _ => by rw [hmt]; exact hle.resolve_left (fun h => by cases h))
        have h4 := h4 (.inl hnil)
        rw [hmt] at hr h4
        exact hr.keep_right h4 hlike

def same (s t : Nat × Model × Nat) (l : List Step) : Bool :=
  l.all (fun x => sameKinds.contains x.kind) && decide ((l.filter (fun x => deepens x.kind)).length ≤ if s.2.2 = t.2.2 then 0 else 1)

theorem sameRow : ∀ s ∈ formats, ∀ t ∈ formats, s.1 ≠ t.1 → s.2.1 = t.2.1 → ((stepsRow 4 s.1 t.1).map (same s t)).getD false = true := by
  decide +kernel

end C97

open C97 in
/-- Between two RGB formats, or two YUV formats with the same subsampling, frames of any size with any samples are converted. Each sample of each component is
the sample in the same place at the other depth, if none is above `top`. If the depth is the same too, then the samples may be anything and stay as they
are. -/
theorem C97_pointwise (env : Env) (f : Frame) (fuel : Nat) (hfuel : 4 ≤ fuel) (s t : Nat × Model × Nat) (hs : s ∈ formats) (ht : t ∈ formats)
    (hm : s.2.1 = t.2.1) (hp : s.2.1 ≠ .packed422) (hf : f.fmt = s.1) (hsh : Shaped f) :
    ∃ g, convertFrame env fuel f t.1 = some g ∧ g.fmt = t.1 ∧ g.width = f.width ∧ g.height = f.height ∧ Shaped g ∧
      ((s.2.2 = t.2.2 ∨ ∀ i x y, Place f i x y → sample (component f i) x y ≤ top s.2.2 t.2.2) →
        ∀ i x y, Place f i x y → lowest s.2.2 t.2.2 (sample (component f i) x y) ≤ sample (component g i) x y ∧
          sample (component g i) x y ≤ highest s.2.2 t.2.2 (sample (component f i) x y)) := by
  by_cases hne : s.1 = t.1
  · have hst : s.2.2 = t.2.2 := by
      have : ∀ s ∈ formats, ∀ t ∈ formats, s.1 = t.1 → s.2.2 = t.2.2 := by decide +kernel
      exact this s hs t ht hne
    rw [hst]
    exact ⟨f, by rw [← hne, ← hf]; exact C50_same env fuel f, hf.trans hne, rfl, rfl, hsh, fun _ => PRel.refl _ _⟩
  · obtain ⟨l, hl, lead⟩ := C50_chain s t hs ht hne
    have h4 := hl 4 (Nat.le_refl _)
    unfold convert at h4
    rw [if_neg hne, steps_eq] at h4
    have h1 := sameRow s hs t ht hne hm
    cases hr : stepsRow 4 s.1 t.1 with
    | none => rw [hr] at h4; cases h4
    | some l' =>
      rw [hr] at h1 h4
      cases h4
      simp only [Option.map_some, Option.getD_some, same, Bool.and_eq_true, decide_eq_true_eq] at h1
      have hlen : (l.filter (fun x => deepens x.kind)).length ≤ 1 := Nat.le_trans h1.2 (by split <;> omega)
      obtain ⟨g, eg, h2, h3, h4, h5⟩ := pchain env _ t l s f hs hp lead h1.1 hlen hf hsh
      refine ⟨g, ?_, h2, h3.width, h3.height, h4, fun hle => h5 (hle.imp (fun h => by
        have := h1.2
        rw [if_pos h] at this
        exact List.eq_nil_of_length_eq_zero (by omega)) id)⟩
      unfold convertFrame
      rw [hf, hl fuel hfuel]
      exact eg

/-- An RGB frame of odd size. -/
example : (FrameFormat.S16_444_12BIT_RGB, Model.rgb, 12) ∈ formats ∧ (FrameFormat.U8_444_RGB, Model.rgb, 8) ∈ formats ∧
    Shaped ⟨FrameFormat.S16_444_12BIT_RGB, 1, 1, .planes [[4000]] [[8]] [[7]]⟩ ∧
    (∀ i x y, Place ⟨FrameFormat.S16_444_12BIT_RGB, 1, 1, .planes [[4000]] [[8]] [[7]]⟩ i x y →
      sample (component ⟨FrameFormat.S16_444_12BIT_RGB, 1, 1, .planes [[4000]] [[8]] [[7]]⟩ i) x y ≤ top 12 8) ∧
    convertFrame ⟨fun _ c => c, fun _ c => c, fun _ _ _ => 0⟩ 4 ⟨FrameFormat.S16_444_12BIT_RGB, 1, 1, .planes [[4000]] [[8]] [[7]]⟩
      FrameFormat.U8_444_RGB = some ⟨FrameFormat.U8_444_RGB, 1, 1, .planes [[250]] [[1]] [[0]]⟩ := by
  refine ⟨by decide +kernel, by decide +kernel, ⟨_, _, _, rfl, ?_, ?_, ?_⟩, ?_, by decide +kernel⟩
  iterate 3 (constructor <;> decide)
  have : ∀ i < 3, ∀ x < 1, ∀ y < 1,
      sample (component ⟨FrameFormat.S16_444_12BIT_RGB, 1, 1, .planes [[4000]] [[8]] [[7]]⟩ i) x y ≤ top 12 8 := by decide
  intro i x y hp
  unfold Place at hp
  split at hp
  · exact this i (by omega) x hp.1 y hp.2
  · exact this i hp.1 x hp.2.1 y hp.2.2

/-! ## v210 -/

namespace C97

/-- The steps, none for the format itself. -/
def planOf (s t : Nat) : List Step := if s = t then [] else (stepsRow 4 s t).getD []

theorem fromRow : ∀ t ∈ formats, t.1 ≠ FrameFormat.v210 →
    planOf FrameFormat.v210 t.1 = ⟨FrameFormat.v210, FrameFormat.S16_422_10BIT, .v210To422⟩ :: planOf FrameFormat.S16_422_10BIT t.1 := by
  decide +kernel

theorem toRow : ∀ s ∈ formats, s.1 ≠ FrameFormat.v210 →
    planOf s.1 FrameFormat.v210 = planOf s.1 FrameFormat.S16_422_10BIT ++ [⟨FrameFormat.S16_422_10BIT, FrameFormat.v210, .to422v210⟩] := by
  decide +kernel

theorem run_plan (env : Env) (f : Frame) {s t : Nat × Model × Nat} (hs : s ∈ formats) (ht : t ∈ formats) (hf : f.fmt = s.1) {fuel : Nat} (hfuel : 4 ≤ fuel) :
    convertFrame env fuel f t.1 = (planOf s.1 t.1).foldlM (fun f s => applyStep env f s) f := by
  unfold planOf
  by_cases hne : s.1 = t.1
  · rw [if_pos hne, ← hne, ← hf]
    exact C50_same env fuel f
  · rw [if_neg hne]
    obtain ⟨l, hl, -⟩ := C50_chain s t hs ht hne
    have h4 := hl 4 (Nat.le_refl _)
    unfold convert at h4
    rw [if_neg hne, steps_eq] at h4
    unfold convertFrame
    rw [hf, hl fuel hfuel]
    cases hr : stepsRow 4 s.1 t.1 with
    | none => rw [hr] at h4; cases h4
    | some l' => rw [hr] at h4; cases h4; rfl

theorem run_fmt (env : Env) (depth : Nat) (t : Nat × Model × Nat) : ∀ (l : List Step) (s : Nat × Model × Nat) (f g : Frame), Leads depth s l t = true →
    f.fmt = s.1 → l.foldlM (fun f s => applyStep env f s) f = some g → g.fmt = t.1 := by
  intro l
  induction l with
  | nil =>
    intro s f g hl hf hg
    simp only [Leads, beq_iff_eq] at hl
    cases hg
    rw [hf, hl]
  | cons x xs ih =>
    intro s f g hl hf hg
    simp only [Leads, List.any_eq_true, Bool.and_eq_true, beq_iff_eq] at hl
    obtain ⟨m, hm, ⟨⟨⟨_, hd⟩, _⟩, hfit⟩, hl⟩ := hl
    rw [List.foldlM_cons, applyStep] at hg
    cases ha : applyKind env x.kind x.dst f with
    | none => rw [ha] at hg; cases hg
    | some p =>
      rw [ha] at hg
      exact ih m ⟨x.dst, f.width, f.height, p⟩ g hl hd hg

theorem convert_fmt (env : Env) (f g : Frame) {s t : Nat × Model × Nat} (hs : s ∈ formats) (ht : t ∈ formats) (hf : f.fmt = s.1) {fuel : Nat}
    (hfuel : 4 ≤ fuel) (hg : convertFrame env fuel f t.1 = some g) : g.fmt = t.1 := by
  by_cases hne : s.1 = t.1
  · rw [← hne, ← hf, C50_same] at hg
    cases hg
    exact hf.trans hne
  · obtain ⟨l, hl, lead⟩ := C50_chain s t hs ht hne
    unfold convertFrame at hg
    rw [hf, hl fuel hfuel] at hg
    exact run_fmt env _ t l s f g lead hf hg

def planar10 : Nat × Model × Nat := (FrameFormat.S16_422_10BIT, .yuv422, 10)
def packed10 : Nat × Model × Nat := (FrameFormat.v210, .packed422, 10)

end C97

open C97 in
/-- A v210 frame is converted to any other format by unpacking it (C48) and converting what it is then, for which `C97_local` and `C97_pointwise` say what
happens; nothing else is lost on the way. -/
theorem C97_from_v210 (env : Env) (f : Frame) (fuel : Nat) (hfuel : 4 ≤ fuel) (t : Nat × Model × Nat) (ht : t ∈ formats) (htv : t.1 ≠ FrameFormat.v210)
    (hf : f.fmt = FrameFormat.v210) :
    convertFrame env fuel f t.1 = (convertFrame env fuel f FrameFormat.S16_422_10BIT).bind (fun g => convertFrame env fuel g t.1) := by
  have hv : packed10 ∈ formats := by decide +kernel
  have hq : planar10 ∈ formats := by decide +kernel
  rw [run_plan env f hv ht hf hfuel, show FrameFormat.S16_422_10BIT = planar10.1 from rfl, run_plan env f hv hq hf hfuel]
  rw [show packed10.1 = FrameFormat.v210 from rfl, fromRow t ht htv, fromRow planar10 hq (by decide)]
  have : planOf FrameFormat.S16_422_10BIT planar10.1 = [] := if_pos rfl
  rw [this, List.foldlM_cons, List.foldlM_cons]
  cases ha : applyStep env f ⟨FrameFormat.v210, FrameFormat.S16_422_10BIT, .v210To422⟩ with
  | none => rfl
  | some g =>
    have hg : g.fmt = planar10.1 := by
      unfold applyStep at ha
      cases hk : applyKind env .v210To422 FrameFormat.S16_422_10BIT f with
      | none => rw [hk] at ha; cases ha
      | some p => rw [hk] at ha; cases ha; rfl
    exact (run_plan env g hq ht hg hfuel).symm

open C97 in
/-- A frame is converted to v210 by converting it to 10 bits and 4:2:2 and packing that. -/
theorem C97_to_v210 (env : Env) (f : Frame) (fuel : Nat) (hfuel : 4 ≤ fuel) (s : Nat × Model × Nat) (hs : s ∈ formats) (hsv : s.1 ≠ FrameFormat.v210)
    (hf : f.fmt = s.1) :
    convertFrame env fuel f FrameFormat.v210 = (convertFrame env fuel f FrameFormat.S16_422_10BIT).bind (fun g => convertFrame env fuel g FrameFormat.v210) := by
  have hv : packed10 ∈ formats := by decide +kernel
  have hq : planar10 ∈ formats := by decide +kernel
  cases hg : convertFrame env fuel f FrameFormat.S16_422_10BIT with
  | none =>
    rw [show FrameFormat.v210 = packed10.1 from rfl, run_plan env f hs hv hf hfuel, show packed10.1 = FrameFormat.v210 from rfl, toRow s hs hsv,
      List.foldlM_append]
    rw [show FrameFormat.S16_422_10BIT = planar10.1 from rfl, run_plan env f hs hq hf hfuel] at hg
    rw [show planar10.1 = FrameFormat.S16_422_10BIT from rfl] at hg
    rw [hg]
    rfl
  | some g =>
    have hfmt := convert_fmt env f g hs hq hf hfuel hg
    rw [Option.bind_some, show FrameFormat.v210 = packed10.1 from rfl, run_plan env f hs hv hf hfuel, run_plan env g hq hv hfmt hfuel]
    rw [show packed10.1 = FrameFormat.v210 from rfl, toRow s hs hsv, toRow planar10 hq (by decide), List.foldlM_append]
    rw [show FrameFormat.S16_422_10BIT = planar10.1 from rfl, run_plan env f hs hq hf hfuel] at hg
    rw [show planar10.1 = FrameFormat.S16_422_10BIT from rfl] at hg
    rw [hg]
    have : planOf planar10.1 FrameFormat.S16_422_10BIT = [] := if_pos rfl
    rw [show FrameFormat.S16_422_10BIT = planar10.1 from rfl] at this ⊢
    rw [this]
    rfl

/-- A frame of 8 bits that becomes one of v210. -/
example : convertFrame ⟨fun _ c => c, fun _ c => c, fun _ _ _ => 0⟩ 4 ⟨FrameFormat.U8_422, 2, 1, .planes [[1], [2]] [[3]] [[4]]⟩ FrameFormat.v210 =
    some ⟨FrameFormat.v210, 2, 1, .words ((12 + 4 * 1024 + 16 * 1048576) :: 8 :: List.replicate 30 0)⟩ := by
  decide +kernel

/-- A frame with 10 bits for each sample. -/
def frame97 : Frame :=
  ⟨FrameFormat.S16_444_10BIT, 2, 2, .planes [[0, 1021], [513, 64]] [[512, 514], [516, 520]] [[100, 200], [300, 400]]⟩

example : (FrameFormat.S16_444_10BIT, Model.yuv444, 10) ∈ yuvFormats ∧ (FrameFormat.U8_420, Model.yuv420, 8) ∈ yuvFormats ∧
    frame97.width % 2 = 0 ∧ frame97.height % 2 = 0 ∧ Shaped frame97 ∧
    (∀ x y, x < frame97.width → y < frame97.height → sample (component frame97 0) x y ≤ top 10 8) ∧
    (∀ i, i = 1 ∨ i = 2 → ∀ X Y, InBlock frame97 i X Y 0 (top 10 8)) ∧ InBlock frame97 1 0 0 512 520 := by
  refine ⟨by decide +kernel, by decide +kernel, by decide, by decide, ⟨_, _, _, rfl, ?_, ?_, ?_⟩, ?_, ?_, ?_⟩
  iterate 3 (constructor <;> decide)
  · have : ∀ x < 2, ∀ y < 2, sample (component frame97 0) x y ≤ top 10 8 := by decide
    exact fun x y hx hy => this x hx y hy
  · have : ∀ i < 3, ∀ x < 2, ∀ y < 2, sample (component frame97 i) x y ≤ top 10 8 := by decide
    intro i hi X Y x y hx hy _ _
    exact ⟨Nat.zero_le _, this i (by omega) x hx y hy⟩
  · have : ∀ x < 2, ∀ y < 2, 512 ≤ sample (component frame97 1) x y ∧ sample (component frame97 1) x y ≤ 520 := by decide
    intro x y hx hy _ _
    exact this x hx y hy

/-- What the conversion gives for it: 64 and 513 of 1023 become 16 and 128 of 255, and the chroma is the mean of the block. -/
example : convertFrame ⟨fun _ c => c, fun _ c => c, fun _ _ _ => 0⟩ 4 frame97 FrameFormat.U8_420 =
    some ⟨FrameFormat.U8_420, 2, 2, .planes [[0, 255], [128, 16]] [[129]] [[63]]⟩ := by
  decide +kernel

/-- The limit `top` is needed: the brightest white of 10 bits becomes the blackest black of 8 bits. -/
theorem C97_top_counterexample (env : Env) : ∃ f g, Shaped f ∧ f.fmt = FrameFormat.S16_422_10BIT ∧
    (∀ x y, x < f.width → y < f.height → sample (component f 0) x y = 1023) ∧ convertFrame env 4 f FrameFormat.U8_422 = some g ∧
    ∀ x y, x < g.width → y < g.height → sample (component g 0) x y = 0 := by
  refine ⟨⟨FrameFormat.S16_422_10BIT, 2, 1, .planes [[1023], [1023]] [[512]] [[512]]⟩, ⟨FrameFormat.U8_422, 2, 1, .planes [[0], [0]] [[128]] [[128]]⟩,
    ⟨_, _, _, rfl, ?_, ?_, ?_⟩, rfl, ?_, ?_, ?_⟩
  iterate 3 (constructor <;> decide)
  · have : ∀ x < 2, ∀ y < 1, sample [[1023], [1023]] x y = 1023 := by decide
    exact fun x y hx hy => this x hx y hy
  · have h : convert 4 FrameFormat.S16_422_10BIT FrameFormat.U8_422 =
        some (.run [⟨FrameFormat.S16_422_10BIT, FrameFormat.U8_422, .downYuv⟩]) := by decide +kernel
    unfold convertFrame
    rw [h]
    rfl
  · have : ∀ x < 2, ∀ y < 1, sample [[0], [0]] x y = 0 := by decide
    exact fun x y hx hy => this x hx y hy

end Verif.Props

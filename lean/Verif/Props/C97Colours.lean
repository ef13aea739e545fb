import Verif.Props.C97
import Verif.Props.C66

/-!
# C97: conversions between RGB and YUV

Where the change of colours (C66) takes place among the other steps, which are those of C97.
-/

namespace Verif.Props

open Verif.Numpy Verif.Cog Verif.Props.NumpyTable Verif.Props.NumpyArith

namespace C97

/-- If the steps go by a format, then so does the conversion. -/
theorem by_format (env : Env) (f : Frame) {s m t : Nat × Model × Nat} (hs : s ∈ formats) (hm : m ∈ formats) (ht : t ∈ formats)
    (h : planOf s.1 t.1 = planOf s.1 m.1 ++ planOf m.1 t.1) (hf : f.fmt = s.1) {fuel : Nat} (hfuel : 4 ≤ fuel) :
    convertFrame env fuel f t.1 = (convertFrame env fuel f m.1).bind (fun g => convertFrame env fuel g t.1) := by
  cases hg : convertFrame env fuel f m.1 with
  | none =>
    rw [run_plan env f hs ht hf hfuel, h, List.foldlM_append, ← run_plan env f hs hm hf hfuel, hg]
    rfl
  | some g =>
    have hfmt := convert_fmt env f g hs hm hf hfuel hg
    rw [Option.bind_some, run_plan env f hs ht hf hfuel, h, List.foldlM_append, ← run_plan env f hs hm hf hfuel, hg, run_plan env g hm ht hfmt hfuel]
    rfl

theorem toYuv : ∀ s ∈ formats, ∀ m ∈ formats, ∀ t ∈ formats, s.2.1 = .rgb → t.2.1 ≠ .rgb → m.2.1 = .yuv444 → m.2.2 = s.2.2 →
    planOf s.1 t.1 = planOf s.1 m.1 ++ planOf m.1 t.1 := by decide +kernel

theorem toRgb : ∀ s ∈ formats, ∀ m ∈ formats, ∀ t ∈ formats, s.2.1 ≠ .rgb → s.2.1 ≠ .yuv444 → t.2.1 = .rgb → m.2.1 = .yuv444 → m.2.2 = t.2.2 →
    planOf s.1 t.1 = planOf s.1 m.1 ++ planOf m.1 t.1 := by decide +kernel

theorem fullToRgb : ∀ s ∈ formats, ∀ t ∈ formats, s.2.1 = .yuv444 → t.2.1 = .rgb → s.2.2 ≠ t.2.2 →
    ∃ m ∈ formats, m.2.1 = .rgb ∧ m.2.2 = s.2.2 ∧ planOf s.1 t.1 = planOf s.1 m.1 ++ planOf m.1 t.1 := by decide +kernel

end C97

/-- From RGB to any YUV format: first to 4:4:4 of the same depth (`C66_to_yuv`), then to the format (`C97_local`, `C97_to_v210`). -/
theorem C97_rgb_to_yuv (env : Env) (f : Frame) (fuel : Nat) (hfuel : 4 ≤ fuel) (s m t : Nat × Model × Nat) (hs : s ∈ formats) (hm : m ∈ formats)
    (ht : t ∈ formats) (hsm : s.2.1 = .rgb) (htm : t.2.1 ≠ .rgb) (hmm : m.2.1 = .yuv444) (hd : m.2.2 = s.2.2) (hf : f.fmt = s.1) :
    convertFrame env fuel f t.1 = (convertFrame env fuel f m.1).bind (fun g => convertFrame env fuel g t.1) :=
  C97.by_format env f hs hm ht (C97.toYuv s hs m hm t ht hsm htm hmm hd) hf hfuel

/-- From YUV with subsampling to any RGB format: first to 4:4:4 of the depth of the result (`C97_local`), then to RGB (`C66_to_rgb_partial`). -/
theorem C97_yuv_to_rgb (env : Env) (f : Frame) (fuel : Nat) (hfuel : 4 ≤ fuel) (s m t : Nat × Model × Nat) (hs : s ∈ formats) (hm : m ∈ formats)
    (ht : t ∈ formats) (hsm : s.2.1 ≠ .rgb) (hsf : s.2.1 ≠ .yuv444) (htm : t.2.1 = .rgb) (hmm : m.2.1 = .yuv444) (hd : m.2.2 = t.2.2) (hf : f.fmt = s.1) :
    convertFrame env fuel f t.1 = (convertFrame env fuel f m.1).bind (fun g => convertFrame env fuel g t.1) :=
  C97.by_format env f hs hm ht (C97.toRgb s hs m hm t ht hsm hsf htm hmm hd) hf hfuel

/-- From 4:4:4 to RGB of another depth: first to RGB of the same depth (`C66_to_rgb_partial`), then to the other depth (`C97_pointwise`). -/
theorem C97_444_to_rgb (env : Env) (f : Frame) (fuel : Nat) (hfuel : 4 ≤ fuel) (s t : Nat × Model × Nat) (hs : s ∈ formats)
    (ht : t ∈ formats) (hsm : s.2.1 = .yuv444) (htm : t.2.1 = .rgb) (hd : s.2.2 ≠ t.2.2) (hf : f.fmt = s.1) :
    ∃ m ∈ formats, m.2.1 = .rgb ∧ m.2.2 = s.2.2 ∧
      convertFrame env fuel f t.1 = (convertFrame env fuel f m.1).bind (fun g => convertFrame env fuel g t.1) := by
  obtain ⟨m, hm, h1, h2, h⟩ := C97.fullToRgb s hs t ht hsm htm hd
  exact ⟨m, hm, h1, h2, C97.by_format env f hs hm ht h hf hfuel⟩

open Verif.Numpy.Colour in
/-- From RGB to a YUV format of the same or a larger depth, for frames of even size: the luma of each pixel is its BT.709 value with the fraction dropped, up to
the tolerance of C66, at the depth of the result. -/
theorem C97_rgb_luma (random : Nat → Nat → Nat → Nat) (s t : Nat × Model × Nat) (hs : s ∈ formats) (ht : t ∈ yuvFormats) (hsm : s.2.1 = .rgb)
    (hd : s.2.2 ≤ t.2.2) (f : Frame) (hf : f.fmt = s.1) (hw : f.width % 2 = 0) (hh : f.height % 2 = 0) (hsam : Samples s.2.2 f)
    (fuel : Nat) (hfuel : 4 ≤ fuel) :
    ∃ g, convertFrame (colours random) fuel f t.1 = some g ∧ g.fmt = t.1 ∧ g.width = f.width ∧ g.height = f.height ∧ Shaped g ∧
      ∀ x y, x < f.width → y < f.height → ∃ n, n < 2 ^ s.2.2 ∧ Truncated s.2.2 (luma (pixel f x y).1 (pixel f x y).2.1 (pixel f x y).2.2) n ∧
        n * 2 ^ (t.2.2 - s.2.2) ≤ (pixel g x y).1 ∧ (pixel g x y).1 < (n + 1) * 2 ^ (t.2.2 - s.2.2) := by
  have ht' : t ∈ formats := (List.mem_filter.1 ht).1
  have htm : t.2.1 ≠ .rgb := by
    have : ∀ t ∈ yuvFormats, t.2.1 ≠ .rgb := by decide +kernel
    exact this t ht
  obtain ⟨m, hmy, hm, hmm, hmd, hsh⟩ : ∃ m ∈ yuvFormats, m ∈ formats ∧ m.2.1 = .yuv444 ∧ m.2.2 = s.2.2 ∧ shifts m.1 = (0, 0) := by
    have : ∀ s ∈ formats, s.2.1 = .rgb → ∃ m ∈ yuvFormats, m ∈ formats ∧ m.2.1 = .yuv444 ∧ m.2.2 = s.2.2 ∧ shifts m.1 = (0, 0) := by decide +kernel
    exact this s hs hsm
  obtain ⟨k, k1, k2, k3, k4, k5, -⟩ := C66.frame_step random hs hm (.inl ⟨hsm, hmm⟩) hmd.symm hf hsam hfuel
  obtain ⟨k', e', -, -, -, k6⟩ := C66_to_yuv random s m hs hm hsm hmm hmd.symm f hf hsam fuel hfuel
  rw [k1] at e'
  cases e'
  obtain ⟨a, b, c, hpix, hp⟩ := k5
  have good : ∀ p ∈ [a, b, c], Good (typeBits k.fmt) k.width k.height p := by
    rw [k2]
    exact fun p h => hp p h
  have shaped : Shaped k := by
    refine ⟨a, b, c, hpix, good a (by simp), ?_, ?_⟩
    · rw [k2, hsh, ← k2]; exact good b (by simp)
    · rw [k2, hsh, ← k2]; exact good c (by simp)
  have px : ∀ x y, pixel k x y = (sample (component k 0) x y, sample (component k 1) x y, sample (component k 2) x y) := by
    intro x y
    unfold pixel component
    rw [hpix]
    rfl
  have le : ∀ n, n < 2 ^ m.2.2 → n ≤ top m.2.2 t.2.2 := by
    intro n hn
    unfold top
    rw [if_pos (by omega)]
    omega
  obtain ⟨g, g1, g2, g3, g4, g5, g6, -⟩ := C97_local (colours random) k fuel hfuel m t hmy ht k2 (by rw [k3]; exact hw) (by rw [k4]; exact hh) shaped
    (by
      intro x y hx hy
      have h := (k6 x y (k3 ▸ hx) (k4 ▸ hy)).1.1
      rw [px] at h
      exact le _ h)
    (by
      intro i hi X Y x y hx hy _ _
      rw [k2, hsh] at hx hy
      have h := (k6 x y (k3 ▸ hx) (k4 ▸ hy)).1.2
      rw [px] at h
      refine ⟨Nat.zero_le _, ?_⟩
      rcases hi with rfl | rfl
      · exact le _ h.1
      · exact le _ h.2)
  refine ⟨g, ?_, g2, g3.trans k3, g4.trans k4, g5, fun x y hx hy => ?_⟩
  · rw [C97_rgb_to_yuv (colours random) f fuel hfuel s m t hs hm ht' hsm htm hmm hmd hf, k1]
    exact g1
  · obtain ⟨h1, h2, -⟩ := k6 x y hx hy
    rw [hmd] at h1 h2
    refine ⟨(pixel k x y).1, h1.1, h2, ?_⟩
    have h := g6 x y (by rw [k3]; exact hx) (by rw [k4]; exact hy)
    have pg : (pixel g x y).1 = sample (component g 0) x y := by
      obtain ⟨a', b', c', hg, -⟩ := g5
      unfold pixel component
      rw [hg]
      rfl
    rw [pg, px]
    unfold lowest highest at h
    rw [hmd, if_pos hd, if_pos hd] at h
    refine ⟨h.1, Nat.lt_of_le_of_lt h.2 (Nat.sub_lt (Nat.mul_pos (Nat.succ_pos _) (Nat.two_pow_pos _)) Nat.one_pos)⟩

open Verif.Numpy.Colour in
/-- A frame of RGB, and what its luma becomes in 10 bits: 143 of 255 followed by two zeros. -/
example : (FrameFormat.RGB, Model.rgb, 8) ∈ formats ∧ (FrameFormat.S16_420_10BIT, Model.yuv420, 10) ∈ yuvFormats ∧
    Samples 8 ⟨FrameFormat.RGB, 2, 2, .planes [[200, 200], [200, 200]] [[140, 140], [140, 140]] [[10, 10], [10, 10]]⟩ ∧
    (convertFrame (colours fun _ _ _ => 0) 4 ⟨FrameFormat.RGB, 2, 2, .planes [[200, 200], [200, 200]] [[140, 140], [140, 140]] [[10, 10], [10, 10]]⟩
      FrameFormat.S16_420_10BIT).map (fun g => component g 0) = some [[572, 572], [572, 572]] := by
  refine ⟨by decide +kernel, by decide +kernel, ⟨_, _, _, rfl, by decide⟩, by decide +kernel⟩

end Verif.Props

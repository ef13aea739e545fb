import Verif.Props.C50

/-!
# C50: conversions of frames of any size

`C50_frame_partial` is about even sizes, because a change of the chroma subsampling fails for others. Conversions that keep it do not, whatever numpy gives for the colours:
those within YUV of one subsampling, v210 included, within RGB, and between RGB and YUV 4:4:4.
-/

namespace Verif.Props

open Verif.Numpy Verif.Cog Verif.Props.NumpyArith Verif.Props.NumpyTable

/-- How often the width and the height of the chroma are halved. v210 holds the samples of 4:2:2. -/
def chromaOf : Model → Nat × Nat
  | .rgb => (0, 0)
  | .yuv444 => (0, 0)
  | .yuv422 => (1, 0)
  | .yuv420 => (1, 1)
  | .packed422 => (1, 0)

namespace C50s

/-- The kinds that do not change the subsampling. -/
def keeping : List Kind := [.copyYuv, .copyRgb, .downYuv, .downRgb, .upYuv, .upRgb, .rgbToYuv444, .yuv444ToRgb, .v210To422, .to422v210]

theorem plans : ∀ s ∈ formats, ∀ t ∈ formats, chromaOf s.2.1 = chromaOf t.2.1 → s.1 ≠ t.1 →
    ((stepsRow 4 s.1 t.1).getD []).all (fun x => keeping.contains x.kind) = true := by decide +kernel

theorem step_any (env : Env) (f : Frame) (s m : Nat × Model × Nat) (hs : s ∈ formats) (hm : m ∈ formats) (k : Kind) (hk : k ∈ keeping) (hf : f.fmt = s.1)
    (hfit : fits k s.2 m.2 = true) (hwf : WellFormed f) :
    ∃ p, applyKind env k m.1 f = some p ∧ WellFormed ⟨m.1, f.width, f.height, p⟩ := by
  obtain ⟨fmt, w, h, pix⟩ := f
  dsimp only at *
  subst hf
  obtain ⟨ss, sv, sd⟩ := factsFormats s hs
  obtain ⟨ms, mv, md⟩ := factsFormats m hm
  have s1 : ∀ x : Nat, x >>> 1 = x / 2 := fun x => by rw [Nat.shiftRight_eq_div_pow]
  by_cases hsv : s.1 = FrameFormat.v210
  · have hsp := sv.2 hsv
    have hk : k = .v210To422 := by
      cases k <;> simp [fits, hsp] at hfit ⊢
      rw [hfit.1] at hsp
      cases hsp
    subst hk
    simp only [fits, Bool.and_eq_true, beq_iff_eq] at hfit
    have hm10 := tenBits m hm hfit.2
    unfold WellFormed at hwf
    rw [if_pos hsv] at hwf
    obtain ⟨l, hpix, hlen, _⟩ := hwf
    dsimp only at hpix hlen
    subst hpix
    obtain ⟨y, u, v, e, gy, gu, gv⟩ := fromV210_some w h l hlen
    refine ⟨.planes y u v, by simp only [applyKind, e, Option.map_some], ?_⟩
    unfold WellFormed
    rw [if_neg (show m.1 ≠ FrameFormat.v210 by rw [hm10]; decide)]
    have up : ∀ (w' h' : Nat) (p : Plane), Good 10 w' h' p → Good (typeBits m.1) w' h' p := by
      intro w' h' p hp
      refine ⟨hp.1, fun c hc => ⟨(hp.2 c hc).1, fun v hv => Nat.lt_of_lt_of_le ((hp.2 c hc).2 v hv) ?_⟩⟩
      rw [hm10]; decide
    have ms' : shifts m.1 = (1, 0) := by rw [ms, hfit.2]; rfl
    refine ⟨y, u, v, rfl, up _ _ _ gy, ?_, ?_⟩ <;> dsimp only <;> rw [ms'] <;> dsimp only <;> rw [Nat.shiftRight_zero, s1]
    · exact up _ _ _ gu
    · exact up _ _ _ gv
  · have hsp : s.2.1 ≠ .packed422 := fun h => hsv (sv.1 h)
    unfold WellFormed at hwf
    rw [if_neg hsv] at hwf
    obtain ⟨a, b, c, hpix, ha, hb, hc⟩ := hwf
    dsimp only at hpix ha hb hc
    subst hpix
    have hA := ha.shape
    have hB := hb.shape
    have hC := hc.shape
    rw [ss] at hB hC hb hc
    cases k
    case v210To422 => simp [fits] at hfit; rw [hfit.1] at hsp; exact absurd rfl hsp
    case to422v210 =>
      simp only [fits, Bool.and_eq_true, beq_iff_eq] at hfit
      have hmv := mv.1 (by rw [hfit.2])
      rw [hfit.1] at hb hc
      dsimp only [subsampling] at hb hc
      rw [s1, Nat.shiftRight_zero] at hb hc
      obtain ⟨p, q, r, e, gp, gq, gr, _, _⟩ := V210.to_planes (typeBits s.1) w h a b c ha hb hc
      refine ⟨_, by simp only [applyKind, e, Option.map_some]; rfl, ?_⟩
      unfold WellFormed
      rw [if_pos hmv]
      refine ⟨_, rfl, ?_, zip3_all pack (fun v => v < 2 ^ 32) (fun a b c => Nat.mod_lt _ (by decide)) _ _ _⟩
      rw [V210.zip3_length _ _ _ _ (by rw [V210.ravel_length, V210.ravel_length]) (by rw [V210.ravel_length, V210.ravel_length]), V210.ravel_length]
      rfl
    case mean444to422 => exact absurd hk (by decide)
    case mean422to420 => exact absurd hk (by decide)
    case dup422to444 => exact absurd hk (by decide)
    case dup420to422 => exact absurd hk (by decide)
    all_goals
      have hmp : m.2.1 ≠ .packed422 := by
        intro h
        simp [fits, h] at hfit
        try simp_all
      have hmv : m.1 ≠ FrameFormat.v210 := fun h => hmp (mv.2 h)
    case copyYuv =>
      simp only [fits, Bool.and_eq_true, beq_iff_eq] at hfit
      rw [show s.2.1 = m.2.1 by rw [hfit.2], ← ms] at hB hC
      exact assign_planes m.1 _ _ a b c hmv hA hB hC
    case copyRgb =>
      simp only [fits, Bool.and_eq_true, beq_iff_eq] at hfit
      rw [show s.2.1 = m.2.1 by rw [hfit.2], ← ms] at hB hC
      exact assign_planes m.1 _ _ a b c hmv hA hB hC
    case downYuv =>
      simp only [fits, Bool.and_eq_true, beq_iff_eq] at hfit
      rw [hfit.1.2, ← ms] at hB hC
      exact assign_planes m.1 _ _ _ _ _ hmv (mapPlane_shape _ hA) (mapPlane_shape _ hB) (mapPlane_shape _ hC)
    case downRgb =>
      simp only [fits, Bool.and_eq_true, beq_iff_eq] at hfit
      rw [show s.2.1 = m.2.1 by rw [hfit.1.2, hfit.1.1], ← ms] at hB hC
      exact assign_planes m.1 _ _ _ _ _ hmv (mapPlane_shape _ hA) (mapPlane_shape _ hB) (mapPlane_shape _ hC)
    case upYuv =>
      simp only [fits, Bool.and_eq_true, beq_iff_eq] at hfit
      rw [hfit.1.2, ← ms] at hB hC
      exact assign_planes m.1 _ _ _ _ _ hmv (mapPlaneIdx_shape _ hA) (mapPlaneIdx_shape _ hB) (mapPlaneIdx_shape _ hC)
    case upRgb =>
      simp only [fits, Bool.and_eq_true, beq_iff_eq] at hfit
      rw [show s.2.1 = m.2.1 by rw [hfit.1.2, hfit.1.1], ← ms] at hB hC
      exact assign_planes m.1 _ _ _ _ _ hmv (mapPlaneIdx_shape _ hA) (mapPlaneIdx_shape _ hB) (mapPlaneIdx_shape _ hC)
    case rgbToYuv444 =>
      simp only [fits, Bool.and_eq_true, beq_iff_eq] at hfit
      rw [hfit.1.1] at hB hC
      dsimp only [subsampling] at hB hC
      rw [Nat.shiftRight_zero, Nat.shiftRight_zero] at hB hC
      have ms' : shifts m.1 = (0, 0) := by rw [ms, hfit.1.2]; rfl
      obtain ⟨p, q, r, e, hp, hq, hr, _⟩ := zipPlanes3_some (env.toYuv (activeBits m.1)) hA hB hC
      obtain ⟨x, ex, wx⟩ := assign_planes m.1 w h p q r hmv hp (by rw [ms']; exact hq) (by rw [ms']; exact hr)
      refine ⟨x, ?_, wx⟩
      simp only [applyKind, e, Option.bind_some]
      exact ex
    case yuv444ToRgb =>
      simp only [fits, Bool.and_eq_true, beq_iff_eq] at hfit
      rw [hfit.1.1] at hB hC
      dsimp only [subsampling] at hB hC
      rw [Nat.shiftRight_zero, Nat.shiftRight_zero] at hB hC
      have ms' : shifts m.1 = (0, 0) := by rw [ms, hfit.1.2]; rfl
      obtain ⟨p, q, r, e, hp, hq, hr, _⟩ := zipPlanes3_some (env.toRgb (activeBits s.1)) hA hB hC
      obtain ⟨x, ex, wx⟩ := assign_planes m.1 w h p q r hmv hp (by rw [ms']; exact hq) (by rw [ms']; exact hr)
      refine ⟨x, ?_, wx⟩
      simp only [applyKind, e, Option.bind_some]
      exact ex

theorem run_any (env : Env) (depth : Nat) (t : Nat × Model × Nat) : ∀ (l : List Step) (s : Nat × Model × Nat) (f : Frame), s ∈ formats →
    l.all (fun x => keeping.contains x.kind) = true → Leads depth s l t = true → f.fmt = s.1 → WellFormed f →
    ∃ g, l.foldlM (fun f s => applyStep env f s) f = some g ∧ g.fmt = t.1 ∧ g.width = f.width ∧ g.height = f.height ∧ WellFormed g := by
  intro l
  induction l with
  | nil =>
    intro s f _ _ hl hf hwf
    simp only [Leads, beq_iff_eq] at hl
    subst hl
    exact ⟨f, rfl, hf, rfl, rfl, hwf⟩
  | cons x l ih =>
    intro s f hs hall hl hf hwf
    rw [List.all_cons, Bool.and_eq_true, List.contains_iff_mem] at hall
    simp only [Leads, List.any_eq_true, Bool.and_eq_true, beq_iff_eq] at hl
    obtain ⟨m, hm, ⟨⟨⟨_, hd⟩, _⟩, hfit⟩, hl⟩ := hl
    obtain ⟨p, ep, wp⟩ := step_any env f s m hs hm x.kind hall.1 hf hfit hwf
    obtain ⟨g, eg, h1, h2, h3, h4⟩ := ih m ⟨m.1, f.width, f.height, p⟩ hm hall.2 hl rfl wp
    refine ⟨g, ?_, h1, h2, h3, h4⟩
    rw [List.foldlM_cons, applyStep, hd, ep]
    exact eg

end C50s

/-- Every well formed frame, of any width and height, is converted to every format of the same subsampling. The result is a well formed frame of that format and
of the same size. -/
theorem C50_any_size (env : Env) (f : Frame) (fuel : Nat) (hfuel : 4 ≤ fuel) (s t : Nat × Model × Nat) (hs : s ∈ formats) (ht : t ∈ formats)
    (hm : chromaOf s.2.1 = chromaOf t.2.1) (hf : f.fmt = s.1) (hwf : WellFormed f) :
    ∃ g, convertFrame env fuel f t.1 = some g ∧ g.fmt = t.1 ∧ g.width = f.width ∧ g.height = f.height ∧ WellFormed g := by
  by_cases hne : s.1 = t.1
  · exact ⟨f, by rw [← hne, ← hf]; exact C50_same env fuel f, hf.trans hne, rfl, rfl, hwf⟩
  · obtain ⟨l, hl, lead⟩ := C50_chain s t hs ht hne
    have h4 := hl 4 (Nat.le_refl _)
    unfold convert at h4
    rw [if_neg hne, steps_eq] at h4
    have hall := C50s.plans s hs t ht hm hne
    cases hrow : stepsRow 4 s.1 t.1 with
    | none => rw [hrow] at h4; cases h4
    | some l' =>
      rw [hrow] at h4 hall
      have : l' = l := by
        injection h4 with h4
        injection h4
      subst this
      obtain ⟨g, eg, h1, h2, h3, h4⟩ := C50s.run_any env _ t l' s f hs hall lead hf hwf
      refine ⟨g, ?_, h1, h2, h3, h4⟩
      unfold convertFrame
      rw [hf, hl fuel hfuel]
      exact eg

/-- A frame of 8 bits three pixels wide, which becomes one of v210. -/
example : (FrameFormat.U8_422, Model.yuv422, 8) ∈ formats ∧ (FrameFormat.v210, Model.packed422, 10) ∈ formats ∧
    WellFormed ⟨FrameFormat.U8_422, 3, 1, .planes [[1], [2], [5]] [[3]] [[4]]⟩ ∧
    (convertFrame ⟨fun _ c => c, fun _ c => c, fun _ _ _ => 0⟩ 4 ⟨FrameFormat.U8_422, 3, 1, .planes [[1], [2], [5]] [[3]] [[4]]⟩ FrameFormat.v210).isSome := by
  refine ⟨by decide +kernel, by decide +kernel, ?_, by decide +kernel⟩
  unfold WellFormed
  rw [if_neg (by decide)]
  refine ⟨_, _, _, rfl, ?_, ?_, ?_⟩ <;> (constructor <;> decide)

end Verif.Props

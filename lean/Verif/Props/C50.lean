import Verif.Props.C48
import Verif.Props.C50Table

/-!
# C50: the conversion table is closed

`formats` (in `C50Table`) lists the 29 formats with what they are (RGB or YUV, chroma subsampling, depth), independently of the code.

* `C50_advertised`: a conversion is registered exactly for the pairs of different formats of this list.
* `C50_chain`: for every pair, the chain of registered steps ends (it takes at most four nested calls), leads from the source to the
  target, and every step is given a source and a target of the kind that it is written for, with no intermediate depth below both ends.
* `C50_frame`: every frame of even width and height is converted to every format; the result has the format, the size and the arrays
  it should have. (For odd sizes conversions between chroma formats fail, `C49_odd_counterexample`, hence "partial".)
* `C50_same`: converting to the same format is a copy.
-/

namespace Verif.Props

open Verif.Numpy Verif.Cog

namespace NumpyTable

theorem steps_mono (n : Nat) : ∀ s t l, steps n s t = some l → steps (n + 1) s t = some l := by
  induction n with
  | zero => intro s t l h; rw [steps_zero] at h; exact absurd h (by simp)
  | succ n ih =>
    intro s t l h
    rw [steps_succ] at h
    rw [steps_succ]
    generalize lookup s t = o at h ⊢
    match o, h with
    | some (.direct k), h => simp only [expand] at h ⊢; exact h
    | some (.composed k₁ m k₂), h => simp only [expand] at h ⊢; exact h
    | some (.twoStep mid), h =>
      unfold expand at h ⊢
      dsimp only at h ⊢
      cases h1 : steps n s mid with
      | none => rw [h1] at h; cases h
      | some l1 =>
        rw [h1, Option.bind_some] at h
        cases h2 : steps n mid t with
        | none => rw [h2] at h; cases h
        | some l2 =>
          rw [h2] at h
          rw [ih _ _ _ h1, Option.bind_some, ih _ _ _ h2]
          exact h

theorem steps_le (n k : Nat) (s t : Nat) (l : List Step) (h : steps n s t = some l) : steps (n + k) s t = some l := by
  induction k with
  | zero => exact h
  | succ k ih => exact steps_mono _ _ _ _ ih

end NumpyTable

open NumpyTable

/-- For any two different formats the chain of registered conversions ends after at most four nested calls (so it never loops or meets a
missing step), and what it does is a list of written out conversions leading from the source to the target: each one is given formats of
the kind it is written for, and none of the formats between has fewer bits than both ends. -/
theorem C50_chain (s t : Nat × Model × Nat) (hs : s ∈ formats) (ht : t ∈ formats) (hne : s.1 ≠ t.1) :
    ∃ l, (∀ fuel, 4 ≤ fuel → convert fuel s.1 t.1 = some (.run l)) ∧ Leads (min s.2.2 t.2.2) s l t = true := by
  have h := checked s hs t ht hne
  unfold check at h
  cases hl : steps 4 s.1 t.1 with
  | none => rw [hl] at h; cases h
  | some l =>
    rw [hl] at h
    refine ⟨l, ?_, h⟩
    intro fuel hf
    obtain ⟨k, rfl⟩ : ∃ k, fuel = 4 + k := ⟨fuel - 4, by omega⟩
    unfold convert
    rw [if_neg hne, steps_le 4 k _ _ l hl]
    rfl

example : convert 4 FrameFormat.v210 FrameFormat.xBGR = some (.run
    [⟨FrameFormat.v210, FrameFormat.S16_422_10BIT, .v210To422⟩, ⟨FrameFormat.S16_422_10BIT, FrameFormat.S16_444_10BIT, .dup422to444⟩,
     ⟨FrameFormat.S16_444_10BIT, FrameFormat.U8_444, .downYuv⟩, ⟨FrameFormat.U8_444, FrameFormat.xBGR, .yuv444ToRgb⟩]) := by
  decide +kernel

/-- The registered pairs are exactly the pairs of different formats of the list. -/
theorem C50_advertised (s t : Nat) : lookup s t ≠ none ↔ supported s = true ∧ supported t = true ∧ s ≠ t := by
  constructor
  · intro h
    unfold lookup at h
    cases hf : registrations.reverse.find? (fun e => e.src == s && e.dst == t) with
    | none => rw [hf] at h; exact absurd rfl h
    | some e =>
      have hm := List.mem_of_find?_eq_some hf
      have hp := List.find?_some hf
      rw [Bool.and_eq_true, beq_iff_eq, beq_iff_eq] at hp
      rw [List.mem_reverse] at hm
      have := entries e hm
      rw [hp.1, hp.2] at this
      exact this
  · rintro ⟨hs, ht, hne⟩ hl
    unfold supported at hs ht
    rw [List.any_eq_true] at hs ht
    obtain ⟨fs, hs, es⟩ := hs
    obtain ⟨ft, ht, et⟩ := ht
    rw [beq_iff_eq] at es et
    subst es et
    have h := checked fs hs ft ht hne
    unfold check at h
    have e4 : steps 4 fs.1 ft.1 = none := by rw [steps_succ 3, hl]; rfl
    rw [e4] at h
    cases h

/-- Converting to the format of the frame is a copy. -/
theorem C50_same (env : Env) (fuel : Nat) (f : Frame) : convertFrame env fuel f f.fmt = some f := by
  unfold convertFrame convert
  rw [if_pos rfl]

/-- Other pairs are refused. -/
theorem C50_refused (env : Env) (fuel : Nat) (f : Frame) (dst : Nat) (hne : f.fmt ≠ dst) (h : supported f.fmt = false ∨ supported dst = false) :
    convertFrame env fuel f dst = none := by
  have hl : lookup f.fmt dst = none := by
    cases hc : lookup f.fmt dst with
    | none => rfl
    | some i =>
      have := (C50_advertised f.fmt dst).1 (by rw [hc]; exact fun h => by cases h)
      rcases h with h | h
      · rw [h] at this; cases this.1
      · rw [h] at this; cases this.2.1
  unfold convertFrame convert
  rw [if_neg hne]
  cases fuel with
  | zero => rfl
  | succ n =>
    have : steps (n + 1) f.fmt dst = none := by rw [steps_succ, hl]; rfl
    rw [this]; rfl

example : supported FrameFormat.BGRA = false ∧ supported FrameFormat.RGB = true := by decide +kernel

/-! ## Whole frames -/

/-- A frame with the arrays its format should have. -/
def WellFormed (f : Frame) : Prop :=
  if f.fmt = FrameFormat.v210 then ∃ l, f.pixels = .words l ∧ l.length = f.height * (32 * ((f.width + 47) / 48)) ∧ ∀ v ∈ l, v < 2 ^ 32
  else Shaped f

/-- Chroma subsampling across and down. -/
def subsampling : Model → Nat × Nat
  | .rgb => (0, 0)
  | .yuv444 => (0, 0)
  | .yuv422 => (1, 0)
  | .yuv420 => (1, 1)
  | .packed422 => (0, 0)

namespace NumpyTable

theorem factsFormats : ∀ f ∈ formats, shifts f.1 = subsampling f.2.1 ∧ (f.2.1 = .packed422 ↔ f.1 = FrameFormat.v210) ∧
    (f.2.1 = .packed422 → f.2.2 = 10) := by
  decide +kernel

theorem typeOf : ∀ f ∈ formats, ∀ g ∈ formats, f.2.1 ≠ .packed422 → g.2.1 ≠ .packed422 → f.2.2 = g.2.2 → typeBits f.1 = typeBits g.1 := by
  decide +kernel

theorem tenBits : ∀ f ∈ formats, f.2 = (.yuv422, 10) → f.1 = FrameFormat.S16_422_10BIT := by decide +kernel

/-- Any three arrays of the right shapes can be assigned. -/
theorem assign_planes (dst w h : Nat) (a b c : Plane) (hd : dst ≠ FrameFormat.v210) (ha : hasShape w h a = true)
    (hb : hasShape (w >>> (shifts dst).1) (h >>> (shifts dst).2) b = true) (hc : hasShape (w >>> (shifts dst).1) (h >>> (shifts dst).2) c = true) :
    ∃ p, planes3 (assign (typeBits dst) w h a) (assign (typeBits dst) (w >>> (shifts dst).1) (h >>> (shifts dst).2) b)
      (assign (typeBits dst) (w >>> (shifts dst).1) (h >>> (shifts dst).2) c) = some p ∧ WellFormed ⟨dst, w, h, p⟩ := by
  obtain ⟨a', ea, ga⟩ := assign_shape (bits := typeBits dst) ha
  obtain ⟨b', eb, gb⟩ := assign_shape (bits := typeBits dst) hb
  obtain ⟨c', ec, gc⟩ := assign_shape (bits := typeBits dst) hc
  refine ⟨_, by rw [ea, eb, ec]; rfl, ?_⟩
  unfold WellFormed
  rw [if_neg hd]
  exact ⟨a', b', c', rfl, ga, gb, gc⟩

theorem fromV210_some (w h : Nat) (l : List Nat) (hl : l.length = h * lineWords w) :
    ∃ y u v, fromV210 w h l = some (y, u, v) ∧ Good 10 w h y ∧ Good 10 (w / 2) h u ∧ Good 10 (w / 2) h v := by
  have hn : lineWords w = 32 * ((w + 47) / 48) := rfl
  have un : ∀ f : Nat → Nat, (∀ v, f v < 2 ^ 10) → ∃ p, unravel (lineWords w) h (l.map f) = some p ∧ Good 10 (lineWords w) h p := by
    intro f hf
    refine ⟨_, by unfold unravel; rw [if_pos (by rw [List.length_map]; exact hl)], by simp, ?_⟩
    intro c hc
    obtain ⟨x, hx, rfl⟩ := List.mem_map.1 hc
    refine ⟨by simp, ?_⟩
    intro v hv
    obtain ⟨y, hy, rfl⟩ := List.mem_map.1 hv
    rw [List.mem_range] at hx hy
    have hlt : y * lineWords w + x < l.length := by
      have := Nat.mul_le_mul_right (lineWords w) (show y + 1 ≤ h from hy)
      rw [Nat.succ_mul] at this
      omega
    rw [getD_map 0 0 f l _ hlt]
    exact hf _
  obtain ⟨a, ea, ga⟩ := un (fun v => v &&& 0x3ff) (fun v => by rw [V210.and_mask]; omega)
  obtain ⟨b, eb, gb⟩ := un (fun v => (v >>> 10) &&& 0x3ff) (fun v => by rw [V210.and_mask]; omega)
  obtain ⟨c, ec, gc⟩ := un (fun v => (v >>> 20) &&& 0x3ff) (fun v => by rw [V210.and_mask]; omega)
  have asm : ∀ (w' s0 k0 s1 k1 s2 k2 : Nat) (p0 p1 p2 : Plane), 0 < k0 → 0 < k1 → 0 < k2 → Good 10 (lineWords w) h p0 →
      Good 10 (lineWords w) h p1 → Good 10 (lineWords w) h p2 → (w' + 2) / 3 ≤ sliceLen s0 k0 (lineWords w) →
      (w' + 1) / 3 ≤ sliceLen s1 k1 (lineWords w) → (w' + 0) / 3 ≤ sliceLen s2 k2 (lineWords w) →
      ∃ r, assign3 (List.replicate w' (List.replicate h 0)) (0, 3, sliceLen 0 3 w', (slice s0 k0 [] p0).take ((w' + 2) / 3))
        (1, 3, sliceLen 1 3 w', (slice s1 k1 [] p1).take ((w' + 1) / 3)) (2, 3, sliceLen 2 3 w', (slice s2 k2 [] p2).take ((w' + 0) / 3)) = some r ∧
        Good 10 w' h r := by
    intro w' s0 k0 s1 k1 s2 k2 p0 p1 p2 hk0 hk1 hk2 g0 g1 g2 h0 h1 h2
    have hr : (List.replicate w' (List.replicate h 0)).length = w' := by simp
    have hlen : ∀ s k (p : Plane) m, Good 10 (lineWords w) h p → m ≤ sliceLen s k (lineWords w) → ((slice s k [] p).take m).length = m := by
      intro s k p m hp hm
      rw [List.length_take, slice_length, hp.1]; omega
    obtain ⟨r, er, lr, _, qr⟩ := assign3_some (l := List.replicate w' (List.replicate h 0))
      (a := (0, 3, sliceLen 0 3 w', (slice s0 k0 [] p0).take ((w' + 2) / 3)))
      (b := (1, 3, sliceLen 1 3 w', (slice s1 k1 [] p1).take ((w' + 1) / 3))) (c := (2, 3, sliceLen 2 3 w', (slice s2 k2 [] p2).take ((w' + 0) / 3)))
      (by dsimp only; rw [hlen _ _ _ _ g0 h0, hr]; unfold sliceLen; omega) (by dsimp only; rw [hlen _ _ _ _ g1 h1, hr]; unfold sliceLen; omega)
      (by dsimp only; rw [hlen _ _ _ _ g2 h2, hr]; unfold sliceLen; omega)
    have all : ∀ (s k : Nat) (p : Plane) (m : Nat), 0 < k → Good 10 (lineWords w) h p → ∀ c ∈ (slice s k [] p).take m, c.length = h ∧ ∀ v ∈ c, v < 2 ^ 10 :=
      fun s k p m hk hp c hc => slice_all s k hk [] p _ hp.2 c (List.mem_of_mem_take hc)
    exact ⟨r, er, by rw [lr, hr], qr _ (all _ _ _ _ hk0 g0) (all _ _ _ _ hk1 g1) (all _ _ _ _ hk2 g2) (V210.good_zero 10 _ h)⟩
  obtain ⟨y, ey, gy⟩ := asm w 0 2 1 2 1 2 b a c (by omega) (by omega) (by omega) gb ga gc (by rw [hn]; unfold sliceLen; omega)
    (by rw [hn]; unfold sliceLen; omega) (by rw [hn]; unfold sliceLen; omega)
  obtain ⟨u, eu, gu⟩ := asm (w / 2) 0 4 1 4 2 4 a b c (by omega) (by omega) (by omega) ga gb gc (by rw [hn]; unfold sliceLen; omega)
    (by rw [hn]; unfold sliceLen; omega) (by rw [hn]; unfold sliceLen; omega)
  obtain ⟨v, ev, gv⟩ := asm (w / 2) 0 4 2 4 3 4 c a b (by omega) (by omega) (by omega) gc ga gb (by rw [hn]; unfold sliceLen; omega)
    (by rw [hn]; unfold sliceLen; omega) (by rw [hn]; unfold sliceLen; omega)
  refine ⟨y, u, v, ?_, gy, gu, gv⟩
  unfold fromV210
  simp only [ea, eb, ec, ey, eu, ev]

theorem zip3_all (f : Nat → Nat → Nat → Nat) (Q : Nat → Prop) (hf : ∀ a b c, Q (f a b c)) : ∀ a b c, ∀ v ∈ zip3 f a b c, Q v
  | a :: as, b :: bs, c :: cs, v, hv => by
    rw [zip3, List.mem_cons] at hv
    rcases hv with rfl | hv
    · exact hf a b c
    · exact zip3_all f Q hf as bs cs v hv
  | [], _, _, v, hv => by rw [zip3.eq_def] at hv; cases hv
  | _ :: _, [], _, v, hv => by rw [zip3.eq_def] at hv; cases hv
  | _ :: _, _ :: _, [], v, hv => by rw [zip3.eq_def] at hv; cases hv

/-- One step, on a well formed frame of even size. -/
theorem step_ok (env : Env) (f : Frame) (s m : Nat × Model × Nat) (hs : s ∈ formats) (hm : m ∈ formats) (k : Kind) (hf : f.fmt = s.1)
    (hfit : fits k s.2 m.2 = true) (hw : f.width % 2 = 0) (hh : f.height % 2 = 0) (hwf : WellFormed f) :
    ∃ p, applyKind env k m.1 f = some p ∧ WellFormed ⟨m.1, f.width, f.height, p⟩ := by
  obtain ⟨fmt, w, h, pix⟩ := f
  dsimp only at *
  subst hf
  obtain ⟨ss, sv, sd⟩ := factsFormats s hs
  obtain ⟨ms, mv, md⟩ := factsFormats m hm
  obtain ⟨w, rfl⟩ : ∃ k, w = 2 * k := ⟨w / 2, by omega⟩
  obtain ⟨h, rfl⟩ : ∃ k, h = 2 * k := ⟨h / 2, by omega⟩
  have s1 : ∀ x : Nat, (2 * x) >>> 1 = x := fun x => by rw [Nat.shiftRight_eq_div_pow]; omega
  by_cases hsv : s.1 = FrameFormat.v210
  · have hsp := sv.2 hsv
    have hk : k = .v210To422 := by
      cases k <;> simp [fits, hsp] at hfit ⊢
      rw [hfit.1] at hsp
      cases hsp
    subst hk
    simp only [fits, Bool.and_eq_true, beq_iff_eq] at hfit
    have hm10 := tenBits m hm hfit.2
    unfold WellFormed at hwf
    rw [if_pos hsv] at hwf
    obtain ⟨l, hpix, hlen, _⟩ := hwf
    dsimp only at hpix hlen
    subst hpix
    obtain ⟨y, u, v, e, gy, gu, gv⟩ := fromV210_some (2 * w) (2 * h) l hlen
    refine ⟨.planes y u v, by simp only [applyKind, e, Option.map_some], ?_⟩
    unfold WellFormed
    rw [if_neg (show m.1 ≠ FrameFormat.v210 by rw [hm10]; decide)]
    have up : ∀ (w' h' : Nat) (p : Plane), Good 10 w' h' p → Good (typeBits m.1) w' h' p := by
      intro w' h' p hp
      refine ⟨hp.1, fun c hc => ⟨(hp.2 c hc).1, fun v hv => Nat.lt_of_lt_of_le ((hp.2 c hc).2 v hv) ?_⟩⟩
      rw [hm10]; decide
    have ms' : shifts m.1 = (1, 0) := by rw [ms, hfit.2]; rfl
    refine ⟨y, u, v, rfl, up _ _ _ gy, ?_, ?_⟩ <;> dsimp only <;> rw [ms'] <;> dsimp only <;> rw [Nat.shiftRight_zero, s1]
    · rw [Nat.mul_div_cancel_left _ (by decide)] at gu; exact up _ _ _ gu
    · rw [Nat.mul_div_cancel_left _ (by decide)] at gv; exact up _ _ _ gv
  · have hsp : s.2.1 ≠ .packed422 := fun h => hsv (sv.1 h)
    unfold WellFormed at hwf
    rw [if_neg hsv] at hwf
    obtain ⟨a, b, c, hpix, ha, hb, hc⟩ := hwf
    dsimp only at hpix ha hb hc
    subst hpix
    have hA := ha.shape
    have hB := hb.shape
    have hC := hc.shape
    rw [ss] at hB hC hb hc
    cases k
    case v210To422 => simp [fits] at hfit; rw [hfit.1] at hsp; exact absurd rfl hsp
    case to422v210 =>
      simp only [fits, Bool.and_eq_true, beq_iff_eq] at hfit
      have hmv := mv.1 (by rw [hfit.2])
      rw [hfit.1] at hb hc
      dsimp only [subsampling] at hb hc
      rw [s1, Nat.shiftRight_zero] at hb hc
      have e2 : 2 * w / 2 = w := by omega
      obtain ⟨p, q, r, e, gp, gq, gr, _, _⟩ := V210.to_planes (typeBits s.1) (2 * w) (2 * h) a b c ha (by rw [e2]; exact hb) (by rw [e2]; exact hc)
      refine ⟨_, by simp only [applyKind, e, Option.map_some]; rfl, ?_⟩
      unfold WellFormed
      rw [if_pos hmv]
      refine ⟨_, rfl, ?_, zip3_all pack (fun v => v < 2 ^ 32) (fun a b c => Nat.mod_lt _ (by decide)) _ _ _⟩
      rw [V210.zip3_length _ _ _ _ (by rw [V210.ravel_length, V210.ravel_length]) (by rw [V210.ravel_length, V210.ravel_length]), V210.ravel_length]
      rfl
    all_goals
      have hmp : m.2.1 ≠ .packed422 := by
        intro h
        simp [fits, h] at hfit
        try simp_all
      have hmv : m.1 ≠ FrameFormat.v210 := fun h => hmp (mv.2 h)
    case copyYuv =>
      simp only [fits, Bool.and_eq_true, beq_iff_eq] at hfit
      rw [show s.2.1 = m.2.1 by rw [hfit.2], ← ms] at hB hC
      exact assign_planes m.1 _ _ a b c hmv hA hB hC
    case copyRgb =>
      simp only [fits, Bool.and_eq_true, beq_iff_eq] at hfit
      rw [show s.2.1 = m.2.1 by rw [hfit.2], ← ms] at hB hC
      exact assign_planes m.1 _ _ a b c hmv hA hB hC
    case mean444to422 =>
      simp only [fits, Bool.and_eq_true, beq_iff_eq] at hfit
      rw [hfit.1.1] at hB hC
      dsimp only [subsampling] at hB hC
      rw [Nat.shiftRight_zero, Nat.shiftRight_zero] at hB hC
      obtain ⟨p, ep, gp, _⟩ := meanColumns_some (typeBits s.1) hB
      obtain ⟨q, eq, gq, _⟩ := meanColumns_some (typeBits s.1) hC
      have ms' : shifts m.1 = (1, 0) := by rw [ms, hfit.1.2]; rfl
      obtain ⟨r, er, wr⟩ := assign_planes m.1 (2 * w) (2 * h) a p q hmv hA (by rw [ms', s1, Nat.shiftRight_zero]; exact gp)
        (by rw [ms', s1, Nat.shiftRight_zero]; exact gq)
      refine ⟨r, ?_, wr⟩
      simp only [applyKind, ep, eq, Option.bind_some]
      exact er
    case mean422to420 =>
      simp only [fits, Bool.and_eq_true, beq_iff_eq] at hfit
      rw [hfit.1.1] at hB hC
      dsimp only [subsampling] at hB hC
      rw [Nat.shiftRight_zero, s1] at hB hC
      obtain ⟨p, ep, gp, _⟩ := meanRows_some (typeBits s.1) hB
      obtain ⟨q, eq, gq, _⟩ := meanRows_some (typeBits s.1) hC
      have ms' : shifts m.1 = (1, 1) := by rw [ms, hfit.1.2]; rfl
      obtain ⟨r, er, wr⟩ := assign_planes m.1 (2 * w) (2 * h) a p q hmv hA (by rw [ms', s1, s1]; exact gp)
        (by rw [ms', s1, s1]; exact gq)
      refine ⟨r, ?_, wr⟩
      simp only [applyKind, ep, eq, Option.bind_some]
      exact er
    case dup422to444 =>
      simp only [fits, Bool.and_eq_true, beq_iff_eq] at hfit
      rw [hfit.1.1] at hB hC
      dsimp only [subsampling] at hB hC
      rw [Nat.shiftRight_zero, s1] at hB hC
      obtain ⟨p, ep, gp, _⟩ := dupColumns_some (typeBits m.1) hB
      obtain ⟨q, eq, gq, _⟩ := dupColumns_some (typeBits m.1) hC
      obtain ⟨x, ex, gx⟩ := assign_shape (bits := typeBits m.1) hA
      have ms' : shifts m.1 = (0, 0) := by rw [ms, hfit.1.2]; rfl
      refine ⟨.planes x p q, ?_, ?_⟩
      · simp only [applyKind, ms', Nat.shiftRight_zero, ep, eq, ex, planes3]
      · unfold WellFormed
        rw [if_neg hmv]
        refine ⟨x, p, q, rfl, gx, ?_, ?_⟩ <;> dsimp only <;> rw [ms'] <;> dsimp only <;> rw [Nat.shiftRight_zero, Nat.shiftRight_zero] <;> assumption
    case dup420to422 =>
      simp only [fits, Bool.and_eq_true, beq_iff_eq] at hfit
      rw [hfit.1.1] at hB hC
      dsimp only [subsampling] at hB hC
      rw [s1, s1] at hB hC
      obtain ⟨p, ep, gp, _⟩ := dupRows_some (typeBits m.1) hB
      obtain ⟨q, eq, gq, _⟩ := dupRows_some (typeBits m.1) hC
      obtain ⟨x, ex, gx⟩ := assign_shape (bits := typeBits m.1) hA
      have ms' : shifts m.1 = (1, 0) := by rw [ms, hfit.1.2]; rfl
      refine ⟨.planes x p q, ?_, ?_⟩
      · simp only [applyKind, ms', Nat.shiftRight_zero, s1, ep, eq, ex, planes3]
      · unfold WellFormed
        rw [if_neg hmv]
        refine ⟨x, p, q, rfl, gx, ?_, ?_⟩ <;> dsimp only <;> rw [ms'] <;> dsimp only <;> rw [Nat.shiftRight_zero, s1] <;> assumption
    case downYuv =>
      simp only [fits, Bool.and_eq_true, beq_iff_eq] at hfit
      rw [hfit.1.2, ← ms] at hB hC
      exact assign_planes m.1 _ _ _ _ _ hmv (mapPlane_shape _ hA) (mapPlane_shape _ hB) (mapPlane_shape _ hC)
    case downRgb =>
      simp only [fits, Bool.and_eq_true, beq_iff_eq] at hfit
      rw [show s.2.1 = m.2.1 by rw [hfit.1.2, hfit.1.1], ← ms] at hB hC
      exact assign_planes m.1 _ _ _ _ _ hmv (mapPlane_shape _ hA) (mapPlane_shape _ hB) (mapPlane_shape _ hC)
    case upYuv =>
      simp only [fits, Bool.and_eq_true, beq_iff_eq] at hfit
      rw [hfit.1.2, ← ms] at hB hC
      exact assign_planes m.1 _ _ _ _ _ hmv (mapPlaneIdx_shape _ hA) (mapPlaneIdx_shape _ hB) (mapPlaneIdx_shape _ hC)
    case upRgb =>
      simp only [fits, Bool.and_eq_true, beq_iff_eq] at hfit
      rw [show s.2.1 = m.2.1 by rw [hfit.1.2, hfit.1.1], ← ms] at hB hC
      exact assign_planes m.1 _ _ _ _ _ hmv (mapPlaneIdx_shape _ hA) (mapPlaneIdx_shape _ hB) (mapPlaneIdx_shape _ hC)
    case rgbToYuv444 =>
      simp only [fits, Bool.and_eq_true, beq_iff_eq] at hfit
      rw [hfit.1.1] at hB hC
      dsimp only [subsampling] at hB hC
      rw [Nat.shiftRight_zero, Nat.shiftRight_zero] at hB hC
      have ms' : shifts m.1 = (0, 0) := by rw [ms, hfit.1.2]; rfl
      obtain ⟨p, q, r, e, hp, hq, hr, _⟩ := zipPlanes3_some (env.toYuv (activeBits m.1)) hA hB hC
      obtain ⟨x, ex, wx⟩ := assign_planes m.1 (2 * w) (2 * h) p q r hmv hp (by rw [ms']; exact hq) (by rw [ms']; exact hr)
      refine ⟨x, ?_, wx⟩
      simp only [applyKind, e, Option.bind_some]
      exact ex
    case yuv444ToRgb =>
      simp only [fits, Bool.and_eq_true, beq_iff_eq] at hfit
      rw [hfit.1.1] at hB hC
      dsimp only [subsampling] at hB hC
      rw [Nat.shiftRight_zero, Nat.shiftRight_zero] at hB hC
      have ms' : shifts m.1 = (0, 0) := by rw [ms, hfit.1.2]; rfl
      obtain ⟨p, q, r, e, hp, hq, hr, _⟩ := zipPlanes3_some (env.toRgb (activeBits s.1)) hA hB hC
      obtain ⟨x, ex, wx⟩ := assign_planes m.1 (2 * w) (2 * h) p q r hmv hp (by rw [ms']; exact hq) (by rw [ms']; exact hr)
      refine ⟨x, ?_, wx⟩
      simp only [applyKind, e, Option.bind_some]
      exact ex

theorem run_ok (env : Env) (depth : Nat) (t : Nat × Model × Nat) : ∀ (l : List Step) (s : Nat × Model × Nat) (f : Frame), s ∈ formats →
    Leads depth s l t = true → f.fmt = s.1 → f.width % 2 = 0 → f.height % 2 = 0 → WellFormed f →
    ∃ g, l.foldlM (fun f s => applyStep env f s) f = some g ∧ g.fmt = t.1 ∧ g.width = f.width ∧ g.height = f.height ∧ WellFormed g := by
  intro l
  induction l with
  | nil =>
    intro s f _ hl hf _ _ hwf
    simp only [Leads, beq_iff_eq] at hl
    subst hl
    exact ⟨f, rfl, hf, rfl, rfl, hwf⟩
  | cons x xs ih =>
    intro s f hs hl hf hw hh hwf
    simp only [Leads, List.any_eq_true, Bool.and_eq_true, beq_iff_eq] at hl
    obtain ⟨m, hm, ⟨⟨⟨_, hd⟩, _⟩, hfit⟩, hl⟩ := hl
    obtain ⟨p, ep, wp⟩ := step_ok env f s m hs hm x.kind hf hfit hw hh hwf
    obtain ⟨g, eg, h1, h2, h3, h4⟩ := ih m ⟨m.1, f.width, f.height, p⟩ hm hl rfl hw hh wp
    refine ⟨g, ?_, h1, h2, h3, h4⟩
    rw [List.foldlM_cons, applyStep, hd, ep]
    exact eg

end NumpyTable

/-- Every well formed frame of even width and height in one of the formats can be converted to every other one. The result is a well
formed frame of that format and of the same size. -/
theorem C50_frame_partial (env : Env) (f : Frame) (dst fuel : Nat) (hfuel : 4 ≤ fuel) (hs : supported f.fmt = true) (hd : supported dst = true)
    (hw : f.width % 2 = 0) (hh : f.height % 2 = 0) (hwf : WellFormed f) :
    ∃ g, convertFrame env fuel f dst = some g ∧ g.fmt = dst ∧ g.width = f.width ∧ g.height = f.height ∧ WellFormed g := by
  unfold supported at hs hd
  rw [List.any_eq_true] at hs hd
  obtain ⟨s, hs, es⟩ := hs
  obtain ⟨t, ht, et⟩ := hd
  rw [beq_iff_eq] at es et
  subst et
  by_cases hne : s.1 = t.1
  · refine ⟨f, ?_, by rw [← es, hne], rfl, rfl, hwf⟩
    rw [show t.1 = f.fmt by rw [← hne, es]]
    exact C50_same env fuel f
  · obtain ⟨l, hl, hlead⟩ := C50_chain s t hs ht hne
    obtain ⟨g, eg, h1, h2, h3, h4⟩ := run_ok env _ t l s f hs hlead es.symm hw hh hwf
    refine ⟨g, ?_, h1, h2, h3, h4⟩
    unfold convertFrame
    rw [← es, hl fuel hfuel]
    exact eg

example : WellFormed frame422 ∧ supported frame422.fmt = true ∧ frame422.width % 2 = 0 ∧ frame422.height % 2 = 0 := by
  refine ⟨?_, by decide +kernel, by decide, by decide⟩
  unfold WellFormed
  rw [if_neg (by decide)]
  refine ⟨_, _, _, rfl, ?_, ?_, ?_⟩ <;> (constructor <;> decide)

end Verif.Props

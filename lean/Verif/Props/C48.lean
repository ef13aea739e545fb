import Verif.Props.C49

/-!
# C48: v210 packing round trip

`C48_round_trip`: a 10-bit 4:2:2 frame of any size whose samples are below 1024, converted to v210 and back, is the same frame; the
words of the v210 frame have the length that the format needs. `C48_layout` says where each sample is put.

`C48_range_counterexample`: a sample of 1024 (which the conversion from 12 bits produces, see `C49_range_counterexample`) changes its
neighbour.
-/

namespace Verif.Props

open Verif.Numpy Verif.Cog

namespace V210

theorem flat_length {α : Type} (n h : Nat) (g : Nat → Nat → α) : ((List.range h).flatMap (fun y => (List.range n).map (g y))).length = h * n := by
  induction h with
  | zero => simp
  | succ h ih => rw [List.range_succ, List.flatMap_append, List.length_append, ih]; simp [Nat.succ_mul]

theorem flat_getD {α : Type} (d : α) (n h : Nat) (g : Nat → Nat → α) (x y : Nat) (hx : x < n) (hy : y < h) :
    ((List.range h).flatMap (fun y => (List.range n).map (g y))).getD (y * n + x) d = g y x := by
  induction h with
  | zero => omega
  | succ h ih =>
    rw [List.range_succ, List.flatMap_append, List.getD_eq_getElem?_getD]
    by_cases hlt : y < h
    · have hle : y * n + x < h * n := by
        have := Nat.mul_le_mul_right n (show y + 1 ≤ h from hlt)
        rw [Nat.succ_mul] at this
        omega
      rw [List.getElem?_append_left (by rw [flat_length]; exact hle), ← List.getD_eq_getElem?_getD]
      exact ih hlt
    · have : y = h := by omega
      subst this
      rw [List.getElem?_append_right (by rw [flat_length]; omega), flat_length, Nat.add_sub_cancel_left, ← List.getD_eq_getElem?_getD]
      simp only [List.flatMap_cons, List.flatMap_nil, List.append_nil]
      exact getD_map_range d _ n x hx

theorem ravel_length (n h : Nat) (p : Plane) : (ravel n h p).length = h * n := flat_length n h _

theorem ravel_getD (n h : Nat) (p : Plane) (x y : Nat) (hx : x < n) (hy : y < h) : (ravel n h p).getD (y * n + x) 0 = sample p x y :=
  flat_getD 0 n h _ x y hx hy

theorem zip3_length (f : Nat → Nat → Nat → Nat) : ∀ (a b c : List Nat), a.length = b.length → a.length = c.length → (zip3 f a b c).length = a.length
  | [], _, _, _, _ => rfl
  | a :: as, b :: bs, c :: cs, h1, h2 => by
    simp only [zip3, List.length_cons] at h1 h2 ⊢
    rw [zip3_length f as bs cs (by omega) (by omega)]

theorem zip3_getD (f : Nat → Nat → Nat → Nat) : ∀ (a b c : List Nat) (i : Nat), a.length = b.length → a.length = c.length → i < a.length →
    (zip3 f a b c).getD i 0 = f (a.getD i 0) (b.getD i 0) (c.getD i 0)
  | a :: as, b :: bs, c :: cs, 0, _, _, _ => rfl
  | a :: as, b :: bs, c :: cs, i + 1, h1, h2, h3 => by
    simp only [zip3, List.length_cons, List.getD_cons_succ] at h1 h2 h3 ⊢
    exact zip3_getD f as bs cs i (by omega) (by omega) (by omega)

theorem pack_eq (a b c : Nat) (ha : a < 1024) (hb : b < 1024) (hc : c < 1024) : pack a b c = a + b * 1024 + c * 1048576 := by
  unfold pack wrap
  rw [Nat.shiftLeft_eq, Nat.shiftLeft_eq]
  omega

theorem and_mask (v : Nat) : v &&& 0x3ff = v % 1024 := Nat.and_two_pow_sub_one_eq_mod v 10

/-- The three planes packed in words and read back. -/
theorem unpack (n h : Nat) (a b c : Plane) (ha : Good 10 n h a) (hb : Good 10 n h b) (hc : Good 10 n h c) :
    let l := zip3 pack (ravel n h a) (ravel n h b) (ravel n h c)
    l.length = h * n ∧ unravel n h (l.map (fun v => v &&& 0x3ff)) = some a ∧ unravel n h (l.map (fun v => (v >>> 10) &&& 0x3ff)) = some b ∧
      unravel n h (l.map (fun v => (v >>> 20) &&& 0x3ff)) = some c := by
  intro l
  have hlen : l.length = h * n := by
    show (zip3 _ _ _ _).length = _
    rw [zip3_length _ _ _ _ (by rw [ravel_length, ravel_length]) (by rw [ravel_length, ravel_length]), ravel_length]
  have hget : ∀ x y, x < n → y < h → l.getD (y * n + x) 0 = sample a x y + sample b x y * 1024 + sample c x y * 1048576 := by
    intro x y hx hy
    have hlt : y * n + x < h * n := by
      have := Nat.mul_le_mul_right n (show y + 1 ≤ h from hy)
      rw [Nat.succ_mul] at this
      omega
    show (zip3 _ _ _ _).getD _ 0 = _
    rw [zip3_getD _ _ _ _ _ (by rw [ravel_length, ravel_length]) (by rw [ravel_length, ravel_length]) (by rw [ravel_length]; exact hlt),
      ravel_getD n h a x y hx hy, ravel_getD n h b x y hx hy, ravel_getD n h c x y hx hy,
      pack_eq _ _ _ (good_sample ha hx hy) (good_sample hb hx hy) (good_sample hc hx hy)]
  have key : ∀ (f : Nat → Nat) (p : Plane), Good 10 n h p → (∀ x y, x < n → y < h → f (l.getD (y * n + x) 0) = sample p x y) →
      unravel n h (l.map f) = some p := by
    intro f p hp hf
    unfold unravel
    rw [if_pos (by rw [List.length_map]; exact hlen)]
    congr 1
    apply plane_ext (w := n) (h := h) _ hp.shape
    · intro x y hx hy
      have hlt : y * n + x < h * n := by
        have := Nat.mul_le_mul_right n (show y + 1 ≤ h from hy)
        rw [Nat.succ_mul] at this
        omega
      rw [← hf x y hx hy, sample, getD_map_range [] _ n x hx, getD_map_range 0 _ h y hy, getD_map 0 0 f l _ (by rw [hlen]; exact hlt)]
    · rw [hasShape_iff]
      refine ⟨by simp, ?_⟩
      intro c hc
      obtain ⟨x, _, rfl⟩ := List.mem_map.1 hc
      simp
  refine ⟨hlen, key _ a ha ?_, key _ b hb ?_, key _ c hc ?_⟩ <;> intro x y hx hy <;>
    have h1 := good_sample ha hx hy <;> have h2 := good_sample hb hx hy <;> have h3 := good_sample hc hx hy <;>
    rw [hget x y hx hy, and_mask] <;> try rw [Nat.shiftRight_eq_div_pow]
  all_goals omega

theorem good_zero (bits n h : Nat) : ∀ c ∈ List.replicate n (List.replicate h 0), c.length = h ∧ ∀ v ∈ c, v < 2 ^ bits := by
  intro c hc
  rw [(List.mem_replicate.1 hc).2]
  refine ⟨by simp, fun v hv => ?_⟩
  rw [(List.mem_replicate.1 hv).2]; exact Nat.two_pow_pos bits

/-- The planes of samples to be packed, and what each of their columns is. -/
theorem to_planes (bits w h : Nat) (y u v : Plane) (hy : Good bits w h y) (hu : Good bits (w / 2) h u) (hv : Good bits (w / 2) h v) :
    ∃ a b c, toV210 w h y u v = some (zip3 pack (ravel (lineWords w) h a) (ravel (lineWords w) h b) (ravel (lineWords w) h c)) ∧
      Good bits (lineWords w) h a ∧ Good bits (lineWords w) h b ∧ Good bits (lineWords w) h c ∧
      (∀ i, i < w → (i % 3 = 0 → b.getD (2 * (i / 3)) [] = y.getD i []) ∧ (i % 3 = 1 → a.getD (2 * (i / 3) + 1) [] = y.getD i []) ∧
        (i % 3 = 2 → c.getD (2 * (i / 3) + 1) [] = y.getD i [])) ∧
      (∀ i, i < w / 2 → (i % 3 = 0 → a.getD (4 * (i / 3)) [] = u.getD i [] ∧ c.getD (4 * (i / 3)) [] = v.getD i []) ∧
        (i % 3 = 1 → b.getD (4 * (i / 3) + 1) [] = u.getD i [] ∧ a.getD (4 * (i / 3) + 2) [] = v.getD i []) ∧
        (i % 3 = 2 → c.getD (4 * (i / 3) + 2) [] = u.getD i [] ∧ b.getD (4 * (i / 3) + 3) [] = v.getD i [])) := by
  have hn : (List.replicate (lineWords w) (List.replicate h 0)).length = lineWords w := by simp
  have hl : lineWords w = 32 * ((w + 47) / 48) := rfl
  have hsl : ∀ s k p, (slice s k ([] : List Nat) p).length = sliceLen s k p.length := fun s k p => slice_length s k _ p
  obtain ⟨a, ea, la, ga, qa⟩ := assign3_some (l := List.replicate (lineWords w) (List.replicate h 0))
    (a := (0, 4, (w / 2 + 2) / 3, slice 0 3 [] u)) (b := (1, 2, (w + 1) / 3, slice 1 3 [] y)) (c := (2, 4, (w / 2 + 1) / 3, slice 1 3 [] v))
    (by dsimp only; rw [hsl, hn, hu.1, hl]; unfold sliceLen; omega) (by dsimp only; rw [hsl, hn, hy.1, hl]; unfold sliceLen; omega)
    (by dsimp only; rw [hsl, hn, hv.1, hl]; unfold sliceLen; omega)
  obtain ⟨b, eb, lb, gb, qb⟩ := assign3_some (l := List.replicate (lineWords w) (List.replicate h 0))
    (a := (0, 2, (w + 2) / 3, slice 0 3 [] y)) (b := (1, 4, (w / 2 + 1) / 3, slice 1 3 [] u)) (c := (3, 4, (w / 2 + 0) / 3, slice 2 3 [] v))
    (by dsimp only; rw [hsl, hn, hy.1, hl]; unfold sliceLen; omega) (by dsimp only; rw [hsl, hn, hu.1, hl]; unfold sliceLen; omega)
    (by dsimp only; rw [hsl, hn, hv.1, hl]; unfold sliceLen; omega)
  obtain ⟨c, ec, lc, gc, qc⟩ := assign3_some (l := List.replicate (lineWords w) (List.replicate h 0))
    (a := (0, 4, (w / 2 + 2) / 3, slice 0 3 [] v)) (b := (1, 2, (w + 0) / 3, slice 2 3 [] y)) (c := (2, 4, (w / 2 + 0) / 3, slice 2 3 [] u))
    (by dsimp only; rw [hsl, hn, hv.1, hl]; unfold sliceLen; omega) (by dsimp only; rw [hsl, hn, hy.1, hl]; unfold sliceLen; omega)
    (by dsimp only; rw [hsl, hn, hu.1, hl]; unfold sliceLen; omega)
  rw [hn] at la lb lc ga gb gc
  have all : ∀ (s : Nat) (p : Plane) (w' : Nat), Good bits w' h p → ∀ c ∈ slice s 3 [] p, c.length = h ∧ ∀ v ∈ c, v < 2 ^ bits :=
    fun s p w' hp => slice_all s 3 (by omega) [] p _ hp.2
  refine ⟨a, b, c, ?_, ⟨la, qa _ (all 0 u _ hu) (all 1 y _ hy) (all 1 v _ hv) (good_zero _ _ h)⟩,
    ⟨lb, qb _ (all 0 y _ hy) (all 1 u _ hu) (all 2 v _ hv) (good_zero _ _ h)⟩,
    ⟨lc, qc _ (all 0 v _ hv) (all 2 y _ hy) (all 2 u _ hu) (good_zero _ _ h)⟩, ?_, ?_⟩
  · unfold toV210
    simp only [ea, eb, ec]
  · intro i hi
    refine ⟨fun hm => ?_, fun hm => ?_, fun hm => ?_⟩
    · rw [gb _ (by omega)]
      unfold put
      simp only [hsl, hy.1, hu.1, hv.1, sliceLen]
      rw [if_neg (by omega), if_neg (by omega), if_pos (by omega), slice_getD 0 3 [] y _ (by rw [hy.1]; unfold sliceLen; omega)]
      congr 1; omega
    · rw [ga _ (by omega)]
      unfold put
      simp only [hsl, hy.1, hu.1, hv.1, sliceLen]
      rw [if_neg (by omega), if_pos (by omega), slice_getD 1 3 [] y _ (by rw [hy.1]; unfold sliceLen; omega)]
      congr 1; omega
    · rw [gc _ (by omega)]
      unfold put
      simp only [hsl, hy.1, hu.1, hv.1, sliceLen]
      rw [if_neg (by omega), if_pos (by omega), slice_getD 2 3 [] y _ (by rw [hy.1]; unfold sliceLen; omega)]
      congr 1; omega
  · intro i hi
    refine ⟨fun hm => ⟨?_, ?_⟩, fun hm => ⟨?_, ?_⟩, fun hm => ⟨?_, ?_⟩⟩
    · rw [ga _ (by omega)]
      unfold put
      simp only [hsl, hy.1, hu.1, hv.1, sliceLen]
      rw [if_neg (by omega), if_neg (by omega), if_pos (by omega), slice_getD 0 3 [] u _ (by rw [hu.1]; unfold sliceLen; omega)]
      congr 1; omega
    · rw [gc _ (by omega)]
      unfold put
      simp only [hsl, hy.1, hu.1, hv.1, sliceLen]
      rw [if_neg (by omega), if_neg (by omega), if_pos (by omega), slice_getD 0 3 [] v _ (by rw [hv.1]; unfold sliceLen; omega)]
      congr 1; omega
    · rw [gb _ (by omega)]
      unfold put
      simp only [hsl, hy.1, hu.1, hv.1, sliceLen]
      rw [if_neg (by omega), if_pos (by omega), slice_getD 1 3 [] u _ (by rw [hu.1]; unfold sliceLen; omega)]
      congr 1; omega
    · rw [ga _ (by omega)]
      unfold put
      simp only [hsl, hy.1, hu.1, hv.1, sliceLen]
      rw [if_pos (by omega), slice_getD 1 3 [] v _ (by rw [hv.1]; unfold sliceLen; omega)]
      congr 1; omega
    · rw [gc _ (by omega)]
      unfold put
      simp only [hsl, hy.1, hu.1, hv.1, sliceLen]
      rw [if_pos (by omega), slice_getD 2 3 [] u _ (by rw [hu.1]; unfold sliceLen; omega)]
      congr 1; omega
    · rw [gb _ (by omega)]
      unfold put
      simp only [hsl, hy.1, hu.1, hv.1, sliceLen]
      rw [if_pos (by omega), slice_getD 2 3 [] v _ (by rw [hv.1]; unfold sliceLen; omega)]
      congr 1; omega

/-- One output array, assembled from three slices. -/
theorem assemble (w h s0 k0 s1 k1 s2 k2 : Nat) (hk0 : 0 < k0) (hk1 : 0 < k1) (hk2 : 0 < k2) (p0 p1 p2 y : Plane) (hy : y.length = w)
    (h0 : (w + 2) / 3 ≤ sliceLen s0 k0 p0.length) (h1 : (w + 1) / 3 ≤ sliceLen s1 k1 p1.length) (h2 : (w + 0) / 3 ≤ sliceLen s2 k2 p2.length)
    (g0 : ∀ i, i < w → i % 3 = 0 → p0.getD (s0 + k0 * (i / 3)) [] = y.getD i [])
    (g1 : ∀ i, i < w → i % 3 = 1 → p1.getD (s1 + k1 * (i / 3)) [] = y.getD i [])
    (g2 : ∀ i, i < w → i % 3 = 2 → p2.getD (s2 + k2 * (i / 3)) [] = y.getD i []) :
    assign3 (List.replicate w (List.replicate h 0)) (0, 3, sliceLen 0 3 w, (slice s0 k0 [] p0).take ((w + 2) / 3))
      (1, 3, sliceLen 1 3 w, (slice s1 k1 [] p1).take ((w + 1) / 3)) (2, 3, sliceLen 2 3 w, (slice s2 k2 [] p2).take ((w + 0) / 3)) = some y := by
  have hn : (List.replicate w (List.replicate h 0)).length = w := by simp
  have hlen : ∀ s k (p : Plane) m, m ≤ sliceLen s k p.length → ((slice s k [] p).take m).length = m := by
    intro s k p m hm
    rw [List.length_take, slice_length]; omega
  obtain ⟨r, er, lr, gr, _⟩ := assign3_some (l := List.replicate w (List.replicate h 0))
    (a := (0, 3, sliceLen 0 3 w, (slice s0 k0 [] p0).take ((w + 2) / 3)))
    (b := (1, 3, sliceLen 1 3 w, (slice s1 k1 [] p1).take ((w + 1) / 3))) (c := (2, 3, sliceLen 2 3 w, (slice s2 k2 [] p2).take ((w + 0) / 3)))
    (by dsimp only; rw [hlen _ _ _ _ h0, hn]; unfold sliceLen; omega) (by dsimp only; rw [hlen _ _ _ _ h1, hn]; unfold sliceLen; omega)
    (by dsimp only; rw [hlen _ _ _ _ h2, hn]; unfold sliceLen; omega)
  rw [er]
  rw [hn] at lr gr
  congr 1
  apply ext_getD []
  · rw [lr, hy]
  · intro i hi
    rw [lr] at hi
    rw [gr i hi]
    unfold put
    simp only [hlen _ _ _ _ h0, hlen _ _ _ _ h1, hlen _ _ _ _ h2]
    have hm : i % 3 = 0 ∨ i % 3 = 1 ∨ i % 3 = 2 := by omega
    rcases hm with hm | hm | hm
    · rw [if_neg (by omega), if_neg (by omega), if_pos (by omega), Nat.sub_zero, getD_take [] _ _ _ (by omega),
        slice_getD _ _ _ _ _ (by omega), g0 i hi hm]
    · rw [if_neg (by omega), if_pos (by omega), show (i - 1) / 3 = i / 3 by omega, getD_take [] _ _ _ (by omega),
        slice_getD _ _ _ _ _ (by omega), g1 i hi hm]
    · rw [if_pos (by omega), show (i - 2) / 3 = i / 3 by omega, getD_take [] _ _ _ (by omega),
        slice_getD _ _ _ _ _ (by omega), g2 i hi hm]

theorem round_trip (w h : Nat) (y u v : Plane) (hy : Good 10 w h y) (hu : Good 10 (w / 2) h u) (hv : Good 10 (w / 2) h v) :
    ∃ l, toV210 w h y u v = some l ∧ l.length = h * lineWords w ∧ fromV210 w h l = some (y, u, v) := by
  obtain ⟨a, b, c, e, ga, gb, gc, vy, vc⟩ := to_planes 10 w h y u v hy hu hv
  obtain ⟨hlen, e1, e2, e3⟩ := unpack (lineWords w) h a b c ga gb gc
  have hl : lineWords w = 32 * ((w + 47) / 48) := rfl
  refine ⟨_, e, hlen, ?_⟩
  have ey := assemble w h 0 2 1 2 1 2 (by omega) (by omega) (by omega) b a c y hy.1 (by rw [gb.1, hl]; unfold sliceLen; omega)
    (by rw [ga.1, hl]; unfold sliceLen; omega) (by rw [gc.1, hl]; unfold sliceLen; omega)
    (fun i hi hm => by rw [Nat.zero_add]; exact (vy i hi).1 hm) (fun i hi hm => by rw [Nat.add_comm]; exact (vy i hi).2.1 hm)
    (fun i hi hm => by rw [Nat.add_comm]; exact (vy i hi).2.2 hm)
  have eu := assemble (w / 2) h 0 4 1 4 2 4 (by omega) (by omega) (by omega) a b c u hu.1 (by rw [ga.1, hl]; unfold sliceLen; omega)
    (by rw [gb.1, hl]; unfold sliceLen; omega) (by rw [gc.1, hl]; unfold sliceLen; omega)
    (fun i hi hm => by rw [Nat.zero_add]; exact ((vc i hi).1 hm).1) (fun i hi hm => by rw [Nat.add_comm]; exact ((vc i hi).2.1 hm).1)
    (fun i hi hm => by rw [Nat.add_comm]; exact ((vc i hi).2.2 hm).1)
  have ev := assemble (w / 2) h 0 4 2 4 3 4 (by omega) (by omega) (by omega) c a b v hv.1 (by rw [gc.1, hl]; unfold sliceLen; omega)
    (by rw [ga.1, hl]; unfold sliceLen; omega) (by rw [gb.1, hl]; unfold sliceLen; omega)
    (fun i hi hm => by rw [Nat.zero_add]; exact ((vc i hi).1 hm).2) (fun i hi hm => by rw [Nat.add_comm]; exact ((vc i hi).2.1 hm).2)
    (fun i hi hm => by rw [Nat.add_comm]; exact ((vc i hi).2.2 hm).2)
  unfold fromV210
  simp only [e1, e2, e3, ey, eu, ev]

end V210

open V210 NumpyArith

/-- A 10-bit 4:2:2 frame of any width and height with all samples below 1024, converted to v210 and back, is unchanged. The v210 frame
has 32 words for every 48 pixels or part of them, on each line. -/
theorem C48_round_trip (env : Env) (n : Nat) (f : Frame) (hf : f.fmt = FrameFormat.S16_422_10BIT) (hs : Shaped f) (hr : InRange 0 f) :
    ∃ l, convertFrame env (n + 1) f FrameFormat.v210 = some ⟨FrameFormat.v210, f.width, f.height, .words l⟩ ∧
      l.length = f.height * (32 * ((f.width + 47) / 48)) ∧
      convertFrame env (n + 1) ⟨FrameFormat.v210, f.width, f.height, .words l⟩ FrameFormat.S16_422_10BIT = some f := by
  obtain ⟨fmt, w, h, pix⟩ := f
  obtain ⟨a, b, c, hpix, ha, hb, hc⟩ := hs
  obtain ⟨a', b', c', hpix', hin⟩ := hr
  dsimp only at *
  subst hf
  rw [hpix] at hpix'
  obtain ⟨rfl, rfl, rfl⟩ := Pixels.planes.inj hpix'
  subst hpix
  have ten : activeBits FrameFormat.S16_422_10BIT = 10 := by decide
  have hsh : shifts FrameFormat.S16_422_10BIT = (1, 0) := by decide
  rw [hsh] at hb hc
  rw [ten] at hin
  have hw : w >>> 1 = w / 2 := by rw [Nat.shiftRight_eq_div_pow]
  dsimp only at hb hc
  rw [hw, Nat.shiftRight_zero] at hb hc
  have good : ∀ p, p ∈ [a, b, c] → ∀ bits w', Good bits w' h p → Good 10 w' h p := fun p hp bits w' hg =>
    ⟨hg.1, fun col hcol => ⟨(hg.2 col hcol).1, fun v hv => hin p hp col hcol v hv⟩⟩
  obtain ⟨l, e1, hl, e2⟩ := round_trip w h a b c (good a (by simp) _ _ ha) (good b (by simp) _ _ hb) (good c (by simp) _ _ hc)
  refine ⟨l, ?_, hl, ?_⟩
  · rw [convertFrame_direct env n ⟨FrameFormat.S16_422_10BIT, w, h, .planes a b c⟩ FrameFormat.v210 .to422v210
      (show FrameFormat.S16_422_10BIT ≠ FrameFormat.v210 by decide)
      (show lookup FrameFormat.S16_422_10BIT FrameFormat.v210 = some (.direct .to422v210) by decide +kernel)]
    simp only [applyStep, applyKind, e1, Option.map_some]
  · rw [convertFrame_direct env n ⟨FrameFormat.v210, w, h, .words l⟩ FrameFormat.S16_422_10BIT .v210To422
      (show FrameFormat.v210 ≠ FrameFormat.S16_422_10BIT by decide)
      (show lookup FrameFormat.v210 FrameFormat.S16_422_10BIT = some (.direct .v210To422) by decide +kernel)]
    simp only [applyStep, applyKind, e2, Option.map_some]

/-- A frame of 5 by 1 pixels. -/
def frame10 : Frame := ⟨FrameFormat.S16_422_10BIT, 5, 1, .planes [[1], [1023], [3], [4], [5]] [[512], [0]] [[1023], [7]]⟩

example : Shaped frame10 ∧ InRange 0 frame10 ∧ frame10.fmt = FrameFormat.S16_422_10BIT := by
  refine ⟨⟨_, _, _, rfl, ?_, ?_, ?_⟩, ⟨_, _, _, rfl, by decide +kernel⟩, rfl⟩ <;> (constructor <;> decide +kernel)

/-- Word `x` of line `y` of the v210 data. -/
def word (w : Nat) (l : List Nat) (x y : Nat) : Nat := l.getD (y * (32 * ((w + 47) / 48)) + x) 0

/-- Bits 0 to 9, 10 to 19 and 20 to 29 of a word. -/
def part (k v : Nat) : Nat := v / 2 ^ (10 * k) % 1024

/-- The layout of v210: every six pixels (six luma samples, three of each chroma) are four words
`Cb0 Y0 Cr0`, `Y1 Cb1 Y2`, `Cr1 Y3 Cb2`, `Y4 Cr2 Y5`, the first in the lowest bits. -/
theorem C48_layout (w h : Nat) (y u v : Plane) (hy : Good 10 w h y) (hu : Good 10 (w / 2) h u) (hv : Good 10 (w / 2) h v) :
    ∃ l, toV210 w h y u v = some l ∧ ∀ g r, r < h →
      (6 * g + 0 < w → part 1 (word w l (4 * g + 0) r) = sample y (6 * g + 0) r) ∧
      (6 * g + 1 < w → part 0 (word w l (4 * g + 1) r) = sample y (6 * g + 1) r) ∧
      (6 * g + 2 < w → part 2 (word w l (4 * g + 1) r) = sample y (6 * g + 2) r) ∧
      (6 * g + 3 < w → part 1 (word w l (4 * g + 2) r) = sample y (6 * g + 3) r) ∧
      (6 * g + 4 < w → part 0 (word w l (4 * g + 3) r) = sample y (6 * g + 4) r) ∧
      (6 * g + 5 < w → part 2 (word w l (4 * g + 3) r) = sample y (6 * g + 5) r) ∧
      (3 * g + 0 < w / 2 → part 0 (word w l (4 * g + 0) r) = sample u (3 * g + 0) r ∧ part 2 (word w l (4 * g + 0) r) = sample v (3 * g + 0) r) ∧
      (3 * g + 1 < w / 2 → part 1 (word w l (4 * g + 1) r) = sample u (3 * g + 1) r ∧ part 0 (word w l (4 * g + 2) r) = sample v (3 * g + 1) r) ∧
      (3 * g + 2 < w / 2 → part 2 (word w l (4 * g + 2) r) = sample u (3 * g + 2) r ∧ part 1 (word w l (4 * g + 3) r) = sample v (3 * g + 2) r) := by
  obtain ⟨a, b, c, e, ga, gb, gc, vy, vc⟩ := to_planes 10 w h y u v hy hu hv
  refine ⟨_, e, ?_⟩
  intro g r hr
  have hl : lineWords w = 32 * ((w + 47) / 48) := rfl
  have hget : ∀ x, x < lineWords w → word w (zip3 pack (ravel (lineWords w) h a) (ravel (lineWords w) h b) (ravel (lineWords w) h c)) x r =
      sample a x r + sample b x r * 1024 + sample c x r * 1048576 := by
    intro x hx
    have hlt : r * lineWords w + x < h * lineWords w := by
      have := Nat.mul_le_mul_right (lineWords w) (show r + 1 ≤ h from hr)
      rw [Nat.succ_mul] at this
      omega
    unfold word
    rw [← hl, zip3_getD _ _ _ _ _ (by rw [ravel_length, ravel_length]) (by rw [ravel_length, ravel_length]) (by rw [ravel_length]; exact hlt),
      ravel_getD _ h a x r hx hr, ravel_getD _ h b x r hx hr, ravel_getD _ h c x r hx hr,
      pack_eq _ _ _ (good_sample ga hx hr) (good_sample gb hx hr) (good_sample gc hx hr)]
  have p0 : ∀ x, x < lineWords w → part 0 (word w (zip3 pack (ravel (lineWords w) h a) (ravel (lineWords w) h b) (ravel (lineWords w) h c)) x r) =
      sample a x r := by
    intro x hx
    have h1 := good_sample ga hx hr
    have h2 := good_sample gb hx hr
    have h3 := good_sample gc hx hr
    rw [hget x hx]; unfold part; omega
  have p1 : ∀ x, x < lineWords w → part 1 (word w (zip3 pack (ravel (lineWords w) h a) (ravel (lineWords w) h b) (ravel (lineWords w) h c)) x r) =
      sample b x r := by
    intro x hx
    have h1 := good_sample ga hx hr
    have h2 := good_sample gb hx hr
    have h3 := good_sample gc hx hr
    rw [hget x hx]; unfold part; omega
  have p2 : ∀ x, x < lineWords w → part 2 (word w (zip3 pack (ravel (lineWords w) h a) (ravel (lineWords w) h b) (ravel (lineWords w) h c)) x r) =
      sample c x r := by
    intro x hx
    have h1 := good_sample ga hx hr
    have h2 := good_sample gb hx hr
    have h3 := good_sample gc hx hr
    rw [hget x hx]; unfold part; omega
  refine ⟨fun hw => ?_, fun hw => ?_, fun hw => ?_, fun hw => ?_, fun hw => ?_, fun hw => ?_, fun hw => ⟨?_, ?_⟩, fun hw => ⟨?_, ?_⟩,
    fun hw => ⟨?_, ?_⟩⟩
  · rw [p1 _ (by omega)]; have := (vy _ hw).1 (by omega); unfold sample; rw [← this]; congr 2; omega
  · rw [p0 _ (by omega)]; have := (vy _ hw).2.1 (by omega); unfold sample; rw [← this]; congr 2; omega
  · rw [p2 _ (by omega)]; have := (vy _ hw).2.2 (by omega); unfold sample; rw [← this]; congr 2; omega
  · rw [p1 _ (by omega)]; have := (vy _ hw).1 (by omega); unfold sample; rw [← this]; congr 2; omega
  · rw [p0 _ (by omega)]; have := (vy _ hw).2.1 (by omega); unfold sample; rw [← this]; congr 2; omega
  · rw [p2 _ (by omega)]; have := (vy _ hw).2.2 (by omega); unfold sample; rw [← this]; congr 2; omega
  · rw [p0 _ (by omega)]; have := ((vc _ hw).1 (by omega)).1; unfold sample; rw [← this]; congr 2; omega
  · rw [p2 _ (by omega)]; have := ((vc _ hw).1 (by omega)).2; unfold sample; rw [← this]; congr 2; omega
  · rw [p1 _ (by omega)]; have := ((vc _ hw).2.1 (by omega)).1; unfold sample; rw [← this]; congr 2; omega
  · rw [p0 _ (by omega)]; have := ((vc _ hw).2.1 (by omega)).2; unfold sample; rw [← this]; congr 2; omega
  · rw [p2 _ (by omega)]; have := ((vc _ hw).2.2 (by omega)).1; unfold sample; rw [← this]; congr 2; omega
  · rw [p1 _ (by omega)]; have := ((vc _ hw).2.2 (by omega)).2; unfold sample; rw [← this]; congr 2; omega

example : Good 10 5 1 [[1], [1023], [3], [4], [5]] ∧ Good 10 (5 / 2) 1 [[512], [0]] ∧ Good 10 (5 / 2) 1 [[1023], [7]] := by
  refine ⟨?_, ?_, ?_⟩ <;> (constructor <;> decide +kernel)

/-- A frame with a sample of 1024 in its 16-bit type: the blue chroma comes back as 0 and the luma packed next to it is one higher. -/
theorem C48_range_counterexample :
    toV210 2 1 [[5], [6]] [[1024]] [[7]] = some ((7 * 1048576 + 6 * 1024) :: 6 :: List.replicate 30 0) ∧
    fromV210 2 1 ((7 * 1048576 + 6 * 1024) :: 6 :: List.replicate 30 0) = some ([[6], [6]], [[0]], [[7]]) := by
  decide +kernel

end Verif.Props

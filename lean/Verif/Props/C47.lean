import Verif.Pattern.VideoLemmas

/-!
# C47: video test patterns stay in range
-/

namespace Verif.Props

open Verif Verif.Cog Verif.Pattern

/-- The nominal range of a component of the format: for luma `offset` to `offset + range`, for chroma `range / 2` to both sides. -/
def nominal (r : PixelRange) : Nat → Nat → Prop
  | 0, v => r.luma.1 ≤ v ∧ v ≤ r.luma.1 + r.luma.2
  | _, v => r.chroma.1 - r.chroma.2 / 2 ≤ v ∧ v ≤ r.chroma.1 + r.chroma.2 / 2

/-- All samples of the frame lie in the nominal range. -/
def AllNominal (fmt w h : Nat) (r : PixelRange) (data : Bytes) : Prop :=
  ∀ i x y, i < 3 → x < (component fmt w h i).width → y < (component fmt w h i).height →
    nominal r i (sampleAt r.bpp (component fmt w h i) data x y)

namespace Video

theorem lookup_mem {fmt : Nat} {r : PixelRange} (hr : pixelRanges.lookup fmt = some r) : (fmt, r) ∈ pixelRanges := by
  have hl : ∀ (l : List (Nat × PixelRange)), l.lookup fmt = some r → (fmt, r) ∈ l := by
    intro l
    induction l with
    | nil => intro h; cases h
    | cons p l ih =>
      intro h
      rw [List.lookup_cons] at h
      by_cases hp : fmt = p.1
      · subst hp
        simp at h
        rw [← h]
        exact List.mem_cons_self
      · have : (fmt == p.1) = false := by simpa using hp
        rw [this] at h
        exact List.mem_cons_of_mem _ (ih h)
  exact hl _ hr

theorem lumaLine_eq {r : PixelRange} {w : Nat} (hw : ¬ (0 < w ∧ w / 8 = 0)) :
    lumaLine r w = some (((List.range w).map (fun x => r.luma.1 + x / (w / 8) * r.luma.2 / 8)).flatMap (sampleBytes r.bpp)) := by
  unfold lumaLine positions
  rw [if_neg hw, Option.map_some, List.flatMap_map, List.flatMap_map]

theorem getD_map_range {f : Nat → Nat} {n x : Nat} (hx : x < n) : ((List.range n).map f).getD x 0 = f x := by
  rw [List.getD_eq_getElem?_getD, List.getElem?_map, List.getElem?_range hx]
  rfl

end Video

open Video

/-- For every supported format, every width of at least 8 (and width 0) and every height the luma steps are drawn: the data has the
size of the frame, each luma sample is the value of its step (cut to the sample's bytes), all chroma samples are the middle value. -/
theorem C47_luma_steps (fmt w h : Nat) (r : PixelRange) (hr : pixelRanges.lookup fmt = some r) (hw : ¬ (0 < w ∧ w < 8)) :
    ∃ data, lumaSteps fmt w h = .ok data ∧ data.length = sizeForFormat fmt w h ∧
    (∀ x y, x < w → y < h →
      sampleAt r.bpp (component fmt w h 0) data x y = (r.luma.1 + x / (w / 8) * r.luma.2 / 8) % 256 ^ r.bpp) ∧
    (∀ i x y, i = 1 ∨ i = 2 → x < (component fmt w h i).width → y < (component fmt w h i).height →
      sampleAt r.bpp (component fmt w h i) data x y = r.chroma.1) := by
  obtain ⟨hb, hw0, hh0, hw1, hh1, hw2, hh2, hfit, hap⟩ := layout hr w h
  have hnl : (newData fmt w h).length = sizeForFormat fmt w h := by unfold newData; rw [List.length_replicate]
  have hz : ¬ (0 < w ∧ w / 8 = 0) := by omega
  have f0 := hfit 0 (by omega)
  have f1 := hfit 1 (by omega)
  have f2 := hfit 2 (by omega)
  rw [← hnl] at f0 f1 f2
  obtain ⟨l1, s1, s2⟩ := fill_spec hb f0 ((List.range w).map (fun x => r.luma.1 + x / (w / 8) * r.luma.2 / 8))
    (by rw [List.length_map, List.length_range, hw0])
  rw [hh0] at l1 s1 s2
  obtain ⟨data, e, l2, t1, t2⟩ := chroma_spec hb (by rw [l1]; exact f1) (by rw [l1]; exact f2) (hap 1 2 (by omega) (by omega))
    (by rw [hw1, hw2]) (by rw [hh1, hh2])
  refine ⟨data, ?_, by rw [l2, l1, hnl], ?_, ?_⟩
  · unfold lumaSteps
    rw [hr]
    simp only
    rw [lumaLine_eq hz]
    simp only
    rw [e]
  · intro x y hx hy
    rw [t2 _ (by rw [l1]; exact f0) (hap 0 1 (by omega) (by omega)) (hap 0 2 (by omega) (by omega)) x y (by rw [hw0]; exact hx)
      (by rw [hh0]; exact hy), s1 x y (by rw [hw0]; exact hx) hy, getD_map_range hx]
  · have hc : r.chroma.1 % 256 ^ r.bpp = r.chroma.1 := by
      have : ∀ p ∈ pixelRanges, p.2.chroma.1 % 256 ^ p.2.bpp = p.2.chroma.1 := by decide +kernel
      exact this _ (lookup_mem hr)
    intro i x y hi hx hy
    rcases hi with rfl | rfl
    · rw [t1 _ (Or.inl rfl) x y hx hy, hc]
    · rw [t1 _ (Or.inr rfl) x y hx hy, hc]

example : pixelRanges.lookup FrameFormat.S16_422_10BIT = some ⟨2, (64, 876), (512, 896), 10⟩ := by decide

/-- The luma steps lie in the nominal range exactly if `w % 8 ≤ w / 8`; in particular for all widths from 56 and all multiples of 8. -/
theorem C47_luma_nominal_partial (fmt w h : Nat) (r : PixelRange) (hr : pixelRanges.lookup fmt = some r) (hw : 8 ≤ w) (hh : 0 < h)
    (data : Bytes) (hd : lumaSteps fmt w h = .ok data) : AllNominal fmt w h r data ↔ w % 8 ≤ w / 8 := by
  obtain ⟨data', e, _, h1, h2⟩ := C47_luma_steps fmt w h r hr (by omega)
  rw [hd] at e
  cases e
  obtain ⟨hb, hw0, hh0, _⟩ := layout hr w h
  constructor
  · intro ha
    apply Decidable.byContradiction
    intro hn
    have hx : 9 * (w / 8) < w := by omega
    have := ha 0 (9 * (w / 8)) 0 (by omega) (by rw [hw0]; exact hx) (by rw [hh0]; exact hh)
    rw [h1 _ _ hx hh, Nat.mul_div_cancel _ (by omega)] at this
    have hall : ∀ p ∈ pixelRanges, ¬ (p.2.luma.1 ≤ (p.2.luma.1 + 9 * p.2.luma.2 / 8) % 256 ^ p.2.bpp ∧
        (p.2.luma.1 + 9 * p.2.luma.2 / 8) % 256 ^ p.2.bpp ≤ p.2.luma.1 + p.2.luma.2) := by decide +kernel
    exact hall _ (lookup_mem hr) this
  · intro hle i x y hi hx hy
    match i, hi with
    | 0, _ =>
      rw [hw0] at hx
      rw [hh0] at hy
      rw [h1 x y hx hy]
      have hpos : x / (w / 8) ≤ 8 := by
        apply Nat.le_of_lt_succ
        rw [Nat.div_lt_iff_lt_mul (by omega)]
        omega
      have hall : ∀ p ∈ pixelRanges, ∀ k, k ≤ 8 → (p.2.luma.1 ≤ (p.2.luma.1 + k * p.2.luma.2 / 8) % 256 ^ p.2.bpp ∧
          (p.2.luma.1 + k * p.2.luma.2 / 8) % 256 ^ p.2.bpp ≤ p.2.luma.1 + p.2.luma.2) := by decide +kernel
      exact hall _ (lookup_mem hr) _ hpos
    | 1, _ =>
      rw [h2 1 x y (Or.inl rfl) hx hy]
      exact ⟨by omega, by omega⟩
    | 2, _ =>
      rw [h2 2 x y (Or.inr rfl) hx hy]
      exact ⟨by omega, by omega⟩

/-- Widths 1 to 7 fail in every format. -/
theorem C47_narrow_counterexample (fmt w h : Nat) (hr : (pixelRanges.lookup fmt).isSome = true) (hw : 0 < w) (hw' : w < 8) :
    lumaSteps fmt w h = .error .zeroDivision ∧ ∀ scale, colourBars scale fmt w h = .error .zeroDivision := by
  obtain ⟨r, hr⟩ := Option.isSome_iff_exists.1 hr
  obtain ⟨hb, hw0, _⟩ := layout hr w h
  have hp : positions w = none := by unfold positions; rw [if_pos (by omega)]
  constructor
  · unfold lumaSteps lumaLine
    rw [hr]
    simp only
    rw [hp]
    rfl
  · intro scale
    unfold colourBars barsLine
    rw [hr]
    simp only
    rw [hw0, hp]
    rfl

/-- A width at which the luma steps wrap around: the last pixel of 15 is in the fourteenth step. -/
theorem C47_wrap_counterexample : (lumaSteps FrameFormat.U8_444 15 1).toOption.map (List.take 15) =
    some [16, 43, 70, 98, 125, 152, 180, 207, 235, 6, 33, 61, 88, 115, 143] := by decide +kernel

/-- The specified values of the bars: the sample of bar `pos` in component `c`. -/
def barSample (scale : Nat → Nat) (r : PixelRange) (pos c : Nat) : Nat := ((barValues scale (16 - r.bits)).getD pos []).getD c 0

namespace Video

theorem barValues_length (scale : Nat → Nat) (bs : Nat) : (barValues scale bs).length = 8 := rfl

theorem mapM_some {α β : Type} (f : α → Option β) (g : α → β) (l : List α) (h : ∀ a ∈ l, f a = some (g a)) : l.mapM f = some (l.map g) := by
  induction l with
  | nil => rfl
  | cons a l ih =>
    rw [List.mapM_cons, h a List.mem_cons_self, ih (fun b hb => h b (List.mem_cons_of_mem _ hb))]
    rfl

theorem mapM_none {α β : Type} (f : α → Option β) (l : List α) (h : ∃ a ∈ l, f a = none) : l.mapM f = none := by
  induction l with
  | nil => obtain ⟨a, ha, _⟩ := h; cases ha
  | cons a l ih =>
    rw [List.mapM_cons]
    by_cases hf : f a = none
    · rw [hf]; rfl
    · have : ∃ b ∈ l, f b = none := by
        obtain ⟨b, hb, hn⟩ := h
        rcases List.mem_cons.1 hb with rfl | hb
        · exact absurd hn hf
        · exact ⟨b, hb, hn⟩
      rw [ih this]
      cases f a <;> rfl

/-- Scaling by an intensity from 0 to 1 does not enlarge a value. -/
def Dims (scale : Nat → Nat) : Prop := ∀ v, scale v ≤ v

theorem barSample_lt {scale : Nat → Nat} (hs : Dims scale) {r : PixelRange} {fmt : Nat} (hr : pixelRanges.lookup fmt = some r)
    (pos c : Nat) : barSample scale r pos c < 2 ^ r.bits := by
  have hall : ∀ p ∈ pixelRanges, ∀ v ∈ [0xFFFF, 0x8000, 0xE1FF, 0x0000, 0x9400, 0xB200, 0xABFF, 0x95FF, 0x2BFF, 0x15FF, 0x69FF, 0xD400,
      0xEA00, 0x4C00, 0x5400, 0x1DFF, 0x6BFF], v >>> (16 - p.2.bits) < 2 ^ p.2.bits := by decide +kernel
  have ha := hall _ (lookup_mem hr)
  simp only [List.mem_cons, List.not_mem_nil, or_false, forall_eq_or_imp, forall_eq] at ha
  have hz : 0 < 2 ^ r.bits := Nat.two_pow_pos _
  have hs' : ∀ v, v < 2 ^ r.bits → scale v < 2 ^ r.bits := fun v hv => Nat.lt_of_le_of_lt (hs v) hv
  obtain ⟨h1, h2, h3, h4, h5, h6, h7, h8, h9, h10, h11, h12, h13, h14, h15, h16, h17⟩ := ha
  unfold barSample barValues
  match pos with
  | 0 => match c with
    | 0 => exact hs' _ h1
    | 1 => exact h2
    | 2 => exact h2
    | c + 3 => exact hz
  | 1 => match c with
    | 0 => exact hs' _ h3
    | 1 => exact h4
    | 2 => exact h5
    | c + 3 => exact hz
  | 2 => match c with
    | 0 => exact hs' _ h6
    | 1 => exact h7
    | 2 => exact h4
    | c + 3 => exact hz
  | 3 => match c with
    | 0 => exact hs' _ h8
    | 1 => exact h9
    | 2 => exact h10
    | c + 3 => exact hz
  | 4 => match c with
    | 0 => exact hs' _ h11
    | 1 => exact h12
    | 2 => exact h13
    | c + 3 => exact hz
  | 5 => match c with
    | 0 => exact hs' _ h14
    | 1 => exact h15
    | 2 => exact h1
    | c + 3 => exact hz
  | 6 => match c with
    | 0 => exact hs' _ h16
    | 1 => exact h1
    | 2 => exact h17
    | c + 3 => exact hz
  | 7 => match c with
    | 0 => exact hs' _ h4
    | 1 => exact h2
    | 2 => exact h2
    | c + 3 => exact hz
  | p + 8 =>
    have : ((barValues scale (16 - r.bits)).getD (p + 8) []) = [] := rfl
    show ((barValues scale (16 - r.bits)).getD (p + 8) []).getD c 0 < _
    rw [this]
    exact hz

theorem bits_le {r : PixelRange} {fmt : Nat} (hr : pixelRanges.lookup fmt = some r) : 2 ^ r.bits ≤ 256 ^ r.bpp ∧ (r.bpp = 1 → 2 ^ r.bits = 256) := by
  have : ∀ p ∈ pixelRanges, 2 ^ p.2.bits ≤ 256 ^ p.2.bpp ∧ (p.2.bpp = 1 → 2 ^ p.2.bits = 256) := by decide +kernel
  exact this _ (lookup_mem hr)

theorem barsLine_ok {scale : Nat → Nat} (hs : Dims scale) {r : PixelRange} {fmt : Nat} (hr : pixelRanges.lookup fmt = some r)
    (c width : Nat) (hw : 8 ∣ width) :
    barsLine scale r c width = .ok (((List.range width).map (fun x => barSample scale r (x / (width / 8)) c)).flatMap (sampleBytes r.bpp)) := by
  unfold barsLine positions
  rw [if_neg (by omega)]
  simp only
  rw [mapM_some _ (fun pos => (barValues scale (16 - r.bits)).getD pos [])]
  · simp only [List.map_map]
    rw [if_neg]
    · rfl
    · rintro ⟨h1, h2⟩
      rw [List.any_eq_true] at h2
      obtain ⟨v, hv, hge⟩ := h2
      rw [decide_eq_true_eq] at hge
      obtain ⟨x, _, rfl⟩ := List.mem_map.1 hv
      have := barSample_lt hs hr (x / (width / 8)) c
      rw [(bits_le hr).2 h1] at this
      unfold barSample at this
      simp only [Function.comp_apply] at hge
      omega
  · intro pos hp
    obtain ⟨x, hx, rfl⟩ := List.mem_map.1 hp
    rw [List.mem_range] at hx
    have hlt : x / (width / 8) < 8 := by
      rw [Nat.div_lt_iff_lt_mul (by omega)]
      omega
    rw [List.getElem?_eq_getElem (by rw [barValues_length]; exact hlt), List.getD_eq_getElem?_getD,
      List.getElem?_eq_getElem (by rw [barValues_length]; exact hlt)]
    rfl

theorem barsLine_bad (scale : Nat → Nat) (r : PixelRange) (c width : Nat) (hw : ¬ 8 ∣ width) :
    ∃ e, barsLine scale r c width = .error e := by
  unfold barsLine positions
  by_cases h : 0 < width ∧ width / 8 = 0
  · rw [if_pos h]
    exact ⟨_, rfl⟩
  · rw [if_neg h]
    simp only
    rw [mapM_none]
    · exact ⟨_, rfl⟩
    · refine ⟨(width - 1) / (width / 8), List.mem_map.2 ⟨width - 1, List.mem_range.2 (by omega), rfl⟩, ?_⟩
      rw [List.getElem?_eq_none]
      rw [barValues_length, Nat.le_div_iff_mul_le (by omega)]
      omega

end Video

/-- The colour bars of an intensity from 0 to 1 are drawn exactly if 8 divides the width of each component. -/
theorem C47_bars_widths (scale : Nat → Nat) (hs : ∀ v, scale v ≤ v) (fmt w h : Nat) (r : PixelRange) (hr : pixelRanges.lookup fmt = some r) :
    (∃ data, colourBars scale fmt w h = .ok data) ↔ 8 ∣ w ∧ 8 ∣ w >>> hShift fmt := by
  obtain ⟨hb, hw0, hh0, hw1, hh1, hw2, hh2, hfit, hap⟩ := layout hr w h
  constructor
  · rintro ⟨data, hd⟩
    unfold colourBars at hd
    rw [hr] at hd
    simp only at hd
    rw [hw0, hw1] at hd
    constructor
    · apply Decidable.byContradiction
      intro hn
      obtain ⟨e, he⟩ := barsLine_bad scale r 0 w hn
      rw [he] at hd
      cases hd
    · apply Decidable.byContradiction
      intro hn
      obtain ⟨e, he⟩ := barsLine_bad scale r 1 _ hn
      rw [he] at hd
      cases h0 : barsLine scale r 0 w with
      | error e => rw [h0] at hd; cases hd
      | ok l => rw [h0] at hd; cases hd
  · rintro ⟨h1, h2⟩
    unfold colourBars
    rw [hr]
    simp only
    rw [hw0, hw1, hw2, barsLine_ok hs hr 0 w h1, barsLine_ok hs hr 1 _ h2, barsLine_ok hs hr 2 _ h2]
    exact ⟨_, rfl⟩

example : (8 ∣ 1920 ∧ 8 ∣ 1920 >>> hShift FrameFormat.U8_420) ∧ ¬ (8 ∣ 1366 ∧ 8 ∣ 1366 >>> hShift FrameFormat.U8_444) ∧
    ¬ (8 ∣ 1080 ∧ 8 ∣ 1080 >>> hShift FrameFormat.U8_422) := by decide

/-- Drawn colour bars fill the frame: each sample of each component is the value of its bar, and it is below `2 ^ bits`. -/
theorem C47_bars_samples (scale : Nat → Nat) (hs : ∀ v, scale v ≤ v) (fmt w h : Nat) (r : PixelRange) (hr : pixelRanges.lookup fmt = some r)
    (data : Bytes) (hd : colourBars scale fmt w h = .ok data) :
    data.length = sizeForFormat fmt w h ∧
    ∀ i x y, i < 3 → x < (component fmt w h i).width → y < (component fmt w h i).height →
      sampleAt r.bpp (component fmt w h i) data x y = barSample scale r (x / ((component fmt w h i).width / 8)) i ∧
      sampleAt r.bpp (component fmt w h i) data x y < 2 ^ r.bits := by
  obtain ⟨hb, hw0, hh0, hw1, hh1, hw2, hh2, hfit, hap⟩ := layout hr w h
  have hnl : (newData fmt w h).length = sizeForFormat fmt w h := by unfold newData; rw [List.length_replicate]
  obtain ⟨h1, h2⟩ := (C47_bars_widths scale hs fmt w h r hr).1 ⟨data, hd⟩
  unfold colourBars at hd
  rw [hr] at hd
  simp only at hd
  rw [barsLine_ok hs hr 0 _ (by rw [hw0]; exact h1), barsLine_ok hs hr 1 _ (by rw [hw1]; exact h2),
    barsLine_ok hs hr 2 _ (by rw [hw2]; exact h2)] at hd
  have f0 := hfit 0 (by omega)
  have f1 := hfit 1 (by omega)
  have f2 := hfit 2 (by omega)
  rw [← hnl] at f0 f1 f2
  have len : ∀ n (g : Nat → Nat), ((List.range n).map g).length = n := fun n g => by rw [List.length_map, List.length_range]
  simp only [bind, Except.bind, Except.ok.injEq] at hd
  obtain ⟨l0, a0, b0⟩ := fill_spec hb f0 _ (len (component fmt w h 0).width (fun x => barSample scale r (x / ((component fmt w h 0).width / 8)) 0))
  generalize patchRows (component fmt w h 0).offset _ _ _ (newData fmt w h) = d0 at l0 a0 b0 hd
  rw [← l0] at f0 f1 f2
  obtain ⟨l1, a1, b1⟩ := fill_spec hb f1 _ (len (component fmt w h 1).width (fun x => barSample scale r (x / ((component fmt w h 1).width / 8)) 1))
  generalize patchRows (component fmt w h 1).offset _ _ _ d0 = d1 at l1 a1 b1 hd
  have g0 := f0
  have g1 := f1
  rw [← l1] at g0 g1 f2
  obtain ⟨l2, a2, b2⟩ := fill_spec hb f2 _ (len (component fmt w h 2).width (fun x => barSample scale r (x / ((component fmt w h 2).width / 8)) 2))
  rw [hd] at l2 a2 b2
  have sw : ∀ {c c' : Component}, Apart c c' → Apart c' c := fun h => h.elim Or.inr Or.inl
  refine ⟨by rw [l2, l1, l0, hnl], ?_⟩
  have key : ∀ i x y, i < 3 → x < (component fmt w h i).width → y < (component fmt w h i).height →
      sampleAt r.bpp (component fmt w h i) data x y = barSample scale r (x / ((component fmt w h i).width / 8)) i % 256 ^ r.bpp := by
    intro i x y hi hx hy
    match i, hi with
    | 0, _ =>
      have := b2 _ g0 (sw (hap 0 2 (by omega) (by omega))) x y hx hy
      rw [b1 _ f0 (sw (hap 0 1 (by omega) (by omega))) x y hx hy, a0 x y hx hy, getD_map_range hx] at this
      exact this
    | 1, _ =>
      have := b2 _ g1 (sw (hap 1 2 (by omega) (by omega))) x y hx hy
      rw [a1 x y hx hy, getD_map_range hx] at this
      exact this
    | 2, _ =>
      have := a2 x y hx hy
      rw [getD_map_range hx] at this
      exact this
  intro i x y hi hx hy
  have hlt := barSample_lt hs hr (x / ((component fmt w h i).width / 8)) i
  have hle := (bits_le hr).1
  rw [key i x y hi hx hy, Nat.mod_eq_of_lt (by omega)]
  exact ⟨rfl, hlt⟩

example : ((colourBars (fun v => v * 3 / 4) FrameFormat.U8_422 16 1).toOption.map (List.drop 16)) =
    some [128, 0, 171, 43, 212, 84, 255, 128, 128, 148, 0, 21, 234, 255, 107, 128] := by decide +kernel

/-- In every format, size and intensity colour bars contain samples outside the nominal range: the luma of the last bar is 0. -/
theorem C47_bars_nominal_counterexample (scale : Nat → Nat) (hs : ∀ v, scale v ≤ v) (fmt w h : Nat) (r : PixelRange)
    (hr : pixelRanges.lookup fmt = some r) (data : Bytes) (hd : colourBars scale fmt w h = .ok data) (hw : 0 < w) (hh : 0 < h) :
    ¬ AllNominal fmt w h r data := by
  obtain ⟨hb, hw0, hh0, _⟩ := layout hr w h
  obtain ⟨h1, _⟩ := (C47_bars_widths scale hs fmt w h r hr).1 ⟨data, hd⟩
  intro ha
  have h2 := ha 0 (w - 1) 0 (by omega) (by rw [hw0]; omega) (by rw [hh0]; exact hh)
  rw [((C47_bars_samples scale hs fmt w h r hr data hd).2 0 (w - 1) 0 (by omega) (by rw [hw0]; omega) (by rw [hh0]; exact hh)).1, hw0] at h2
  have h7 : (w - 1) / (w / 8) = 7 := by
    apply Nat.div_eq_of_lt_le <;> omega
  rw [h7] at h2
  have hz : barSample scale r 7 0 = 0 := by
    show scale (0x0000 >>> (16 - r.bits)) = 0
    have := hs (0x0000 >>> (16 - r.bits))
    rw [Nat.zero_shiftRight] at this ⊢
    omega
  rw [hz] at h2
  have hall : ∀ p ∈ pixelRanges, 0 < p.2.luma.1 := by decide +kernel
  have := hall _ (lookup_mem hr)
  have := h2.1
  simp only at *
  omega

/-- The moving bar drawn on a frame: lines of the bar are black, all others are as before, and the length stays. `line` is a line of a
component, counted from the first line of the bar and modulo the height. -/
theorem C47_overlay (fmt w h n : Nat) (fnum : Int) (r : PixelRange) (hr : pixelRanges.lookup fmt = some r) (data : Bytes)
    (hl : data.length = sizeForFormat fmt w h) (hh : 0 < h) (hh' : 0 < h >>> vShift fmt) :
    ∃ d, overlayBar fmt w h n fnum data = .ok d ∧ d.length = data.length ∧
    (∀ x y, x < w → y < h → sampleAt r.bpp (component fmt w h 0) d x y =
      if ∃ k, k < n ∧ (fnum + (k : Int)) % (h : Int) = (y : Int) then r.luma.1 else sampleAt r.bpp (component fmt w h 0) data x y) ∧
    (∀ i x y, i = 1 ∨ i = 2 → x < w >>> hShift fmt → y < h >>> vShift fmt → sampleAt r.bpp (component fmt w h i) d x y =
      if ∃ k, k < n >>> vShift fmt ∧ (fnum / 2 ^ vShift fmt + (k : Int)) % ((h >>> vShift fmt : Nat) : Int) = (y : Int) then r.chroma.1
      else sampleAt r.bpp (component fmt w h i) data x y) := by
  obtain ⟨hb, hw0, hh0, hw1, hh1, hw2, hh2, hfit, hap⟩ := layout hr w h
  have f0 := hfit 0 (by omega)
  have f1 := hfit 1 (by omega)
  have f2 := hfit 2 (by omega)
  rw [← hl] at f0 f1 f2
  have hm : r.luma.1 % 256 ^ r.bpp = r.luma.1 ∧ r.chroma.1 % 256 ^ r.bpp = r.chroma.1 := by
    have : ∀ p ∈ pixelRanges, p.2.luma.1 % 256 ^ p.2.bpp = p.2.luma.1 ∧ p.2.chroma.1 % 256 ^ p.2.bpp = p.2.chroma.1 := by decide +kernel
    exact this _ (lookup_mem hr)
  obtain ⟨d0, e0, l0, a0, b0⟩ := drawBar_spec hb f0 fnum r.luma.1 n (Or.inr (by rw [hh0]; exact hh))
  obtain ⟨d1, e1, l1, a1, b1⟩ := drawBar_spec hb (c := component fmt w h 1) (d := d0) (by rw [l0]; exact f1) (fnum / 2 ^ vShift fmt)
    r.chroma.1 (n >>> vShift fmt) (Or.inr (by rw [hh1]; exact hh'))
  obtain ⟨d2, e2, l2, a2, b2⟩ := drawBar_spec hb (c := component fmt w h 2) (d := d1) (by rw [l1, l0]; exact f2) (fnum / 2 ^ vShift fmt)
    r.chroma.1 (n >>> vShift fmt) (Or.inr (by rw [hh2]; exact hh'))
  have sw : ∀ {c c' : Component}, Apart c c' → Apart c' c := fun h => h.elim Or.inr Or.inl
  rw [hm.1, hw0, hh0] at a0
  rw [hm.2, hw1, hh1] at a1
  rw [hm.2, hw2, hh2] at a2
  refine ⟨d2, ?_, by rw [l2, l1, l0], ?_, ?_⟩
  · unfold overlayBar
    rw [hr]
    simp only
    rw [e0, Option.bind_some, e1, Option.bind_some, e2]
  · intro x y hx hy
    rw [b2 _ (by rw [l1, l0]; exact f0) (sw (hap 0 2 (by omega) (by omega))) x y (by rw [hw0]; exact hx) (by rw [hh0]; exact hy),
      b1 _ (by rw [l0]; exact f0) (sw (hap 0 1 (by omega) (by omega))) x y (by rw [hw0]; exact hx) (by rw [hh0]; exact hy), a0 x y hx hy]
  · intro i x y hi hx hy
    rcases hi with rfl | rfl
    · rw [b2 _ (by rw [l1, l0]; exact f1) (sw (hap 1 2 (by omega) (by omega))) x y (by rw [hw1]; exact hx) (by rw [hh1]; exact hy),
        a1 x y hx hy, b0 _ f1 (hap 0 1 (by omega) (by omega)) x y (by rw [hw1]; exact hx) (by rw [hh1]; exact hy)]
    · rw [a2 x y hx hy, b1 _ (by rw [l0]; exact f2) (hap 1 2 (by omega) (by omega)) x y (by rw [hw2]; exact hx) (by rw [hh2]; exact hy),
        b0 _ f2 (hap 0 2 (by omega) (by omega)) x y (by rw [hw2]; exact hx) (by rw [hh2]; exact hy)]

/-- The bar over a frame whose samples are all in the nominal range leaves them so. -/
theorem C47_overlay_nominal (fmt w h n : Nat) (fnum : Int) (r : PixelRange) (hr : pixelRanges.lookup fmt = some r) (data d : Bytes)
    (hl : data.length = sizeForFormat fmt w h) (hh : 0 < h) (hh' : 0 < h >>> vShift fmt) (hn : AllNominal fmt w h r data)
    (hd : overlayBar fmt w h n fnum data = .ok d) : AllNominal fmt w h r d := by
  obtain ⟨d', e, _, h0, h12⟩ := C47_overlay fmt w h n fnum r hr data hl hh hh'
  rw [hd] at e
  cases e
  obtain ⟨hb, hw0, hh0, hw1, hh1, hw2, hh2, hfit, hap⟩ := layout hr w h
  intro i x y hi hx hy
  have := hn i x y hi hx hy
  match i, hi with
  | 0, _ =>
    rw [hw0] at hx
    rw [hh0] at hy
    rw [h0 x y hx hy]
    by_cases hk : ∃ k, k < n ∧ (fnum + (k : Int)) % (h : Int) = (y : Int)
    · rw [if_pos hk]
      exact ⟨by omega, by omega⟩
    · rw [if_neg hk]
      exact this
  | 1, _ =>
    rw [hw1] at hx
    rw [hh1] at hy
    rw [h12 1 x y (Or.inl rfl) hx hy]
    by_cases hk : ∃ k, k < n >>> vShift fmt ∧ (fnum / 2 ^ vShift fmt + (k : Int)) % ((h >>> vShift fmt : Nat) : Int) = (y : Int)
    · rw [if_pos hk]
      exact ⟨by omega, by omega⟩
    · rw [if_neg hk]
      exact this
  | 2, _ =>
    rw [hw2] at hx
    rw [hh2] at hy
    rw [h12 2 x y (Or.inr rfl) hx hy]
    by_cases hk : ∃ k, k < n >>> vShift fmt ∧ (fnum / 2 ^ vShift fmt + (k : Int)) % ((h >>> vShift fmt : Nat) : Int) = (y : Int)
    · rw [if_pos hk]
      exact ⟨by omega, by omega⟩
    · rw [if_neg hk]
      exact this

example : (overlayBar FrameFormat.U8_420 8 4 2 (-1) (List.replicate 48 200)).toOption.map
    (fun d => (List.range 4).map (fun y => sampleAt 1 (component FrameFormat.U8_420 8 4 0) d 3 y)) = some [16, 200, 200, 16] := by decide +kernel

end Verif.Props

import Verif.Cog.Sizes

/-!
# C31, C32: layout of video data, size of audio data
-/

namespace Verif.Props

open Verif Verif.Cog

/-! ## C31 -/

/-- Components one after the other from `start` to `stop`, without gaps. -/
def Tiles : Nat → Nat → List Component → Prop
  | start, stop, [] => start = stop
  | start, stop, c :: cs => c.offset = start ∧ Tiles (start + c.length) stop cs

theorem shift_mul_le (w h a b : Nat) : (w >>> a) * (h >>> b) ≤ (w * h) >>> (a + b) := by
  rw [Nat.shiftRight_eq_div_pow, Nat.shiftRight_eq_div_pow, Nat.shiftRight_eq_div_pow, Nat.pow_add,
    Nat.le_div_iff_mul_le (Nat.mul_pos (Nat.two_pow_pos a) (Nat.two_pow_pos b))]
  calc w / 2 ^ a * (h / 2 ^ b) * (2 ^ a * 2 ^ b) = (w / 2 ^ a * 2 ^ a) * (h / 2 ^ b * 2 ^ b) := by ac_rfl
    _ ≤ w * h := Nat.mul_le_mul (Nat.div_mul_le_self ..) (Nat.div_mul_le_self ..)

/-- **C31**, contiguity: for *every* format value, width and height, odd ones too, the components start at
0, follow each other without gaps and end where the allocated data ends. -/
theorem C31_tiles (fmt w h : Nat) : Tiles 0 (sizeForFormat fmt w h) (componentsForFormat fmt w h) := by
  unfold sizeForFormat componentsForFormat
  split
  · refine ⟨rfl, rfl, rfl, ?_⟩
    show _ = _
    simp only [Nat.add_mul, Nat.mul_assoc]
    omega
  · have e : ∀ k, h * w * k = w * h * k := fun k => by rw [Nat.mul_comm h w]
    split
    · exact ⟨rfl, by show _ = _; rw [e]; exact Nat.zero_add _⟩
    · split
      · exact ⟨rfl, by show _ = _; rw [e]; exact Nat.zero_add _⟩
      · split
        · exact ⟨rfl, by show _ = _; rw [e]; exact Nat.zero_add _⟩
        · split
          · exact ⟨rfl, by show _ = _; exact Nat.zero_add _⟩
          · split
            · exact ⟨rfl, by show _ = _; rw [e]; exact Nat.zero_add _⟩
            · exact rfl

theorem tiles_end {start stop : Nat} {cs : List Component} (h : Tiles start stop cs) : start ≤ stop ∧
    ∀ c ∈ cs, start ≤ c.offset ∧ c.offset + c.length ≤ stop := by
  induction cs generalizing start with
  | nil => exact ⟨Nat.le_of_eq h, fun _ hc => nomatch hc⟩
  | cons c cs ih =>
    obtain ⟨h1, h2⟩ := h
    have := ih h2
    refine ⟨by omega, fun d hd => ?_⟩
    rcases List.mem_cons.1 hd with rfl | hd
    · omega
    · have := this.2 d hd; omega

theorem tiles_disjoint {start stop : Nat} {cs : List Component} (h : Tiles start stop cs) :
    cs.Pairwise (fun a b => a.offset + a.length ≤ b.offset) := by
  induction cs generalizing start with
  | nil => exact .nil
  | cons c cs ih =>
    obtain ⟨h1, h2⟩ := h
    refine .cons (fun d hd => ?_) (ih h2)
    have := (tiles_end h2).2 d hd
    omega

/-- **C31**, disjointness: in order and without overlap, all inside the data. -/
theorem C31_disjoint (fmt w h : Nat) :
    (componentsForFormat fmt w h).Pairwise (fun a b => a.offset + a.length ≤ b.offset) ∧
      ∀ c ∈ componentsForFormat fmt w h, c.offset + c.length ≤ sizeForFormat fmt w h :=
  ⟨tiles_disjoint (C31_tiles fmt w h), fun c hc => ((tiles_end (C31_tiles fmt w h)).2 c hc).2⟩

theorem expected_foldl {start stop : Nat} {cs : List Component} (h : Tiles start stop cs) :
    cs.foldl (fun length c => if c.offset + c.length > length then c.offset + c.length else length) start = stop := by
  induction cs generalizing start with
  | nil => exact h
  | cons c cs ih =>
    obtain ⟨h1, h2⟩ := h
    rw [List.foldl_cons]
    have : (if c.offset + c.length > start then c.offset + c.length else start) = start + c.length := by
      split <;> omega
    rw [this]
    exact ih h2

/-- **C31**: `expected_length` is the allocated size. -/
theorem C31_expected_length (fmt w h : Nat) : expectedLength (componentsForFormat fmt w h) = sizeForFormat fmt w h :=
  expected_foldl (C31_tiles fmt w h)

/-- The bytes of one line of a component, by the definition of the pixel formats: planar samples have
`bytes per value` bytes; YUYV/UYVY hold two pixels in four bytes, v216 in eight, v210 six pixels in sixteen
bytes.  (AYUV is left out, see below.) -/
def lineBytes (fmt width : Nat) : Nat :=
  if (fmt >>> 8) &&& 0x1 = 0 then width * bytesPerValue fmt
  else if fmt = FrameFormat.YUYV ∨ fmt = FrameFormat.UYVY then width * 2
  else if fmt = FrameFormat.RGB then width * 3
  else if fmt ∈ fourByteFormats then width * 4
  else if fmt = FrameFormat.v216 then width * 4
  else if fmt = FrameFormat.v210 then (width + 5) / 6 * 16
  else 0

/-- **C31**, lines: every line of every component lies inside the component and does not reach into the next
line. -/
theorem C31_lines (fmt w h : Nat) : ∀ c ∈ componentsForFormat fmt w h,
    lineBytes fmt c.width ≤ c.stride ∧ ∀ y < c.height, y * c.stride + lineBytes fmt c.width ≤ c.length := by
  have key : ∀ (stride lineb height length : Nat), lineb ≤ stride → height * stride ≤ length →
      lineb ≤ stride ∧ ∀ y < height, y * stride + lineb ≤ length := by
    intro stride lineb height length h1 h2
    refine ⟨h1, fun y hy => ?_⟩
    have : (y + 1) * stride ≤ height * stride := Nat.mul_le_mul_right _ hy
    rw [Nat.add_mul, Nat.one_mul] at this
    omega
  intro c hc
  apply key
  · unfold componentsForFormat at hc
    unfold lineBytes
    split at hc
    · rename_i hp
      rw [if_pos hp]
      simp only [List.mem_cons, List.mem_nil_iff, or_false] at hc
      rcases hc with rfl | rfl | rfl <;> exact Nat.le_refl _
    · rename_i hp
      rw [if_neg hp]
      split at hc
      · simp only [List.mem_cons, List.mem_nil_iff, or_false] at hc
        subst hc
        rename_i ht
        simp only [twoByteFormats, List.mem_cons, List.mem_nil_iff, or_false] at ht
        rcases ht with rfl | rfl | rfl
        · simp
        · simp
        · simp [fourByteFormats, FrameFormat.YUYV, FrameFormat.UYVY, FrameFormat.AYUV, FrameFormat.RGB, FrameFormat.v216,
            FrameFormat.v210, FrameFormat.RGBx, FrameFormat.RGBA, FrameFormat.xRGB, FrameFormat.ARGB, FrameFormat.BGRx,
            FrameFormat.BGRA, FrameFormat.xBGR, FrameFormat.ABGR]
      · rename_i ht
        have h1 : ¬ (fmt = FrameFormat.YUYV ∨ fmt = FrameFormat.UYVY) := by
          intro h; apply ht; rcases h with rfl | rfl <;> decide
        rw [if_neg h1]
        split at hc
        · simp only [List.mem_cons, List.mem_nil_iff, or_false] at hc
          subst hc
          rename_i hf
          have h2 : fmt ≠ FrameFormat.RGB := by intro h; subst h; exact absurd hf (by decide)
          rw [if_neg h2, if_pos hf]
          exact Nat.le_refl _
        · rename_i hf
          split at hc
          · simp only [List.mem_cons, List.mem_nil_iff, or_false] at hc
            subst hc
            rename_i hr
            rw [if_pos hr]
            exact Nat.le_refl _
          · rename_i hr
            rw [if_neg hr, if_neg hf]
            split at hc
            · simp only [List.mem_cons, List.mem_nil_iff, or_false] at hc
              subst hc
              rename_i hv
              have h3 : fmt ≠ FrameFormat.v216 := by rw [hv]; decide
              rw [if_neg h3, if_pos hv]
              simp only
              omega
            · rename_i hv
              split at hc
              · simp only [List.mem_cons, List.mem_nil_iff, or_false] at hc
                subst hc
                rename_i h6
                rw [if_pos h6]
                exact Nat.le_refl _
              · exact nomatch hc
  · unfold componentsForFormat at hc
    split at hc
    · simp only [List.mem_cons, List.mem_nil_iff, or_false] at hc
      have hle := Nat.mul_le_mul_right (bytesPerValue fmt) (shift_mul_le w h (hShift fmt) (vShift fmt))
      rcases hc with rfl | rfl | rfl
      · simp only
        rw [← Nat.mul_assoc, Nat.mul_comm h w]
        exact Nat.le_refl _
      · simp only
        rw [← Nat.mul_assoc, Nat.mul_comm (h >>> vShift fmt)]
        exact hle
      · simp only
        rw [← Nat.mul_assoc, Nat.mul_comm (h >>> vShift fmt)]
        exact hle
    · repeat' split at hc
      all_goals
        simp only [List.mem_cons, List.mem_nil_iff, or_false] at hc
        try subst hc
        try (simp only; rw [← Nat.mul_assoc]; exact Nat.le_refl _)

/-- Without odd sizes nothing is wasted: the lines fill each planar component exactly. -/
theorem C31_exact_planes (fmt w h : Nat) (hp : (fmt >>> 8) &&& 0x1 = 0) (hw : 2 ∣ w) (hh : 2 ∣ h) :
    ∀ c ∈ componentsForFormat fmt w h, c.height * c.stride = c.length := by
  obtain ⟨w, rfl⟩ := hw
  obtain ⟨h, rfl⟩ := hh
  have hs : hShift fmt = 0 ∨ hShift fmt = 1 := by
    unfold hShift; rw [Nat.and_one_is_mod]; omega
  have vs : vShift fmt = 0 ∨ vShift fmt = 1 := by
    unfold vShift; rw [Nat.and_one_is_mod]; omega
  have e : ((2 * h) >>> vShift fmt) * ((2 * w) >>> hShift fmt) = (2 * w * (2 * h)) >>> (hShift fmt + vShift fmt) := by
    rcases hs with hs | hs <;> rcases vs with vs | vs <;>
      simp only [hs, vs, Nat.shiftRight_eq_div_pow, Nat.reduceAdd, Nat.reducePow, Nat.div_one]
    · exact Nat.mul_comm _ _
    · rw [Nat.mul_div_cancel_left _ (by decide), show 2 * w * (2 * h) = 2 * (h * (2 * w)) by ac_rfl,
        Nat.mul_div_cancel_left _ (by decide)]
    · rw [Nat.mul_div_cancel_left _ (by decide), show 2 * w * (2 * h) = 2 * (2 * h * w) by ac_rfl,
        Nat.mul_div_cancel_left _ (by decide)]
    · rw [Nat.mul_div_cancel_left _ (by decide), Nat.mul_div_cancel_left _ (by decide),
        show 2 * w * (2 * h) = 4 * (h * w) by
          rw [show (4 : Nat) = 2 * 2 from rfl]; ac_rfl, Nat.mul_div_cancel_left _ (by decide)]
  intro c hc
  unfold componentsForFormat at hc
  rw [if_pos hp] at hc
  simp only [List.mem_cons, List.mem_nil_iff, or_false] at hc
  rcases hc with rfl | rfl | rfl
  · simp only; rw [← Nat.mul_assoc]; congr 1; exact Nat.mul_comm _ _
  · simp only; rw [← Nat.mul_assoc, e]
  · simp only; rw [← Nat.mul_assoc, e]

/-- Odd sizes leave bytes that belong to no line: in a 3 × 3 4:2:0 frame the chroma components are two bytes
long with one line of one byte. -/
theorem C31_odd_waste : (componentsForFormat FrameFormat.U8_420 3 3).map (fun c => (c.height * c.stride, c.length)) =
    [(9, 9), (1, 2), (1, 2)] := by decide

/-- AYUV has four samples in each pixel, so a line of `w` pixels needs `4*w` bytes; the stride is `2*w`.
**C31 fails** for AYUV. -/
theorem C31_ayuv_counterexample (w h : Nat) (hw : 0 < w) :
    (componentsForFormat FrameFormat.AYUV w h).map Component.stride = [w * 2] ∧ ¬ w * 4 ≤ w * 2 := by
  constructor
  · rfl
  · omega

/-- A compressed format gets three components, as if it were planar 4:4:4 (the planarity test only looks at
one of the two bits). -/
theorem C31_compressed_layout : isCompressed FrameFormat.H264 = true ∧
    (componentsForFormat FrameFormat.H264 1920 1080).length = 3 := by decide

example : (componentsForFormat FrameFormat.S16_420_10BIT 1920 1080) =
    [⟨3840, 0, 1920, 1080, 4147200⟩, ⟨1920, 4147200, 960, 540, 1036800⟩, ⟨1920, 5184000, 960, 540, 1036800⟩] := by
  decide +kernel

/-! ## C32 -/

/-- The channels for which space is needed. -/
def channelSlots (fmt channels : Nat) : Nat := if audioIsPairs fmt then channels + channels % 2 else channels

/-- **C32**: for every format value, channel count and sample count. -/
theorem C32_audio_size (fmt channels samples : Nat) :
    sizeForAudioFormat fmt channels samples =
      if audioIsCompressed fmt then 0 else channelSlots fmt channels * samples * audioSampleBytes fmt := by
  unfold sizeForAudioFormat audioIsCompressed
  by_cases hc : fmt &&& 0x200 = 0x200
  · rw [if_pos hc]; simp [hc]
  · rw [if_neg hc]
    have hc' : ((fmt &&& 0x200) == 0x200) = false := by simpa using hc
    rw [hc']
    simp only [Bool.false_eq_true, if_false]
    have e1 : (if fmt &&& 0x3 = 0x1 then (channels + 1) / 2 * 2 else channels) = channelSlots fmt channels := by
      unfold channelSlots audioIsPairs
      by_cases h : fmt &&& 0x3 = 0x1
      · rw [if_pos h, if_pos (by simpa using h)]; omega
      · rw [if_neg h, if_neg (by simpa using h)]
    have hf : fmt &&& 0xf = fmt % 16 := Nat.and_two_pow_sub_one_eq_mod fmt 4
    have h3 : fmt &&& 0x3 = fmt % 16 &&& 0x3 := by
      rw [show fmt &&& 0x3 = fmt &&& (0xf &&& 0x3) from rfl, ← Nat.and_assoc, hf]
    have h4 : fmt &&& 0xc = fmt % 16 &&& 0xc := by
      rw [show fmt &&& 0xc = fmt &&& (0xf &&& 0xc) from rfl, ← Nat.and_assoc, hf]
    have e2 : (if fmt &&& 0xC = 0xC then 8 else if fmt &&& 0xf = 0x04 then 4 else ((fmt &&& 0xf) >>> 2) + 2) =
        audioSampleBytes fmt := by
      unfold audioSampleBytes audioDepth audioIsPlanes
      rw [hf, h3, h4]
      have hlt : fmt % 16 < 16 := Nat.mod_lt _ (by decide)
      generalize fmt % 16 = x at hlt
      revert x
      decide
    rw [e1, e2]

/-- The sample widths of all PCM formats, by their names: 16-bit samples take 2 bytes; 24-bit samples take 4
in planes and 3 otherwise; 32-bit and float samples 4; double samples 8. -/
theorem C32_sample_widths :
    ∀ p ∈ [(AudioFormat.S16_PLANES, 2), (AudioFormat.S16_PAIRS, 2), (AudioFormat.S16_INTERLEAVED, 2),
      (AudioFormat.S24_PLANES, 4), (AudioFormat.S24_PAIRS, 3), (AudioFormat.S24_INTERLEAVED, 3),
      (AudioFormat.S32_PLANES, 4), (AudioFormat.S32_PAIRS, 4), (AudioFormat.S32_INTERLEAVED, 4),
      (AudioFormat.FLOAT_PLANES, 4), (AudioFormat.FLOAT_PAIRS, 4), (AudioFormat.FLOAT_INTERLEAVED, 4),
      (AudioFormat.DOUBLE_PLANES, 8), (AudioFormat.DOUBLE_PAIRS, 8), (AudioFormat.DOUBLE_INTERLEAVED, 8)],
    audioSampleBytes p.1 = p.2 ∧ audioIsCompressed p.1 = false := by decide

/-- Compressed formats, and the two placeholders. -/
theorem C32_compressed : ∀ f ∈ [AudioFormat.MP1, AudioFormat.AAC, AudioFormat.OPUS, AudioFormat.UNKNOWN,
    AudioFormat.INVALID], ∀ channels samples, sizeForAudioFormat f channels samples = 0 := by
  intro f hf channels samples
  rw [C32_audio_size, if_pos]
  revert f
  decide

example : sizeForAudioFormat AudioFormat.S24_PAIRS 5 1920 = 6 * 1920 * 3 := by decide

end Verif.Props

import Verif.Cog.Enums

/-!
# C34: the format enumerations

The reference table below is written from the *names* of the formats.
-/

namespace Verif.Props

open Verif Verif.Cog Verif.Cog.FrameFormat

/-- What a planar format's name says: bytes per value, chroma format, number of significant bits. -/
structure PlanarRef where
  fmt : Nat
  bytes : Nat
  chroma : Nat
  bits : Nat

/-- `U8`, `S16`, `S32` give 1, 2, 4 bytes; the last part gives the bits, by default all. -/
def planarTable : List PlanarRef :=
  [⟨U8_444, 1, Chroma.YUV_444, 8⟩, ⟨U8_422, 1, Chroma.YUV_422, 8⟩, ⟨U8_420, 1, Chroma.YUV_420, 8⟩,
    ⟨U8_444_RGB, 1, Chroma.RGB, 8⟩,
    ⟨S16_444_10BIT, 2, Chroma.YUV_444, 10⟩, ⟨S16_422_10BIT, 2, Chroma.YUV_422, 10⟩,
    ⟨S16_420_10BIT, 2, Chroma.YUV_420, 10⟩, ⟨S16_444_10BIT_RGB, 2, Chroma.RGB, 10⟩,
    ⟨S16_444_12BIT, 2, Chroma.YUV_444, 12⟩, ⟨S16_422_12BIT, 2, Chroma.YUV_422, 12⟩,
    ⟨S16_420_12BIT, 2, Chroma.YUV_420, 12⟩, ⟨S16_444_12BIT_RGB, 2, Chroma.RGB, 12⟩,
    ⟨S16_444, 2, Chroma.YUV_444, 16⟩, ⟨S16_422, 2, Chroma.YUV_422, 16⟩, ⟨S16_420, 2, Chroma.YUV_420, 16⟩,
    ⟨S16_444_RGB, 2, Chroma.RGB, 16⟩,
    ⟨S32_444, 4, Chroma.YUV_444, 32⟩, ⟨S32_422, 4, Chroma.YUV_422, 32⟩, ⟨S32_420, 4, Chroma.YUV_420, 32⟩,
    ⟨S32_444_RGB, 4, Chroma.RGB, 32⟩]

/-- Horizontal and vertical subsampling of the chroma formats. -/
def shifts (chroma : Nat) : Nat × Nat :=
  if chroma = Chroma.YUV_422 then (1, 0) else if chroma = Chroma.YUV_420 then (1, 1) else (0, 0)

def alphaTable : List (Nat × Nat × Nat) :=
  [(ALPHA_U8, 1, 8), (ALPHA_S16_10BIT, 2, 10), (ALPHA_S16_12BIT, 2, 12), (ALPHA_S16, 2, 16), (ALPHA_S32, 4, 32)]

def packedTable : List Nat :=
  [YUYV, UYVY, AYUV, FrameFormat.RGB, RGBx, xRGB, BGRx, xBGR, RGBA, ARGB, BGRA, ABGR, v210, v216]

def compressedTable : List Nat := [MJPEG, DNxHD, MPEG2, AVCI, H264, DV, D10, VC2, VP8, H265]

/-- The tables together are the whole enumeration. -/
theorem C34_tables_cover : ∀ f ∈ FrameFormat.all, f ∈ planarTable.map PlanarRef.fmt ∨ f ∈ alphaTable.map Prod.fst ∨
    f ∈ packedTable ∨ f ∈ compressedTable ∨ f ∈ [ALPHA_U8_1BIT, FrameFormat.UNKNOWN, FrameFormat.INVALID] := by
  decide +kernel

/-- **C34**: all derived values of every planar format are those of its name, and the lookup by chroma format
and depth gives it back. -/
theorem C34_planar : ∀ r ∈ planarTable,
    isPlanar r.fmt = true ∧ isPacked r.fmt = false ∧ isCompressed r.fmt = false ∧ isAlpha r.fmt = false ∧
      (isPlanarRgb r.fmt = true ↔ r.chroma = Chroma.RGB) ∧
      bytesPerValue r.fmt = r.bytes ∧ (hShift r.fmt, vShift r.fmt) = shifts r.chroma ∧ activeBits r.fmt = r.bits ∧
      planarFormat r.chroma r.bits = some r.fmt := by decide +kernel

/-- **C34** for the alpha formats (except the one-bit one, below). -/
theorem C34_alpha : ∀ r ∈ alphaTable, isAlpha r.1 = true ∧ isPlanar r.1 = true ∧ isPacked r.1 = false ∧
    isCompressed r.1 = false ∧ isPlanarRgb r.1 = false ∧ bytesPerValue r.1 = r.2.1 ∧ activeBits r.1 = r.2.2 ∧
    (hShift r.1, vShift r.1) = (0, 0) := by decide +kernel

/-- **C34** for the packed and the compressed formats. -/
theorem C34_kinds :
    (∀ f ∈ packedTable, isPacked f = true ∧ isPlanar f = false ∧ isCompressed f = false ∧ isAlpha f = false ∧
      isPlanarRgb f = false) ∧
    (∀ f ∈ compressedTable, isCompressed f = true ∧ isPacked f = false ∧ isPlanar f = false ∧ isAlpha f = false ∧
      isPlanarRgb f = false) := by decide +kernel

/-- The lookup never gives anything else: for any chroma format and *any* depth, if it gives a format then
this format is in the planar table with that chroma format and depth. -/
theorem C34_lookup_sound (chroma depth fmt : Nat) (hc : chroma ∈ Chroma.all)
    (h : planarFormat chroma depth = some fmt) : ∃ r ∈ planarTable, r.fmt = fmt ∧ r.chroma = chroma ∧ r.bits = depth := by
  have hc16 : chroma ≤ 16 := (by decide : ∀ c ∈ Chroma.all, c ≤ 16) chroma hc
  have hmem : fmt ∈ FrameFormat.all ∧ depth = fmt / 1024 := by
    have aux : ∀ k, k ≤ 8 → frameFormat (k + chroma + (depth <<< 10)) = some fmt →
        fmt ∈ FrameFormat.all ∧ depth = fmt / 1024 := by
      intro k hk hf
      unfold frameFormat at hf
      split at hf
      · rename_i hm
        injection hf with hf
        rw [← hf]
        refine ⟨hm, ?_⟩
        rw [Nat.shiftLeft_eq]
        omega
      · cases hf
    unfold planarFormat at h
    split at h
    · exact aux 0 (by omega) h
    · split at h
      · exact aux 8 (by omega) h
      · exact aux 4 (by omega) h
  obtain ⟨hm, hd⟩ := hmem
  have all : ∀ fmt ∈ FrameFormat.all, ∀ chroma ∈ Chroma.all, planarFormat chroma (fmt / 1024) = some fmt →
      ∃ r ∈ planarTable, r.fmt = fmt ∧ r.chroma = chroma ∧ r.bits = fmt / 1024 := by decide +kernel
  subst hd
  exact all fmt hm chroma hc h

/-- For every integer whatsoever, not only members: planar means neither packed nor compressed. -/
theorem C34_consistent (f : Nat) : (isPlanar f = true ↔ isPacked f = false ∧ isCompressed f = false) := by
  unfold isPlanar isPacked isCompressed
  have h3 : (f >>> 8) &&& 0x3 = (f / 256) % 4 := by
    rw [show (0x3 : Nat) = 2 ^ 2 - 1 from rfl, Nat.and_two_pow_sub_one_eq_mod, Nat.shiftRight_eq_div_pow]
  have h1 : (f >>> 8) &&& 0x1 = (f / 256) % 2 := by rw [Nat.and_one_is_mod, Nat.shiftRight_eq_div_pow]
  have h2 : (f >>> 9) &&& 0x1 = (f / 512) % 2 := by rw [Nat.and_one_is_mod, Nat.shiftRight_eq_div_pow]
  rw [h1, h2, h3]
  simp only [beq_iff_eq, bne_eq_false_iff_eq]
  omega

/-- Significant bits fit in the bytes of a value, for all members that are planar. -/
theorem C34_bits_fit : ∀ f ∈ FrameFormat.all, isPlanar f = true →
    0 < activeBits f ∧ activeBits f ≤ 8 * bytesPerValue f := by decide +kernel

/-- The audio formats: layout, number type and compression, by their names. -/
theorem C34_audio :
    (∀ f ∈ [AudioFormat.S16_PLANES, AudioFormat.S24_PLANES, AudioFormat.S32_PLANES, AudioFormat.FLOAT_PLANES,
        AudioFormat.DOUBLE_PLANES],
      audioIsPlanes f = true ∧ audioIsPairs f = false ∧ audioIsInterleaved f = false ∧ audioIsCompressed f = false) ∧
    (∀ f ∈ [AudioFormat.S16_PAIRS, AudioFormat.S24_PAIRS, AudioFormat.S32_PAIRS, AudioFormat.FLOAT_PAIRS,
        AudioFormat.DOUBLE_PAIRS],
      audioIsPlanes f = false ∧ audioIsPairs f = true ∧ audioIsInterleaved f = false ∧ audioIsCompressed f = false) ∧
    (∀ f ∈ [AudioFormat.S16_INTERLEAVED, AudioFormat.S24_INTERLEAVED, AudioFormat.S32_INTERLEAVED,
        AudioFormat.FLOAT_INTERLEAVED, AudioFormat.DOUBLE_INTERLEAVED],
      audioIsPlanes f = false ∧ audioIsPairs f = false ∧ audioIsInterleaved f = true ∧ audioIsCompressed f = false) ∧
    (∀ f ∈ [AudioFormat.S16_PLANES, AudioFormat.S16_PAIRS, AudioFormat.S16_INTERLEAVED, AudioFormat.S24_PLANES,
        AudioFormat.S24_PAIRS, AudioFormat.S24_INTERLEAVED, AudioFormat.S32_PLANES, AudioFormat.S32_PAIRS,
        AudioFormat.S32_INTERLEAVED],
      audioIsInt f = true ∧ audioIsFloat f = false ∧ audioIsDouble f = false) ∧
    (∀ f ∈ [AudioFormat.FLOAT_PLANES, AudioFormat.FLOAT_PAIRS, AudioFormat.FLOAT_INTERLEAVED],
      audioIsInt f = false ∧ audioIsFloat f = true ∧ audioIsDouble f = false) ∧
    (∀ f ∈ [AudioFormat.DOUBLE_PLANES, AudioFormat.DOUBLE_PAIRS, AudioFormat.DOUBLE_INTERLEAVED],
      audioIsInt f = false ∧ audioIsFloat f = false ∧ audioIsDouble f = true) ∧
    (∀ f ∈ [AudioFormat.MP1, AudioFormat.AAC, AudioFormat.OPUS], audioIsCompressed f = true) := by decide +kernel

/-- **C34 fails** for `ALPHA_U8_1BIT`: it claims four active bits. -/
theorem C34_one_bit_counterexample : activeBits ALPHA_U8_1BIT = 4 := by decide

/-- **C34 fails** for the shifts of packed formats: YUYV and UYVY have the same sampling and different
horizontal shifts. -/
theorem C34_packed_shift_counterexample : hShift YUYV = 0 ∧ hShift UYVY = 1 := by decide

/-- The placeholders count as packed, compressed and alpha at once. -/
theorem C34_placeholders : ∀ f ∈ [FrameFormat.UNKNOWN, FrameFormat.INVALID],
    isPacked f = true ∧ isCompressed f = true ∧ isAlpha f = true ∧ isPlanar f = false := by decide

end Verif.Props

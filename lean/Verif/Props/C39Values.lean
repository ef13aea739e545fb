import Verif.Props.C39
import Verif.Props.C47

/-!
# C39 and C47: the tables

The values in the tables of the ADTS parser and of the test patterns, given by the rules of the standards they come from.
-/

namespace Verif.Props

open Verif Verif.Cog Verif.Wrap.Adts Verif.Pattern Verif.Props.AdtsSplit

/-- **C39**, values: the channel configuration is the number of channels, except that 7 means 8 channels. The sampling rates are 96000, 88200 and 64000 and
their halves, quarters and eighths, then 7350; the last three indices are rejected. -/
theorem C39_values (d : Bytes) (i : Info) (h : parseHeader d = some i) :
    i.channels = (if field d 23 3 = 7 then 8 else field d 23 3) ∧ field d 18 4 ≤ 12 ∧
      i.sampleRate = (if field d 18 4 = 12 then 7350 else [96000, 88200, 64000].getD (field d 18 4 % 3) 0 / 2 ^ (field d 18 4 / 3)) := by
  obtain ⟨_, _, _, h1, h2, _⟩ := (C39_header d i).1 h
  have c : ∀ k < 8, channelCounts[k]? = some (if k = 7 then 8 else k) := by decide
  have f : ∀ k < 13, sampleFrequencies[k]? = some (if k = 12 then 7350 else [96000, 88200, 64000].getD (k % 3) 0 / 2 ^ (k / 3)) := by decide
  obtain ⟨l1, _⟩ := List.getElem?_eq_some_iff.1 h1
  obtain ⟨l2, _⟩ := List.getElem?_eq_some_iff.1 h2
  rw [f _ l1] at h1
  rw [c _ l2] at h2
  injection h1 with h1
  injection h2 with h2
  exact ⟨h2.symm, Nat.le_of_lt_succ l1, h1.symm⟩

/-- A header with configuration 7 and index 4: eight channels at 44100 samples each second. -/
example : (parseHeader [0xff, 0xf1, 0x51, 0xc0, 0x01, 0x1f, 0xfc]).map (fun i => (i.channels, i.sampleRate)) = some (8, 44100) := by decide +kernel

/-- **C47**, nominal range: that of ITU-R BT.601 and BT.709 for the active bits of the format. Black is 16 and white 235, the middle of the chroma is 128 and
its range 224, times a power of two. -/
theorem C47_ranges (fmt : Nat) (r : PixelRange) (hr : pixelRanges.lookup fmt = some r) :
    r.bits = activeBits fmt ∧ r.bpp = bytesPerValue fmt ∧ r.luma.1 = 16 * 2 ^ (r.bits - 8) ∧ r.luma.1 + r.luma.2 = 235 * 2 ^ (r.bits - 8) ∧
      r.chroma.1 = 128 * 2 ^ (r.bits - 8) ∧ r.chroma.2 = 224 * 2 ^ (r.bits - 8) := by
  have hall : ∀ p ∈ pixelRanges, p.2.bits = activeBits p.1 ∧ p.2.bpp = bytesPerValue p.1 ∧ p.2.luma.1 = 16 * 2 ^ (p.2.bits - 8) ∧
      p.2.luma.1 + p.2.luma.2 = 235 * 2 ^ (p.2.bits - 8) ∧ p.2.chroma.1 = 128 * 2 ^ (p.2.bits - 8) ∧
      p.2.chroma.2 = 224 * 2 ^ (p.2.bits - 8) := by decide +kernel
  exact hall (fmt, r) (Video.lookup_mem hr)

/-- The planar YUV formats of 8, 10, 12 and 16 bits are the ones with a range. -/
theorem C47_formats (fmt : Nat) : (pixelRanges.lookup fmt).isSome ↔ fmt ∈ [FrameFormat.U8_444, FrameFormat.U8_422, FrameFormat.U8_420,
    FrameFormat.S16_444_10BIT, FrameFormat.S16_422_10BIT, FrameFormat.S16_420_10BIT, FrameFormat.S16_444_12BIT, FrameFormat.S16_422_12BIT,
    FrameFormat.S16_420_12BIT, FrameFormat.S16_444, FrameFormat.S16_422, FrameFormat.S16_420] := by
  constructor
  · intro h
    obtain ⟨r, hr⟩ := Option.isSome_iff_exists.1 h
    have hall : ∀ p ∈ pixelRanges, p.1 ∈ [FrameFormat.U8_444, FrameFormat.U8_422, FrameFormat.U8_420,
        FrameFormat.S16_444_10BIT, FrameFormat.S16_422_10BIT, FrameFormat.S16_420_10BIT, FrameFormat.S16_444_12BIT, FrameFormat.S16_422_12BIT,
        FrameFormat.S16_420_12BIT, FrameFormat.S16_444, FrameFormat.S16_422, FrameFormat.S16_420] := by decide +kernel
    exact hall (fmt, r) (Video.lookup_mem hr)
  · revert fmt
    decide +kernel

/-- A format of 12 bits. -/
example : pixelRanges.lookup FrameFormat.S16_420_12BIT = some ⟨2, (16 * 16, 219 * 16), (128 * 16, 224 * 16), 12⟩ := by decide

end Verif.Props

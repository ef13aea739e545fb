import Verif.Cog.Enums

/-!
# Sizes of video and audio data

Models `size_for_format`, `components_for_format` and `expected_length` of `grains/VideoGrain.py` and
`size_for_audio_format` of `grains/AudioGrain.py`.
-/

namespace Verif.Cog

/-- A video component dictionary. -/
structure Component where
  stride : Nat
  offset : Nat
  width : Nat
  height : Nat
  length : Nat
  deriving DecidableEq, Repr

/-- `fmt in (YUYV, UYVY, AYUV)`. -/
def twoByteFormats : List Nat := [FrameFormat.YUYV, FrameFormat.UYVY, FrameFormat.AYUV]

/-- The formats of lines 318-325 and 385-392. -/
def fourByteFormats : List Nat :=
  [FrameFormat.RGBx, FrameFormat.RGBA, FrameFormat.xRGB, FrameFormat.ARGB, FrameFormat.BGRx, FrameFormat.BGRA,
    FrameFormat.xBGR, FrameFormat.ABGR]

/-- `size_for_format`, VideoGrain.py lines 303-334. -/
def sizeForFormat (fmt w h : Nat) : Nat :=
  if (fmt >>> 8) &&& 0x1 = 0 then
    (w * h + 2 * ((w * h) >>> (hShift fmt + vShift fmt))) * bytesPerValue fmt
  else if fmt ∈ twoByteFormats then w * h * 2
  else if fmt ∈ fourByteFormats then w * h * 4
  else if fmt = FrameFormat.RGB then w * h * 3
  else if fmt = FrameFormat.v210 then h * (((w + 47) / 48) * 128)
  else if fmt = FrameFormat.v216 then w * h * 4
  else 0

/-- `components_for_format`, VideoGrain.py lines 339-424. -/
def componentsForFormat (fmt w h : Nat) : List Component :=
  if (fmt >>> 8) &&& 0x1 = 0 then
    let hs := hShift fmt
    let vs := vShift fmt
    let bpv := bytesPerValue fmt
    let chroma := ((w * h) >>> (hs + vs)) * bpv
    [⟨w * bpv, 0, w, h, w * h * bpv⟩,
      ⟨(w >>> hs) * bpv, 0 + w * h * bpv, w >>> hs, h >>> vs, chroma⟩,
      ⟨(w >>> hs) * bpv, 0 + w * h * bpv + chroma, w >>> hs, h >>> vs, chroma⟩]
  else if fmt ∈ twoByteFormats then [⟨w * 2, 0, w, h, h * w * 2⟩]
  else if fmt ∈ fourByteFormats then [⟨w * 4, 0, w, h, h * w * 4⟩]
  else if fmt = FrameFormat.RGB then [⟨w * 3, 0, w, h, h * w * 3⟩]
  else if fmt = FrameFormat.v210 then [⟨((w + 47) / 48) * 128, 0, w, h, h * (((w + 47) / 48) * 128)⟩]
  else if fmt = FrameFormat.v216 then [⟨w * 4, 0, w, h, h * w * 4⟩]
  else []

/-- `expected_length` of a video grain, lines 537-543. -/
def expectedLength (cs : List Component) : Nat :=
  cs.foldl (fun length c => if c.offset + c.length > length then c.offset + c.length else length) 0

/-- `size_for_audio_format`, AudioGrain.py lines 15-29 (also `expected_length`, 219-221). -/
def sizeForAudioFormat (fmt channels samples : Nat) : Nat :=
  if fmt &&& 0x200 = 0x200 then 0
  else
    let channels := if fmt &&& 0x3 = 0x1 then (channels + 1) / 2 * 2 else channels
    let depth := if fmt &&& 0xC = 0xC then 8 else if fmt &&& 0xf = 0x04 then 4 else ((fmt &&& 0xf) >>> 2) + 2
    channels * samples * depth

end Verif.Cog

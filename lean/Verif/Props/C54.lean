import Verif.Numpy.Arrays
import Verif.Props.C55
import Verif.Props.C31

/-!
# C54: channel arrays of numpy audio grains
-/

namespace Verif.Props

open Verif Verif.Cog Verif.Numpy.Arrays

/-! ## How the samples of a grain are laid out

`s c k` is sample `k` of channel `c`. -/

/-- Planes: all samples of the first channel, then all of the second, … -/
def planesData (s : Nat → Nat → Bytes) (samples channels : Nat) : Bytes :=
  (List.range channels).flatMap fun c => (List.range samples).flatMap fun k => s c k

/-- Interleaved: the first samples of all channels, then the second samples, … -/
def interleavedData (s : Nat → Nat → Bytes) (samples channels : Nat) : Bytes :=
  (List.range samples).flatMap fun k => (List.range channels).flatMap fun c => s c k

/-- Pairs: the first two channels interleaved, then the next two, …, the last one with an unused one if the number
of channels is odd. -/
def pairsData (s : Nat → Nat → Bytes) (samples channels : Nat) : Bytes :=
  (List.range ((channels + 1) / 2)).flatMap fun p => (List.range samples).flatMap fun k => s (2 * p) k ++ s (2 * p + 1) k

/-- The data of a grain with samples `s`. -/
def audioData (fmt : Nat) (s : Nat → Nat → Bytes) (samples channels : Nat) : Bytes :=
  if audioIsPlanes fmt then planesData s samples channels
  else if audioIsInterleaved fmt then interleavedData s samples channels
  else pairsData s samples channels

/-- The sampled formats and the size of a sample in the data. -/
def pcmFormats : List (Nat × Nat) :=
  [(AudioFormat.S16_PLANES, 2), (AudioFormat.S16_PAIRS, 2), (AudioFormat.S16_INTERLEAVED, 2),
    (AudioFormat.S24_PLANES, 4), (AudioFormat.S24_PAIRS, 3), (AudioFormat.S24_INTERLEAVED, 3),
    (AudioFormat.S32_PLANES, 4), (AudioFormat.S32_PAIRS, 4), (AudioFormat.S32_INTERLEAVED, 4),
    (AudioFormat.FLOAT_PLANES, 4), (AudioFormat.FLOAT_PAIRS, 4), (AudioFormat.FLOAT_INTERLEAVED, 4),
    (AudioFormat.DOUBLE_PLANES, 8), (AudioFormat.DOUBLE_PAIRS, 8), (AudioFormat.DOUBLE_INTERLEAVED, 8)]

/-- The formats with samples of 24 bits. -/
def s24Formats : List Nat := [AudioFormat.S24_PLANES, AudioFormat.S24_PAIRS, AudioFormat.S24_INTERLEAVED]

namespace AudioArrays

theorem flatMap_length {f : Nat → Bytes} {L : Nat} (h : ∀ i, (f i).length = L) (n : Nat) :
    ((List.range n).flatMap f).length = n * L := by
  induction n with
  | zero => simp
  | succ n ih => rw [List.range_succ, List.flatMap_append, List.length_append, ih]; simp [h, Nat.add_mul]

/-- Blocks of the same length: block `i` is at `i * L`, and what is inside it is at the same place after that. -/
theorem flatMap_block {f : Nat → Bytes} {L : Nat} (h : ∀ i, (f i).length = L) {n i a m : Nat} (hi : i < n)
    (ha : a + m ≤ L) : (((List.range n).flatMap f).drop (i * L + a)).take m = ((f i).drop a).take m := by
  induction n with
  | zero => omega
  | succ n ih =>
    rw [List.range_succ, List.flatMap_append]
    have hl := flatMap_length h n
    by_cases hn : i < n
    · have : (i + 1) * L ≤ n * L := Nat.mul_le_mul_right _ hn
      rw [Nat.add_mul, Nat.one_mul] at this
      rw [List.drop_append_of_le_length (by omega), List.take_append_of_le_length (by rw [List.length_drop]; omega), ih hn]
    · have : i = n := by omega
      subst this
      rw [← List.drop_drop, List.drop_append, hl, List.drop_of_length_le (l := List.flatMap _ _) (by omega)]
      simp

/-- What the theorems say about the arrays: one for each channel, of `samples` elements, of which element `k` reads
`s c k`, whose first byte is byte `b * idx c k` of the memory. -/
def Reads (s : Nat → Nat → Bytes) (b samples channels : Nat) (idx : Nat → Nat → Nat) (mem : Bytes) (views : List ChanView) :
    Prop :=
  views.length = channels ∧ ∀ (c : Nat) (v : ChanView), views[c]? = some v → v.count = samples ∧ v.itemsize = b ∧
    ∀ k, k < samples → v.get mem k = some (s c k) ∧ v.addr k = b * idx c k

theorem take_all {l : Bytes} {n : Nat} (h : l.length = n) : l.take n = l := List.take_of_length_le (by omega)

theorem get_of {v : ChanView} {mem : Bytes} {k b : Nat} {val : Bytes} (hb : v.itemsize = b) (hval : val.length = b)
    (h : (mem.drop (v.addr k)).take b = val) (hpos : v.addr k + b ≤ mem.length) : v.get mem k = some val := by
  unfold ChanView.get
  rw [hb, if_pos hpos, h]

theorem get_of_range {channels c : Nat} {f : Nat → ChanView} {v : ChanView} (h : ((List.range channels).map f)[c]? = some v) :
    c < channels ∧ v = f c := by
  rw [List.getElem?_map] at h
  by_cases hc : c < channels
  · rw [List.getElem?_range hc] at h
    cases h
    exact ⟨hc, rfl⟩
  · rw [List.getElem?_eq_none (by simp; omega)] at h
    cases h

theorem cell {x y w h : Nat} (hx : x < w) (hy : y < h) : y * w + x + 1 ≤ h * w := by
  have : (y + 1) * w ≤ h * w := Nat.mul_le_mul_right _ hy
  rw [Nat.add_mul, Nat.one_mul] at this
  omega

theorem planes_read {s : Nat → Nat → Bytes} {b samples channels fmt : Nat} (hs : ∀ c k, (s c k).length = b) (hb : 0 < b)
    (hf : audioIsPlanes fmt = true) :
    (planesData s samples channels).length = channels * samples * b ∧
    Reads s b samples channels (fun c k => c * samples + k) (planesData s samples channels)
      (channelViews (channels * samples) b b fmt samples channels) := by
  have hin : ∀ c, ((List.range samples).flatMap fun k => s c k).length = samples * b := fun c => flatMap_length (hs c) samples
  have hlen : (planesData s samples channels).length = channels * samples * b := by
    unfold planesData
    rw [flatMap_length hin, Nat.mul_assoc]
  refine ⟨hlen, ?_, ?_⟩
  · unfold channelViews
    rw [if_pos hf]
    simp
  · intro c v hv
    unfold channelViews at hv
    rw [if_pos hf] at hv
    obtain ⟨hc, rfl⟩ := get_of_range hv
    have h1 : (c + 1) * samples ≤ channels * samples := Nat.mul_le_mul_right _ hc
    have h2 : (c + 1) * samples = c * samples + samples := by rw [Nat.add_mul, Nat.one_mul]
    refine ⟨by simp only; omega, rfl, fun k hk => ?_⟩
    have ha : ∀ v : ChanView, v = ⟨min (c * samples) (channels * samples) * b, b,
        min ((c + 1) * samples) (channels * samples) - min (c * samples) (channels * samples), b⟩ →
        v.addr k = b * (c * samples + k) := by
      rintro v rfl
      unfold ChanView.addr
      simp only
      rw [Nat.min_eq_left (by omega), ← Nat.add_mul, Nat.mul_comm]
    refine ⟨?_, ha _ rfl⟩
    have hbound : (c * samples + k + 1) * b ≤ channels * samples * b := Nat.mul_le_mul_right _ (cell hk hc)
    rw [Nat.add_mul, Nat.one_mul, Nat.mul_comm _ b] at hbound
    refine get_of rfl (hs c k) ?_ (by rw [ha _ rfl, hlen]; omega)
    rw [ha _ rfl, show b * (c * samples + k) = c * (samples * b) + k * b by
      rw [Nat.mul_comm, Nat.add_mul, Nat.mul_assoc]]
    unfold planesData
    have hkb : (k + 1) * b ≤ samples * b := Nat.mul_le_mul_right _ hk
    rw [Nat.add_mul, Nat.one_mul] at hkb
    rw [flatMap_block hin hc hkb]
    have := flatMap_block (hs c) (a := 0) (m := b) hk (by omega)
    rw [Nat.add_zero] at this
    rw [this, List.drop_zero, take_all (hs c k)]

theorem interleaved_read {s : Nat → Nat → Bytes} {b samples channels fmt : Nat} (hs : ∀ c k, (s c k).length = b) (hb : 0 < b)
    (hp : audioIsPlanes fmt = false) (hf : audioIsInterleaved fmt = true) :
    (interleavedData s samples channels).length = channels * samples * b ∧
    Reads s b samples channels (fun c k => k * channels + c) (interleavedData s samples channels)
      (channelViews (channels * samples) b b fmt samples channels) := by
  have hin : ∀ k, ((List.range channels).flatMap fun c => s c k).length = channels * b :=
    fun k => flatMap_length (fun c => hs c k) channels
  have hlen : (interleavedData s samples channels).length = channels * samples * b := by
    unfold interleavedData
    rw [flatMap_length hin, ← Nat.mul_assoc, Nat.mul_comm samples]
  refine ⟨hlen, ?_, ?_⟩
  · unfold channelViews
    rw [if_neg (by simp [hp]), if_pos hf]
    simp
  · intro c v hv
    unfold channelViews at hv
    rw [if_neg (by simp [hp]), if_pos hf] at hv
    obtain ⟨hc, rfl⟩ := get_of_range hv
    refine ⟨rfl, rfl, fun k hk => ?_⟩
    have ha : ∀ v : ChanView, v = ⟨min c (channels * samples) * b, b, samples, b * channels⟩ →
        v.addr k = b * (k * channels + c) := by
      rintro v rfl
      have : channels * 1 ≤ channels * samples := Nat.mul_le_mul_left _ (by omega)
      unfold ChanView.addr
      simp only
      rw [Nat.min_eq_left (by omega), Nat.mul_add, Nat.mul_left_comm, Nat.add_comm, Nat.mul_comm c]
    refine ⟨?_, ha _ rfl⟩
    have hbound : (k * channels + c + 1) * b ≤ samples * channels * b := Nat.mul_le_mul_right _ (cell hc hk)
    rw [Nat.add_mul, Nat.one_mul, Nat.mul_comm _ b, Nat.mul_comm samples] at hbound
    refine get_of rfl (hs c k) ?_ (by rw [ha _ rfl, hlen]; omega)
    rw [ha _ rfl, show b * (k * channels + c) = k * (channels * b) + c * b by
      rw [Nat.mul_comm, Nat.add_mul, Nat.mul_assoc]]
    unfold interleavedData
    have hkb : (c + 1) * b ≤ channels * b := Nat.mul_le_mul_right _ hc
    rw [Nat.add_mul, Nat.one_mul] at hkb
    rw [flatMap_block hin hk hkb]
    have := flatMap_block (f := fun c => s c k) (fun c => hs c k) (a := 0) (m := b) hc (by omega)
    rw [Nat.add_zero] at this
    rw [this, List.drop_zero, take_all (hs c k)]

theorem pairs_read {s : Nat → Nat → Bytes} {b samples channels fmt : Nat} (hs : ∀ c k, (s c k).length = b) (hb : 0 < b)
    (hp : audioIsPlanes fmt = false) (hi : audioIsInterleaved fmt = false) (hf : audioIsPairs fmt = true) :
    (pairsData s samples channels).length = (channels + 1) / 2 * 2 * samples * b ∧
    Reads s b samples channels (fun c k => c / 2 * (2 * samples) + (2 * k + c % 2)) (pairsData s samples channels)
      (channelViews ((channels + 1) / 2 * 2 * samples) b b fmt samples channels) := by
  have hpair : ∀ p k, (s (2 * p) k ++ s (2 * p + 1) k).length = 2 * b := by
    intro p k
    rw [List.length_append, hs, hs]
    omega
  have hin : ∀ p, ((List.range samples).flatMap fun k => s (2 * p) k ++ s (2 * p + 1) k).length = samples * (2 * b) :=
    fun p => flatMap_length (hpair p) samples
  have hlen : (pairsData s samples channels).length = (channels + 1) / 2 * 2 * samples * b := by
    unfold pairsData
    rw [flatMap_length hin, Nat.mul_left_comm samples, ← Nat.mul_assoc, ← Nat.mul_assoc]
  refine ⟨hlen, ?_, ?_⟩
  · unfold channelViews
    rw [if_neg (by simp [hp]), if_neg (by simp [hi]), if_pos hf]
    simp
  · intro c v hv
    unfold channelViews at hv
    rw [if_neg (by simp [hp]), if_neg (by simp [hi]), if_pos hf] at hv
    obtain ⟨hc, rfl⟩ := get_of_range hv
    have hc2 : c / 2 < (channels + 1) / 2 := by omega
    refine ⟨rfl, rfl, fun k hk => ?_⟩
    have hcell := cell (x := 2 * k + c % 2) (y := c / 2) (w := 2 * samples) (h := (channels + 1) / 2) (by omega) hc2
    have hn : (channels + 1) / 2 * (2 * samples) = (channels + 1) / 2 * 2 * samples := by rw [Nat.mul_assoc]
    have hq : 2 * (c / 2) * samples = c / 2 * (2 * samples) := by rw [Nat.mul_comm 2, Nat.mul_assoc]
    have ha : ∀ v : ChanView, v = ⟨min (2 * (c / 2) * samples + c % 2) ((channels + 1) / 2 * 2 * samples) * b, b, samples, b * 2⟩ →
        v.addr k = b * (c / 2 * (2 * samples) + (2 * k + c % 2)) := by
      rintro v rfl
      unfold ChanView.addr
      simp only
      rw [hq, Nat.min_eq_left (by omega), Nat.mul_add, Nat.mul_add, Nat.add_mul, Nat.mul_comm _ b, Nat.mul_comm _ b,
        Nat.mul_left_comm k b 2, Nat.mul_comm k 2]
      omega
    refine ⟨?_, ha _ rfl⟩
    have hbound : (c / 2 * (2 * samples) + (2 * k + c % 2) + 1) * b ≤ (channels + 1) / 2 * (2 * samples) * b :=
      Nat.mul_le_mul_right _ hcell
    rw [Nat.add_mul, Nat.one_mul, Nat.mul_comm _ b, hn] at hbound
    refine get_of rfl (hs c k) ?_ (by rw [ha _ rfl, hlen]; omega)
    rw [ha _ rfl, show b * (c / 2 * (2 * samples) + (2 * k + c % 2)) = c / 2 * (samples * (2 * b)) + (k * (2 * b) + c % 2 * b) by
      rw [Nat.mul_add, Nat.mul_add, Nat.mul_comm b (c % 2), Nat.mul_comm 2 samples, Nat.mul_left_comm b, Nat.mul_left_comm b,
        Nat.mul_left_comm b, Nat.mul_comm b 2, Nat.mul_comm k (2 * b)]
      congr 2
      rw [Nat.mul_assoc]]
    unfold pairsData
    have hkb : (k + 1) * (2 * b) ≤ samples * (2 * b) := Nat.mul_le_mul_right _ hk
    rw [Nat.add_mul, Nat.one_mul] at hkb
    have hcb : c % 2 * b + b ≤ 2 * b := by
      rcases Nat.mod_two_eq_zero_or_one c with e | e <;> rw [e] <;> omega
    rw [flatMap_block hin hc2 (m := b) (by omega), flatMap_block (hpair (c / 2)) hk hcb]
    rcases Nat.mod_two_eq_zero_or_one c with e | e
    · rw [e, Nat.zero_mul, List.drop_zero, List.take_append_of_le_length (by rw [hs]; omega), take_all (hs _ _)]
      congr 1
      omega
    · rw [e, Nat.one_mul, List.drop_append, List.drop_of_length_le (by rw [hs]; omega), hs, Nat.sub_self, List.nil_append,
        List.drop_zero, take_all (hs _ _)]
      congr 1
      omega

/-- The number of samples the data has room for. -/
def slots (fmt samples channels : Nat) : Nat :=
  (if audioIsPairs fmt then (channels + 1) / 2 * 2 else channels) * samples

/-- Where sample `k` of channel `c` is. -/
def index (fmt samples channels c k : Nat) : Nat :=
  if audioIsPlanes fmt then c * samples + k
  else if audioIsInterleaved fmt then k * channels + c
  else c / 2 * (2 * samples) + (2 * k + c % 2)

theorem reads {s : Nat → Nat → Bytes} {b fmt : Nat} (samples channels : Nat) (hs : ∀ c k, (s c k).length = b) (hb : 0 < b)
    (hk : audioIsPlanes fmt = true ∧ audioIsPairs fmt = false ∨
      audioIsPlanes fmt = false ∧ audioIsInterleaved fmt = true ∧ audioIsPairs fmt = false ∨
      audioIsPlanes fmt = false ∧ audioIsInterleaved fmt = false ∧ audioIsPairs fmt = true) :
    (audioData fmt s samples channels).length = slots fmt samples channels * b ∧
    Reads s b samples channels (index fmt samples channels) (audioData fmt s samples channels)
      (channelViews (slots fmt samples channels) b b fmt samples channels) := by
  unfold audioData slots index
  rcases hk with ⟨h1, h2⟩ | ⟨h1, h2, h3⟩ | ⟨h1, h2, h3⟩
  · simp only [h1, h2, if_true, Bool.false_eq_true, if_false]
    exact planes_read hs hb h1
  · simp only [h1, h2, h3, if_true, Bool.false_eq_true, if_false]
    exact interleaved_read hs hb h1 h2
  · simp only [h1, h2, h3, if_true, Bool.false_eq_true, if_false]
    exact pairs_read hs hb h1 h2 h3

theorem kinds : ∀ p ∈ pcmFormats, 0 < p.2 ∧ audioSampleBytes p.1 = p.2 ∧ audioIsCompressed p.1 = false ∧
    (audioIsPlanes p.1 = true ∧ audioIsPairs p.1 = false ∨
      audioIsPlanes p.1 = false ∧ audioIsInterleaved p.1 = true ∧ audioIsPairs p.1 = false ∨
      audioIsPlanes p.1 = false ∧ audioIsInterleaved p.1 = false ∧ audioIsPairs p.1 = true) := by decide

theorem plain : ∀ p ∈ pcmFormats, p.1 ∉ s24Formats → audioItemsize p.1 = some p.2 ∧
    ¬ (audioIsInt p.1 = true ∧ audioDepth p.1 = 4) := by decide

end AudioArrays

/-- The data so laid out has the length the format asks for. -/
theorem C54_size (fmt b : Nat) (hf : (fmt, b) ∈ pcmFormats) (s : Nat → Nat → Bytes) (hs : ∀ c k, (s c k).length = b)
    (samples channels : Nat) : (audioData fmt s samples channels).length = sizeForAudioFormat fmt channels samples := by
  obtain ⟨hb, hw, hc, hk⟩ := AudioArrays.kinds _ hf
  rw [(AudioArrays.reads samples channels hs hb hk).1, C32_audio_size, hc, hw]
  unfold AudioArrays.slots channelSlots
  by_cases h : audioIsPairs fmt = true
  · rw [if_pos h, if_pos h, if_neg (by simp)]
    congr 2
    omega
  · rw [if_neg h, if_neg h, if_neg (by simp)]

/-- For every sampled format but the 24-bit ones, any number of channels and samples: there is an array for each channel,
with an element for each sample, which is that sample, in the data of the grain itself. -/
theorem C54_channels (fmt b : Nat) (hf : (fmt, b) ∈ pcmFormats) (h24 : fmt ∉ s24Formats) (s : Nat → Nat → Bytes)
    (hs : ∀ c k, (s c k).length = b) (samples channels : Nat) (writable : Bool) :
    ∃ r, audioChannels fmt samples channels writable (audioData fmt s samples channels) = .ok r ∧
      r.data = audioData fmt s samples channels ∧ r.mem = r.data ∧ r.shared = true ∧ r.views.length = channels ∧
      ∀ (c : Nat) (v : ChanView), r.views[c]? = some v → v.count = samples ∧
        ∀ k, k < samples → v.get r.mem k = some (s c k) := by
  obtain ⟨hb, hw, hc, hk⟩ := AudioArrays.kinds _ hf
  obtain ⟨hi, hn⟩ := AudioArrays.plain _ hf h24
  obtain ⟨hl, hv, hr⟩ := AudioArrays.reads samples channels hs hb hk
  refine ⟨⟨audioData fmt s samples channels, audioData fmt s samples channels, true,
    channelViews (AudioArrays.slots fmt samples channels) b b fmt samples channels⟩, ?_, rfl, rfl, rfl, hv, ?_⟩
  · unfold audioChannels
    rw [hi]
    simp only
    rw [hl, Nat.mul_mod_left, if_neg (by simp), if_neg hn, Nat.mul_div_cancel _ hb, hw]
  · intro c v hcv
    exact ⟨(hr c v hcv).1, fun k hk => ((hr c v hcv).2.2 k hk).1⟩

/-- Assigning to an element of those arrays changes that sample of the grain and no other. -/
theorem C54_write (fmt b : Nat) (hf : (fmt, b) ∈ pcmFormats) (h24 : fmt ∉ s24Formats) (s : Nat → Nat → Bytes)
    (hs : ∀ c k, (s c k).length = b) (samples channels : Nat) (writable : Bool) (r : Channels)
    (hr : audioChannels fmt samples channels writable (audioData fmt s samples channels) = .ok r)
    (c k : Nat) (v : ChanView) (hv : r.views[c]? = some v) (hk : k < samples) (val : Bytes) (hval : val.length = b) :
    ∃ mem, v.set r.mem k val = some mem ∧ mem.length = r.mem.length ∧
      ∀ (c' k' : Nat) (v' : ChanView), r.views[c']? = some v' → k' < samples →
        v'.get mem k' = some (if c' = c ∧ k' = k then val else s c' k') := by
  obtain ⟨hb, hw, hc, hkind⟩ := AudioArrays.kinds _ hf
  obtain ⟨hi, hn⟩ := AudioArrays.plain _ hf h24
  obtain ⟨hl, hvl, hread⟩ := AudioArrays.reads samples channels hs hb hkind
  have e : r = ⟨audioData fmt s samples channels, audioData fmt s samples channels, true,
      channelViews (AudioArrays.slots fmt samples channels) b b fmt samples channels⟩ := by
    unfold audioChannels at hr
    rw [hi] at hr
    simp only at hr
    rw [hl, Nat.mul_mod_left, if_neg (by simp), if_neg hn, Nat.mul_div_cancel _ hb, hw] at hr
    cases hr
    rfl
  subst e
  simp only at hv hvl ⊢
  obtain ⟨-, h2, h3⟩ := hread c v hv
  obtain ⟨h4, h5⟩ := h3 k hk
  have hin : v.addr k + b ≤ (audioData fmt s samples channels).length := by
    unfold ChanView.get at h4
    rw [h2] at h4
    split at h4
    · assumption
    · cases h4
  have hlen : ((audioData fmt s samples channels).take (v.addr k) ++ val ++
      (audioData fmt s samples channels).drop (v.addr k + b)).length = (audioData fmt s samples channels).length := by
    simp only [List.length_append, List.length_take, List.length_drop, hval]
    omega
  refine ⟨_, by unfold ChanView.set; rw [h2, if_pos hin, List.take_of_length_le (l := val) (by omega)], hlen, ?_⟩
  intro c' k' v' hv' hk'
  obtain ⟨-, h2', h3'⟩ := hread c' v' hv'
  obtain ⟨h4', h5'⟩ := h3' k' hk'
  by_cases hsame : c' = c ∧ k' = k
  · obtain ⟨rfl, rfl⟩ := hsame
    rw [hv] at hv'
    cases hv'
    rw [if_pos ⟨rfl, rfl⟩]
    unfold ChanView.get
    rw [hlen, h2, if_pos hin, VideoArrays.splice_same hin hval]
  · rw [if_neg hsame, ← h4']
    have hcl : c < channels := by rw [← hvl]; exact (List.getElem?_eq_some_iff.1 hv).1
    have hcl' : c' < channels := by rw [← hvl]; exact (List.getElem?_eq_some_iff.1 hv').1
    have hidx : AudioArrays.index fmt samples channels c k ≠ AudioArrays.index fmt samples channels c' k' := by
      intro e
      apply hsame
      unfold AudioArrays.index at e
      split at e
      · obtain ⟨a, b⟩ := VideoArrays.rows (R := samples) (y := c) (y' := c') hk hk' (by omega)
        exact ⟨a.symm, b.symm⟩
      · split at e
        · obtain ⟨a, b⟩ := VideoArrays.rows (R := channels) (y := k) (y' := k') hcl hcl' (by omega)
          exact ⟨b.symm, a.symm⟩
        · obtain ⟨a, b⟩ := VideoArrays.rows (R := 2 * samples) (y := c / 2) (y' := c' / 2) (a := 2 * k + c % 2)
            (a' := 2 * k' + c' % 2) (by omega) (by omega) (by omega)
          omega
    have hd : v.addr k + b ≤ v'.addr k' ∨ v'.addr k' + b ≤ v.addr k := by
      simp only at h5 h5'
      rw [h5, h5']
      rcases Nat.lt_or_gt_of_ne hidx with hlt | hlt
      · left
        have := Nat.mul_le_mul_left b (Nat.succ_le_of_lt hlt)
        rwa [Nat.mul_succ] at this
      · right
        have := Nat.mul_le_mul_left b (Nat.succ_le_of_lt hlt)
        rwa [Nat.mul_succ] at this
    unfold ChanView.get
    rw [hlen, h2', VideoArrays.splice_get hin hval hd]

/-! ## 24 bits -/

namespace AudioArrays

theorem widen_append : ∀ (n : Nat) (x y : Bytes), x.length = 3 * n → widen (x ++ y) = widen x ++ widen y
  | 0, x, y, h => by
    have : x = [] := List.length_eq_zero_iff.1 (by omega)
    subst this
    rfl
  | n + 1, [], y, h => by simp at h
  | n + 1, [a], y, h => by simp at h; omega
  | n + 1, [a, b], y, h => by simp at h; omega
  | n + 1, a :: b :: c :: x, y, h => by
    have := widen_append n x y (by simp at h; omega)
    simp only [List.cons_append, widen, this]

theorem shift8_append : ∀ (n : Nat) (x y : Bytes), x.length = 4 * n → shift8 (x ++ y) = shift8 x ++ shift8 y
  | 0, x, y, h => by
    have : x = [] := List.length_eq_zero_iff.1 (by omega)
    subst this
    rfl
  | n + 1, [], y, h => by simp at h
  | n + 1, [a], y, h => by simp at h; omega
  | n + 1, [a, b], y, h => by simp at h; omega
  | n + 1, [a, b, c], y, h => by simp at h; omega
  | n + 1, a :: b :: c :: d :: x, y, h => by
    have := shift8_append n x y (by simp at h; omega)
    simp only [List.cons_append, shift8, this]

/-- A function that works on `u` bytes at a time. -/
structure Units (F : Bytes → Bytes) (u : Nat) : Prop where
  nil : F [] = []
  append : ∀ n x y, x.length = u * n → F (x ++ y) = F x ++ F y

theorem Units.flatMap {F : Bytes → Bytes} {u : Nat} (hF : Units F u) {f : Nat → Bytes} {m : Nat}
    (hf : ∀ i, (f i).length = u * m) (n : Nat) :
    F ((List.range n).flatMap f) = (List.range n).flatMap (fun i => F (f i)) := by
  induction n with
  | zero => simpa using hF.nil
  | succ n ih =>
    rw [List.range_succ, List.flatMap_append, List.flatMap_append, hF.append (n * m), ih]
    · simp
    · rw [flatMap_length hf, Nat.mul_left_comm]

theorem Units.audioData {F : Bytes → Bytes} {u : Nat} (hF : Units F u) {s : Nat → Nat → Bytes}
    (hs : ∀ c k, (s c k).length = u) (fmt samples channels : Nat) :
    F (audioData fmt s samples channels) = audioData fmt (fun c k => F (s c k)) samples channels := by
  have h1 : ∀ c k, (s c k).length = u * 1 := fun c k => by rw [hs, Nat.mul_one]
  unfold Props.audioData
  split
  · unfold planesData
    rw [hF.flatMap (fun c => show _ = u * samples by rw [flatMap_length (hs c)]; exact Nat.mul_comm _ _)]
    congr 1
    funext c
    exact hF.flatMap (h1 c) samples
  · split
    · unfold interleavedData
      rw [hF.flatMap (fun k => show _ = u * channels by rw [flatMap_length (fun c => hs c k)]; exact Nat.mul_comm _ _)]
      congr 1
      funext k
      exact hF.flatMap (fun c => h1 c k) channels
    · have hpair : ∀ p k, (s (2 * p) k ++ s (2 * p + 1) k).length = u * 2 := by
        intro p k
        rw [List.length_append, hs, hs]
        omega
      unfold pairsData
      rw [hF.flatMap (fun p => show _ = u * (2 * samples) by rw [flatMap_length (hpair p), Nat.mul_comm 2, Nat.mul_left_comm])]
      congr 1
      funext p
      rw [hF.flatMap (hpair p)]
      congr 1
      funext k
      exact hF.append 1 _ _ (h1 _ _)

theorem widen_three {l : Bytes} (h : l.length = 3) : widen l = 0 :: l := by
  match l, h with
  | [a, b, c], _ => rfl

theorem shift8_four {l : Bytes} (h : l.length = 4) : shift8 l = 0 :: l.take 3 := by
  match l, h with
  | [a, b, c, d], _ => rfl

end AudioArrays

/-- 24-bit samples of three bytes: the elements are the samples with a zero byte below, in memory of their own; the data
of the grain is as it was, and assigning to an element does not change it. -/
theorem C54_s24 (fmt : Nat) (hf : fmt ∈ [AudioFormat.S24_PAIRS, AudioFormat.S24_INTERLEAVED]) (s : Nat → Nat → Bytes)
    (hs : ∀ c k, (s c k).length = 3) (samples channels : Nat) (writable : Bool) :
    ∃ r, audioChannels fmt samples channels writable (audioData fmt s samples channels) = .ok r ∧
      r.data = audioData fmt s samples channels ∧ r.shared = false ∧ r.views.length = channels ∧
      ∀ (c : Nat) (v : ChanView), r.views[c]? = some v → v.count = samples ∧
        ∀ k, k < samples → v.get r.mem k = some (0 :: s c k) := by
  have hp : (fmt, 3) ∈ pcmFormats ∧ audioItemsize fmt = some 1 ∧ audioIsInt fmt = true ∧ audioDepth fmt = 4 ∧
      audioSampleBytes fmt = 3 := by
    revert fmt
    decide
  obtain ⟨hp, h1, h2, h3, h4⟩ := hp
  obtain ⟨hb, hw, hc, hk⟩ := AudioArrays.kinds _ hp
  have hl := (AudioArrays.reads samples channels hs (by decide) hk).1
  obtain ⟨-, hv, hr⟩ := AudioArrays.reads (s := fun c k => 0 :: s c k) (b := 4) samples channels (fun c k => by simp [hs])
    (by decide) hk
  have hwid : widen (audioData fmt s samples channels) = audioData fmt (fun c k => 0 :: s c k) samples channels := by
    rw [AudioArrays.Units.audioData ⟨rfl, AudioArrays.widen_append⟩ hs]
    congr 1
    funext c k
    exact AudioArrays.widen_three (hs c k)
  refine ⟨⟨audioData fmt s samples channels, widen (audioData fmt s samples channels), false,
    channelViews (AudioArrays.slots fmt samples channels) 4 4 fmt samples channels⟩, ?_, rfl, rfl, hv, ?_⟩
  · unfold audioChannels
    rw [h1]
    simp only
    rw [Nat.mod_one, if_neg (by simp), if_pos ⟨h2, h3⟩, if_pos h4, hl, Nat.mul_mod_left, if_neg (by simp),
      Nat.mul_div_cancel _ (by decide)]
  · intro c v hcv
    simp only at hcv ⊢
    rw [hwid]
    exact ⟨(hr c v hcv).1, fun k hk => ((hr c v hcv).2.2 k hk).1⟩

/-- 24-bit samples of four bytes, in planes, over data that can be written to: the elements are the samples moved up by
eight bits.  It is the data of the grain that is moved. -/
theorem C54_s24_planes (s : Nat → Nat → Bytes) (hs : ∀ c k, (s c k).length = 4) (samples channels : Nat) :
    ∃ r, audioChannels AudioFormat.S24_PLANES samples channels true (planesData s samples channels) = .ok r ∧
      r.data = planesData (fun c k => 0 :: (s c k).take 3) samples channels ∧ r.mem = r.data ∧ r.views.length = channels ∧
      ∀ (c : Nat) (v : ChanView), r.views[c]? = some v → v.count = samples ∧
        ∀ k, k < samples → v.get r.mem k = some (0 :: (s c k).take 3) := by
  have hk := (AudioArrays.kinds (AudioFormat.S24_PLANES, 4) (by decide)).2.2.2
  have hl := (AudioArrays.reads samples channels hs (by decide) hk).1
  obtain ⟨-, hv, hr⟩ := AudioArrays.reads (s := fun c k => 0 :: (s c k).take 3) (b := 4) samples channels
    (fun c k => by simp [hs]) (by decide) hk
  have hsh : shift8 (planesData s samples channels) = planesData (fun c k => 0 :: (s c k).take 3) samples channels := by
    have := AudioArrays.Units.audioData ⟨rfl, AudioArrays.shift8_append⟩ hs AudioFormat.S24_PLANES samples channels
    have e : (fun c k => shift8 (s c k)) = fun c k => 0 :: (s c k).take 3 := by
      funext c k
      exact AudioArrays.shift8_four (hs c k)
    rw [e] at this
    exact this
  refine ⟨⟨shift8 (planesData s samples channels), shift8 (planesData s samples channels), true,
    channelViews (AudioArrays.slots AudioFormat.S24_PLANES samples channels) 4 4 AudioFormat.S24_PLANES samples channels⟩, ?_,
    hsh, rfl, hv, ?_⟩
  · have hl : (planesData s samples channels).length = AudioArrays.slots AudioFormat.S24_PLANES samples channels * 4 := hl
    show (if (planesData s samples channels).length % 1 ≠ 0 then _ else
      if (planesData s samples channels).length % 4 ≠ 0 then _ else Except.ok _) = _
    rw [hl, if_neg (by omega), if_neg (by omega), Nat.mul_div_cancel _ (by decide)]
  · intro c v hcv
    simp only at hcv ⊢
    rw [hsh]
    exact ⟨(hr c v hcv).1, fun k hk => ((hr c v hcv).2.2 k hk).1⟩

/-! ## Where it fails -/

/-- No grain with 24-bit samples in planes can be made from `bytes` (what a decoder or a file gives). -/
theorem C54_s24_planes_bytes_counterexample (samples channels : Nat) (data : Bytes) :
    (audioChannels AudioFormat.S24_PLANES samples channels false data).toOption = none := by
  show Except.toOption (if data.length % 1 ≠ 0 then _ else if data.length % 4 ≠ 0 then _ else Except.error ArrErr.value) = none
  split
  · rfl
  · split <;> rfl

/-- Making a grain over the data of another (which is what copying one does) moves the samples again: one of `0x123456`
is at first `0x12345600` and then `0x34560000`. -/
theorem C54_s24_planes_again_counterexample : ∃ r₁ r₂,
    audioChannels AudioFormat.S24_PLANES 1 1 true [0x56, 0x34, 0x12, 0] = .ok r₁ ∧
    audioChannels AudioFormat.S24_PLANES 1 1 true r₁.data = .ok r₂ ∧
    r₁.data = [0, 0x56, 0x34, 0x12] ∧ r₂.data = [0, 0, 0x56, 0x34] :=
  ⟨_, _, rfl, rfl, rfl, rfl⟩

/-- Nothing compares the amount of data with the number of samples: interleaved arrays over half the data reach outside
it. -/
theorem C54_short_counterexample : ∃ r v, audioChannels AudioFormat.S16_INTERLEAVED 4 2 true [1, 2, 3, 4, 5, 6, 7, 8] = .ok r ∧
    r.views[0]? = some v ∧ v.count = 4 ∧ v.get r.mem 1 = some [5, 6] ∧ v.get r.mem 2 = none :=
  ⟨_, _, rfl, rfl, rfl, by decide, by decide⟩

/-! ## Examples -/

/-- Three channels of two samples: `s c k` is `[16 * c + k, 255]`. -/
example : audioData AudioFormat.S16_PAIRS (fun c k => [UInt8.ofNat (16 * c + k), 255]) 2 3 =
    [0, 255, 16, 255, 1, 255, 17, 255, 32, 255, 48, 255, 33, 255, 49, 255] := by decide

example : ((audioChannels AudioFormat.S16_PAIRS 2 3 true
      (audioData AudioFormat.S16_PAIRS (fun c k => [UInt8.ofNat (16 * c + k), 255]) 2 3)).toOption.map
        fun r => r.views.map fun v => (List.range v.count).map fun k => v.get r.mem k) =
    some [[some [0, 255], some [1, 255]], [some [16, 255], some [17, 255]], [some [32, 255], some [33, 255]]] := by decide

end Verif.Props

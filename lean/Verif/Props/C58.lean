import Verif.Grain.Times

/-!
# C58: the times of grains
-/

namespace Verif.Props.GrainTimes

open Verif.Times

theorem num_nat (n : Nat) : (n : Rat).num = n := Rat.num_natCast n
theorem den_nat (n : Nat) : (n : Rat).den = 1 := Rat.den_natCast n

theorem count_nat {L : TimeLib} {n : Nat} (h : 0 < n) (c : Int) : L.count (n : Rat) c = some (L.fromCount (n : Rat) c) := by
  unfold TimeLib.count
  rw [if_pos (by rw [num_nat]; omega)]

theorem near_nat {L : TimeLib} (hL : L.Lawful) {n : Nat} (h : 0 < n) (c : Int) :
    (L.fromCount n c - 1) * n < c * 1000000000 ∧ c * 1000000000 < (L.fromCount n c + 1) * n := by
  have := hL.near n c (by rw [num_nat]; omega)
  rw [num_nat, den_nat] at this
  simpa using this

theorem down_nat {L : TimeLib} (hL : L.Lawful) {n : Nat} (h : 0 < n) {c : Int} (hc : 0 ≤ c) :
    L.fromCount n c * n ≤ c * 1000000000 := by
  have := hL.down n c (by rw [num_nat]; omega) hc
  rw [num_nat, den_nat] at this
  simpa using this

theorem nonneg_of {L : TimeLib} (hL : L.Lawful) {n : Nat} (h : 0 < n) {c : Int} (hc : 0 ≤ c) : 0 ≤ L.fromCount n c := by
  have h1 := (near_nat hL h c).2
  by_cases h0 : 0 ≤ L.fromCount n c
  · exact h0
  · have h2 : L.fromCount n c + 1 ≤ 0 := by omega
    have h3 : (L.fromCount n c + 1) * n ≤ 0 := Int.mul_nonpos_of_nonpos_of_nonneg h2 (by omega)
    omega

theorem num_pos_of {r : Rat} (h : 0 < r) : 0 < r.num := by
  have h' : Rat.blt 0 r = true := h
  unfold Rat.blt at h'
  simpa using h'

theorem lt_of_mul {a b : Int} {n : Nat} (h : a * n < b * n) : a < b := Int.lt_of_mul_lt_mul_right h (by omega)

end Verif.Props.GrainTimes

namespace Verif.Props

open Verif.Times Verif.Props.GrainTimes

/-- **C58**, all grains but audio: the range of origin times is the origin timestamp alone. -/
theorem C58_instant (L : TimeLib) (g : TGrain) (h : ∀ s r, g.body ≠ .audio s r) :
    finalOrigin L g = some g.origin ∧ originRange L g = some ⟨g.origin, g.origin⟩ := by
  unfold originRange finalOrigin
  cases hb : g.body with
  | audio s r => exact absurd hb (h s r)
  | plain => exact ⟨rfl, rfl⟩
  | video => exact ⟨rfl, rfl⟩
  | codedVideo t => exact ⟨rfl, rfl⟩

/-- **C58**, audio: the range goes from the origin timestamp to the time of the last sample, `samples - 1` sample periods later,
rounded down to a nanosecond. -/
theorem C58_audio (L : TimeLib) (hL : L.Lawful) (g : TGrain) (samples rate : Nat) (hb : g.body = .audio samples rate)
    (hs : 0 < samples) (hr : 0 < rate) :
    ∃ e, finalOrigin L g = some e ∧ originRange L g = some ⟨g.origin, e⟩ ∧ g.origin ≤ e ∧
      (e - g.origin) * rate ≤ (samples - 1) * 1000000000 ∧ (samples - 1) * 1000000000 < (e - g.origin + 1) * rate := by
  have hc : (0 : Int) ≤ (samples : Int) - 1 := by omega
  refine ⟨g.origin + L.fromCount rate (samples - 1), ?_, ?_, ?_, ?_, ?_⟩
  · unfold finalOrigin; rw [hb]; simp only [count_nat hr, Option.map_some]
  · unfold originRange finalOrigin; rw [hb]; simp only [count_nat hr, Option.map_some]
  · have := nonneg_of hL hr hc; omega
  · rw [show g.origin + L.fromCount rate (samples - 1) - g.origin = L.fromCount rate (samples - 1) by omega]
    exact down_nat hL hr hc
  · rw [show g.origin + L.fromCount rate (samples - 1) - g.origin = L.fromCount rate (samples - 1) by omega]
    exact (near_nat hL hr _).2

/-- **C58**, audio grains one after the other: when a grain starts at the time of sample `k` of its flow and the next one at the
time of the sample after its last, no time is in the ranges of both, for every sample rate up to 500 MHz. -/
theorem C58_audio_disjoint (L : TimeLib) (hL : L.Lawful) (k : Int) (samples rate : Nat) (hs : 0 < samples) (hr : 0 < rate)
    (hr2 : rate ≤ 500000000) (g next : TGrain) (hb : g.body = .audio samples rate) (ho : g.origin = L.fromCount rate k)
    (hn : next.origin = L.fromCount rate (k + samples)) (tr tr' : Range) (ht : originRange L g = some tr)
    (ht' : originRange L next = some tr') (x : Int) (hx : tr.has x) : ¬ tr'.has x := by
  obtain ⟨e, _, h2, _, h4, _⟩ := C58_audio L hL g samples rate hb hs hr
  rw [h2] at ht
  injection ht with ht
  subst ht
  have hst : tr'.start = next.origin := by
    unfold originRange at ht'
    cases hf : finalOrigin L next with
    | none => rw [hf] at ht'; cases ht'
    | some f => rw [hf] at ht'; injection ht' with ht'; subst ht'; rfl
  intro hx'
  have hle : next.origin ≤ e := by
    have a := hx.2
    have b := hx'.1
    simp only at a
    omega
  have h5 := (near_nat hL hr k).1
  have h6 := (near_nat hL hr (k + samples)).2
  rw [← ho] at h5
  rw [← hn] at h6
  have h7 : (next.origin + 1) * (rate : Int) ≤ (e + 1) * rate := Int.mul_le_mul_of_nonneg_right (by omega) (by omega)
  simp only [Int.sub_mul, Int.add_mul] at h4 h5 h6 h7
  generalize e * (rate : Int) = er at *
  generalize g.origin * (rate : Int) = gr at *
  generalize next.origin * (rate : Int) = nr at *
  omega

/-- **C58**, the time of the last sample: it is the timestamp that sample of the flow has, or the nanosecond before. Missing: it
is not always the timestamp itself, see the counterexample. -/
theorem C58_last_sample_partial (L : TimeLib) (hL : L.Lawful) (k samples rate : Nat) (hs : 0 < samples) (hr : 0 < rate)
    (g : TGrain) (hb : g.body = .audio samples rate) (ho : g.origin = L.fromCount rate k) (e : Int)
    (he : finalOrigin L g = some e) :
    e = L.fromCount rate (k + samples - 1) ∨ e = L.fromCount rate (k + samples - 1) - 1 := by
  obtain ⟨e', h1, _, _, h4, h5⟩ := C58_audio L hL g samples rate hb hs hr
  rw [h1] at he
  injection he with he
  subst he
  have a1 := down_nat hL hr (c := (k : Int)) (by omega)
  have a2 := (near_nat hL hr (k : Int)).2
  have b1 := down_nat hL hr (c := (k : Int) + samples - 1) (by omega)
  have b2 := (near_nat hL hr ((k : Int) + samples - 1)).2
  rw [← ho] at a1 a2
  generalize L.fromCount (rate : Rat) ((k : Int) + samples - 1) = f at *
  have l1 : e' < f + 1 := by
    refine lt_of_mul (n := rate) ?_
    rw [Int.sub_mul] at h4
    generalize e' * (rate : Int) = er at *
    generalize g.origin * (rate : Int) = gr at *
    generalize (f + 1) * (rate : Int) = fr at *
    omega
  have l2 : f < e' + 2 := by
    refine lt_of_mul (n := rate) ?_
    simp only [Int.add_mul, Int.sub_mul] at h5 a2 b2 b1 ⊢
    generalize e' * (rate : Int) = er at *
    generalize g.origin * (rate : Int) = gr at *
    generalize f * (rate : Int) = fr at *
    omega
  omega

/-- **C58**, presentation times: they are the origin times, moved by the same amount: the first presentation time is the start
of the presentation range and the last its end, and all of them exist or none. The amount is zero except for a coded video
grain with a temporal offset, where it is that number of grain periods. -/
theorem C58_presentation (L : TimeLib) (g : TGrain) (tr : Range) (ht : originRange L g = some tr)
    (hr : ∀ t, g.body = .codedVideo (some t) → 0 < g.rate) :
    ∃ d, presentation L g = some (g.origin + d) ∧ finalPresentation L g = some (tr.stop + d) ∧
      presentationRange L g = some ⟨tr.start + d, tr.stop + d⟩ ∧ tr.start = g.origin ∧
      (∀ t, g.body = .codedVideo (some t) → d = L.fromCount g.rate t) ∧
      ((∀ t, g.body ≠ .codedVideo (some t)) → d = 0) := by
  have hst : tr.start = g.origin ∧ finalOrigin L g = some tr.stop := by
    unfold originRange at ht
    cases hf : finalOrigin L g with
    | none => rw [hf] at ht; cases ht
    | some f => rw [hf] at ht; injection ht with ht; subst ht; exact ⟨rfl, rfl⟩
  have plain : (∀ t, g.body ≠ .codedVideo (some t)) → presentation L g = some g.origin ∧
      finalPresentation L g = finalOrigin L g ∧ presentationRange L g = originRange L g := by
    intro h
    unfold presentation finalPresentation presentationRange
    cases hb : g.body with
    | plain => exact ⟨rfl, rfl, rfl⟩
    | video => exact ⟨rfl, rfl, rfl⟩
    | audio s r => exact ⟨rfl, rfl, rfl⟩
    | codedVideo t =>
      cases t with
      | none => exact ⟨rfl, rfl, rfl⟩
      | some t => exact absurd hb (h t)
  by_cases hb : ∃ t, g.body = .codedVideo (some t)
  · obtain ⟨t, hb⟩ := hb
    have hp : 0 < g.rate.num := num_pos_of (hr t hb)
    have hc : L.count g.rate t = some (L.fromCount g.rate t) := by unfold TimeLib.count; rw [if_pos hp]
    refine ⟨L.fromCount g.rate t, ?_, ?_, ?_, hst.1, ?_, ?_⟩
    · unfold presentation; rw [hb]; simp only [hc, Option.map_some]
    · unfold finalPresentation
      rw [hst.2, hb]
      simp only [hc, Option.map_some, Option.bind_some]
    · unfold presentationRange
      rw [ht, hb]
      simp only [hc, Option.map_some, Option.bind_some]
    · intro t' ht'
      rw [hb] at ht'
      simp only [TBody.codedVideo.injEq, Option.some.injEq] at ht'
      rw [ht']
    · intro h; exact absurd hb (h t)
  · have hb' : ∀ t, g.body ≠ .codedVideo (some t) := fun t h => hb ⟨t, h⟩
    obtain ⟨h1, h2, h3⟩ := plain hb'
    refine ⟨0, ?_, ?_, ?_, hst.1, fun t h => absurd h (hb' t), fun _ => rfl⟩
    · rw [h1, Int.add_zero]
    · rw [h2, hst.2, Int.add_zero]
    · rw [h3, ht, Int.add_zero, Int.add_zero]

/-- **C58**, the media rate: grains that are not video or audio have none, others have their rate, or sample rate, unless it is
zero; and without one, normalising changes nothing. -/
theorem C58_media_rate (L : TimeLib) (g : TGrain) :
    (g.body = .plain → mediaRate g = none) ∧
    (∀ r, g.body = .video ∨ (∃ t, g.body = .codedVideo t) → (mediaRate g = some r ↔ g.rate = r ∧ r ≠ 0)) ∧
    (∀ s n r, g.body = .audio s n → (mediaRate g = some r ↔ (n : Rat) = r ∧ n ≠ 0)) ∧
    (mediaRate g = none → ∀ t tr, normaliseTime L g t = some t ∧ normaliseRange L g tr = some tr) := by
  refine ⟨?_, ?_, ?_, ?_⟩
  · intro h; unfold mediaRate; rw [h]
  · intro r h
    have e : mediaRate g = if g.rate = 0 then none else some g.rate := by
      unfold mediaRate
      rcases h with h | ⟨t, h⟩ <;> rw [h]
    rw [e]
    by_cases h0 : g.rate = 0
    · rw [if_pos h0]
      constructor
      · intro h; cases h
      · rintro ⟨rfl, h⟩; exact absurd h0 h
    · rw [if_neg h0]
      constructor
      · intro h; injection h with h; subst h; exact ⟨rfl, h0⟩
      · rintro ⟨rfl, _⟩; rfl
  · intro s n r h
    unfold mediaRate
    rw [h]
    simp only
    by_cases h0 : n = 0
    · rw [if_pos h0]
      constructor
      · intro h; cases h
      · rintro ⟨_, h⟩; exact absurd h0 h
    · rw [if_neg h0]
      constructor
      · intro h; injection h with h; exact ⟨h, h0⟩
      · rintro ⟨rfl, _⟩; rfl
  · intro h t tr
    unfold normaliseTime normaliseRange
    rw [h]
    exact ⟨rfl, rfl⟩

/-- **C58**, normalising the range of a grain: both its ends are the normalised times. -/
theorem C58_normalise_range (L : TimeLib) (g : TGrain) (tr : Range) :
    normaliseRange L g tr = (normaliseTime L g tr.start).bind (fun a => (normaliseTime L g tr.stop).map (fun b => ⟨a, b⟩)) := by
  unfold normaliseRange normaliseTime
  cases mediaRate g with
  | none => rfl
  | some r =>
    simp only
    by_cases h : 0 < r.num
    · simp only [if_pos h]; rfl
    · simp only [if_neg h]; rfl

/-! ## Examples and counterexamples -/

/-- The library as documented meets the assumptions. -/
theorem floorLib_lawful : floorLib.Lawful := by
  constructor
  · intro r c h
    show (c * 1000000000 * r.den / r.num - 1) * r.num < c * 1000000000 * r.den ∧ c * 1000000000 * r.den < (c * 1000000000 * r.den / r.num + 1) * r.num
    generalize c * 1000000000 * r.den = x
    have h1 := Int.ediv_mul_le x (b := r.num) (by omega)
    have h2 := Int.lt_ediv_add_one_mul_self x h
    rw [Int.sub_mul]
    constructor
    · omega
    · exact h2
  · intro r c h _
    exact Int.ediv_mul_le _ (by omega)

/-- 1920 samples at 48 kHz and the grain after it. -/
example : originRange floorLib ⟨40000000, 0, .audio 1920 48000⟩ = some ⟨40000000, 79979166⟩ ∧
    originRange floorLib ⟨80000000, 0, .audio 1920 48000⟩ = some ⟨80000000, 119979166⟩ ∧
    floorLib.fromCount (48000 : Nat) 1920 = 40000000 ∧ floorLib.fromCount (48000 : Nat) 3840 = 80000000 := by decide +kernel

/-- A frame shown two frames later than it is coded. -/
example : presentationRange floorLib ⟨1000, 25, .codedVideo (some 2)⟩ = some ⟨80001000, 80001000⟩ ∧
    presentation floorLib ⟨1000, 25, .codedVideo (some 2)⟩ = some 80001000 := by decide +kernel

/-- The last sample's time is not always its timestamp: a grain of three samples at 3 Hz that starts at
sample 1 ends with sample 3, at one second exactly, and the grain says a nanosecond less. -/
theorem C58_last_sample_counterexample :
    finalOrigin floorLib ⟨floorLib.fromCount (3 : Nat) 1, 0, .audio 3 3⟩ = some 999999999 ∧
    floorLib.fromCount (3 : Nat) 3 = 1000000000 := by decide +kernel

/-- An audio grain without samples (the default) says it ends before it starts; its range is empty. -/
theorem C58_no_samples_counterexample (x : Int) :
    finalOrigin floorLib ⟨1000000000, 0, .audio 0 48000⟩ = some 999979166 ∧
    ∃ tr, originRange floorLib ⟨1000000000, 0, .audio 0 48000⟩ = some tr ∧ ¬ tr.has x := by
  refine ⟨by decide +kernel, ⟨1000000000, 999979166⟩, by decide +kernel, ?_⟩
  rintro ⟨h1, h2⟩
  simp only at h1 h2
  omega

/-- An audio grain whose sample rate is zero (the default when it is made from metadata without one) has no time range. -/
theorem C58_no_sample_rate_counterexample (L : TimeLib) (o s : Int) : originRange L ⟨o, 0, .audio s 0⟩ = none := by
  unfold originRange finalOrigin TimeLib.count
  simp

/-- The presentation time of a coded video grain with a temporal offset but no rate (zero) is an exception, although the class
checks that there is a rate. -/
theorem C58_no_rate_counterexample (L : TimeLib) (o t : Int) :
    presentation L ⟨o, 0, .codedVideo (some t)⟩ = none ∧ originRange L ⟨o, 0, .codedVideo (some t)⟩ = some ⟨o, o⟩ ∧
    mediaRate ⟨o, 0, .codedVideo (some t)⟩ = none := by
  unfold presentation originRange finalOrigin TimeLib.count mediaRate
  simp

end Verif.Props

import Verif.Pattern.Tone
import Verif.Numpy.Lemmas
import Verif.Props.C31

/-!
# C45: tone generator continuity

The stream of a tone is a function of the sample number: `toneSample t n`, which is the table value at `n` modulo the loop length.

* `C45_signal`: each cell of the data of the grain at position `p` (for every channel and every sample `i`) is the stream's sample `p + i`.
* `C45_cut`: so two generators that cut the stream differently agree on every sample.
* `C45_loop`: the loop closes: if the table is that of a periodic signal of the frequency, every sample of the stream is the signal's value
  at its own phase.
* `C45_history`: earlier calls make no difference.
* `C45_length_partial`: the data has the expected length, except for 24-bit planes (`C45_length_counterexample`) and pairs with an odd number of
  channels (`C45_odd_counterexample`).
* `C45_present`: a grain is produced at each multiple of the grain size if all the values fit; `C45_full_volume_counterexample`.
-/

namespace Verif.Props

open Verif.Pattern Verif.Cog Verif.Numpy

/-- Bytes of one sample. -/
def toneWidth : Depth → Nat
  | .s16 => 2 | .s24 => 3 | .s32 => 4 | .float => 4 | .double => 8

/-- The slot in the data of sample `i` of channel `c`. -/
def toneSlot (l : Layout) (channels samples c i : Nat) : Nat :=
  match l with
  | .planes => c * samples + i
  | .pairs => c / 2 * (samples * 2) + (i * 2 + c % 2)
  | .interleaved => i * channels + c

/-- The bytes in a slot. -/
def cell (data : Bytes) (width k : Nat) : Bytes := (data.drop (k * width)).take width

/-- Sample `n` of the stream: it does not mention grains. -/
def toneSample (t : Tone) (d : Depth) (n : Int) : Option Bytes := t.pack d (n % t.looplen).toNat

/-- A generator that can be used: its format, sizes and packed floating point values are as they should be. -/
structure Usable (t : Tone) (d : Depth) (l : Layout) : Prop where
  depth : depthOf t.fmt = some d
  layout : layoutOf t.fmt = some l
  samples : 0 < t.samples
  rate : 0 < t.rate
  float : d = .float ∨ d = .double → ∀ n, (t.float n).length = toneWidth d
  even : l = .pairs → t.channels % 2 = 0

namespace ToneLemmas

theorem flatten_length_const {α : Type} (l : List (List α)) (n : Nat) (h : ∀ x ∈ l, x.length = n) : l.flatten.length = l.length * n := by
  induction l with
  | nil => simp
  | cons a l ih =>
    rw [List.flatten_cons, List.length_append, ih (fun x hx => h x (by simp [hx])), h a (by simp), List.length_cons, Nat.succ_mul, Nat.add_comm]

theorem flatten_getD {α : Type} (d : α) (l : List (List α)) (n y x : Nat) (h : ∀ a ∈ l, a.length = n) (hy : y < l.length) (hx : x < n) :
    l.flatten.getD (y * n + x) d = (l.getD y []).getD x d := by
  induction l generalizing y with
  | nil => simp at hy
  | cons a l ih =>
    have ha := h a (by simp)
    rw [List.flatten_cons, List.getD_eq_getElem?_getD]
    cases y with
    | zero => rw [Nat.zero_mul, Nat.zero_add, List.getElem?_append_left (by omega), ← List.getD_eq_getElem?_getD]; rfl
    | succ y =>
      rw [List.getElem?_append_right (by rw [ha, Nat.succ_mul]; omega), ← List.getD_eq_getElem?_getD,
        show (y + 1) * n + x - a.length = y * n + x by rw [ha, Nat.succ_mul]; omega, ih y (fun b hb => h b (by simp [hb])) (by simpa using hy)]
      rfl

theorem flatten_cell (l : List Bytes) (b k : Nat) (h : ∀ x ∈ l, x.length = b) (hk : k < l.length) : cell l.flatten b k = l.getD k [] := by
  unfold cell
  induction l generalizing k with
  | nil => simp at hk
  | cons a l ih =>
    have ha := h a (by simp)
    rw [List.flatten_cons]
    cases k with
    | zero => rw [Nat.zero_mul, List.drop_zero, ← ha, List.take_left]; rfl
    | succ k =>
      have e : (k + 1) * b = a.length + k * b := by rw [ha, Nat.succ_mul, Nat.add_comm]
      rw [e, List.drop_append]
      simp only [Nat.add_sub_cancel_left]
      rw [List.drop_eq_nil_of_le (by omega), List.nil_append, ih k (fun b hb => h b (by simp [hb])) (by simpa using hk)]
      rfl

theorem mapM_getD {α β : Type} (f : α → Option β) (d : α) (e : β) (l : List α) (m : List β) (h : l.mapM f = some m) :
    m.length = l.length ∧ ∀ k, k < l.length → f (l.getD k d) = some (m.getD k e) := by
  induction l generalizing m with
  | nil =>
    simp only [List.mapM_nil, Option.pure_def, Option.some.injEq] at h
    subst h
    exact ⟨rfl, fun k hk => by simp at hk⟩
  | cons a l ih =>
    rw [List.mapM_cons] at h
    cases ha : f a with
    | none => rw [ha] at h; cases h
    | some b =>
      cases hl : l.mapM f with
      | none => rw [ha, hl] at h; cases h
      | some m' =>
        rw [ha, hl] at h
        simp only [Option.pure_def, Option.bind_eq_bind, Option.bind_some, Option.some.injEq] at h
        subst h
        obtain ⟨h1, h2⟩ := ih m' hl
        refine ⟨by rw [List.length_cons, List.length_cons, h1], ?_⟩
        intro k hk
        cases k with
        | zero => exact ha
        | succ k => exact h2 k (by simpa using hk)

theorem looplen_pos (t : Tone) (h : 0 < t.rate) : 0 < t.looplen := by
  unfold Tone.looplen
  by_cases h0 : t.freq = 0
  · rw [if_pos h0]; omega
  · rw [if_neg h0]
    by_cases h1 : t.rate % t.freq = 0
    · rw [if_pos h1]
      exact Nat.div_pos (Nat.le_of_dvd h (Nat.dvd_of_mod_eq_zero h1)) (by omega)
    · rw [if_neg h1]; exact h

theorem pack_length (t : Tone) (d : Depth) (hf : d = .float ∨ d = .double → ∀ n, (t.float n).length = toneWidth d) (n : Nat) (b : Bytes)
    (h : t.pack d n = some b) : b.length = toneWidth d := by
  cases d
  case s16 =>
    unfold Tone.pack at h; dsimp only at h
    split at h <;> simp only [Option.some.injEq, reduceCtorEq] at h
    subst h; simp [toneWidth]
  case s24 =>
    unfold Tone.pack at h; dsimp only at h
    split at h <;> simp only [Option.some.injEq, reduceCtorEq] at h
    subst h; simp [toneWidth]
  case s32 =>
    unfold Tone.pack at h; dsimp only at h
    split at h <;> simp only [Option.some.injEq, reduceCtorEq] at h
    subst h; simp [toneWidth]
  case float => cases h; exact hf (Or.inl rfl) n
  case double => cases h; exact hf (Or.inr rfl) n

theorem base_length (t : Tone) (offs : Nat) : ((List.range t.samples).map (fun i => (offs + i) % t.looplen)).length = t.samples := by simp

theorem double_length (t : Tone) (offs : Nat) :
    (((List.range t.samples).map (fun i => (offs + i) % t.looplen)).flatMap (fun x => List.replicate 2 x)).length = t.samples * 2 := by
  rw [List.flatMap_def, flatten_length_const _ 2 (by intro x hx; obtain ⟨y, _, rfl⟩ := List.mem_map.1 hx; simp)]
  simp

/-- The slot of each sample holds the right table index. -/
theorem line_getD (t : Tone) (l : Layout) (offs c i : Nat) (he : l = .pairs → t.channels % 2 = 0) (hc : c < t.channels) (hi : i < t.samples) :
    (t.line l offs).length = t.samples * t.channels ∧ toneSlot l t.channels t.samples c i < t.samples * t.channels ∧
    (t.line l offs).getD (toneSlot l t.channels t.samples c i) 0 = (offs + i) % t.looplen := by
  have hb := base_length t offs
  cases l
  case planes =>
    have hall : ∀ x ∈ List.replicate t.channels ((List.range t.samples).map (fun i => (offs + i) % t.looplen)), x.length = t.samples := by
      intro x hx; rw [(List.mem_replicate.1 hx).2]; exact hb
    refine ⟨?_, ?_, ?_⟩
    · show (List.replicate _ _).flatten.length = _
      rw [flatten_length_const _ t.samples hall, List.length_replicate, Nat.mul_comm]
    · show c * t.samples + i < t.samples * t.channels
      have := Nat.mul_le_mul_right t.samples (show c + 1 ≤ t.channels from hc)
      rw [Nat.succ_mul, Nat.mul_comm t.channels] at this
      omega
    · show (List.replicate _ _).flatten.getD (c * t.samples + i) 0 = _
      rw [flatten_getD 0 _ t.samples c i hall (by simpa using hc) hi, getD_replicate [] _ _ _ hc, getD_map_range 0 _ _ i hi]
  case pairs =>
    have he := he rfl
    have hd := double_length t offs
    have hall : ∀ x ∈ List.replicate (t.channels / 2) (((List.range t.samples).map (fun i => (offs + i) % t.looplen)).flatMap
        (fun x => List.replicate 2 x)), x.length = t.samples * 2 := by
      intro x hx; rw [(List.mem_replicate.1 hx).2]; exact hd
    have hin : i * 2 + c % 2 < t.samples * 2 := by omega
    have heq : t.samples * t.channels = t.channels / 2 * (t.samples * 2) := by
      conv => lhs; rw [show t.channels = t.channels / 2 * 2 by omega]
      rw [Nat.mul_left_comm]
    refine ⟨?_, ?_, ?_⟩
    · show (List.replicate _ _).flatten.length = _
      rw [flatten_length_const _ _ hall, List.length_replicate, heq]
    · show c / 2 * (t.samples * 2) + (i * 2 + c % 2) < t.samples * t.channels
      have := Nat.mul_le_mul_right (t.samples * 2) (show c / 2 + 1 ≤ t.channels / 2 by omega)
      rw [Nat.succ_mul] at this
      omega
    · show (List.replicate _ _).flatten.getD (c / 2 * (t.samples * 2) + (i * 2 + c % 2)) 0 = _
      rw [flatten_getD 0 _ _ _ _ hall (by rw [List.length_replicate]; omega) hin, getD_replicate [] _ _ _ (by omega), List.flatMap_def,
        flatten_getD 0 _ 2 i (c % 2) (by intro x hx; obtain ⟨y, _, rfl⟩ := List.mem_map.1 hx; simp) (by simpa using hi) (by omega),
        getD_map 0 [] _ _ i (by simpa using hi), getD_replicate 0 _ _ _ (by omega), getD_map_range 0 _ _ i hi]
  case interleaved =>
    have hall : ∀ x ∈ ((List.range t.samples).map (fun i => (offs + i) % t.looplen)).map (fun x => List.replicate t.channels x),
        x.length = t.channels := by
      intro x hx; obtain ⟨y, _, rfl⟩ := List.mem_map.1 hx; simp
    refine ⟨?_, ?_, ?_⟩
    · show (List.flatMap _ _).length = _
      rw [List.flatMap_def, flatten_length_const _ _ hall]; simp
    · show i * t.channels + c < t.samples * t.channels
      have := Nat.mul_le_mul_right t.channels (show i + 1 ≤ t.samples from hi)
      rw [Nat.succ_mul] at this
      omega
    · show (List.flatMap _ _).getD (i * t.channels + c) 0 = _
      rw [List.flatMap_def, flatten_getD 0 _ _ i c hall (by simpa using hi) hc, getD_map 0 [] _ _ i (by simpa using hi), getD_replicate 0 _ _ _ hc,
        getD_map_range 0 _ _ i hi]

theorem line_length (t : Tone) (l : Layout) (offs : Nat) (he : l = .pairs → t.channels % 2 = 0) (hs : 0 < t.samples) :
    (t.line l offs).length = t.samples * t.channels := by
  by_cases hc : 0 < t.channels
  · exact (line_getD t l offs 0 0 he hc hs).1
  · have h0 : t.channels = 0 := by omega
    cases l
    case planes => simp [Tone.line, h0]
    case pairs => simp [Tone.line, h0]
    case interleaved =>
      show (List.flatMap _ _).length = _
      rw [List.flatMap_def, flatten_length_const _ t.channels (by intro x hx; obtain ⟨y, _, rfl⟩ := List.mem_map.1 hx; simp)]
      simp

theorem line_mem (t : Tone) (l : Layout) (offs x : Nat) (hx : x ∈ t.line l offs) : ∃ i, i < t.samples ∧ x = (offs + i) % t.looplen := by
  have base : ∀ x ∈ (List.range t.samples).map (fun i => (offs + i) % t.looplen), ∃ i, i < t.samples ∧ x = (offs + i) % t.looplen := by
    intro x hx
    obtain ⟨i, hi, rfl⟩ := List.mem_map.1 hx
    exact ⟨i, List.mem_range.1 hi, rfl⟩
  cases l <;> simp only [Tone.line] at hx
  · obtain ⟨a, ha, hxa⟩ := List.mem_flatten.1 hx
    rw [(List.mem_replicate.1 ha).2] at hxa
    exact base x hxa
  · obtain ⟨a, ha, hxa⟩ := List.mem_flatten.1 hx
    rw [(List.mem_replicate.1 ha).2] at hxa
    obtain ⟨y, hy, hxy⟩ := List.mem_flatMap.1 hxa
    rw [(List.mem_replicate.1 hxy).2]
    exact base y hy
  · obtain ⟨y, hy, hxy⟩ := List.mem_flatMap.1 hx
    rw [(List.mem_replicate.1 hxy).2]
    exact base y hy

theorem offs_mod (L : Nat) (hL : 0 < L) (p : Int) (i : Nat) : ((p % L).toNat + i) % L = ((p + i) % L).toNat := by
  have h0 : 0 ≤ p % (L : Int) := Int.emod_nonneg _ (by omega)
  have h1 : 0 ≤ (p + i) % (L : Int) := Int.emod_nonneg _ (by omega)
  have : ((((p % L).toNat + i) % L : Nat) : Int) = (p + i) % L := by
    rw [Int.natCast_emod, Int.natCast_add, Int.toNat_of_nonneg h0, Int.emod_add_emod]
  rw [← this, Int.toNat_natCast]

theorem compute_eq (t : Tone) (d : Depth) (l : Layout) (h : Usable t d l) (offs : Nat) :
    t.compute offs = ((t.line l offs).mapM (t.pack d)).map List.flatten := by
  unfold Tone.compute
  rw [h.depth, h.layout]
  dsimp only
  rw [if_neg]
  rintro ⟨_, hne⟩
  exact hne (line_length t l offs h.even h.samples)

theorem slots_size (t : Tone) (d : Depth) (l : Layout) (h : Usable t d l) :
    t.samples * t.channels * toneWidth d ≤ sizeForAudioFormat t.fmt t.channels t.samples ∧
    (t.fmt ≠ AudioFormat.S24_PLANES → t.samples * t.channels * toneWidth d = sizeForAudioFormat t.fmt t.channels t.samples) := by
  have hslots : channelSlots t.fmt t.channels = t.channels ∨ l = .pairs := by
    have hl := h.layout
    unfold layoutOf at hl
    split at hl
    · rename_i hm
      left
      have : audioIsPairs t.fmt = false := by revert hm; generalize t.fmt = f; revert f; decide
      unfold channelSlots; rw [this]; rfl
    · split at hl
      · right; simpa using hl.symm
      · split at hl
        · rename_i hm
          left
          have : audioIsPairs t.fmt = false := by revert hm; generalize t.fmt = f; revert f; decide
          unfold channelSlots; rw [this]; rfl
        · cases hl
  have hch : channelSlots t.fmt t.channels = t.channels := by
    rcases hslots with hslots | hslots
    · exact hslots
    · unfold channelSlots
      have := h.even hslots
      split <;> omega
  have hw : audioIsCompressed t.fmt = false ∧ toneWidth d ≤ audioSampleBytes t.fmt ∧
      (t.fmt ≠ AudioFormat.S24_PLANES → toneWidth d = audioSampleBytes t.fmt) := by
    have hd := h.depth
    have all : ∀ f ∈ toneFormats, ∀ d ∈ [Depth.s16, .s24, .s32, .float, .double], depthOf f = some d →
        audioIsCompressed f = false ∧ toneWidth d ≤ audioSampleBytes f ∧ (f ≠ AudioFormat.S24_PLANES → toneWidth d = audioSampleBytes f) := by
      decide
    refine all t.fmt ?_ d (by cases d <;> simp) hd
    unfold depthOf at hd
    split at hd
    · rename_i hm; revert hm; generalize t.fmt = f; revert f; decide
    · split at hd
      · rename_i hm; revert hm; generalize t.fmt = f; revert f; decide
      · split at hd
        · rename_i hm; revert hm; generalize t.fmt = f; revert f; decide
        · split at hd
          · rename_i hm; revert hm; generalize t.fmt = f; revert f; decide
          · split at hd
            · rename_i hm; revert hm; generalize t.fmt = f; revert f; decide
            · cases hd
  rw [C32_audio_size, hch, hw.1]
  simp only [Bool.false_eq_true, if_false]
  rw [Nat.mul_comm t.channels]
  exact ⟨Nat.mul_le_mul_left _ hw.2.1, fun hne => by rw [hw.2.2 hne]⟩

/-- The grain without memory of earlier calls. -/
def fresh (t : Tone) (position : Int) : Got := (t.get [] position).2

theorem fresh_eq (t : Tone) (position : Int) : fresh t position =
    if position % t.samples ≠ 0 then .nothing
    else match t.compute (position % t.looplen).toNat with
      | none => .raises
      | some b => .grain position (b.take (sizeForAudioFormat t.fmt t.channels t.samples)) := by
  unfold fresh Tone.get
  split
  · rfl
  · simp only [Tone.getSamples, List.lookup_nil]
    cases t.compute (position % t.looplen).toNat <;> rfl

/-- Everything in the memory is what would be computed. -/
def Sound (t : Tone) (c : Cache) : Prop := ∀ offs b, c.lookup offs = some b → t.compute offs = some b

theorem get_sound (t : Tone) (c : Cache) (p : Int) (h : Sound t c) : (t.get c p).2 = fresh t p ∧ Sound t (t.get c p).1 := by
  rw [fresh_eq]
  unfold Tone.get
  split
  · exact ⟨rfl, h⟩
  · unfold Tone.getSamples
    cases hl : c.lookup (p % t.looplen).toNat with
    | some b => rw [h _ _ hl]; exact ⟨rfl, h⟩
    | none =>
      dsimp only
      cases hc : t.compute (p % t.looplen).toNat with
      | none => exact ⟨rfl, h⟩
      | some b =>
        refine ⟨rfl, ?_⟩
        intro offs b' hb
        change List.lookup offs (((p % t.looplen).toNat, b) :: c) = some b' at hb
        rw [List.lookup_cons] at hb
        by_cases he : offs = (p % t.looplen).toNat
        · subst he
          rw [beq_self_eq_true] at hb
          simp only [Option.some.injEq] at hb
          rw [hc, hb]
        · rw [beq_eq_false_iff_ne.2 he] at hb
          exact h offs b' hb

theorem calls_sound (t : Tone) (ps : List Int) : ∀ c, Sound t c → (t.calls c ps).2 = ps.map (fresh t) := by
  induction ps with
  | nil => intro c _; rfl
  | cons p ps ih =>
    intro c hc
    obtain ⟨h1, h2⟩ := get_sound t c p hc
    show (t.get c p).2 :: (t.calls (t.get c p).1 ps).2 = _
    rw [h1, ih _ h2]; rfl

end ToneLemmas

open ToneLemmas

/-- In any sequence of calls each one returns what it would return as the first call. -/
theorem C45_history (t : Tone) (ps : List Int) : (t.calls [] ps).2 = ps.map (fun p => (t.get [] p).2) :=
  calls_sound t ps [] (by intro offs b h; cases h)

/-- Slot `(c, i)` of the data of the grain at position `p` is the stream's sample `p + i`, for every channel. -/
theorem C45_signal (t : Tone) (d : Depth) (l : Layout) (h : Usable t d l) (p q : Int) (data : Bytes) (hg : (t.get [] p).2 = .grain q data) :
    q = p ∧ p % t.samples = 0 ∧ ∀ c i, c < t.channels → i < t.samples →
      toneSample t d (p + i) = some (cell data (toneWidth d) (toneSlot l t.channels t.samples c i)) := by
  have hf := fresh_eq t p
  rw [show fresh t p = (t.get [] p).2 from rfl, hg] at hf
  by_cases hp : p % t.samples = 0
  · rw [if_neg (by omega), compute_eq t d l h] at hf
    cases hm : (t.line l (p % t.looplen).toNat).mapM (t.pack d) with
    | none => rw [hm] at hf; cases hf
    | some m =>
      rw [hm] at hf
      simp only [Option.map_some, Got.grain.injEq] at hf
      obtain ⟨rfl, hd⟩ := hf
      refine ⟨rfl, hp, ?_⟩
      intro c i hc hi
      obtain ⟨hl1, hl2, hl3⟩ := line_getD t l (q % t.looplen).toNat c i h.even hc hi
      obtain ⟨hm1, hm2⟩ := mapM_getD (t.pack d) 0 [] _ _ hm
      have hall : ∀ x ∈ m, x.length = toneWidth d := by
        intro x hx
        obtain ⟨k, hk, rfl⟩ := List.getElem_of_mem hx
        have := hm2 k (by omega)
        rw [List.getD_eq_getElem?_getD (l := m), List.getElem?_eq_getElem hk] at this
        exact pack_length t d h.float _ _ this
      have hlen : m.flatten.length = t.samples * t.channels * toneWidth d := by
        rw [flatten_length_const _ _ hall, hm1, hl1]
      rw [List.take_of_length_le (by rw [hlen]; exact (slots_size t d l h).1)] at hd
      subst hd
      rw [flatten_cell m _ _ hall (by rw [hm1, hl1]; exact hl2), ← hm2 _ (by rw [hl1]; exact hl2), hl3]
      unfold toneSample
      rw [offs_mod _ (looplen_pos t h.rate)]
  · rw [if_pos hp] at hf
    cases hf

/-- Two generators of the same tone that differ in the size of their grains give the same bytes for the same sample number. -/
theorem C45_cut (t t' : Tone) (d : Depth) (l : Layout) (h : Usable t d l) (h' : Usable t' d l)
    (same : t'.rate = t.rate ∧ t'.freq = t.freq ∧ t'.wave = t.wave ∧ t'.float = t.float) (p p' q q' : Int) (data data' : Bytes)
    (hg : (t.get [] p).2 = .grain q data) (hg' : (t'.get [] p').2 = .grain q' data') (c c' i i' : Nat) (hc : c < t.channels) (hc' : c' < t'.channels)
    (hi : i < t.samples) (hi' : i' < t'.samples) (hn : p + i = p' + i') :
    cell data (toneWidth d) (toneSlot l t.channels t.samples c i) = cell data' (toneWidth d) (toneSlot l t'.channels t'.samples c' i') := by
  have h1 := (C45_signal t d l h p q data hg).2.2 c i hc hi
  have h2 := (C45_signal t' d l h' p' q' data' hg').2.2 c' i' hc' hi'
  have e : toneSample t d (p + i) = toneSample t' d (p' + i') := by
    rw [hn]
    have hl : t'.looplen = t.looplen := by unfold Tone.looplen; rw [same.1, same.2.1]
    have hp : ∀ n, t'.pack d n = t.pack d n := by intro n; unfold Tone.pack; rw [same.2.2.1, same.2.2.2]
    unfold toneSample
    rw [hl, hp]
  rw [h1, h2] at e
  exact Option.some.inj e

/-- The loop closes at the frequency: if the table is made from a signal that depends on the phase `n * frequency` modulo the rate, then
every sample of the stream, however far, is the signal at its own phase. -/
theorem C45_loop (t : Tone) (d : Depth) (hr : 0 < t.rate) (signal : Int → Option Bytes)
    (htable : ∀ n : Nat, n < t.looplen → t.pack d n = signal ((n * t.freq : Int) % t.rate)) (n : Int) :
    toneSample t d n = signal ((n * t.freq) % t.rate) := by
  have hL := looplen_pos t hr
  have h0 : 0 ≤ n % (t.looplen : Int) := Int.emod_nonneg _ (by omega)
  have h1 : n % (t.looplen : Int) < t.looplen := Int.emod_lt_of_pos _ (by omega)
  unfold toneSample
  rw [htable _ (by omega), Int.toNat_of_nonneg h0]
  congr 1
  have hdvd : (t.rate : Int) ∣ t.looplen * t.freq := by
    rw [← Int.natCast_mul, Int.natCast_dvd_natCast]
    unfold Tone.looplen
    by_cases hf : t.freq = 0
    · rw [hf, Nat.mul_zero]; exact Nat.dvd_zero _
    · rw [if_neg hf]
      by_cases hm : t.rate % t.freq = 0
      · rw [if_pos hm, Nat.div_mul_cancel (Nat.dvd_of_mod_eq_zero hm)]; exact Nat.dvd_refl _
      · rw [if_neg hm]; exact Nat.dvd_mul_right _ _
  obtain ⟨k, hk⟩ := hdvd
  have hn := Int.emod_add_mul_ediv n t.looplen
  have : n * t.freq = n % t.looplen * t.freq + t.rate * (k * (n / t.looplen)) := by
    conv => lhs; rw [← hn]
    rw [Int.add_mul, Int.mul_right_comm, hk, Int.mul_assoc]
  rw [this, Int.add_mul_emod_self_left]

/-- The data has the expected length for every format but planes of 24 bits. -/
theorem C45_length_partial (t : Tone) (d : Depth) (l : Layout) (h : Usable t d l) (hf : t.fmt ≠ AudioFormat.S24_PLANES) (p q : Int) (data : Bytes)
    (hg : (t.get [] p).2 = .grain q data) : data.length = sizeForAudioFormat t.fmt t.channels t.samples := by
  have hfr := fresh_eq t p
  rw [show fresh t p = (t.get [] p).2 from rfl, hg] at hfr
  by_cases hp : p % t.samples = 0
  · rw [if_neg (by omega), compute_eq t d l h] at hfr
    cases hm : (t.line l (p % t.looplen).toNat).mapM (t.pack d) with
    | none => rw [hm] at hfr; cases hfr
    | some m =>
      rw [hm] at hfr
      simp only [Option.map_some, Got.grain.injEq] at hfr
      obtain ⟨hm1, hm2⟩ := mapM_getD (t.pack d) 0 [] _ _ hm
      have hall : ∀ x ∈ m, x.length = toneWidth d := by
        intro x hx
        obtain ⟨k, hk, rfl⟩ := List.getElem_of_mem hx
        have := hm2 k (by omega)
        rw [List.getD_eq_getElem?_getD (l := m), List.getElem?_eq_getElem hk] at this
        exact pack_length t d h.float _ _ this
      rw [hfr.2, List.length_take, flatten_length_const _ _ hall, hm1, line_length t l _ h.even h.samples, (slots_size t d l h).2 hf, Nat.min_self]
  · rw [if_pos hp] at hfr
    cases hfr

/-- There is a grain at exactly the multiples of the grain size, if all the values of the table can be packed. -/
theorem C45_present (t : Tone) (d : Depth) (l : Layout) (h : Usable t d l) (hv : ∀ n, n < t.looplen → t.pack d n ≠ none) (p : Int) :
    (p % t.samples = 0 → ∃ data, (t.get [] p).2 = .grain p data) ∧ (p % t.samples ≠ 0 → (t.get [] p).2 = .nothing) := by
  have hf := fresh_eq t p
  rw [show fresh t p = (t.get [] p).2 from rfl] at hf
  rw [hf]
  constructor
  · intro hp
    rw [if_neg (by omega), compute_eq t d l h]
    have hm : ∀ ks : List Nat, (∀ k ∈ ks, k < t.looplen) → ∃ m, ks.mapM (t.pack d) = some m := by
      intro ks
      induction ks with
      | nil => intro _; exact ⟨[], rfl⟩
      | cons k ks ih =>
        intro hk
        obtain ⟨m, hm⟩ := ih (fun k hk' => hk k (by simp [hk']))
        obtain ⟨b, hb⟩ := Option.ne_none_iff_exists'.1 (hv k (hk k (by simp)))
        exact ⟨b :: m, by rw [List.mapM_cons, hb, hm]; rfl⟩
    obtain ⟨m, hm⟩ := hm (t.line l (p % t.looplen).toNat) (by
      intro k hk
      obtain ⟨i, _, rfl⟩ := line_mem t l _ k hk
      exact Nat.mod_lt _ (looplen_pos t h.rate))
    rw [hm]
    exact ⟨_, rfl⟩
  · intro hp
    rw [if_pos hp]

/-- A tone of 4 samples a period, two channels in pairs, 3 samples a grain. -/
def tone16 : Tone := ⟨3, 2, AudioFormat.S16_PAIRS, 48000, 12000, fun n => [0, 16384, 0, -16384].getD n 0, fun _ => []⟩

example : Usable tone16 .s16 .pairs ∧ (∀ n, n < tone16.looplen → tone16.pack .s16 n ≠ none) ∧
    (tone16.get [] 3).2 = .grain 3 [0, 0xC0, 0, 0xC0, 0, 0, 0, 0, 0, 0x40, 0, 0x40] := by
  refine ⟨⟨by decide, by decide, by decide, by decide, ?_, by decide⟩, by decide, by decide⟩
  intro h; rcases h with h | h <;> cases h

/-- Planes of 24 bits: the grain has 3 bytes a sample but is expected to have 4. -/
theorem C45_length_counterexample :
    ∃ t : Tone, Usable t .s24 .planes ∧ ∃ data, (t.get [] 0).2 = .grain 0 data ∧ data.length = 6 ∧
      sizeForAudioFormat t.fmt t.channels t.samples = 8 := by
  refine ⟨⟨2, 1, AudioFormat.S24_PLANES, 48000, 1000, fun _ => 0, fun _ => []⟩, ⟨by decide, by decide, by decide, by decide, ?_, by decide⟩, _,
    (by decide : _ = Got.grain 0 [0, 0, 0, 0, 0, 0]), by decide, by decide⟩
  intro h; rcases h with h | h <;> cases h

/-- Pairs with an odd number of channels raise an exception (16 bits), or give data that is too short (24 bits). -/
theorem C45_odd_counterexample :
    (∀ t : Tone, t.fmt = AudioFormat.S16_PAIRS → t.channels % 2 = 1 → 0 < t.samples → (t.get [] 0).2 = .raises) ∧
    (let t : Tone := ⟨2, 1, AudioFormat.S24_PAIRS, 48000, 1000, fun _ => 0, fun _ => []⟩
     (t.get [] 0).2 = .grain 0 [] ∧ sizeForAudioFormat t.fmt t.channels t.samples = 12) := by
  refine ⟨?_, by decide⟩
  intro t hf hc hs
  have he := fresh_eq t 0
  rw [show fresh t 0 = (t.get [] 0).2 from rfl] at he
  rw [he, if_neg (by simp)]
  have hd : depthOf t.fmt = some .s16 := by rw [hf]; decide
  have hl : layoutOf t.fmt = some .pairs := by rw [hf]; decide
  have hlen : (t.line .pairs ((0 : Int) % t.looplen).toNat).length = t.channels / 2 * (t.samples * 2) := by
    show (List.replicate _ _).flatten.length = _
    rw [flatten_length_const _ (t.samples * 2) (by intro x hx; rw [(List.mem_replicate.1 hx).2]; exact double_length t _), List.length_replicate]
  unfold Tone.compute
  rw [hd, hl]
  dsimp only
  rw [if_pos]
  refine ⟨by decide, ?_⟩
  rw [hlen]
  have : t.samples * t.channels = t.channels / 2 * (t.samples * 2) + t.samples := by
    conv => lhs; rw [show t.channels = t.channels / 2 * 2 + 1 by omega]
    rw [Nat.mul_add, Nat.mul_one, Nat.mul_left_comm]
  omega

/-- At full volume the largest value is one too large: 16 bits raise an exception, 24 bits turn to the most negative value. -/
theorem C45_full_volume_counterexample :
    (let t : Tone := ⟨1, 1, AudioFormat.S16_INTERLEAVED, 4, 1, fun n => [0, 2 ^ 15, 0, -2 ^ 15].getD n 0, fun _ => []⟩
     (t.get [] 1).2 = .raises) ∧
    (let t : Tone := ⟨1, 1, AudioFormat.S24_INTERLEAVED, 4, 1, fun n => [0, 2 ^ 23, 0, -2 ^ 23].getD n 0, fun _ => []⟩
     (t.get [] 1).2 = .grain 1 [0, 0, 0x80] ∧ (t.get [] 3).2 = .grain 3 [0, 0, 0x80]) := by
  decide

end Verif.Props

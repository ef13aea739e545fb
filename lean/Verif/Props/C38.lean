import Verif.Wrap.Raw
import Verif.Props.C37
import Verif.Props.C01

/-!
# C38: wrapping raw essence
-/

namespace Verif.Props.RawWrap

open Verif Verif.IO.Stream Verif.Wrap Verif.Props.Fwd

/-- Specification: `b` cut into pieces of `n` bytes, a shorter rest dropped. -/
def wholes (n : Nat) (b : Bytes) : List Bytes := (List.range (b.length / n)).map (fun i => (b.drop (i * n)).take n)

/-- The same with the rest, if there is one, as a last piece. -/
def pieces (n : Nat) (b : Bytes) : List Bytes :=
  wholes n b ++ if b.length % n = 0 then [] else [b.drop (b.length / n * n)]

theorem wholes_cons {n : Nat} (hn : 0 < n) {b : Bytes} (h : n ≤ b.length) :
    wholes n b = b.take n :: wholes n (b.drop n) := by
  have e : b.length / n = (b.length - n) / n + 1 := by
    rw [← Nat.sub_add_cancel h, Nat.add_div_right _ hn]; simp
  unfold wholes
  rw [e, List.range_succ_eq_map, List.map_cons, List.map_map, List.length_drop]
  rw [Nat.zero_mul, List.drop_zero]
  congr 1
  apply List.map_congr_left
  intro i _
  simp only [Function.comp_apply, List.drop_drop, Nat.succ_mul]
  rw [Nat.add_comm]

theorem wholes_short {n : Nat} {b : Bytes} (h : b.length < n) : wholes n b = [] := by
  unfold wholes
  rw [Nat.div_eq_of_lt h]; rfl

theorem pieces_cons {n : Nat} (hn : 0 < n) {b : Bytes} (h : n ≤ b.length) :
    pieces n b = b.take n :: pieces n (b.drop n) := by
  have e : b.length / n = (b.length - n) / n + 1 := by
    rw [← Nat.sub_add_cancel h, Nat.add_div_right _ hn]; simp
  have m : (b.length - n) % n = b.length % n := (Nat.mod_eq_sub_mod h).symm
  unfold pieces
  rw [wholes_cons hn h, List.cons_append, List.length_drop, m, List.drop_drop, e, Nat.succ_mul,
    Nat.add_comm n]

theorem flatten_wholes {n : Nat} (hn : 0 < n) (b : Bytes) : (wholes n b).flatten = b.take (b.length / n * n) := by
  induction h : b.length using Nat.strongRecOn generalizing b with
  | ind k ih =>
    by_cases hl : n ≤ b.length
    · rw [wholes_cons hn hl, List.flatten_cons, ih (b.length - n) (by omega) (b.drop n) (by simp)]
      have e : k / n = (b.length - n) / n + 1 := by
        rw [← h, ← Nat.sub_add_cancel hl, Nat.add_div_right _ hn]; simp
      rw [e, Nat.succ_mul, Nat.add_comm _ n, List.take_add]
    · rw [wholes_short (by omega), ← h, Nat.div_eq_of_lt (by omega)]; simp

theorem flatten_pieces {n : Nat} (hn : 0 < n) (b : Bytes) : (pieces n b).flatten = b := by
  unfold pieces
  rw [List.flatten_append, flatten_wholes hn]
  by_cases h : b.length % n = 0
  · rw [if_pos h, List.flatten_nil, List.append_nil, List.take_of_length_le]
    rw [Nat.div_mul_cancel (Nat.dvd_of_mod_eq_zero h)]; exact Nat.le_refl _
  · rw [if_neg h, List.flatten_cons, List.flatten_nil, List.append_nil, List.take_append_drop]

theorem wholes_length {n : Nat} {b d : Bytes} (h : d ∈ wholes n b) : d.length = n := by
  unfold wholes at h
  obtain ⟨i, hi, rfl⟩ := List.mem_map.1 h
  have h1 := List.mem_range.1 hi
  have h2 := Nat.div_mul_le_self b.length n
  have h3 : (i + 1) * n ≤ b.length / n * n := Nat.mul_le_mul_right n h1
  rw [Nat.succ_mul] at h3
  simp only [List.length_take, List.length_drop]
  omega

theorem wholes_count (n : Nat) (b : Bytes) : (wholes n b).length = b.length / n := by simp [wholes]

/-! ## The loop -/

theorem rounds_disk {n : Nat} (hn : 0 < n) (f k : Nat) (b : Bytes) (hf : b.length < f) :
    rounds (diskRead (some n)) f k b = ((pieces n b).zipIdx k).map (fun x => (x.2, x.1)) := by
  induction f generalizing k b with
  | zero => omega
  | succ f ih =>
    rw [rounds]
    simp only [diskRead]
    by_cases h0 : b = []
    · subst h0
      simp [pieces, wholes]
    · have hb : 0 < b.length := List.length_pos_iff.2 h0
      have ht : b.take n ≠ [] := by
        intro h
        rw [List.take_eq_nil_iff] at h
        rcases h with h | h
        · omega
        · exact h0 h
      rw [if_neg ht]
      by_cases hl : n ≤ b.length
      · rw [show rounds (diskRead (some n)) f (k + 1) (b.drop n) = _ from
          ih (k + 1) (b.drop n) (by simp only [List.length_drop]; omega), pieces_cons hn hl]
        rfl
      · rw [List.drop_of_length_le (by omega), List.take_of_length_le (by omega)]
        have e : pieces n b = [b] := by
          unfold pieces
          rw [wholes_short (by omega), Nat.mod_eq_of_lt (by omega), if_neg (by omega), Nat.div_eq_of_lt (by omega)]
          simp
        rw [e]
        cases f with
        | zero => rfl
        | succ f =>
          rw [rounds]
          simp [diskRead]

theorem rounds_pipe {n : Nat} (hn : 0 < n) (f k : Nat) (p : Pipe) (hf : p.left.length < f) :
    rounds (pipeRead n) f k p = ((wholes n p.left).zipIdx k).map (fun x => (x.2, x.1)) := by
  induction f generalizing k p with
  | zero => omega
  | succ f ih =>
    rw [rounds]
    have hs := readLoop_spec n p n (Nat.le_refl _)
    simp only [pipeRead]
    generalize hr : readLoop n p n = r at hs
    obtain ⟨d, q⟩ := r
    by_cases hl : n ≤ p.left.length
    · obtain ⟨h1, h2⟩ := hs.1 hl
      simp only at h1 h2
      subst h1
      have ht : p.left.take n ≠ [] := by
        intro h
        rw [List.take_eq_nil_iff] at h
        rcases h with h | h
        · omega
        · rw [h] at hl; simp at hl; omega
      simp only [if_neg ht]
      rw [show rounds (pipeRead n) f (k + 1) q = _ from
          ih (k + 1) q (by rw [h2]; simp only [List.length_drop]; omega), h2, wholes_cons hn hl]
      rfl
    · have h1 := hs.2 (by omega)
      simp only at h1
      subst h1
      rw [wholes_short (by omega)]
      rfl

/-! ## Time -/

theorem fromCount_bounds {num den : Nat} (h : 0 < num) (c : Int) :
    fromCount num den c * num ≤ c * 1000000000 * den ∧ c * 1000000000 * den < (fromCount num den c + 1) * num := by
  unfold fromCount
  have hn : (0 : Int) < num := by omega
  generalize c * 1000000000 * den = x
  constructor
  · exact Int.ediv_mul_le _ (by omega)
  · exact Int.lt_ediv_add_one_mul_self _ hn

theorem le_fromCount {num den : Nat} (h : 0 < num) (c s : Int) : s ≤ fromCount num den c ↔ s * num ≤ c * 1000000000 * den := by
  unfold fromCount
  exact Int.le_ediv_iff_mul_le (by omega)

theorem first_le {num den : Nat} (hd : 0 < den) (c s : Int) :
    firstCount num den s ≤ c ↔ s * num ≤ c * 1000000000 * den := by
  unfold firstCount
  have hp : (0 : Int) < 1000000000 * (den : Int) := by omega
  have := Int.le_ediv_iff_mul_le (c := 1000000000 * (den : Int)) (a := -c) (b := -s * num) hp
  rw [Int.neg_mul, Int.neg_mul, Int.neg_le_neg_iff, ← Int.mul_assoc] at this
  rw [← this, Int.neg_mul]
  omega

theorem map_out (t : Template) (l : List Bytes) (k : Nat) :
    ((l.zipIdx k).map (fun x => (x.2, x.1))).map t.out =
      (l.zipIdx k).map (fun x => (⟨atRate t.rateNum t.rateDen t.origin x.2, x.1⟩ : Out)) := by
  rw [List.map_map]; rfl

theorem extract_zip (t : Template) (l : List Bytes) (k : Nat) :
    extract ((l.zipIdx k).map (fun x => (⟨atRate t.rateNum t.rateDen t.origin x.2, x.1⟩ : Out))) = l.flatten := by
  induction l generalizing k with
  | nil => rfl
  | cons a l ih =>
    have := ih (k + 1)
    unfold extract at this ⊢
    rw [List.zipIdx_cons, List.map_cons, List.flatMap_cons, this]
    rfl

theorem wrapDisk_eq (t : Template) {n : Nat} (hs : t.size = some n) (hn : 0 < n) (b : Bytes) :
    wrapDisk t b = ((pieces n b).zipIdx 0).map (fun x => (⟨atRate t.rateNum t.rateDen t.origin x.2, x.1⟩ : Out)) := by
  unfold wrapDisk
  rw [hs, rounds_disk hn _ _ _ (Nat.lt_succ_self _), map_out]

theorem wrapPipe_eq (t : Template) {n : Nat} (hn : 0 < n) (b : Bytes) (ls : List Nat) :
    wrapPipe t n b ls = ((wholes n b).zipIdx 0).map (fun x => (⟨atRate t.rateNum t.rateDen t.origin x.2, x.1⟩ : Out)) := by
  unfold wrapPipe
  rw [rounds_pipe hn (b.length + 1) 0 ⟨b, ls⟩ (Nat.lt_succ_self b.length), map_out]

theorem origin_zip (t : Template) (l : List Bytes) (k : Nat) (g : Out)
    (h : ((l.zipIdx 0).map (fun x => (⟨atRate t.rateNum t.rateDen t.origin x.2, x.1⟩ : Out)))[k]? = some g) :
    g.origin = atRate t.rateNum t.rateDen t.origin k ∧ l[k]? = some g.data := by
  rw [List.getElem?_map, List.getElem?_zipIdx] at h
  cases hk : l[k]? with
  | none => rw [hk] at h; simp at h
  | some d =>
    rw [hk] at h
    simp only [Option.map_some, Option.some.injEq, Nat.zero_add] at h
    subst h
    exact ⟨rfl, rfl⟩

end Verif.Props.RawWrap

namespace Verif.Props

open Verif Verif.IO.Stream Verif.Wrap Verif.Props.RawWrap

/-- **C38**, standard input: the grains are the whole pieces of the input, in order, whatever pieces the reads deliver;
each is exactly as long as expected, a final partial grain is dropped, and grain `k` has the `k`th timestamp. -/
theorem C38_stdin (t : Template) (n : Nat) (hn : 0 < n) (input : Bytes) (limits : List Nat) :
    (wrapPipe t n input limits).length = input.length / n ∧
    (∀ g ∈ wrapPipe t n input limits, g.data.length = n) ∧
    extract (wrapPipe t n input limits) = input.take (input.length / n * n) ∧
    ∀ (k : Nat) (g : Out), (wrapPipe t n input limits)[k]? = some g →
      g.origin = atRate t.rateNum t.rateDen t.origin k ∧ g.data = (input.drop (k * n)).take n := by
  rw [wrapPipe_eq t hn]
  refine ⟨by simp [wholes_count], ?_, ?_, ?_⟩
  · intro g hg
    obtain ⟨k, hk⟩ := List.getElem?_of_mem hg
    exact wholes_length (List.mem_of_getElem? (origin_zip t _ k g hk).2)
  · rw [extract_zip, flatten_wholes hn]
  · intro k g hk
    obtain ⟨h1, h2⟩ := origin_zip t _ k g hk
    refine ⟨h1, ?_⟩
    unfold wholes at h2
    rw [List.getElem?_map] at h2
    cases hr : (List.range (input.length / n))[k]? with
    | none => rw [hr] at h2; simp at h2
    | some i =>
      rw [hr] at h2
      have : i = k := by
        obtain ⟨hi, he⟩ := List.getElem?_eq_some_iff.1 hr
        rw [List.getElem_range] at he
        exact he.symm
      subst this
      simp only [Option.map_some, Option.some.injEq] at h2
      exact h2.symm

/-- **C38**, a file: as for standard input when the length is a multiple of the grain length. In general nothing is lost
but the last grain may be short, see the counterexample. Missing: dropping the final partial grain. -/
theorem C38_file_partial (t : Template) (n : Nat) (hs : t.size = some n) (hn : 0 < n) (input : Bytes) :
    extract (wrapDisk t input) = input ∧
    (∀ (k : Nat) (g : Out), (wrapDisk t input)[k]? = some g →
      g.origin = atRate t.rateNum t.rateDen t.origin k ∧ (k < input.length / n → g.data.length = n)) ∧
    (n ∣ input.length → (wrapDisk t input).length = input.length / n ∧ ∀ g ∈ wrapDisk t input, g.data.length = n) := by
  rw [wrapDisk_eq t hs hn]
  refine ⟨by rw [extract_zip, flatten_pieces hn], ?_, ?_⟩
  · intro k g hk
    obtain ⟨h1, h2⟩ := origin_zip t _ k g hk
    refine ⟨h1, fun hlt => ?_⟩
    unfold pieces at h2
    rw [List.getElem?_append_left (by rw [wholes_count]; exact hlt)] at h2
    exact wholes_length (List.mem_of_getElem? h2)
  · intro hd
    have e : pieces n input = wholes n input := by
      unfold pieces
      rw [if_pos (Nat.mod_eq_zero_of_dvd hd), List.append_nil]
    rw [e]
    refine ⟨by simp [wholes_count], ?_⟩
    intro g hg
    obtain ⟨k, hk⟩ := List.getElem?_of_mem hg
    exact wholes_length (List.mem_of_getElem? (origin_zip t _ k g hk).2)

/-- **C38**, unwrapping: the data of the grains is the input when its length is a multiple of the grain length. -/
theorem C38_unwrap (t : Template) (n : Nat) (hs : t.size = some n) (hn : 0 < n) (input : Bytes) (limits : List Nat)
    (hd : n ∣ input.length) : extract (wrapDisk t input) = input ∧ extract (wrapPipe t n input limits) = input := by
  refine ⟨(C38_file_partial t n hs hn input).1, ?_⟩
  rw [(C38_stdin t n hn input limits).2.2.1, Nat.div_mul_cancel hd, List.take_length]

/-- **C38**, timestamps: unit starts are the true times rounded down to a nanosecond, so that errors do not add up, and
are exactly one period apart when the period is a whole number of nanoseconds. The first is the first unit start that is
not before the template's timestamp, and is that timestamp if it is a unit start. -/
theorem C38_timestamps (num den : Nat) (hn : 0 < num) (hd : 0 < den) (start : Int) :
    (∀ k : Nat, atRate num den start k * num ≤ (firstCount num den start + k) * 1000000000 * den ∧
      (firstCount num den start + k) * 1000000000 * den < (atRate num den start k + 1) * num) ∧
    (num ∣ 1000000000 * den → ∀ k : Nat, atRate num den start (k + 1) = atRate num den start k + 1000000000 * den / num) ∧
    (∀ c : Int, start ≤ fromCount num den c ↔ firstCount num den start ≤ c) ∧
    (∀ c : Int, start = fromCount num den c → atRate num den start 0 = start) := by
  refine ⟨fun k => fromCount_bounds hn _, ?_, ?_, ?_⟩
  · intro h k
    obtain ⟨m, hm⟩ := h
    have hm' : (1000000000 : Int) * den = num * m := by
      have := Int.natCast_mul num m
      omega
    have hn0 : (num : Int) ≠ 0 := by omega
    unfold atRate fromCount
    rw [Int.mul_assoc, hm', Int.mul_assoc, hm', Int.mul_ediv_cancel_left _ hn0]
    rw [show (firstCount num den start + ((k + 1 : Nat) : Int)) * ((num : Int) * m) =
        num * ((firstCount num den start + ((k + 1 : Nat) : Int)) * m) by
          rw [← Int.mul_assoc, Int.mul_comm _ (num : Int), Int.mul_assoc],
      show (firstCount num den start + (k : Int)) * ((num : Int) * m) =
        num * ((firstCount num den start + (k : Int)) * m) by
          rw [← Int.mul_assoc, Int.mul_comm _ (num : Int), Int.mul_assoc],
      Int.mul_ediv_cancel_left _ hn0, Int.mul_ediv_cancel_left _ hn0, Int.natCast_add, ← Int.add_assoc, Int.add_mul]
    simp
  · intro c
    rw [le_fromCount hn, first_le hd]
  · intro c hc
    have h1 : firstCount num den start ≤ c := by
      rw [first_le hd, ← le_fromCount hn, hc]; exact Int.le_refl _
    have h2 : start ≤ fromCount num den (firstCount num den start) := by
      rw [le_fromCount hn, ← first_le hd]; exact Int.le_refl _
    have h3 : fromCount num den (firstCount num den start) ≤ fromCount num den c := by
      rw [le_fromCount hn]
      have := (fromCount_bounds (den := den) hn (firstCount num den start)).1
      have h4 : firstCount num den start * 1000000000 * den ≤ c * 1000000000 * den :=
        Int.mul_le_mul_of_nonneg_right (Int.mul_le_mul_of_nonneg_right h1 (by decide)) (by omega)
      omega
    unfold atRate
    rw [Int.natCast_zero, Int.add_zero]
    exact Int.le_antisymm (hc ▸ h3) h2

/-- **C38**, end to end: a file written with the wrapped grains decodes to grains whose data, one after the other, is the
input. The file is any the encoder can write whose grains carry the wrapped data. -/
theorem C38_end_to_end (t : Template) (n : Nat) (hs : t.size = some n) (hn : 0 < n) (input : Bytes) (f : Gsf.FileSpec)
    (hf : f.Ok) (hg : f.grains.map (fun x => x.2.data) = (wrapDisk t input).map (fun g => some g.data)) :
    ∃ r, Gsf.decodeFile {} f.bytes = .ok r ∧ r.ending = .eof ∧
      (r.view f.bytes).flatMap (fun x => x.2.1.getD []) = input := by
  obtain ⟨r, h1, h2, _, h4⟩ := C01_round_trip_normal_form f hf
  refine ⟨r, h1, h2, ?_⟩
  rw [h4, List.flatMap_map]
  have e : ∀ x : Nat × Gsf.Grain, x.2.payload.getD [] = x.2.data.getD [] := by
    intro x
    unfold Gsf.Grain.payload
    by_cases h : x.2.data.getD [] = []
    · rw [if_pos h, h]; rfl
    · rw [if_neg h]; rfl
  simp only [e]
  rw [← List.flatMap_map (f := fun x : Nat × Gsf.Grain => x.2.data) (g := fun d => d.getD []), hg, List.flatMap_map]
  exact (C38_file_partial t n hs hn input).1

/-! ## Examples and counterexamples -/

/-- 29.97 grains of 4 bytes a second. -/
def ntsc : Template := ⟨1001, 30000, 1001, some 4⟩

example : wrapPipe ntsc 4 [1, 2, 3, 4, 5, 6, 7, 8, 9, 10] [1, 1, 3] =
    [⟨33366666, [1, 2, 3, 4]⟩, ⟨66733333, [5, 6, 7, 8]⟩] := by decide +kernel

example : wrapDisk ⟨40000000, 25, 1, some 2⟩ [1, 2, 3, 4, 5, 6] =
    [⟨40000000, [1, 2]⟩, ⟨80000000, [3, 4]⟩, ⟨120000000, [5, 6]⟩] := by decide +kernel

/-- With a file the final partial grain is not dropped: the last grain is shorter than expected. -/
theorem C38_counterexample : (wrapDisk ⟨0, 25, 1, some 2⟩ [1, 2, 3]).map (fun g => g.data) = [[1, 2], [3]] := by
  decide +kernel

/-- A template of unknown length puts the whole input into one grain. -/
theorem C38_unknown_length (t : Template) (h : t.size = none) (input : Bytes) (hi : input ≠ []) :
    wrapDisk t input = [t.out (0, input)] := by
  unfold wrapDisk
  rw [h, rounds]
  simp only [diskRead, if_neg hi]
  cases hl : input.length with
  | zero => exact absurd (List.length_eq_zero_iff.1 hl) hi
  | succ m => rw [rounds]; rfl

/-- The file of the end to end theorem exists. -/
example : ∃ f : Gsf.FileSpec, f.Ok ∧
    f.grains.map (fun x => x.2.data) = (wrapDisk ⟨0, 25, 1, some 2⟩ [255, 0, 255, 0]).map (fun g => some g.data) :=
  ⟨⟨9, 0, sampleHead, [(1, gAudio), (1, gAudio)]⟩, by decide +kernel, by decide +kernel⟩

end Verif.Props

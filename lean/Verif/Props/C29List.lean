import Verif.Props.C29

/-!
# C29: the lists the views are compared with

`C29_partial` compares the views with Python's list. The theorems here say what that list does, in terms of concatenation.
-/

namespace Verif.Props

open Verif Verif.Views

variable {α : Type}

namespace C29l

theorem mem_up (b step : Int) (hs : 0 < step) (k : Nat) : ∀ (fuel : Nat) (a : Int), 0 ≤ a →
    (k ∈ PyList.pyRange b step fuel a ↔ ∃ j : Nat, j < fuel ∧ (k : Int) = a + j * step ∧ (k : Int) < b) := by
  intro fuel
  induction fuel with
  | zero => intro a _; simp [PyList.pyRange]
  | succ n ih =>
    intro a ha
    unfold PyList.pyRange
    by_cases hb : a < b
    · rw [if_pos (Or.inl ⟨hs, hb⟩), List.mem_cons, ih _ (by omega)]
      constructor
      · rintro (h | ⟨j, h1, h2, h3⟩)
        · exact ⟨0, by omega, by simp; omega, by omega⟩
        · refine ⟨j + 1, by omega, ?_, h3⟩
          rw [h2, Int.natCast_add, Int.add_mul]
          simp only [Int.cast_ofNat_Int, Int.one_mul]
          omega
      · rintro ⟨j, h1, h2, h3⟩
        cases j with
        | zero => exact Or.inl (by simp at h2; omega)
        | succ j =>
          refine Or.inr ⟨j, by omega, ?_, h3⟩
          rw [h2, Int.natCast_add, Int.add_mul]
          simp only [Int.cast_ofNat_Int, Int.one_mul]
          omega
    · rw [if_neg (by omega)]
      constructor
      · intro h; cases h
      · rintro ⟨j, h1, h2, h3⟩
        have : 0 ≤ (j : Int) * step := Int.mul_nonneg (by omega) (by omega)
        omega

theorem mem_down (b step : Int) (hs : step < 0) (hb : -1 ≤ b) (k : Nat) : ∀ (fuel : Nat) (a : Int),
    (k ∈ PyList.pyRange b step fuel a ↔ ∃ j : Nat, j < fuel ∧ (k : Int) = a + j * step ∧ b < (k : Int)) := by
  intro fuel
  induction fuel with
  | zero => intro a; simp [PyList.pyRange]
  | succ n ih =>
    intro a
    unfold PyList.pyRange
    by_cases ha : b < a
    · rw [if_pos (Or.inr ⟨hs, ha⟩), List.mem_cons, ih]
      constructor
      · rintro (h | ⟨j, h1, h2, h3⟩)
        · exact ⟨0, by omega, by simp; omega, by omega⟩
        · refine ⟨j + 1, by omega, ?_, h3⟩
          rw [h2, Int.natCast_add, Int.add_mul]
          simp only [Int.cast_ofNat_Int, Int.one_mul]
          omega
      · rintro ⟨j, h1, h2, h3⟩
        cases j with
        | zero => exact Or.inl (by simp at h2; omega)
        | succ j =>
          refine Or.inr ⟨j, by omega, ?_, h3⟩
          rw [h2, Int.natCast_add, Int.add_mul]
          simp only [Int.cast_ofNat_Int, Int.one_mul]
          omega
    · rw [if_neg (by omega)]
      constructor
      · intro h; cases h
      · rintro ⟨j, h1, h2, h3⟩
        have : 0 ≤ (j : Int) * (-step) := Int.mul_nonneg (by omega) (by omega)
        rw [Int.mul_neg] at this
        omega

theorem range_up : ∀ (fuel m a : Nat), m ≤ fuel → PyList.pyRange ((a + m : Nat) : Int) 1 fuel a = List.range' a m := by
  intro fuel
  induction fuel with
  | zero =>
    intro m a h
    obtain rfl : m = 0 := by omega
    rfl
  | succ n ih =>
    intro m a h
    unfold PyList.pyRange
    cases m with
    | zero => rw [if_neg (by omega)]; rfl
    | succ m =>
      rw [if_pos (by omega), List.range'_succ, ← ih m (a + 1) (by omega)]
      congr 2
      omega

theorem picks (b c : List α) : ∀ (a : List α), (List.range' a.length b.length).filterMap (fun k => (a ++ b ++ c)[k]?) = b := by
  induction b with
  | nil => intro a; rfl
  | cons x b ih =>
    intro a
    rw [List.length_cons, List.range'_succ]
    have h : (a ++ x :: b ++ c)[a.length]? = some x := by simp
    rw [List.filterMap_cons_some h]
    congr 1
    have := ih (a ++ [x])
    simpa using this

theorem drops (a b c : List α) :
    ((a ++ b ++ c).zipIdx.filter (fun p => !(List.range' a.length b.length).contains p.2)).map Prod.fst = a ++ c := by
  have keep : ∀ (l : List α) (n : Nat), (∀ k, n ≤ k → k < n + l.length → ¬ (a.length ≤ k ∧ k < a.length + b.length)) →
      (l.zipIdx n).filter (fun p => !(List.range' a.length b.length).contains p.2) = l.zipIdx n := by
    intro l n h
    rw [List.filter_eq_self]
    rintro ⟨x, k⟩ hx
    have := List.mem_zipIdx hx
    simp only [Bool.not_eq_true', List.contains_eq_mem, decide_eq_false_iff_not, List.mem_range'_1]
    exact h k this.1 this.2.1
  have gone : (b.zipIdx a.length).filter (fun p => !(List.range' a.length b.length).contains p.2) = [] := by
    rw [List.filter_eq_nil_iff]
    rintro ⟨x, k⟩ hx
    have := List.mem_zipIdx hx
    simp only [Bool.not_eq_true', List.contains_eq_mem, decide_eq_false_iff_not, List.mem_range'_1]
    omega
  rw [List.zipIdx_append, List.zipIdx_append, List.filter_append, List.filter_append, Nat.zero_add, gone,
    keep a 0 (by omega), keep c _ (by simp; omega)]
  simp

theorem range_down : ∀ n : Nat, PyList.pyRange (-1) (-1) n ((n : Int) - 1) = (List.range n).reverse := by
  intro n
  induction n with
  | zero => rfl
  | succ n ih =>
    unfold PyList.pyRange
    rw [if_pos (by omega), List.range_succ, List.reverse_append, ← ih]
    have h : ((n + 1 : Nat) : Int) - 1 = n := by omega
    rw [h]
    rfl

end C29l

/-- **C29**: where a list inserts. At the end of its first part, counted from the start or from the end; an index past the end appends, one before the start
prepends. -/
theorem C29_list_insert (l r : List α) (v : α) :
    PyList.insert (l ++ r) l.length v = l ++ v :: r ∧ (r ≠ [] → PyList.insert (l ++ r) (-(r.length : Int)) v = l ++ v :: r) ∧
      (∀ i : Int, l.length ≤ i → PyList.insert l i v = l ++ [v]) ∧ (∀ i : Int, i < 0 → i ≤ -(l.length : Int) → PyList.insert l i v = v :: l) := by
  refine ⟨?_, ?_, ?_, ?_⟩
  · have : PyList.insertPos (l ++ r).length l.length = l.length := by
      unfold PyList.insertPos; rw [if_neg (by omega), List.length_append]; omega
    unfold PyList.insert
    rw [this]; simp
  · intro hr
    have := List.length_pos_iff.2 hr
    have : PyList.insertPos (l ++ r).length (-(r.length : Int)) = l.length := by
      unfold PyList.insertPos; rw [if_pos (by omega), List.length_append]; omega
    unfold PyList.insert
    rw [this]; simp
  · intro i hi
    have : PyList.insertPos l.length i = l.length := by
      unfold PyList.insertPos; rw [if_neg (by omega)]; omega
    unfold PyList.insert
    rw [this]; simp
  · intro i h0 hi
    have : PyList.insertPos l.length i = 0 := by
      unfold PyList.insertPos; rw [if_pos h0]; omega
    unfold PyList.insert
    rw [this]; simp

/-- **C29**: a slice without a step is the part between its bounds. It can be read, deleted and replaced; a slice that ends before it starts is replaced where
it starts. -/
theorem C29_list_slice (a b c vs : List α) :
    PyList.getSlice (a ++ b ++ c) ⟨some a.length, some ((a.length + b.length : Nat) : Int), none⟩ = .ok b ∧
      PyList.delSlice (a ++ b ++ c) ⟨some a.length, some ((a.length + b.length : Nat) : Int), none⟩ = .ok (a ++ c) ∧
      PyList.setSlice (a ++ b ++ c) ⟨some a.length, some ((a.length + b.length : Nat) : Int), none⟩ vs = .ok (a ++ vs ++ c) ∧
      (∀ k : Nat, k ≤ a.length → PyList.setSlice (a ++ c) ⟨some a.length, some (k : Int), none⟩ vs = .ok (a ++ vs ++ c)) := by
  have hlen : (a ++ b ++ c).length = a.length + b.length + c.length := by simp only [List.length_append]
  have b1 : PyList.bound (a ++ b ++ c).length 0 ((a ++ b ++ c).length : Int) (a.length : Int) = a.length := by
    unfold PyList.bound; rw [if_neg (by omega), hlen]; omega
  have b2 : PyList.bound (a ++ b ++ c).length 0 ((a ++ b ++ c).length : Int) ((a.length + b.length : Nat) : Int) = (a.length + b.length : Nat) := by
    unfold PyList.bound; rw [if_neg (by omega), hlen]; omega
  have hi : PyList.Slice.indices ⟨some a.length, some ((a.length + b.length : Nat) : Int), none⟩ (a ++ b ++ c).length =
      .ok (List.range' a.length b.length) := by
    unfold PyList.Slice.indices
    simp only [Option.getD_none, Option.map_some, Option.getD_some, b1, b2]
    rw [if_neg (by decide), if_pos (by decide), C29l.range_up _ _ _ (by omega)]
  refine ⟨?_, ?_, ?_, ?_⟩
  · unfold PyList.getSlice
    rw [hi]
    simp only [Except.map, C29l.picks]
  · unfold PyList.delSlice
    rw [hi]
    simp only [Except.map, C29l.drops]
  · unfold PyList.setSlice
    simp only [Option.getD_none, if_true, Option.map_some, Option.getD_some, b1, b2, Int.toNat_natCast]
    rw [Nat.max_eq_right (by omega)]
    simp
  · intro k hk
    have hlen : (a ++ c).length = a.length + c.length := List.length_append
    have b1 : PyList.bound (a ++ c).length 0 ((a ++ c).length : Int) (a.length : Int) = a.length := by
      unfold PyList.bound; rw [if_neg (by omega), hlen]; omega
    have b2 : PyList.bound (a ++ c).length 0 ((a ++ c).length : Int) (k : Int) = k := by
      unfold PyList.bound; rw [if_neg (by omega), hlen]; omega
    unfold PyList.setSlice
    simp only [Option.getD_none, if_true, Option.map_some, Option.getD_some, b1, b2, Int.toNat_natCast]
    rw [Nat.max_eq_left hk]
    simp

/-- **C29**: a slice with a step holds the positions reached from its start before its stop, upwards or downwards. -/
theorem C29_list_step (n a b : Nat) (ha : a < n) (hb : b < n) (step : Int) (hs : step ≠ 0) :
    ∃ ks, PyList.Slice.indices ⟨some a, some b, some step⟩ n = .ok ks ∧
      ∀ k : Nat, k ∈ ks ↔ ∃ j : Nat, (k : Int) = a + j * step ∧ (if 0 < step then k < b else b < k) := by
  unfold PyList.Slice.indices
  simp only [Option.getD_some, Option.map_some]
  rw [if_neg hs]
  have bd : ∀ (lo hi : Int) (x : Nat), (x : Int) ≤ hi → PyList.bound n lo hi x = x := by
    intro lo hi x hx
    unfold PyList.bound; rw [if_neg (by omega)]; omega
  by_cases hp : 0 < step
  · rw [if_pos hp, bd _ _ a (by omega), bd _ _ b (by omega)]
    refine ⟨_, rfl, fun k => ?_⟩
    rw [C29l.mem_up _ _ hp k n a (by omega)]
    simp only [if_pos hp]
    constructor
    · rintro ⟨j, _, h2, h3⟩
      exact ⟨j, h2, by omega⟩
    · rintro ⟨j, h2, h3⟩
      refine ⟨j, ?_, h2, by omega⟩
      have : (j : Int) * 1 ≤ j * step := Int.mul_le_mul_of_nonneg_left (by omega) (by omega)
      omega
  · rw [if_neg hp, bd _ _ a (by omega), bd _ _ b (by omega)]
    refine ⟨_, rfl, fun k => ?_⟩
    rw [C29l.mem_down _ _ (by omega) (by omega) k n a]
    simp only [if_neg hp]
    constructor
    · rintro ⟨j, _, h2, h3⟩
      exact ⟨j, h2, by omega⟩
    · rintro ⟨j, h2, h3⟩
      refine ⟨j, ?_, h2, by omega⟩
      have : (j : Int) * 1 ≤ j * (-step) := Int.mul_le_mul_of_nonneg_left (by omega) (by omega)
      rw [Int.mul_neg] at this
      omega

/-- **C29**: `l[::-1]` is the list backwards. -/
theorem C29_list_backwards (l : List α) : PyList.getSlice l ⟨none, none, some (-1)⟩ = .ok l.reverse := by
  unfold PyList.getSlice PyList.Slice.indices
  simp only [Option.getD_some, Option.map_none, Option.getD_none]
  rw [if_neg (by decide), if_neg (by decide), C29l.range_down]
  simp only [Except.map]
  rw [List.filterMap_reverse]
  have := C29l.picks l [] []
  simp only [List.nil_append, List.append_nil, List.length_nil] at this
  rw [List.range_eq_range', this]

/-- Insertion and slices of unit offsets, through the view. -/
example : (viewRun unitOffsets (some [1, 2, 3, 4]) [.insert (-1) 9, .getSlice ⟨some 1, some 3, none⟩, .getSlice ⟨some 4, some 0, some (-2)⟩, .iter]).1 =
    [.unit, .list [2, 3], .list [4, 3], .list [1, 2, 3, 9, 4]] := by decide +kernel

end Verif.Props

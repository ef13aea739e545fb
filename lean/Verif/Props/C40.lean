import Verif.Wrap.H264
import Verif.Props.C37

/-!
# C40: H.264 framing
-/

namespace Verif.Props.H264Frames

open Verif Verif.IO.Stream Verif.Wrap Verif.Wrap.H264 Fwd

/-! ## Start codes -/

theorem isCode_bound {b : Bytes} {i : Nat} (h : isCode b i = true) : i + 3 ≤ b.length := by
  unfold isCode at h
  rw [beq_iff_eq] at h
  have := congrArg List.length h
  simp only [List.length_take, List.length_drop, List.length_cons, List.length_nil] at this
  omega

theorem mem_offsets {b : Bytes} {i : Nat} : i ∈ offsets b ↔ isCode b i = true := by
  unfold offsets
  rw [List.mem_filter, List.mem_range]
  constructor
  · exact fun h => h.2
  · intro h
    have := isCode_bound h
    exact ⟨by omega, h⟩

theorem offsets_upto {b : Bytes} {m : Nat} (h : b.length ≤ m) : offsets b = (List.range m).filter (isCode b) := by
  unfold offsets
  induction m with
  | zero => have : b.length = 0 := by omega
            rw [this]
  | succ m ih =>
    by_cases hm : b.length ≤ m
    · rw [ih hm, List.range_succ, List.filter_append]
      have : isCode b m = false := by
        cases hc : isCode b m with
        | false => rfl
        | true => have := isCode_bound hc; omega
      rw [List.filter_cons_of_neg (by rw [this]; simp), List.filter_nil, List.append_nil]
    · have : b.length = m + 1 := by omega
      rw [this]

theorem offsets_sorted (b : Bytes) : (offsets b).Pairwise (· < ·) :=
  List.Pairwise.filter _ List.pairwise_lt_range

theorem isCode_take (b : Bytes) (k i : Nat) : isCode (b.take k) i = (decide (i + 3 ≤ k) && isCode b i) := by
  by_cases h : i + 3 ≤ k
  · unfold isCode
    rw [List.drop_take, List.take_take, Nat.min_eq_left (by omega)]
    simp [h]
  · rw [decide_eq_false h, Bool.false_and]
    cases hc : isCode (b.take k) i with
    | false => rfl
    | true => have := isCode_bound hc; rw [List.length_take] at this; omega

theorem isCode_drop (b : Bytes) (c i : Nat) : isCode (b.drop c) i = isCode b (c + i) := by
  unfold isCode
  rw [List.drop_drop]

theorem isCode_append {b : Bytes} {i : Nat} (h : isCode b i = true) (y : Bytes) : isCode (b ++ y) i = true := by
  have hb := isCode_bound h
  unfold isCode at h ⊢
  rw [List.drop_append_of_le_length (by omega), List.take_append_of_le_length (by rw [List.length_drop]; omega)]
  exact h

theorem offsets_take (b : Bytes) (k : Nat) : offsets (b.take k) = (offsets b).filter (fun i => decide (i + 3 ≤ k)) := by
  rw [offsets_upto (b := b.take k) (m := b.length) (by rw [List.length_take]; omega)]
  unfold offsets
  rw [List.filter_filter]
  congr 1
  funext i
  exact isCode_take b k i

/-! ## Units -/

/-- The units for given positions. -/
def segs (b : Bytes) : List Nat → Nat → List (Nat × Bytes)
  | [], _ => []
  | [o], e => [(o, (b.drop o).take (e - o))]
  | o :: o' :: os, e => (o, (b.drop o).take (o' - o)) :: segs b (o' :: os) e

theorem units_eq (b : Bytes) : units b = segs b (offsets b) b.length := by
  unfold units
  generalize offsets b = os
  have key : ∀ os : List Nat, (os.zip (os.tail ++ [b.length])).map (fun x => (x.1, (b.drop x.1).take (x.2 - x.1))) =
      segs b os b.length := by
    intro os
    induction os with
    | nil => rfl
    | cons o os ih =>
      cases os with
      | nil => rfl
      | cons o' os =>
        rw [segs, ← ih]
        rfl
  exact key os

theorem segs_fst (b : Bytes) (os : List Nat) (e : Nat) : (segs b os e).map (fun x => x.1) = os := by
  induction os with
  | nil => rfl
  | cons o os ih =>
    cases os with
    | nil => rfl
    | cons o' os => rw [segs, List.map_cons, ih]

theorem units_fst (b : Bytes) : (units b).map (fun x => x.1) = offsets b := by rw [units_eq, segs_fst]

/-- The units before position `o` do not depend on what is at or after it. -/
theorem segs_append (b : Bytes) (os : List Nat) (o : Nat) (os' : List Nat) (e : Nat) :
    segs b (os ++ o :: os') e = segs b os o ++ segs b (o :: os') e := by
  induction os with
  | nil => rfl
  | cons a os ih =>
    cases os with
    | nil => rfl
    | cons a' os =>
      rw [List.cons_append, List.cons_append, segs, ← List.cons_append, ih]
      rfl

theorem segs_take (b : Bytes) (k : Nat) (os : List Nat) (e : Nat) (he : e ≤ k) (ho : ∀ o ∈ os, o ≤ k) :
    segs (b.take k) os e = segs b os e := by
  induction os with
  | nil => rfl
  | cons o os ih =>
    have h1 := ho o (by simp)
    cases os with
    | nil =>
      simp only [segs]
      rw [List.drop_take, List.take_take, Nat.min_eq_left (by omega)]
    | cons o' os =>
      have h2 := ho o' (by simp)
      rw [segs, segs, ih (fun x hx => ho x (by simp [hx])), List.drop_take, List.take_take, Nat.min_eq_left (by omega)]

theorem segs_drop (b : Bytes) (c : Nat) (os : List Nat) (e : Nat) (ho : ∀ o ∈ os, c ≤ o) :
    segs (b.drop c) (os.map (fun o => o - c)) (e - c) = (segs b os e).map (fun x => (x.1 - c, x.2)) := by
  induction os with
  | nil => rfl
  | cons o os ih =>
    have h1 := ho o (by simp)
    cases os with
    | nil =>
      simp only [segs, List.map_cons, List.map_nil]
      rw [List.drop_drop, show c + (o - c) = o by omega, show e - c - (o - c) = e - o by omega]
    | cons o' os =>
      have h2 := ho o' (by simp)
      have := ih (fun x hx => ho x (by simp [hx]))
      simp only [List.map_cons] at this
      rw [List.map_cons, List.map_cons, segs, this, segs, List.map_cons, List.drop_drop,
        show c + (o - c) = o by omega, show o' - c - (o - c) = o' - o by omega]

/-- A sorted list is cut in two by a bound. -/
theorem sorted_cut {os : List Nat} (h : os.Pairwise (· < ·)) (c : Nat) :
    os = os.filter (fun o => decide (o < c)) ++ os.filter (fun o => decide (c ≤ o)) := by
  induction os with
  | nil => rfl
  | cons o os ih =>
    have hp := List.pairwise_cons.1 h
    by_cases ho : o < c
    · rw [List.filter_cons_of_pos (by simpa using ho), List.filter_cons_of_neg (by simp; omega), List.cons_append,
        ← ih hp.2]
    · have e1 : (o :: os).filter (fun o => decide (o < c)) = [] := by
        rw [List.filter_eq_nil_iff]
        intro x hx
        rcases List.mem_cons.1 hx with hx | hx
        · simp; omega
        · have := hp.1 x hx; simp; omega
      have e2 : (o :: os).filter (fun o => decide (c ≤ o)) = o :: os := by
        rw [List.filter_eq_self]
        intro x hx
        rcases List.mem_cons.1 hx with hx | hx
        · simp; omega
        · have := hp.1 x hx; simp; omega
      rw [e1, e2, List.nil_append]

theorem offsets_drop (b : Bytes) (c : Nat) :
    offsets (b.drop c) = ((offsets b).filter (fun o => decide (c ≤ o))).map (fun o => o - c) := by
  by_cases hc : c ≤ b.length
  · have hr : List.range b.length = List.range c ++ (List.range (b.length - c)).map (fun i => c + i) := by
      rw [← List.range_add]; congr 1; omega
    have h1 : offsets b = (List.range c).filter (isCode b) ++
        ((List.range (b.length - c)).filter (isCode (b.drop c))).map (fun i => c + i) := by
      unfold offsets
      rw [hr, List.filter_append, List.filter_map]
      congr 3
      funext i
      exact (isCode_drop b c i).symm
    rw [h1, List.filter_append, List.filter_eq_nil_iff.2 (by
      intro x hx
      have := List.mem_range.1 (List.mem_filter.1 hx).1
      simp; omega), List.nil_append, List.filter_eq_self.2 (by
      intro x hx
      obtain ⟨i, _, rfl⟩ := List.mem_map.1 hx
      simp), List.map_map]
    have : ((fun o => o - c) ∘ fun i => c + i) = id := by funext i; simp
    rw [this, List.map_id]
    unfold offsets
    rw [List.length_drop]
  · have h1 : b.drop c = [] := List.drop_of_length_le (by omega)
    rw [h1]
    have : (offsets b).filter (fun o => decide (c ≤ o)) = [] := by
      rw [List.filter_eq_nil_iff]
      intro x hx
      have := isCode_bound (mem_offsets.1 hx)
      simp; omega
    rw [this]
    rfl

/-- The units after a cut are units of the whole. -/
theorem units_drop (b : Bytes) (c : Nat) (hc : c ≤ b.length) :
    ∃ pre, units b = pre ++ (segs b ((offsets b).filter (fun o => decide (c ≤ o))) b.length) ∧
      units (b.drop c) = (segs b ((offsets b).filter (fun o => decide (c ≤ o))) b.length).map (fun x => (x.1 - c, x.2)) := by
  have h2 : units (b.drop c) = (segs b ((offsets b).filter (fun o => decide (c ≤ o))) b.length).map (fun x => (x.1 - c, x.2)) := by
    rw [units_eq, offsets_drop, List.length_drop, segs_drop]
    intro o ho
    simpa using (List.mem_filter.1 ho).2
  cases hf : (offsets b).filter (fun o => decide (c ≤ o)) with
  | nil => rw [hf] at h2; exact ⟨units b, by simp [segs], h2⟩
  | cons o os =>
    rw [hf] at h2
    refine ⟨segs b ((offsets b).filter (fun o => decide (o < c))) o, ?_, h2⟩
    rw [units_eq]
    conv => lhs; rw [sorted_cut (offsets_sorted b) c, hf]
    rw [segs_append]

theorem mem_units_drop {b : Bytes} {c : Nat} {o : Nat} {u : Bytes} (h : (o, u) ∈ units (b.drop c)) :
    ∃ o', (o', u) ∈ units b := by
  by_cases hc : c ≤ b.length
  · obtain ⟨pre, h1, h2⟩ := units_drop b c hc
    rw [h2] at h
    obtain ⟨x, hx, he⟩ := List.mem_map.1 h
    injection he with he1 he2
    refine ⟨x.1, ?_⟩
    rw [h1, ← he2]
    exact List.mem_append_right _ hx
  · rw [List.drop_of_length_le (by omega)] at h
    simp [units, offsets] at h

/-! ## More bits do not change what was read -/

/-- The result with more bits after the end. -/
def Res.ext {α : Type} (y : List Bool) : Res α → Res α
  | .ok a r => .ok a (r ++ y)
  | .short => .short
  | .invalid => .invalid

theorem readU_ext (n : Nat) (x y : List Bool) (h : readU n x ≠ .short) : readU n (x ++ y) = Res.ext y (readU n x) := by
  unfold readU at h ⊢
  by_cases h0 : n = 0
  · rw [if_pos h0, if_pos h0]; rfl
  rw [if_neg h0] at h
  rw [if_neg h0, if_neg h0]
  by_cases hl : x.length < n
  · rw [if_pos hl] at h; exact absurd rfl h
  · rw [if_neg hl, if_neg (by rw [List.length_append]; omega), List.take_append_of_le_length (by omega),
      List.drop_append_of_le_length (by omega)]
    rfl

theorem leadingZeros_ext {x r : List Bool} {k : Nat} (h : leadingZeros x = some (k, r)) (y : List Bool) :
    leadingZeros (x ++ y) = some (k, r ++ y) := by
  induction x generalizing k with
  | nil => cases h
  | cons a x ih =>
    cases a with
    | true =>
      rw [leadingZeros] at h
      injection h with h
      injection h with h1 h2
      subst h1 h2; rfl
    | false =>
      rw [leadingZeros] at h
      cases hl : leadingZeros x with
      | none => rw [hl] at h; cases h
      | some z =>
        obtain ⟨j, r'⟩ := z
        rw [hl] at h
        injection h with h
        injection h with h1 h2
        simp only at h1 h2
        subst h1 h2
        rw [List.cons_append, leadingZeros, ih hl]
        rfl

theorem readUe_ext (x y : List Bool) (h : readUe x ≠ .short) : readUe (x ++ y) = Res.ext y (readUe x) := by
  unfold readUe at h ⊢
  cases hl : leadingZeros x with
  | none => rw [hl] at h; exact absurd rfl h
  | some z =>
    obtain ⟨k, r⟩ := z
    rw [leadingZeros_ext hl]
    rw [hl] at h
    simp only at h ⊢
    by_cases hk : r.length < k
    · rw [if_pos hk] at h; exact absurd rfl h
    · rw [if_neg hk, if_neg (by rw [List.length_append]; omega), List.take_append_of_le_length (by omega),
        List.drop_append_of_le_length (by omega)]
      rfl

theorem readSe_ext (x y : List Bool) (h : readSe x ≠ .short) : readSe (x ++ y) = Res.ext y (readSe x) := by
  unfold readSe at h ⊢
  cases hu : readUe x with
  | short => rw [hu] at h; exact absurd rfl h
  | ok n r => rw [readUe_ext x y (by rw [hu]; intro hc; cases hc), hu]; rfl
  | invalid => rw [readUe_ext x y (by rw [hu]; intro hc; cases hc), hu]; rfl

theorem run_ext {α : Type} (p : Prog α) (x y : List Bool) (h : p.run x ≠ .short) : p.run (x ++ y) = Res.ext y (p.run x) := by
  induction p generalizing x with
  | ret a => rfl
  | fail => rfl
  | u n k ih =>
    rw [Prog.run] at h
    rw [Prog.run, Prog.run]
    cases hr : readU n x with
    | short => rw [hr] at h; exact absurd rfl h
    | ok a r =>
      rw [hr] at h
      rw [readU_ext n x y (by rw [hr]; intro hc; cases hc), hr]
      exact ih a r h
    | invalid => rw [readU_ext n x y (by rw [hr]; intro hc; cases hc), hr]; rfl
  | ue k ih =>
    rw [Prog.run] at h
    rw [Prog.run, Prog.run]
    cases hr : readUe x with
    | short => rw [hr] at h; exact absurd rfl h
    | ok a r =>
      rw [hr] at h
      rw [readUe_ext x y (by rw [hr]; intro hc; cases hc), hr]
      exact ih a r h
    | invalid => rw [readUe_ext x y (by rw [hr]; intro hc; cases hc), hr]; rfl
  | se k ih =>
    rw [Prog.run] at h
    rw [Prog.run, Prog.run]
    cases hr : readSe x with
    | short => rw [hr] at h; exact absurd rfl h
    | ok a r =>
      rw [hr] at h
      rw [readSe_ext x y (by rw [hr]; intro hc; cases hc), hr]
      exact ih a r h
    | invalid => rw [readSe_ext x y (by rw [hr]; intro hc; cases hc), hr]; rfl

theorem unescape_zero (y : Bytes) : ∃ z, unescape (0 :: y) = 0 :: z := by
  by_cases h : ∃ r, y = 0 :: 3 :: r
  · obtain ⟨r, h⟩ := h
    rw [h, unescape]
    exact ⟨0 :: unescape r, rfl⟩
  · refine ⟨unescape y, ?_⟩
    rw [unescape]
    intro r' _ h'; exact h ⟨r', h'⟩

theorem unescape_zeros (y : Bytes) : ∃ z, unescape (0 :: 0 :: y) = 0 :: 0 :: z := by
  by_cases h : ∃ r, y = 3 :: r
  · obtain ⟨r, h⟩ := h
    rw [h, unescape]
    exact ⟨unescape r, rfl⟩
  · obtain ⟨z, hz⟩ := unescape_zero y
    refine ⟨z, ?_⟩
    rw [unescape, hz]
    intro r' _ h'
    injection h' with _ h'
    exact h ⟨r', h'⟩

theorem unescape_ext (x y : Bytes) : ∃ z, unescape (x ++ y) = unescape x ++ z := by
  match x with
  | [] => exact ⟨unescape y, rfl⟩
  | a :: r =>
    by_cases h : ∃ r', a :: r = 0 :: 0 :: 3 :: r'
    · obtain ⟨r', h⟩ := h
      injection h with h1 h2
      subst h1 h2
      obtain ⟨z, hz⟩ := unescape_ext r' y
      refine ⟨z, ?_⟩
      simp only [List.cons_append]
      rw [unescape, unescape, hz]
      rfl
    · by_cases hs : (a = 0 ∧ r = []) ∨ (a = 0 ∧ r = [0])
      · rcases hs with ⟨h1, h2⟩ | ⟨h1, h2⟩
        · subst h1 h2; exact unescape_zero y
        · subst h1 h2; exact unescape_zeros y
      · obtain ⟨z, hz⟩ := unescape_ext r y
        refine ⟨z, ?_⟩
        rw [List.cons_append, unescape, unescape, hz]
        · rfl
        · intro r' h1 h2; exact h ⟨r', by rw [h1, h2]⟩
        · intro r' h1 h2
          match r, h2 with
          | [], _ => exact hs (.inl ⟨h1, rfl⟩)
          | [b], h2 => injection h2 with h2 _; exact hs (.inr ⟨h1, by rw [h2]⟩)
          | b :: c :: r, h2 =>
            injection h2 with h3 h2
            injection h2 with h4 _
            exact h ⟨r, by rw [h1, h3, h4]⟩
termination_by x.length

theorem bitsOf_append (x y : Bytes) : bitsOf (x ++ y) = bitsOf x ++ bitsOf y := List.flatMap_append

theorem rbsp_ext (u y : Bytes) (h : 3 ≤ u.length) : ∃ z, rbsp (u ++ y) = rbsp u ++ z := by
  unfold rbsp
  rw [List.drop_append_of_le_length h]
  obtain ⟨z, hz⟩ := unescape_ext (u.drop 3) y
  exact ⟨bitsOf z, by rw [hz, bitsOf_append]⟩

/-- One unit is the beginning of the other. -/
def Compat (v u : Bytes) : Prop := 3 ≤ v.length ∧ 3 ≤ u.length ∧ ∃ y, v ++ y = u ∨ u ++ y = v

/-- Reading from a part of a unit: not enough, or the same. -/
theorem run_compat {α : Type} (p : Prog α) {v u : Bytes} (h : Compat v u) {a : α} {r : List Bool}
    (hu : p.run (rbsp u) = .ok a r) : p.run (rbsp v) = .short ∨ ∃ r', p.run (rbsp v) = .ok a r' := by
  obtain ⟨h1, h2, y, hy | hy⟩ := h
  · subst hy
    obtain ⟨z, hz⟩ := rbsp_ext v y h1
    rw [hz] at hu
    by_cases hs : p.run (rbsp v) = .short
    · exact .inl hs
    · rw [run_ext p _ z hs] at hu
      cases hv : p.run (rbsp v) with
      | ok a' r' =>
        rw [hv] at hu
        injection hu with h3 _
        subst h3
        exact .inr ⟨r', rfl⟩
      | short => exact absurd hv hs
      | invalid => rw [hv] at hu; cases hu
  · subst hy
    obtain ⟨z, hz⟩ := rbsp_ext u y h2
    rw [hz, run_ext p _ z (by rw [hu]; intro hc; cases hc), hu]
    exact .inr ⟨r ++ z, rfl⟩

theorem type_compat {v u : Bytes} (h : Compat v u) {t : Nat} {r : List Bool}
    (hu : unitType u = .ok t r) : unitType v = .short ∨ ∃ r', unitType v = .ok t r' := by
  unfold unitType at hu ⊢
  generalize (do let _ ← uint 1; let _ ← uint 2; uint 5 : Prog Nat) = p at hu ⊢
  obtain ⟨h1, h2, y, hy | hy⟩ := h
  · subst hy
    rw [List.drop_append_of_le_length h1, bitsOf_append] at hu
    by_cases hs : p.run (bitsOf (v.drop 3)) = .short
    · exact .inl hs
    · rw [run_ext p _ _ hs] at hu
      cases hv : p.run (bitsOf (v.drop 3)) with
      | ok a' r' =>
        rw [hv] at hu
        injection hu with h3 _
        subst h3
        exact .inr ⟨r', rfl⟩
      | short => exact absurd hv hs
      | invalid => rw [hv] at hu; cases hu
  · subst hy
    rw [List.drop_append_of_le_length h2, bitsOf_append, run_ext p _ _ (by rw [hu]; intro hc; cases hc), hu]
    exact .inr ⟨_, rfl⟩

/-! ## The units of a part of the input -/

theorem sorted_cut3 (b : Bytes) (k : Nat) : ∃ suf, offsets b = offsets (b.take k) ++ suf ∧ ∀ o ∈ suf, k < o + 3 := by
  refine ⟨(offsets b).filter (fun o => decide (k + 1 - 3 ≤ o ∧ k < o + 3)), ?_, ?_⟩
  · rw [offsets_take]
    have h := sorted_cut (offsets_sorted b) (k + 1 - 3)
    by_cases h3 : 3 ≤ k
    · have e1 : (fun i => decide (i + 3 ≤ k)) = fun o => decide (o < k + 1 - 3) := by
        funext i; simp only [decide_eq_decide]; omega
      have e2 : (fun o => decide (k + 1 - 3 ≤ o ∧ k < o + 3)) = fun o => decide (k + 1 - 3 ≤ o) := by
        funext i; simp only [decide_eq_decide]; omega
      rw [e1, e2]; exact h
    · have e1 : (offsets b).filter (fun i => decide (i + 3 ≤ k)) = [] := by
        rw [List.filter_eq_nil_iff]; intro x _; simp; omega
      have e2 : (offsets b).filter (fun o => decide (k + 1 - 3 ≤ o ∧ k < o + 3)) = offsets b := by
        rw [List.filter_eq_self]; intro x _; simp; omega
      rw [e1, e2]; rfl
  · intro o ho
    have := (List.mem_filter.1 ho).2
    simp only [decide_eq_true_eq] at this
    exact this.2

/-- Start codes do not overlap. -/
theorem code_gap {b : Bytes} {o n : Nat} (hco : isCode b o = true) (hcn : isCode b n = true) (hon : o < n) : o + 3 ≤ n := by
  unfold isCode at hcn hco
  rw [beq_iff_eq] at hcn hco
  have g0 : ∀ i j : Nat, i < 3 → (b.drop j).take 3 = [0, 0, 1] → b[j + i]? = ([0, 0, 1] : Bytes)[i]? := by
    intro i j hi hj
    rw [← hj, List.getElem?_take_of_lt hi, List.getElem?_drop]
  by_cases h : n = o + 1
  · have a1 := g0 2 o (by omega) hco
    have a2 := g0 1 n (by omega) hcn
    rw [h, show o + 1 + 1 = o + 2 by omega, a1] at a2
    simp at a2
  · by_cases h' : n = o + 2
    · have a1 := g0 2 o (by omega) hco
      have a2 := g0 0 n (by omega) hcn
      rw [h', show o + 2 + 0 = o + 2 by omega, a1] at a2
      simp at a2
    · omega

/-- The units of a part: complete units of the whole, and one that is compatible with the next unit of the whole. -/
theorem units_take (b : Bytes) (k : Nat) (hk : k ≤ b.length) :
    units (b.take k) = [] ∨ ∃ us o v u rest, units (b.take k) = us ++ [(o, v)] ∧ units b = us ++ (o, u) :: rest ∧ Compat v u ∧
      ∀ x ∈ units (b.take k), x.1 + 3 ≤ k := by
  obtain ⟨suf, h1, h2⟩ := sorted_cut3 b k
  have hlen : (b.take k).length = k := by rw [List.length_take]; omega
  have hle : ∀ o ∈ offsets (b.take k), o + 3 ≤ k := by
    intro o ho
    have := isCode_bound (mem_offsets.1 ho)
    omega
  have hu : units (b.take k) = segs b (offsets (b.take k)) k := by
    rw [units_eq, hlen, segs_take _ _ _ _ (Nat.le_refl _)]
    intro o ho; have := hle o ho; omega
  rcases List.eq_nil_or_concat (offsets (b.take k)) with h0 | ⟨os, o, h0⟩
  · left; rw [hu, h0]; rfl
  · right
    have ho : o + 3 ≤ k := hle o (by rw [h0]; simp)
    have hpos : ∀ x ∈ units (b.take k), x.1 + 3 ≤ k := by
      intro x hx
      apply hle
      rw [← units_fst]
      exact List.mem_map_of_mem hx
    rw [h0, List.concat_eq_append] at h1 hu
    rw [List.append_assoc, List.singleton_append] at h1
    rw [segs_append] at hu
    have hb : units b = segs b os o ++ segs b (o :: suf) b.length := by rw [units_eq, h1, segs_append]
    cases suf with
    | nil =>
      refine ⟨_, o, _, _, [], hu, hb, ⟨?_, ?_, (b.drop k), .inl ?_⟩, hpos⟩
      · rw [List.length_take, List.length_drop]; omega
      · rw [List.length_take, List.length_drop]; omega
      · rw [List.take_of_length_le (i := b.length - o) (by rw [List.length_drop]; omega)]
        conv => rhs; rw [← List.take_append_drop (k - o) (b.drop o), List.drop_drop, show o + (k - o) = k by omega]
    | cons n suf =>
      have hn := h2 n (by simp)
      have hs : (o :: n :: suf).Pairwise (· < ·) := by
        have := offsets_sorted b
        rw [h1] at this
        exact (List.pairwise_append.1 this).2.1
      have hon : o < n := (List.pairwise_cons.1 hs).1 n (by simp)
      have hcn : isCode b n = true := by
        apply mem_offsets.1; rw [h1]; simp
      have hco : isCode b o = true := by
        apply mem_offsets.1; rw [h1]; simp
      have hon3 : o + 3 ≤ n := code_gap hco hcn hon
      rw [segs] at hb
      have hnb := isCode_bound hcn
      refine ⟨_, o, _, _, _, hu, hb, ⟨?_, ?_, ?_⟩, hpos⟩
      · rw [List.length_take, List.length_drop]; omega
      · rw [List.length_take, List.length_drop]; omega
      · by_cases hkn : k ≤ n
        · refine ⟨((b.drop o).drop (k - o)).take (n - k), .inl ?_⟩
          have : n - o = (k - o) + (n - k) := by omega
          rw [this, List.take_add]
        · refine ⟨((b.drop o).drop (n - o)).take (k - n), .inr ?_⟩
          have : k - o = (n - o) + (k - n) := by omega
          rw [this, List.take_add]

/-! ## One frame -/

theorem finish_frame {b : Bytes} {st : Sets} {hs : List Slice} {offs offs' : List Nat} {o size : Nat} {info : Info}
    (h : finish b st hs offs o = .frame size offs' info) : offs' = offs ∧ size = frameSize b o ∧ hs ≠ [] := by
  unfold finish at h
  cases hs with
  | nil => cases h
  | cons x hs =>
    simp only at h
    cases he : extractInfo st x hs with
    | none => rw [he] at h; cases h
    | some i =>
      rw [he] at h
      injection h with h1 h2 h3
      exact ⟨h2.symm, h1.symm, by simp⟩

/-- A frame ends at a unit that is not the first. -/
theorem loop_frame {b : Bytes} (us : List (Nat × Bytes)) (st : Sets) (hs : List Slice) (offs : List Nat) {st' : Sets} {size : Nat}
    {offs' : List Nat} {info : Info} (h : loop b us st hs offs = (st', .frame size offs' info)) :
    ∃ us1 o u us2, us = us1 ++ (o, u) :: us2 ∧ offs' = offs ++ us1.map (fun x => x.1) ∧ size = frameSize b o ∧
      (hs = [] → us1 ≠ []) := by
  induction us generalizing st hs offs with
  | nil => rw [loop] at h; cases h
  | cons x us ih =>
    obtain ⟨o, u⟩ := x
    have stop : (st, finish b st hs offs o) = (st', Outcome.frame size offs' info) →
        ∃ us1 o' u' us2, (o, u) :: us = us1 ++ (o', u') :: us2 ∧ offs' = offs ++ us1.map (fun x => x.1) ∧ size = frameSize b o' ∧
          (hs = [] → us1 ≠ []) := by
      intro h
      injection h with _ h
      obtain ⟨h1, h2, h3⟩ := finish_frame h
      exact ⟨[], o, u, us, rfl, by simp [h1], h2, fun h => absurd h h3⟩
    have next : ∀ st1 hs1, loop b us st1 hs1 (offs ++ [o]) = (st', Outcome.frame size offs' info) →
        ∃ us1 o' u' us2, (o, u) :: us = us1 ++ (o', u') :: us2 ∧ offs' = offs ++ us1.map (fun x => x.1) ∧ size = frameSize b o' ∧
          (hs = [] → us1 ≠ []) := by
      intro st1 hs1 h
      obtain ⟨us1, o', u', us2, h1, h2, h3, _⟩ := ih st1 hs1 _ h
      exact ⟨(o, u) :: us1, o', u', us2, by rw [h1]; rfl, by rw [h2]; simp, h3, fun _ => by simp⟩
    rw [loop] at h
    cases ht : unitType u with
    | short => rw [ht] at h; cases h
    | invalid => rw [ht] at h; cases h
    | ok t r =>
      rw [ht] at h
      simp only at h
      cases hk : kindOf t (!hs.isEmpty) with
      | boundary => rw [hk] at h; exact stop h
      | other => rw [hk] at h; exact next _ _ h
      | sps =>
        rw [hk] at h
        simp only at h
        cases hp : parseSps.run (rbsp u) with
        | short => rw [hp] at h; cases h
        | invalid => rw [hp] at h; cases h
        | ok s r => rw [hp] at h; exact next _ _ h
      | pps =>
        rw [hk] at h
        simp only at h
        cases hp : parsePps.run (rbsp u) with
        | short => rw [hp] at h; cases h
        | invalid => rw [hp] at h; cases h
        | ok s r => rw [hp] at h; exact next _ _ h
      | slice =>
        rw [hk] at h
        simp only at h
        cases hp : (parseSlice st).run (rbsp u) with
        | short => rw [hp] at h; cases h
        | invalid => rw [hp] at h; cases h
        | ok s r =>
          rw [hp] at h
          simp only at h
          by_cases hr : s.redundantPicCnt = 0
          · rw [if_pos hr] at h
            cases hn : isNext st hs s with
            | true => rw [hn] at h; exact stop h
            | false => rw [hn] at h; exact next _ _ h
          · rw [if_neg hr] at h
            exact next _ _ h

/-- What a found frame is: not empty, its positions are those of its start codes, and the next frame starts with a start code or
with a zero byte and a start code. -/
theorem parseFrame_frame {st : Sets} {b : Bytes} {st' : Sets} {size : Nat} {offs : List Nat} {info : Info}
    (h : parseFrame st b = (st', .frame size offs info)) :
    0 < size ∧ size ≤ b.length ∧ offs = offsets (b.take size) ∧ offs ≠ [] ∧ (isCode b size = true ∨ isCode b (size + 1) = true) ∧
      ∀ i < 2, isCode b i = true → isCode (b.take size) i = true := by
  obtain ⟨us1, o, u, us2, h1, h2, h3, h4⟩ := loop_frame _ _ _ _ h
  rw [List.nil_append] at h2
  have h4 := h4 rfl
  have ho : offsets b = offs ++ o :: us2.map (fun x => x.1) := by rw [← units_fst, h1, h2]; simp
  have hs := offsets_sorted b
  rw [ho] at hs
  have hlt : ∀ x ∈ offs, x < o := fun x hx => (List.pairwise_append.1 hs).2.2 x hx o (by simp)
  have hgt : ∀ x ∈ us2.map (fun x => x.1), o < x :=
    fun x hx => (List.pairwise_cons.1 (List.pairwise_append.1 hs).2.1).1 x hx
  have hco : isCode b o = true := mem_offsets.1 (by rw [ho]; simp)
  have hc : ∀ x ∈ offs, isCode b x = true := fun x hx => mem_offsets.1 (by rw [ho]; simp [hx])
  have hne : offs ≠ [] := by
    rw [h2]; intro hx; exact h4 (List.map_eq_nil_iff.1 hx)
  have hsz : size ≤ o ∧ o ≤ size + 1 ∧ ∀ x ∈ offs, x + 3 ≤ size := by
    unfold frameSize at h3
    by_cases hz : o > 0 ∧ b[o - 1]? = some 0
    · rw [if_pos hz] at h3
      refine ⟨by omega, by omega, ?_⟩
      intro x hx
      have hg := code_gap (hc x hx) hco (hlt x hx)
      by_cases he : o = x + 3
      · have hcx := hc x hx
        unfold isCode at hcx
        rw [beq_iff_eq] at hcx
        have : ((b.drop x).take 3)[2]? = some 1 := by rw [hcx]; rfl
        rw [List.getElem?_take_of_lt (by omega), List.getElem?_drop] at this
        have h5 := hz.2
        rw [show o - 1 = x + 2 by omega, this] at h5
        simp at h5
      · omega
    · rw [if_neg hz] at h3
      refine ⟨by omega, by omega, ?_⟩
      intro x hx
      have hg := code_gap (hc x hx) hco (hlt x hx)
      omega
  obtain ⟨hs1, hs2, hs3⟩ := hsz
  have hb := isCode_bound hco
  have hoffs : offs = offsets (b.take size) := by
    rw [offsets_take, ho, List.filter_append, List.filter_eq_self.2, List.filter_eq_nil_iff.2, List.append_nil]
    · intro x hx
      rcases List.mem_cons.1 hx with hx | hx
      · subst hx; simp; omega
      · have := hgt x hx; simp; omega
    · intro x hx; simpa using hs3 x hx
  refine ⟨?_, by omega, hoffs, hne, ?_, ?_⟩
  · cases hx : offs with
    | nil => exact absurd hx hne
    | cons x xs => have := hs3 x (by rw [hx]; simp); omega
  · by_cases he : o = size
    · left; rw [← he]; exact hco
    · right; rw [show size + 1 = o by omega]; exact hco
  · intro i hi hci
    have hm : i ∈ offsets b := mem_offsets.2 hci
    rw [ho] at hm
    rcases List.mem_append.1 hm with hm | hm
    · rw [hoffs] at hm; exact mem_offsets.1 hm
    · have : o ≤ i := by
        rcases List.mem_cons.1 hm with hm | hm
        · omega
        · have := hgt i hm; omega
      cases hx : offs with
      | nil => exact absurd hx hne
      | cons x xs => have := hs3 x (by rw [hx]; simp); omega

/-! ## All frames -/

def cat (fs : List Frame) : Bytes := fs.flatMap (fun f => f.data)

/-- A frame that begins with a start code, or with one zero byte and a start code. -/
def Starts (b : Bytes) : Prop := isCode b 0 = true ∨ isCode b 1 = true

/-- What every result has in common. -/
structure Fine (r : Bytes) (res : List Frame × Ending) : Prop where
  notFuel : res.2 ≠ .fuel
  part : ∃ rest, cat res.1 ++ rest = r ∧ (res.2 = .done → rest = [] ∨ (res.1 = [] ∧ offsets r = []))
  offs : ∀ f ∈ res.1, f.offs = offsets f.data ∧ f.offs ≠ []
  later : ∀ f ∈ res.1.tail, Starts f.data
  first : Starts r → ∀ f ∈ res.1, Starts f.data

theorem fine_raised (r : Bytes) : Fine r ([], .raised) :=
  ⟨by simp, ⟨r, by simp [cat], by simp⟩, by simp, by simp, by simp⟩

theorem fine_remainder (st : Sets) (b : Bytes) : Fine b (remainder st b) := by
  unfold remainder
  by_cases h : offsets b = []
  · rw [if_pos h]
    exact ⟨by simp, ⟨b, by simp [cat], by simp [h]⟩, by simp, by simp, by simp⟩
  · rw [if_neg h]
    cases parseFrameInfo st b with
    | none => exact fine_raised b
    | some i => exact ⟨by simp, ⟨[], by simp [cat], by simp⟩, by simp [h], by simp, by simp⟩

theorem isCode_prefix {b y : Bytes} {i : Nat} (h : isCode (b ++ y) i = true) (hi : i + 3 ≤ b.length) : isCode b i = true := by
  have : isCode ((b ++ y).take b.length) i = true := by rw [isCode_take, h]; simp [hi]
  rwa [List.take_left] at this

theorem fine_frame {st st' : Sets} {b y : Bytes} {size : Nat} {offs : List Nat} {info : Info} {res : List Frame × Ending}
    (h : parseFrame st b = (st', .frame size offs info)) (hr : Fine (b.drop size ++ y) res) :
    Fine (b ++ y) (⟨b.take size, offs, some info⟩ :: res.1, res.2) := by
  obtain ⟨h1, h2, h3, h4, h5, h6⟩ := parseFrame_frame h
  have hst : Starts (b.drop size ++ y) := by
    rcases h5 with h5 | h5
    · left; apply isCode_append; rw [isCode_drop]; exact h5
    · right; apply isCode_append; rw [isCode_drop]; exact h5
  obtain ⟨rest, hp1, hp2⟩ := hr.part
  refine ⟨hr.notFuel, ⟨rest, ?_, ?_⟩, ?_, hr.first hst, ?_⟩
  · show (b.take size ++ cat res.1) ++ rest = b ++ y
    rw [List.append_assoc, hp1, ← List.append_assoc, List.take_append_drop]
  · intro hd
    rcases hp2 hd with hp | ⟨_, hp⟩
    · exact .inl hp
    · rcases hst with hc | hc
      · have := mem_offsets.2 hc; rw [hp] at this; cases this
      · have := mem_offsets.2 hc; rw [hp] at this; cases this
  · intro f hf
    rcases List.mem_cons.1 hf with hf | hf
    · subst hf; exact ⟨h3, h4⟩
    · exact hr.offs f hf
  · intro hs f hf
    rcases List.mem_cons.1 hf with hf | hf
    · subst hf
      have hb : 3 ≤ size ∧ size + 3 ≤ b.length := by
        constructor
        · cases hx : offs with
          | nil => exact absurd hx h4
          | cons x xs =>
            have : isCode (b.take size) x = true := mem_offsets.1 (by rw [← h3, hx]; simp)
            have := isCode_bound this
            rw [List.length_take] at this
            omega
        · rcases h5 with h5 | h5
          · exact isCode_bound h5
          · have := isCode_bound h5; omega
      rcases hs with hs | hs
      · exact .inl (h6 0 (by omega) (isCode_prefix hs (by omega)))
      · exact .inr (h6 1 (by omega) (isCode_prefix hs (by omega)))
    · exact hr.first hst f hf

/-- A source of bytes: what it gives is what comes next, and it gives nothing only at the end. -/
structure Source {σ : Type} (read : Src σ) (left : σ → Bytes) : Prop where
  next : ∀ n s d s', 0 < n → read n s = (some d, s') → left s = d ++ left s'
  last : ∀ n s s', 0 < n → read n s = (some [], s') → left s = []

theorem readMaybe_left {σ : Type} {read : Src σ} {left : σ → Bytes} (hr : Source read left) {n : Nat} {s s' : σ} {d : Bytes}
    (h : readMaybe read n s = (some d, s')) : left s = d ++ left s' := by
  unfold readMaybe at h
  by_cases hn : n > 0
  · rw [if_pos hn] at h; exact hr.next n s d s' hn h
  · rw [if_neg hn] at h
    injection h with h1 h2
    injection h1 with h1
    subst h1 h2; rfl

theorem go_fine {σ : Type} {read : Src σ} {left : σ → Bytes} (hr : Source read left) (f : Nat) (st : Sets) (buf : Bytes) (s : σ)
    (prev : Option Nat) (start : Bool)
    (hf : 3 * (left s).length + 2 * buf.length + (if start then 1 else 0) < f) : Fine (buf ++ left s) (go read f st buf s prev start) := by
  induction f generalizing st buf s prev start with
  | zero => omega
  | succ f ih =>
    rw [go]
    generalize hrd : readMaybe read (readSize start prev buf.length) s = q
    obtain ⟨d, s'⟩ := q
    cases d with
    | none => exact fine_raised _
    | some d =>
      have hl := readMaybe_left hr hrd
      have hll : (left s).length = d.length + (left s').length := by rw [hl, List.length_append]
      simp only
      generalize hp : parseFrame st (buf ++ d) = pq
      obtain ⟨st', out⟩ := pq
      have again : ∀ st' : Sets, Fine (buf ++ left s)
          (if readSize start prev buf.length > 0 ∧ d = [] then remainder st' (buf ++ d) else go read f st' (buf ++ d) s' prev false) := by
        intro st'
        by_cases he : readSize start prev buf.length > 0 ∧ d = []
        · rw [if_pos he]
          obtain ⟨he1, he2⟩ := he
          subst he2
          unfold readMaybe at hrd
          rw [if_pos he1] at hrd
          rw [hr.last _ _ _ he1 hrd]
          exact fine_remainder _ _
        · rw [if_neg he]
          rw [hl, ← List.append_assoc]
          apply ih
          rw [List.length_append]
          simp only [Bool.false_eq_true, if_false]
          by_cases hd : d = []
          · have hz : readSize start prev buf.length = 0 := by
              have : ¬ (readSize start prev buf.length > 0) := fun h => he ⟨h, hd⟩
              omega
            have hst : start = true := by
              cases start with
              | true => rfl
              | false => simp [readSize, blockSize] at hz
            subst hd hst
            simp only [if_true, List.length_nil] at hf hll ⊢
            omega
          · have : 0 < d.length := List.length_pos_iff.2 hd
            omega
      cases out with
      | frame size offs info =>
        obtain ⟨h1, h2, _⟩ := parseFrame_frame hp
        simp only
        rw [if_pos h1, hl, ← List.append_assoc]
        apply fine_frame hp
        apply ih
        rw [List.length_drop]
        rw [List.length_append] at h2 ⊢
        simp only [if_true]
        omega
      | raised => exact fine_raised _
      | noEnd => exact again st'
      | short => exact again st'

theorem go_not_done {σ : Type} {read : Src σ} (hr : ∀ n s s', 0 < n → read n s ≠ (some [], s')) (f : Nat) (st : Sets) (buf : Bytes)
    (s : σ) (prev : Option Nat) (start : Bool) : (go read f st buf s prev start).2 ≠ .done := by
  induction f generalizing st buf s prev start with
  | zero => rw [go]; simp
  | succ f ih =>
    rw [go]
    generalize hrd : readMaybe read (readSize start prev buf.length) s = q
    obtain ⟨d, s'⟩ := q
    cases d with
    | none => simp
    | some d =>
      simp only
      generalize hp : parseFrame st (buf ++ d) = pq
      obtain ⟨st', out⟩ := pq
      have again : ∀ st' : Sets,
          (if readSize start prev buf.length > 0 ∧ d = [] then remainder st' (buf ++ d)
           else go read f st' (buf ++ d) s' prev false).2 ≠ .done := by
        intro st'
        by_cases he : readSize start prev buf.length > 0 ∧ d = []
        · obtain ⟨he1, he2⟩ := he
          subst he2
          unfold readMaybe at hrd
          rw [if_pos he1] at hrd
          exact absurd hrd (hr _ _ _ he1)
        · rw [if_neg he]; exact ih _ _ _ _ _
      cases out with
      | frame size offs info =>
        simp only
        by_cases h : size > 0
        · rw [if_pos h]; exact ih _ _ _ _ _
        · rw [if_neg h]; exact ih _ _ _ _ _
      | raised => simp
      | noEnd => exact again st'
      | short => exact again st'

theorem source_file : Source file (fun p => p.left) := by
  constructor
  · intro n p d p' hn h
    obtain ⟨k, h1, h2, _⟩ := pipe_read p n
    unfold file at h
    injection h with h3 h4
    injection h3 with h3
    rw [← h3, ← h4, h1, h2, List.take_append_drop]
  · intro n p p' hn h
    obtain ⟨k, h1, h2, _, h5⟩ := pipe_read p n
    unfold file at h
    injection h with h3 h4
    injection h3 with h3
    rw [h1] at h3
    have := h5 hn
    have hl : (p.left.take k).length = 0 := by rw [h3]; rfl
    rw [List.length_take] at hl
    exact List.eq_nil_of_length_eq_zero (by omega)

theorem stdin_some {n : Nat} {p p' : Pipe} {d : Bytes} (h : stdin n p = (some d, p')) :
    d = p.left.take n ∧ p'.left = p.left.drop n ∧ n ≤ p.left.length := by
  obtain ⟨h1, h2⟩ := readLoop_spec n p n (Nat.le_refl _)
  unfold stdin at h
  rw [h] at h1 h2
  by_cases hn : n ≤ p.left.length
  · obtain ⟨h3, h4⟩ := h1 hn
    injection h3 with h3
    exact ⟨h3, h4, hn⟩
  · have := h2 (by omega)
    cases this

theorem source_stdin : Source stdin (fun p => p.left) := by
  constructor
  · intro n p d p' _ h
    obtain ⟨h1, h2, _⟩ := stdin_some h
    rw [h1, h2, List.take_append_drop]
  · intro n p p' hn h
    obtain ⟨h1, _, h3⟩ := stdin_some h
    have hl : (p.left.take n).length = 0 := by rw [← h1]; rfl
    rw [List.length_take] at hl
    omega

/-! ## Parameter sets before the first slice -/

inductive Upd
  | sps (s : SPS)
  | pps (p : PPS)

def apply (l : List Upd) (st : Sets) : Sets :=
  l.foldl (fun st u => match u with | .sps s => st.addSps s | .pps p => st.addPps p) st

/-- What a list of updates does at a key. -/
def spsAt (l : List Upd) (i : Nat) (d : Option SPS) : Option SPS :=
  l.foldl (fun d u => match u with | .sps s => if i = s.id then some s else d | .pps _ => d) d

def ppsAt (l : List Upd) (i : Nat) (d : Option PPS) : Option PPS :=
  l.foldl (fun d u => match u with | .pps s => if i = s.id then some s else d | .sps _ => d) d

theorem apply_at (l : List Upd) (st : Sets) (i : Nat) :
    (apply l st).sps i = spsAt l i (st.sps i) ∧ (apply l st).pps i = ppsAt l i (st.pps i) := by
  induction l generalizing st with
  | nil => exact ⟨rfl, rfl⟩
  | cons u l ih => cases u <;> exact ih _

theorem spsAt_cases (l : List Upd) (i : Nat) : (∀ d, spsAt l i d = d) ∨ ∃ s, ∀ d, spsAt l i d = some s := by
  induction l with
  | nil => exact .inl fun _ => rfl
  | cons u l ih =>
    rcases ih with ih | ⟨s, ih⟩
    · cases u with
      | sps s =>
        by_cases h : i = s.id
        · refine .inr ⟨s, fun d => ?_⟩
          show spsAt l i (if i = s.id then some s else d) = _
          rw [if_pos h, ih]
        · refine .inl fun d => ?_
          show spsAt l i (if i = s.id then some s else d) = _
          rw [if_neg h, ih]
      | pps s => exact .inl fun d => ih d
    · exact .inr ⟨s, fun d => ih _⟩

theorem ppsAt_cases (l : List Upd) (i : Nat) : (∀ d, ppsAt l i d = d) ∨ ∃ s, ∀ d, ppsAt l i d = some s := by
  induction l with
  | nil => exact .inl fun _ => rfl
  | cons u l ih =>
    rcases ih with ih | ⟨s, ih⟩
    · cases u with
      | pps s =>
        by_cases h : i = s.id
        · refine .inr ⟨s, fun d => ?_⟩
          show ppsAt l i (if i = s.id then some s else d) = _
          rw [if_pos h, ih]
        · refine .inl fun d => ?_
          show ppsAt l i (if i = s.id then some s else d) = _
          rw [if_neg h, ih]
      | sps s => exact .inl fun d => ih d
    · exact .inr ⟨s, fun d => ih _⟩

theorem Sets.ext' {a b : Sets} (h1 : ∀ i, a.sps i = b.sps i) (h2 : ∀ i, a.pps i = b.pps i) : a = b := by
  cases a; cases b
  simp only [Sets.mk.injEq]
  exact ⟨funext h1, funext h2⟩

/-- Storing the same sets again changes nothing. -/
theorem apply_twice (l : List Upd) (st : Sets) : apply l (apply l st) = apply l st := by
  apply Sets.ext'
  · intro i
    rw [(apply_at l (apply l st) i).1, (apply_at l st i).1]
    rcases spsAt_cases l i with h | ⟨s, h⟩
    · rw [h]
    · rw [h, h]
  · intro i
    rw [(apply_at l (apply l st) i).2, (apply_at l st i).2]
    rcases ppsAt_cases l i with h | ⟨s, h⟩
    · rw [h]
    · rw [h, h]

theorem apply_append (l m : List Upd) (st : Sets) : apply (l ++ m) st = apply m (apply l st) := List.foldl_append

/-- Storing the first of them before makes no difference. -/
theorem apply_prefix {l m : List Upd} (h : l <+: m) (st : Sets) : apply m (apply l st) = apply m st := by
  obtain ⟨r, h⟩ := h
  rw [← h, apply_append, apply_append, apply_twice]

/-- Where the units before the first slice lead. -/
inductive Lead
  | stop (o : Outcome)
  | slice (us : List (Nat × Bytes)) (offs : List Nat)

def lead : List (Nat × Bytes) → List Nat → List Upd × Lead
  | [], _ => ([], .stop .noEnd)
  | (o, u) :: us, offs =>
    match unitType u with
    | .short => ([], .stop .short)
    | .invalid => ([], .stop .raised)
    | .ok t _ =>
      match kindOf t false with
      | .slice => ([], .slice ((o, u) :: us) offs)
      | .boundary => ([], .stop .raised)
      | .sps =>
        match parseSps.run (rbsp u) with
        | .short => ([], .stop .short)
        | .invalid => ([], .stop .raised)
        | .ok s _ => (.sps s :: (lead us (offs ++ [o])).1, (lead us (offs ++ [o])).2)
      | .pps =>
        match parsePps.run (rbsp u) with
        | .short => ([], .stop .short)
        | .invalid => ([], .stop .raised)
        | .ok s _ => (.pps s :: (lead us (offs ++ [o])).1, (lead us (offs ++ [o])).2)
      | .other => lead us (offs ++ [o])

theorem lead_cons (o : Nat) (u : Bytes) (us : List (Nat × Bytes)) (offs : List Nat) : lead ((o, u) :: us) offs =
  (
  match unitType u with
  | .short => ([], .stop .short)
  | .invalid => ([], .stop .raised)
  | .ok t _ =>
    match kindOf t false with
    | .slice => ([], .slice ((o, u) :: us) offs)
    | .boundary => ([], .stop .raised)
    | .sps =>
      match parseSps.run (rbsp u) with
      | .short => ([], .stop .short)
      | .invalid => ([], .stop .raised)
      | .ok s _ => (.sps s :: (lead us (offs ++ [o])).1, (lead us (offs ++ [o])).2)
    | .pps =>
      match parsePps.run (rbsp u) with
      | .short => ([], .stop .short)
      | .invalid => ([], .stop .raised)
      | .ok s _ => (.pps s :: (lead us (offs ++ [o])).1, (lead us (offs ++ [o])).2)
    | .other => lead us (offs ++ [o])) := by
  rw [lead]

theorem kindOf_false (t : Nat) : kindOf t false ≠ .boundary := by
  unfold kindOf
  by_cases h : t = 1 ∨ t = 2 ∨ t = 5
  · rw [if_pos h]; simp
  · rw [if_neg h]
    simp only [Bool.false_eq_true, false_and, if_false]
    by_cases h7 : t = 7
    · rw [if_pos h7]; simp
    · rw [if_neg h7]
      by_cases h8 : t = 8
      · rw [if_pos h8]; simp
      · rw [if_neg h8]; simp

/-- Goes on with what the leading units lead to. -/
def follow (b : Bytes) (st : Sets) : Lead → Sets × Outcome
  | .stop o => (st, o)
  | .slice us offs => loop b us st [] offs

theorem loop_lead (b : Bytes) (us : List (Nat × Bytes)) (st : Sets) (offs : List Nat) :
    loop b us st [] offs = follow b (apply (lead us offs).1 st) (lead us offs).2 := by
  induction us generalizing st offs with
  | nil => rfl
  | cons x us ih =>
    obtain ⟨o, u⟩ := x
    rw [lead]
    cases ht : unitType u with
    | short => rw [loop, ht]; rfl
    | invalid => rw [loop, ht]; rfl
    | ok t r =>
      simp only
      cases hk : kindOf t false with
      | slice => rfl
      | boundary => exact absurd hk (kindOf_false t)
      | other =>
        rw [loop, ht]
        simp only [List.isEmpty_nil, Bool.not_true, hk]
        exact ih _ _
      | sps =>
        rw [loop, ht]
        simp only [List.isEmpty_nil, Bool.not_true, hk]
        cases hp : parseSps.run (rbsp u) with
        | short => rfl
        | invalid => rfl
        | ok s r => exact ih _ _
      | pps =>
        rw [loop, ht]
        simp only [List.isEmpty_nil, Bool.not_true, hk]
        cases hp : parsePps.run (rbsp u) with
        | short => rfl
        | invalid => rfl
        | ok s r => exact ih _ _

theorem kindOf_true {t : Nat} : kindOf t true ≠ .sps ∧ kindOf t true ≠ .pps := by
  unfold kindOf
  by_cases h : t = 1 ∨ t = 2 ∨ t = 5
  · rw [if_pos h]; simp
  · rw [if_neg h]
    by_cases hb : (true = true) ∧ (t = 9 ∨ t = 7 ∨ t = 8 ∨ t = 6 ∨ (15 ≤ t ∧ t ≤ 18))
    · rw [if_pos hb]; simp
    · have h7 : t ≠ 7 := fun h => hb ⟨rfl, by omega⟩
      have h8 : t ≠ 8 := fun h => hb ⟨rfl, by omega⟩
      rw [if_neg hb, if_neg h7, if_neg h8]; simp

/-- After the first slice the sets do not change. -/
theorem loop_state (b : Bytes) (us : List (Nat × Bytes)) (st : Sets) (hs : List Slice) (offs : List Nat) (h : hs ≠ []) :
    (loop b us st hs offs).1 = st := by
  induction us generalizing hs offs with
  | nil => rfl
  | cons x us ih =>
    obtain ⟨o, u⟩ := x
    rw [loop]
    have hne : (!hs.isEmpty) = true := by simp [h]
    cases ht : unitType u with
    | short => rfl
    | invalid => rfl
    | ok t r =>
      simp only [hne]
      cases hk : kindOf t true with
      | sps => exact absurd hk kindOf_true.1
      | pps => exact absurd hk kindOf_true.2
      | boundary => rfl
      | other => exact ih _ _ h
      | slice =>
        simp only
        cases hp : (parseSlice st).run (rbsp u) with
        | short => rfl
        | invalid => rfl
        | ok s r =>
          simp only
          by_cases hr : s.redundantPicCnt = 0
          · rw [if_pos hr]
            cases hn : isNext st hs s with
            | true => rfl
            | false => exact ih _ _ (by simp)
          · rw [if_neg hr]; exact ih _ _ h

/-! ## No redundant slices -/

def NoRed (st : Sets) : Prop := ∀ i p, st.pps i = some p → p.redundantPicCntPresent = false

theorem bind_run {α β : Type} (p : Prog α) (g : α → Prog β) (l : List Bool) (b : β) (r : List Bool)
    (h : (p.bind g).run l = .ok b r) : ∃ a l', p.run l = .ok a l' ∧ (g a).run l' = .ok b r := by
  induction p generalizing l with
  | ret a => exact ⟨a, l, rfl, h⟩
  | fail => cases h
  | u n k ih =>
    simp only [Prog.bind, Prog.run] at h ⊢
    cases hr : readU n l with
    | ok a r => rw [hr] at h; exact ih a r h
    | short => rw [hr] at h; cases h
    | invalid => rw [hr] at h; cases h
  | ue k ih =>
    simp only [Prog.bind, Prog.run] at h ⊢
    cases hr : readUe l with
    | ok a r => rw [hr] at h; exact ih a r h
    | short => rw [hr] at h; cases h
    | invalid => rw [hr] at h; cases h
  | se k ih =>
    simp only [Prog.bind, Prog.run] at h ⊢
    cases hr : readSe l with
    | ok a r => rw [hr] at h; exact ih a r h
    | short => rw [hr] at h; cases h
    | invalid => rw [hr] at h; cases h

theorem rest_red {a b c d : Nat} {p : PPS} {s : SPS} (hp : p.redundantPicCntPresent = false) {l r : List Bool} {h : Slice}
    (hr : (parseSliceRest a b c d p s).run l = .ok h r) : h.redundantPicCnt = 0 := by
  unfold parseSliceRest at hr
  obtain ⟨_, _, _, hr⟩ := bind_run _ _ _ _ _ hr
  obtain ⟨_, _, _, hr⟩ := bind_run _ _ _ _ _ hr
  obtain ⟨_, _, _, hr⟩ := bind_run _ _ _ _ _ hr
  obtain ⟨_, _, _, hr⟩ := bind_run _ _ _ _ _ hr
  obtain ⟨_, _, _, hr⟩ := bind_run _ _ _ _ _ hr
  obtain ⟨_, _, _, hr⟩ := bind_run _ _ _ _ _ hr
  obtain ⟨_, _, _, hr⟩ := bind_run _ _ _ _ _ hr
  obtain ⟨_, _, _, hr⟩ := bind_run _ _ _ _ _ hr
  obtain ⟨_, _, _, hr⟩ := bind_run _ _ _ _ _ hr
  obtain ⟨x, l', hx, hr⟩ := bind_run _ _ _ _ _ hr
  rw [hp] at hx
  injection hx with hx _
  injection hr with hr _
  rw [← hr, ← hx]

theorem slice_red {st : Sets} (hst : NoRed st) {l r : List Bool} {h : Slice} (hr : (parseSlice st).run l = .ok h r) :
    h.redundantPicCnt = 0 := by
  unfold parseSlice at hr
  obtain ⟨_, _, _, hr⟩ := bind_run _ _ _ _ _ hr
  obtain ⟨_, _, _, hr⟩ := bind_run _ _ _ _ _ hr
  obtain ⟨_, _, _, hr⟩ := bind_run _ _ _ _ _ hr
  obtain ⟨_, _, _, hr⟩ := bind_run _ _ _ _ _ hr
  obtain ⟨_, _, _, hr⟩ := bind_run _ _ _ _ _ hr
  obtain ⟨id, _, _, hr⟩ := bind_run _ _ _ _ _ hr
  cases hl : st.lookup id with
  | none => rw [hl] at hr; cases hr
  | some ps =>
    rw [hl] at hr
    refine rest_red ?_ hr
    unfold Sets.lookup at hl
    cases hp : st.pps id with
    | none => rw [hp] at hl; cases hl
    | some p =>
      rw [hp] at hl
      simp only at hl
      cases hs : st.sps p.spsId with
      | none => rw [hs] at hl; cases hl
      | some s =>
        rw [hs] at hl
        injection hl with hl
        rw [← hl]
        exact hst id p hp

/-- From the first slice on the sets do not change, when no slice is redundant. -/
theorem loop_state_slice {b : Bytes} {us us' : List (Nat × Bytes)} {offs offs' : List Nat} {st : Sets} (hst : NoRed st)
    (h : (lead us' offs').2 = .slice us offs) : (loop b us st [] offs).1 = st := by
  induction us' generalizing offs' with
  | nil => cases h
  | cons x us' ih =>
    obtain ⟨o, u⟩ := x
    rw [lead] at h
    cases ht : unitType u with
    | short => rw [ht] at h; cases h
    | invalid => rw [ht] at h; cases h
    | ok t r =>
      rw [ht] at h
      simp only at h
      cases hk : kindOf t false with
      | slice =>
        rw [hk] at h
        injection h with h1 h2
        subst h1 h2
        rw [loop, ht]
        simp only [List.isEmpty_nil, Bool.not_true, hk]
        cases hp : (parseSlice st).run (rbsp u) with
        | short => rfl
        | invalid => rfl
        | ok s r =>
          simp only
          rw [if_pos (slice_red hst hp), if_neg (by simp [isNext])]
          exact loop_state _ _ _ _ _ (by simp)
      | boundary => rw [hk] at h; cases h
      | other => rw [hk] at h; exact ih h
      | sps =>
        rw [hk] at h
        simp only at h
        cases hp : parseSps.run (rbsp u) with
        | short => rw [hp] at h; cases h
        | invalid => rw [hp] at h; cases h
        | ok s r => rw [hp] at h; exact ih h
      | pps =>
        rw [hk] at h
        simp only at h
        cases hp : parsePps.run (rbsp u) with
        | short => rw [hp] at h; cases h
        | invalid => rw [hp] at h; cases h
        | ok s r => rw [hp] at h; exact ih h

theorem apply_noRed {l : List Upd} {st : Sets} (hst : NoRed st) (hl : ∀ p, .pps p ∈ l → p.redundantPicCntPresent = false) :
    NoRed (apply l st) := by
  induction l generalizing st with
  | nil => exact hst
  | cons u l ih =>
    refine ih ?_ (fun p hp => hl p (by simp [hp]))
    cases u with
    | sps s => exact hst
    | pps q =>
      intro i p hp
      simp only [Sets.addPps] at hp
      by_cases hi : i = q.id
      · rw [if_pos hi] at hp
        injection hp with hp
        rw [← hp]
        exact hl q (by simp)
      · rw [if_neg hi] at hp; exact hst i p hp

/-- No picture parameter set of the stream allows redundant slices. -/
def NoRedundant (b : Bytes) : Prop :=
  ∀ o u p t r r', (o, u) ∈ units b → unitType u = .ok t r → t = 8 → parsePps.run (rbsp u) = .ok p r' →
    p.redundantPicCntPresent = false

theorem noRedundant_drop {b : Bytes} (h : NoRedundant b) (c : Nat) : NoRedundant (b.drop c) := by
  intro o u p t r r' hm h1 h2 h3
  obtain ⟨o', ho⟩ := mem_units_drop hm
  exact h o' u p t r r' ho h1 h2 h3

theorem kindOf_pps {t : Nat} (h : kindOf t false = .pps) : t = 8 := by
  unfold kindOf at h
  by_cases h1 : t = 1 ∨ t = 2 ∨ t = 5
  · rw [if_pos h1] at h; cases h
  · rw [if_neg h1] at h
    simp only [Bool.false_eq_true, false_and, if_false] at h
    by_cases h7 : t = 7
    · rw [if_pos h7] at h; cases h
    · rw [if_neg h7] at h
      by_cases h8 : t = 8
      · exact h8
      · rw [if_neg h8] at h; cases h

theorem lead_pps (us : List (Nat × Bytes)) (offs : List Nat) {p : PPS} (h : Upd.pps p ∈ (lead us offs).1) :
    ∃ o u r r', (o, u) ∈ us ∧ unitType u = .ok 8 r ∧ parsePps.run (rbsp u) = .ok p r' := by
  induction us generalizing offs with
  | nil => cases h
  | cons x us ih =>
    obtain ⟨o, u⟩ := x
    have tail : ∀ offs, Upd.pps p ∈ (lead us offs).1 →
        ∃ o' u' r r', (o', u') ∈ (o, u) :: us ∧ unitType u' = .ok 8 r ∧ parsePps.run (rbsp u') = .ok p r' := by
      intro offs h
      obtain ⟨o', u', r, r', h1, h2⟩ := ih offs h
      exact ⟨o', u', r, r', by simp [h1], h2⟩
    rw [lead] at h
    cases ht : unitType u with
    | short => rw [ht] at h; cases h
    | invalid => rw [ht] at h; cases h
    | ok t r =>
      rw [ht] at h
      simp only at h
      cases hk : kindOf t false with
      | slice => rw [hk] at h; cases h
      | boundary => rw [hk] at h; cases h
      | other => rw [hk] at h; exact tail _ h
      | sps =>
        rw [hk] at h
        simp only at h
        cases hp : parseSps.run (rbsp u) with
        | short => rw [hp] at h; cases h
        | invalid => rw [hp] at h; cases h
        | ok s r =>
          rw [hp] at h
          rcases List.mem_cons.1 h with h | h
          · cases h
          · exact tail _ h
      | pps =>
        rw [hk] at h
        simp only at h
        cases hp : parsePps.run (rbsp u) with
        | short => rw [hp] at h; cases h
        | invalid => rw [hp] at h; cases h
        | ok s r2 =>
          rw [hp] at h
          rcases List.mem_cons.1 h with h | h
          · injection h with h
            subst h
            have := kindOf_pps hk
            subst this
            exact ⟨o, u, r, r2, by simp, ht, hp⟩
          · exact tail _ h

/-! ## A part of the input -/

def Clean (o : Outcome) : Prop := o ≠ .short ∧ o ≠ .raised

def Open' (o : Outcome) : Prop := o = .noEnd ∨ o = .short

theorem frameSize_take {b : Bytes} {k o : Nat} (ho : o ≤ k) : frameSize (b.take k) o = frameSize b o := by
  unfold frameSize
  by_cases h : o > 0
  · rw [List.getElem?_take_of_lt (by omega)]
  · rw [if_neg (by omega), if_neg (by omega)]

theorem finish_take {b : Bytes} {k o : Nat} (ho : o ≤ k) (st : Sets) (hs : List Slice) (offs : List Nat) :
    finish (b.take k) st hs offs o = finish b st hs offs o := by
  unfold finish; rw [frameSize_take ho]

/-- With the same sets, a part either ends before the frame does or gives the same. -/
theorem loop_part {b : Bytes} {k : Nat} {v u : Bytes} {o : Nat} (hv : Compat v u) (rest us : List (Nat × Bytes)) (st : Sets)
    (hs : List Slice) (offs : List Nat) (hk : ∀ x ∈ us ++ [(o, v)], x.1 ≤ k)
    (hc : Clean (loop b (us ++ (o, u) :: rest) st hs offs).2) :
    Open' (loop (b.take k) (us ++ [(o, v)]) st hs offs).2 ∨
      loop (b.take k) (us ++ [(o, v)]) st hs offs = loop b (us ++ (o, u) :: rest) st hs offs := by
  induction us generalizing st hs offs with
  | nil =>
    have ho : o ≤ k := hk (o, v) (by simp)
    rw [List.nil_append, List.nil_append] at *
    rw [loop.eq_2 b] at hc ⊢
    rw [loop.eq_2 (b.take k)]
    cases ht : unitType u with
    | short => rw [ht] at hc; exact absurd rfl hc.1
    | invalid => rw [ht] at hc; exact absurd rfl hc.2
    | ok t r =>
      rw [ht] at hc
      simp only at hc ⊢
      rcases type_compat hv ht with htv | ⟨r', htv⟩
      · rw [htv]; exact .inl (.inr rfl)
      · rw [htv]
        simp only
        cases hkd : kindOf t (!hs.isEmpty) with
        | boundary => right; simp only [finish_take ho]
        | other => exact .inl (.inl rfl)
        | sps =>
          simp only
          rw [hkd] at hc
          simp only at hc
          cases hp : parseSps.run (rbsp u) with
          | short => rw [hp] at hc; exact absurd rfl hc.1
          | invalid => rw [hp] at hc; exact absurd rfl hc.2
          | ok s r =>
            rcases run_compat parseSps hv hp with hpv | ⟨r', hpv⟩
            · rw [hpv]; exact .inl (.inr rfl)
            · rw [hpv]; exact .inl (.inl rfl)
        | pps =>
          simp only
          rw [hkd] at hc
          simp only at hc
          cases hp : parsePps.run (rbsp u) with
          | short => rw [hp] at hc; exact absurd rfl hc.1
          | invalid => rw [hp] at hc; exact absurd rfl hc.2
          | ok s r =>
            rcases run_compat parsePps hv hp with hpv | ⟨r', hpv⟩
            · rw [hpv]; exact .inl (.inr rfl)
            · rw [hpv]; exact .inl (.inl rfl)
        | slice =>
          simp only
          rw [hkd] at hc
          simp only at hc
          cases hp : (parseSlice st).run (rbsp u) with
          | short => rw [hp] at hc; exact absurd rfl hc.1
          | invalid => rw [hp] at hc; exact absurd rfl hc.2
          | ok s r =>
            rcases run_compat (parseSlice st) hv hp with hpv | ⟨r', hpv⟩
            · rw [hpv]; exact .inl (.inr rfl)
            · rw [hpv]
              simp only
              by_cases hr : s.redundantPicCnt = 0
              · rw [if_pos hr, if_pos hr]
                cases hn : isNext st hs s with
                | true => right; simp only [if_true, finish_take ho]
                | false => exact .inl (.inl rfl)
              · rw [if_neg hr]; exact .inl (.inl rfl)
  | cons x us ih =>
    obtain ⟨o', w⟩ := x
    have ho : o' ≤ k := hk (o', w) (by simp)
    have ih := fun st hs offs => ih st hs offs (fun x hx => hk x (by rw [List.cons_append]; exact List.mem_cons_of_mem _ hx))
    rw [List.cons_append, List.cons_append] at *
    rw [loop.eq_2 b] at hc ⊢
    rw [loop.eq_2 (b.take k)]
    cases ht : unitType w with
    | short => rw [ht] at hc; exact absurd rfl hc.1
    | invalid => rw [ht] at hc; exact absurd rfl hc.2
    | ok t r =>
      rw [ht] at hc
      simp only at hc ⊢
      cases hkd : kindOf t (!hs.isEmpty) with
      | boundary => right; simp only [finish_take ho]
      | other => rw [hkd] at hc; exact ih _ _ _ hc
      | sps =>
        rw [hkd] at hc
        simp only at hc ⊢
        cases hp : parseSps.run (rbsp w) with
        | short => rw [hp] at hc; exact absurd rfl hc.1
        | invalid => rw [hp] at hc; exact absurd rfl hc.2
        | ok s r => rw [hp] at hc; exact ih _ _ _ hc
      | pps =>
        rw [hkd] at hc
        simp only at hc ⊢
        cases hp : parsePps.run (rbsp w) with
        | short => rw [hp] at hc; exact absurd rfl hc.1
        | invalid => rw [hp] at hc; exact absurd rfl hc.2
        | ok s r => rw [hp] at hc; exact ih _ _ _ hc
      | slice =>
        rw [hkd] at hc
        simp only at hc ⊢
        cases hp : (parseSlice st).run (rbsp w) with
        | short => rw [hp] at hc; exact absurd rfl hc.1
        | invalid => rw [hp] at hc; exact absurd rfl hc.2
        | ok s r =>
          rw [hp] at hc
          simp only at hc ⊢
          by_cases hr : s.redundantPicCnt = 0
          · rw [if_pos hr] at hc
            rw [if_pos hr, if_pos hr]
            cases hn : isNext st hs s with
            | true => right; simp only [if_true, finish_take ho]
            | false =>
              rw [hn] at hc
              exact ih _ _ _ hc
          · rw [if_neg hr] at hc
            rw [if_neg hr, if_neg hr]
            exact ih _ _ _ hc

/-- The leading units of a part. -/
theorem lead_part {v u : Bytes} {o : Nat} (hv : Compat v u) (rest us : List (Nat × Bytes)) (offs : List Nat)
    (hc : ∀ x, (lead (us ++ (o, u) :: rest) offs).2 = .stop x → Clean x) :
    ((∃ x, (lead (us ++ [(o, v)]) offs).2 = .stop x ∧ Open' x) ∧
        (lead (us ++ [(o, v)]) offs).1 <+: (lead (us ++ (o, u) :: rest) offs).1) ∨
      ∃ us' offs', lead (us ++ [(o, v)]) offs = ((lead (us ++ (o, u) :: rest) offs).1, .slice (us' ++ [(o, v)]) offs') ∧
        (lead (us ++ (o, u) :: rest) offs).2 = .slice (us' ++ (o, u) :: rest) offs' ∧
        ∀ x ∈ us', x ∈ us := by
  induction us generalizing offs with
  | nil =>
    rw [List.nil_append, List.nil_append] at *
    rw [lead_cons o u rest] at hc ⊢
    rw [lead_cons o v []]
    cases ht : unitType u with
    | short => rw [ht] at hc; exact absurd rfl (hc _ rfl).1
    | invalid => rw [ht] at hc; exact absurd rfl (hc _ rfl).2
    | ok t r =>
      rw [ht] at hc
      simp only at hc ⊢
      rcases type_compat hv ht with htv | ⟨r', htv⟩
      · rw [htv]; exact .inl ⟨⟨_, rfl, .inr rfl⟩, List.nil_prefix⟩
      · rw [htv]
        simp only
        cases hkd : kindOf t false with
        | boundary => exact absurd hkd (kindOf_false t)
        | other => exact .inl ⟨⟨_, rfl, .inl rfl⟩, List.nil_prefix⟩
        | slice => exact .inr ⟨[], offs, rfl, rfl, by simp⟩
        | sps =>
          simp only
          rw [hkd] at hc
          simp only at hc
          cases hp : parseSps.run (rbsp u) with
          | short => rw [hp] at hc; exact absurd rfl (hc _ rfl).1
          | invalid => rw [hp] at hc; exact absurd rfl (hc _ rfl).2
          | ok s r =>
            rcases run_compat parseSps hv hp with hpv | ⟨r', hpv⟩
            · rw [hpv]; exact .inl ⟨⟨_, rfl, .inr rfl⟩, List.nil_prefix⟩
            · rw [hpv]; exact .inl ⟨⟨_, rfl, .inl rfl⟩, by simp [lead]⟩
        | pps =>
          simp only
          rw [hkd] at hc
          simp only at hc
          cases hp : parsePps.run (rbsp u) with
          | short => rw [hp] at hc; exact absurd rfl (hc _ rfl).1
          | invalid => rw [hp] at hc; exact absurd rfl (hc _ rfl).2
          | ok s r =>
            rcases run_compat parsePps hv hp with hpv | ⟨r', hpv⟩
            · rw [hpv]; exact .inl ⟨⟨_, rfl, .inr rfl⟩, List.nil_prefix⟩
            · rw [hpv]; exact .inl ⟨⟨_, rfl, .inl rfl⟩, by simp [lead]⟩
  | cons x us ih =>
    obtain ⟨o', w⟩ := x
    rw [List.cons_append, List.cons_append] at *
    rw [lead_cons o' w (us ++ (o, u) :: rest)] at hc ⊢
    rw [lead_cons o' w (us ++ [(o, v)])]
    cases ht : unitType w with
    | short => rw [ht] at hc; exact absurd rfl (hc _ rfl).1
    | invalid => rw [ht] at hc; exact absurd rfl (hc _ rfl).2
    | ok t r =>
      rw [ht] at hc
      simp only at hc ⊢
      cases hkd : kindOf t false with
      | boundary => exact absurd hkd (kindOf_false t)
      | slice => exact .inr ⟨(o', w) :: us, offs, rfl, rfl, by simp⟩
      | other =>
        rw [hkd] at hc
        rcases ih _ hc with h | ⟨us', offs', h1, h2, h3⟩
        · exact .inl h
        · exact .inr ⟨us', offs', h1, h2, fun x hx => List.mem_cons_of_mem _ (h3 x hx)⟩
      | sps =>
        rw [hkd] at hc
        simp only at hc ⊢
        cases hp : parseSps.run (rbsp w) with
        | short => rw [hp] at hc; exact absurd rfl (hc _ rfl).1
        | invalid => rw [hp] at hc; exact absurd rfl (hc _ rfl).2
        | ok s r =>
          rw [hp] at hc
          rcases ih _ hc with ⟨h1, h2⟩ | ⟨us', offs', h1, h2, h3⟩
          · exact .inl ⟨h1, List.cons_prefix_cons.2 ⟨rfl, h2⟩⟩
          · exact .inr ⟨us', offs', by simp only [h1], h2, fun x hx => List.mem_cons_of_mem _ (h3 x hx)⟩
      | pps =>
        rw [hkd] at hc
        simp only at hc ⊢
        cases hp : parsePps.run (rbsp w) with
        | short => rw [hp] at hc; exact absurd rfl (hc _ rfl).1
        | invalid => rw [hp] at hc; exact absurd rfl (hc _ rfl).2
        | ok s r =>
          rw [hp] at hc
          rcases ih _ hc with ⟨h1, h2⟩ | ⟨us', offs', h1, h2, h3⟩
          · exact .inl ⟨h1, List.cons_prefix_cons.2 ⟨rfl, h2⟩⟩
          · exact .inr ⟨us', offs', by simp only [h1], h2, fun x hx => List.mem_cons_of_mem _ (h3 x hx)⟩

/-- The updates of a frame of the whole. -/
def leads (b : Bytes) : List Upd := (lead (units b) []).1

theorem parseFrame_lead (st : Sets) (b : Bytes) : parseFrame st b = follow b (apply (leads b) st) (lead (units b) []).2 :=
  loop_lead _ _ _ _

/-- Earlier attempts on parts make no difference. -/
theorem parseFrame_again {st st0 : Sets} {b : Bytes} (h : apply (leads b) st = apply (leads b) st0) :
    parseFrame st b = parseFrame st0 b := by
  rw [parseFrame_lead, parseFrame_lead, h]

theorem parseFrame_state {st0 : Sets} {b : Bytes} (hst : NoRed st0) (hr : NoRedundant b) :
    (parseFrame st0 b).1 = apply (leads b) st0 := by
  rw [parseFrame_lead]
  cases hl : (lead (units b) []).2 with
  | stop o => rfl
  | slice us offs =>
    refine loop_state_slice (apply_noRed hst ?_) hl
    intro p hp
    obtain ⟨o, u, r, r', h1, h2, h3⟩ := lead_pps _ _ hp
    exact hr o u p 8 r r' h1 h2 rfl h3

theorem noRed_leads {st0 : Sets} {b : Bytes} (hst : NoRed st0) (hr : NoRedundant b) : NoRed (apply (leads b) st0) := by
  refine apply_noRed hst ?_
  intro p hp
  obtain ⟨o, u, r, r', h1, h2, h3⟩ := lead_pps _ _ hp
  exact hr o u p 8 r r' h1 h2 rfl h3

/-- An attempt on a part of the bytes finds that they do not suffice, and leaves the sets such that nothing is lost, or gives what
an attempt on all of them gives. -/
theorem parseFrame_part {st st0 : Sets} {b : Bytes} {k : Nat} (hk : k ≤ b.length) (hst : NoRed st0) (hr : NoRedundant b)
    (h : apply (leads b) st = apply (leads b) st0) (hc : Clean (parseFrame st0 b).2) :
    (Open' (parseFrame st (b.take k)).2 ∧ apply (leads b) (parseFrame st (b.take k)).1 = apply (leads b) st0) ∨
      parseFrame st (b.take k) = parseFrame st0 b := by
  rcases units_take b k hk with hu | ⟨us, o, v, u, rest, h1, h2, h3, h4⟩
  · left
    unfold parseFrame
    rw [hu, loop]
    exact ⟨.inl rfl, h⟩
  · have hl : ∀ x, (lead (units b) []).2 = .stop x → Clean x := by
      intro x hx
      rw [parseFrame_lead, hx] at hc
      exact hc
    rw [h2] at hl
    rcases lead_part h3 rest us [] hl with ⟨⟨x, hx, hox⟩, hp⟩ | ⟨us', offs', g1, g2, g3⟩
    · left
      rw [← h1] at hx hp
      rw [← h2] at hp
      rw [parseFrame_lead, hx]
      refine ⟨hox, ?_⟩
      show apply (leads b) (apply (leads (b.take k)) st) = _
      have := apply_prefix hp st
      exact this.trans h
    · rw [← h1, ← h2] at g1
      rw [← h2] at g2
      have e1 : leads (b.take k) = leads b := by unfold leads; rw [g1]
      have e2 : parseFrame st (b.take k) = loop (b.take k) (us' ++ [(o, v)]) (apply (leads b) st0) [] offs' := by
        rw [parseFrame_lead, e1, g1, h]; rfl
      have e3 : parseFrame st0 b = loop b (us' ++ (o, u) :: rest) (apply (leads b) st0) [] offs' := by
        rw [parseFrame_lead, g2]; rfl
      rw [e3] at hc
      have hle : ∀ x ∈ us' ++ [(o, v)], x.1 ≤ k := by
        intro x hx
        have : x ∈ units (b.take k) := by
          rw [h1]
          rcases List.mem_append.1 hx with hx | hx
          · exact List.mem_append_left _ (g3 x hx)
          · exact List.mem_append_right _ hx
        have := h4 x this
        omega
      rcases loop_part h3 rest us' _ [] offs' hle hc with hp | hp
      · left
        rw [e2]
        refine ⟨hp, ?_⟩
        have : (lead (units (b.take k)) []).2 = .slice (us' ++ [(o, v)]) offs' := by rw [g1]
        rw [loop_state_slice (noRed_leads hst hr) this, apply_twice]
      · right
        rw [e2, e3, hp]

/-! ## The splitting of the whole -/

/-- The frames of bytes, all of which are there: the first one found, then those of what follows, until no end of a frame is found.
No attempt ends in an exception. -/
inductive Splits : Sets → Bytes → List Frame → Prop
  | last {st st' : Sets} {b : Bytes} {fs : List Frame} (h : parseFrame st b = (st', .noEnd))
      (hr : remainder st' b = (fs, .done)) : Splits st b fs
  | frame {st st' : Sets} {b : Bytes} {size : Nat} {offs : List Nat} {info : Info} {fs : List Frame}
      (h : parseFrame st b = (st', .frame size offs info)) (hs : Splits st' (b.drop size) fs) :
      Splits st b (⟨b.take size, offs, some info⟩ :: fs)

theorem go_splits {σ : Type} {read : Src σ} {left : σ → Bytes} (hr : Source read left) (hsome : ∀ n s, (read n s).1 ≠ none) (f : Nat)
    (st st0 : Sets) (buf : Bytes) (s : σ) (prev : Option Nat) (start : Bool)
    (hf : 3 * (left s).length + 2 * buf.length + (if start then 1 else 0) < f) (fs : List Frame)
    (hst : NoRed st0) (hn : NoRedundant (buf ++ left s))
    (h : apply (leads (buf ++ left s)) st = apply (leads (buf ++ left s)) st0) (hsp : Splits st0 (buf ++ left s) fs) :
    go read f st buf s prev start = (fs, .done) := by
  induction f generalizing st st0 buf s prev start fs with
  | zero => omega
  | succ f ih =>
    rw [go]
    generalize hrd : readMaybe read (readSize start prev buf.length) s = q
    obtain ⟨d, s'⟩ := q
    cases d with
    | none =>
      unfold readMaybe at hrd
      by_cases hz : readSize start prev buf.length > 0
      · rw [if_pos hz] at hrd
        have := hsome (readSize start prev buf.length) s
        rw [hrd] at this
        exact absurd rfl this
      · rw [if_neg hz] at hrd; cases hrd
    | some d =>
      have hl := readMaybe_left hr hrd
      have hll : (left s).length = d.length + (left s').length := by rw [hl, List.length_append]
      have hR : buf ++ left s = (buf ++ d) ++ left s' := by rw [hl, List.append_assoc]
      rw [hR] at hn h hsp
      have hk : (buf ++ d).length ≤ ((buf ++ d) ++ left s').length := by rw [List.length_append (as := buf ++ d)]; omega
      have htake : ((buf ++ d) ++ left s').take (buf ++ d).length = buf ++ d := List.take_left
      have hclean : Clean (parseFrame st0 ((buf ++ d) ++ left s')).2 := by
        cases hsp with
        | last h _ => rw [h]; exact ⟨by simp, by simp⟩
        | frame h _ => rw [h]; exact ⟨by simp, by simp⟩
      have again : ∀ st', apply (leads ((buf ++ d) ++ left s')) st' = apply (leads ((buf ++ d) ++ left s')) st0 →
          (¬ (readSize start prev buf.length > 0 ∧ d = [])) → go read f st' (buf ++ d) s' prev false = (fs, .done) := by
        intro st' hst' he
        refine ih st' st0 _ _ _ _ ?_ fs hst hn hst' hsp
        rw [List.length_append]
        simp only [Bool.false_eq_true, if_false]
        by_cases hd : d = []
        · have hz : readSize start prev buf.length = 0 := by
            have : ¬ (readSize start prev buf.length > 0) := fun h => he ⟨h, hd⟩
            omega
          have hst : start = true := by
            cases start with
            | true => rfl
            | false => simp [readSize, blockSize] at hz
          subst hd hst
          simp only [if_true, List.length_nil] at hf hll ⊢
          omega
        · have : 0 < d.length := List.length_pos_iff.2 hd
          omega
      simp only
      by_cases he : readSize start prev buf.length > 0 ∧ d = []
      · -- everything has been read
        have he' := he
        obtain ⟨he1, he2⟩ := he
        have hnil : left s' = [] := by
          have : left s = [] := by
            subst he2
            unfold readMaybe at hrd
            rw [if_pos he1] at hrd
            exact hr.last _ _ _ he1 hrd
          rw [this] at hll
          exact List.eq_nil_of_length_eq_zero (by simp at hll; omega)
        rw [hnil, List.append_nil] at hsp h hn
        rw [parseFrame_again h]
        cases hsp with
        | last hp hrm =>
          rw [hp]
          simp only
          rw [if_pos he', hrm]
        | @frame _ st1 _ size offs info fs' hp hs =>
          rw [hp]
          obtain ⟨h1, h2, _⟩ := parseFrame_frame hp
          simp only
          have e1 : (parseFrame st0 (buf ++ d)).1 = st1 := by rw [hp]
          have : go read f st1 ((buf ++ d).drop size) s' (some size) true = (fs', .done) := by
            refine ih st1 st1 _ _ _ _ ?_ fs' ?_ ?_ rfl ?_
            · rw [List.length_drop]
              rw [List.length_append] at h2 ⊢
              simp only [if_true]
              omega
            · rw [← e1, parseFrame_state hst hn]; exact noRed_leads hst hn
            · rw [hnil, List.append_nil]; exact noRedundant_drop hn size
            · rw [hnil, List.append_nil]; exact hs
          rw [if_pos h1, this]
      · have hpart := parseFrame_part hk hst hn h hclean
        rw [htake] at hpart
        rcases hpart with ⟨ho, hs'⟩ | heq
        · generalize hp : parseFrame st (buf ++ d) = pq at ho hs'
          obtain ⟨st', out⟩ := pq
          rcases ho with ho | ho
          · simp only at ho; subst ho
            simp only
            rw [if_neg he]
            exact again st' hs' he
          · simp only at ho; subst ho
            simp only
            rw [if_neg he]
            exact again st' hs' he
        · rw [heq]
          have hsp' := hsp
          cases hsp with
          | last hp hrm =>
            rw [hp]
            simp only
            rw [if_neg he]
            refine again _ ?_ he
            have := parseFrame_state hst hn
            rw [hp] at this
            simp only at this
            rw [this, apply_twice]
          | @frame _ st1 _ size offs info fs' hp hs =>
            rw [hp] at heq ⊢
            obtain ⟨h1, h2, _⟩ := parseFrame_frame heq
            simp only
            have e1 : (parseFrame st0 ((buf ++ d) ++ left s')).1 = st1 := by rw [hp]
            have e2 : ((buf ++ d) ++ left s').drop size = (buf ++ d).drop size ++ left s' := List.drop_append_of_le_length h2
            have e3 : ((buf ++ d) ++ left s').take size = (buf ++ d).take size := List.take_append_of_le_length h2
            have : go read f st1 ((buf ++ d).drop size) s' (some size) true = (fs', .done) := by
              refine ih st1 st1 _ _ _ _ ?_ fs' ?_ ?_ rfl ?_
              · rw [List.length_drop]
                rw [List.length_append] at h2 ⊢
                simp only [if_true]
                omega
              · rw [← e1, parseFrame_state hst hn]; exact noRed_leads hst hn
              · rw [← e2]; exact noRedundant_drop hn size
              · rw [← e2]; exact hs
            rw [if_pos h1, this, e3]

/-! ## Checking a splitting -/

def splitsOf : Nat → Sets → Bytes → Option (List Frame)
  | 0, _, _ => none
  | f + 1, st, b =>
    match parseFrame st b with
    | (st', .noEnd) => match remainder st' b with | (fs, .done) => some fs | _ => none
    | (st', .frame size offs info) => (splitsOf f st' (b.drop size)).map (fun fs => ⟨b.take size, offs, some info⟩ :: fs)
    | _ => none

theorem splitsOf_sound (f : Nat) (st : Sets) (b : Bytes) (fs : List Frame) (h : splitsOf f st b = some fs) : Splits st b fs := by
  induction f generalizing st b fs with
  | zero => cases h
  | succ f ih =>
    rw [splitsOf] at h
    generalize hp : parseFrame st b = pq at h
    obtain ⟨st', out⟩ := pq
    cases out with
    | short => cases h
    | raised => cases h
    | noEnd =>
      simp only at h
      generalize hr : remainder st' b = rq at h
      obtain ⟨fs', e⟩ := rq
      cases e with
      | done => injection h with h; subst h; exact .last hp hr
      | raised => cases h
      | fuel => cases h
    | frame size offs info =>
      simp only at h
      cases hs : splitsOf f st' (b.drop size) with
      | none => rw [hs] at h; cases h
      | some fs' =>
        rw [hs] at h
        injection h with h
        subst h
        exact .frame hp (ih _ _ _ hs)

def noRedundantB (b : Bytes) : Bool :=
  (units b).all (fun x => match parsePps.run (rbsp x.2) with | .ok p _ => !p.redundantPicCntPresent | _ => true)

theorem noRedundantB_sound {b : Bytes} (h : noRedundantB b = true) : NoRedundant b := by
  intro o u p t r r' hm _ _ hp
  unfold noRedundantB at h
  rw [List.all_eq_true] at h
  have := h (o, u) hm
  simp only [hp, Bool.not_eq_true'] at this
  exact this

end Verif.Props.H264Frames

namespace Verif.Props

open Verif Verif.IO.Stream Verif.Wrap Verif.Wrap.H264 H264Frames

/-- **C40**, frames are a partition, for every input and however its reads come in pieces: the frames are consecutive from the
beginning; if splitting ends normally they are the whole input, except that there is no frame if there is no start code at all.
The offsets of a frame are exactly the positions of the start codes in it, and there is at least one. Every frame but the first
begins with a start code, or with one zero byte and a start code (the long form); so does the first if the input does. -/
theorem C40_partition (input : Bytes) (limits : List Nat) :
    (∃ rest, (frames input limits).1.flatMap (fun f => f.data) ++ rest = input ∧
        ((frames input limits).2 = .done → rest = [] ∨ ((frames input limits).1 = [] ∧ ∀ i, (input.drop i).take 3 ≠ [0, 0, 1]))) ∧
      (∀ f ∈ (frames input limits).1, (∃ i, i ∈ f.offs) ∧ ∀ i, i ∈ f.offs ↔ (f.data.drop i).take 3 = [0, 0, 1]) ∧
      (∀ f ∈ (frames input limits).1.tail, f.data.take 3 = [0, 0, 1] ∨ (f.data.drop 1).take 3 = [0, 0, 1]) ∧
      (input.take 3 = [0, 0, 1] ∨ (input.drop 1).take 3 = [0, 0, 1] → ∀ f ∈ (frames input limits).1,
        f.data.take 3 = [0, 0, 1] ∨ (f.data.drop 1).take 3 = [0, 0, 1]) := by
  have hc : ∀ (b : Bytes) (i : Nat), isCode b i = true ↔ (b.drop i).take 3 = [0, 0, 1] := by
    intro b i; unfold isCode; rw [beq_iff_eq]
  have h := go_fine source_file (3 * input.length + 2) .empty [] ⟨input, limits⟩ none true (by simp)
  rw [List.nil_append] at h
  change Fine input (frames input limits) at h
  obtain ⟨rest, h1, h2⟩ := h.part
  refine ⟨⟨rest, h1, ?_⟩, ?_, ?_, ?_⟩
  · intro hd
    rcases h2 hd with h2 | ⟨h2, h3⟩
    · exact .inl h2
    · refine .inr ⟨h2, fun i hi => ?_⟩
      have := mem_offsets.2 ((hc input i).2 hi)
      rw [h3] at this
      cases this
  · intro f hf
    obtain ⟨h3, h4⟩ := h.offs f hf
    constructor
    · cases hx : f.offs with
      | nil => exact absurd hx h4
      | cons x xs => exact ⟨x, by simp⟩
    · intro i; rw [h3, mem_offsets, hc]
  · intro f hf
    rcases h.later f hf with h3 | h3
    · exact .inl ((hc _ 0).1 h3)
    · exact .inr ((hc _ 1).1 h3)
  · intro hi f hf
    have : Starts input := by
      rcases hi with hi | hi
      · exact .inl ((hc _ 0).2 hi)
      · exact .inr ((hc _ 1).2 hi)
    rcases h.first this f hf with h3 | h3
    · exact .inl ((hc _ 0).1 h3)
    · exact .inr ((hc _ 1).1 h3)

/-- **C40**, splitting always comes to an end: the bound on the rounds of the model is never reached. -/
theorem C40_ends (input : Bytes) (limits : List Nat) : (frames input limits).2 ≠ .fuel ∧ (framesOfStdin input limits).2 ≠ .fuel :=
  ⟨(go_fine source_file (3 * input.length + 2) .empty [] ⟨input, limits⟩ none true (by simp)).notFuel,
    (go_fine source_stdin (3 * input.length + 2) .empty [] ⟨input, limits⟩ none true (by simp)).notFuel⟩

/-- **C40**, chunking: when the whole input splits into frames without an exception and no picture parameter set allows redundant
slices, the wrapper yields exactly these frames however its reads come in pieces. -/
theorem C40_chunking (input : Bytes) (fs : List Frame) (hs : Splits .empty input fs) (hn : NoRedundant input) (limits : List Nat) :
    frames input limits = (fs, .done) := by
  refine go_splits source_file ?_ _ _ .empty _ _ _ _ (by simp) fs ?_ ?_ rfl ?_
  · intro n p; simp [file]
  · intro i p hp; cases hp
  · exact hn
  · exact hs

/-- **C40**, standard input: also consecutive frames with exact offsets, but it never ends normally. -/
theorem C40_stdin (input : Bytes) (limits : List Nat) :
    (framesOfStdin input limits).2 = .raised ∧
      (∃ rest, (framesOfStdin input limits).1.flatMap (fun f => f.data) ++ rest = input) ∧
      ∀ f ∈ (framesOfStdin input limits).1, ∀ i, i ∈ f.offs ↔ (f.data.drop i).take 3 = [0, 0, 1] := by
  have h := go_fine source_stdin (3 * input.length + 2) .empty [] ⟨input, limits⟩ none true (by simp)
  rw [List.nil_append] at h
  change Fine input (framesOfStdin input limits) at h
  have hd : (framesOfStdin input limits).2 ≠ .done := by
    apply go_not_done
    intro n p p' hn hc
    obtain ⟨h1, _, h3⟩ := stdin_some hc
    have hl : (p.left.take n).length = 0 := by rw [← h1]; rfl
    rw [List.length_take] at hl
    omega
  refine ⟨?_, ?_, ?_⟩
  · cases he : (framesOfStdin input limits).2 with
    | done => exact absurd he hd
    | raised => rfl
    | fuel => exact absurd he h.notFuel
  · obtain ⟨rest, h1, _⟩ := h.part; exact ⟨rest, h1⟩
  · intro f hf i
    rw [(h.offs f hf).1, mem_offsets]
    unfold isCode
    rw [beq_iff_eq]

/-! ## Examples -/

/-- Parameter sets, a picture of two slices, a picture of one slice, a delimiter and a picture of one slice. -/
def h264Stream : Bytes :=
  [0, 0, 0, 1, 103, 66, 0, 10, 244, 75, 32, 0, 0, 1, 104, 206, 56, 128, 0, 0, 1, 101, 136, 132, 46, 0, 0, 1, 101, 98, 33, 11, 128,
   0, 0, 0, 1, 65, 154, 37, 112, 0, 0, 1, 9, 16, 0, 0, 1, 65, 154, 73, 112]

def h264Frames : List Frame :=
  [⟨[0, 0, 0, 1, 103, 66, 0, 10, 244, 75, 32, 0, 0, 1, 104, 206, 56, 128, 0, 0, 1, 101, 136, 132, 46, 0, 0, 1, 101, 98, 33, 11, 128],
    [1, 11, 18, 25], some ⟨32, 32, 32, 32, none, true⟩⟩,
   ⟨[0, 0, 0, 1, 65, 154, 37, 112], [1], some ⟨32, 32, 32, 32, none, false⟩⟩,
   ⟨[0, 0, 1, 9, 16, 0, 0, 1, 65, 154, 73, 112], [0, 5], some ⟨32, 32, 32, 32, none, false⟩⟩]

theorem h264Stream_splits : Splits .empty h264Stream h264Frames :=
  splitsOf_sound 10 _ _ _ (by decide +kernel)

/-- The hypotheses of `C40_chunking` are met; the frames for reads of one byte and for one read of everything. -/
example : frames h264Stream (List.replicate 100 1) = (h264Frames, .done) ∧ frames h264Stream [] = (h264Frames, .done) :=
  have hn : NoRedundant h264Stream := noRedundantB_sound (by decide +kernel)
  ⟨C40_chunking _ _ h264Stream_splits hn _, C40_chunking _ _ h264Stream_splits hn _⟩

/-- From standard input the same stream, shorter than a block, gives no frame at all. -/
theorem C40_stdin_counterexample : framesOfStdin h264Stream [] = ([], .raised) ∧ frames h264Stream [] = (h264Frames, .done) :=
  ⟨by decide +kernel, C40_chunking _ _ h264Stream_splits (noRedundantB_sound (by decide +kernel)) _⟩

/-- A slice cut short: zero bytes of the next start code are read as part of it when a piece ends there. -/
def h264Bad : Bytes :=
  [0, 0, 0, 1, 103, 66, 0, 10, 244, 75, 32, 0, 0, 1, 104, 206, 56, 128, 0, 0, 1, 101, 136, 132, 46, 0, 0, 1, 65, 154, 0, 0, 1, 65,
   154, 73, 112]

/-- For a malformed stream the frames depend on how the input comes in pieces, so `C40_chunking` needs its hypothesis. -/
theorem C40_chunking_counterexample :
    (frames h264Bad []).1 = [] ∧ ((frames h264Bad [32]).1.map (fun f => f.data.length)) = [25] := by decide +kernel

/-- A stream that ends inside a slice header: the frame before the incomplete one is lost as well, since its end is not found, and
the end is an exception. -/
theorem C40_truncated_counterexample :
    frames (h264Stream.take 44 ++ [65, 154]) [] = (h264Frames.take 1, .raised) := by decide +kernel

end Verif.Props

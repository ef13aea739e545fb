import Verif.Compare.Matcher
import Mathlib.Algebra.Order.Field.Rat
import Mathlib.Algebra.Order.Field.Basic

/-!
# Lemmas on the matcher that compares data
-/

namespace Verif.Compare.Matcher

open Verif Verif.Compare

variable {α : Type} {eq : α → α → Bool} {a b : List α}

/-- What the lemmas need of `==`: not a number is not equal to itself. -/
structure Per (eq : α → α → Bool) : Prop where
  symm : ∀ x y, eq x y = true → eq y x = true
  trans : ∀ x y z, eq x y = true → eq y z = true → eq x z = true

theorem same_true {i j : Nat} : same eq a b i j = true ↔ ∃ x y, a[i]? = some x ∧ b[j]? = some y ∧ eq x y = true := by
  unfold same
  cases ha : a[i]? with
  | none => simp
  | some x =>
    cases hb : b[j]? with
    | none => simp
    | some y => simp

theorem same_lt {i j : Nat} (h : same eq a b i j = true) : i < a.length ∧ j < b.length := by
  obtain ⟨x, y, hx, hy, _⟩ := same_true.1 h
  exact ⟨(List.getElem?_eq_some_iff.1 hx).1, (List.getElem?_eq_some_iff.1 hy).1⟩

theorem popular_congr (hp : Per eq) {x y : α} (h : eq x y = true) : popular eq b x = popular eq b y := by
  have : (fun z => eq x z) = (fun z => eq y z) := by
    funext z
    apply Bool.eq_iff_iff.2
    constructor
    · intro hz; exact hp.trans y x z (hp.symm x y h) hz
    · intro hz; exact hp.trans x y z h hz
  unfold popular
  rw [this]

def hit (eq : α → α → Bool) (a b : List α) (blo bhi i j : Nat) : Bool :=
  rare eq a b i && same eq a b i j && decide (blo ≤ j) && decide (j < bhi)

theorem hit_true {blo bhi i j : Nat} :
    hit eq a b blo bhi i j = true ↔ rare eq a b i = true ∧ same eq a b i j = true ∧ blo ≤ j ∧ j < bhi := by
  unfold hit
  simp [and_assoc]

theorem mem_places {blo bhi i j : Nat} : j ∈ places eq a b blo bhi i ↔ hit eq a b blo bhi i j = true := by
  unfold places
  rw [List.mem_filter]
  constructor
  · intro h; exact h.2
  · intro h
    exact ⟨List.mem_range.2 (same_lt (hit_true.1 h).2.1).2, h⟩

theorem places_sorted (blo bhi i : Nat) : (places eq a b blo bhi i).Pairwise (· < ·) :=
  List.Pairwise.filter _ List.pairwise_lt_range

/-- The length of the run of hits that ends at `j` in the `n`-th row from `alo` on. -/
def run (eq : α → α → Bool) (a b : List α) (alo blo bhi : Nat) : Nat → Nat → Nat
  | 0, _ => 0
  | n + 1, j => if hit eq a b blo bhi (alo + n) j = true then before (run eq a b alo blo bhi n) j + 1 else 0

theorem scanRow_fst (p : Nat → Nat) (i : Nat) : ∀ (js : List Nat) (new : Nat → Nat) (best : Match) (x : Nat),
    (scanRow p i js new best).1 x = if x ∈ js then before p x + 1 else new x
  | [], new, best, x => by simp [scanRow]
  | j :: js, new, best, x => by
    simp only [scanRow]
    rw [scanRow_fst p i js]
    by_cases h1 : x ∈ js
    · simp [h1]
    · by_cases h2 : x = j
      · subst h2; simp [h1]
      · simp [h1, h2]

theorem scanRow_run (alo blo bhi n : Nat) (best : Match) :
    (scanRow (run eq a b alo blo bhi n) (alo + n) (places eq a b blo bhi (alo + n)) (fun _ => 0) best).1 =
      run eq a b alo blo bhi (n + 1) := by
  funext x
  rw [scanRow_fst]
  simp only [run, mem_places]

theorem scanRow_best (P : Match → Prop) (p : Nat → Nat) (i : Nat) : ∀ (js : List Nat) (new : Nat → Nat) (best : Match),
    P best → (∀ j ∈ js, P ⟨i + 1 - (before p j + 1), j + 1 - (before p j + 1), before p j + 1⟩) →
    P (scanRow p i js new best).2
  | [], new, best, hb, _ => by simpa [scanRow] using hb
  | j :: js, new, best, hb, hj => by
    simp only [scanRow]
    apply scanRow_best P p i js
    · split
      · exact hj j (by simp)
      · exact hb
    · intro x hx; exact hj x (by simp [hx])

theorem scanRow_max (p : Nat → Nat) (i : Nat) : ∀ (js : List Nat) (new : Nat → Nat) (best : Match),
    best.k ≤ (scanRow p i js new best).2.k ∧ ∀ j ∈ js, before p j + 1 ≤ (scanRow p i js new best).2.k
  | [], new, best => by simp [scanRow]
  | j :: js, new, best => by
    simp only [scanRow]
    have := scanRow_max p i js (fun x => if x = j then before p j + 1 else new x)
      (if before p j + 1 > best.k then ⟨i + 1 - (before p j + 1), j + 1 - (before p j + 1), before p j + 1⟩ else best)
    obtain ⟨h1, h2⟩ := this
    have hk : best.k ≤ (if before p j + 1 > best.k then
        (⟨i + 1 - (before p j + 1), j + 1 - (before p j + 1), before p j + 1⟩ : Match) else best).k ∧
        before p j + 1 ≤ (if before p j + 1 > best.k then
        (⟨i + 1 - (before p j + 1), j + 1 - (before p j + 1), before p j + 1⟩ : Match) else best).k := by
      split
      · exact ⟨by simp only; omega, by simp only; omega⟩
      · exact ⟨by omega, by omega⟩
    refine ⟨by omega, ?_⟩
    intro x hx
    rcases List.mem_cons.1 hx with hx | hx
    · subst hx; omega
    · exact h2 x hx

/-- The two ranges of a match lie in the ranges searched and agree. -/
structure Sound (eq : α → α → Bool) (a b : List α) (alo ahi blo bhi : Nat) (m : Match) : Prop where
  ilo : alo ≤ m.i
  jlo : blo ≤ m.j
  ihi : m.i + m.k ≤ ahi
  jhi : m.j + m.k ≤ bhi
  agree : ∀ t, t < m.k → same eq a b (m.i + t) (m.j + t) = true

theorem run_sound (alo blo bhi : Nat) : ∀ (n j : Nat), 0 < run eq a b alo blo bhi n j →
    run eq a b alo blo bhi n j ≤ n ∧ blo + run eq a b alo blo bhi n j ≤ j + 1 ∧ j < bhi ∧
    ∀ t, t < run eq a b alo blo bhi n j →
      same eq a b (alo + n - run eq a b alo blo bhi n j + t) (j + 1 - run eq a b alo blo bhi n j + t) = true
  | 0, j, h => by simp [run] at h
  | n + 1, j, h => by
    by_cases hh : hit eq a b blo bhi (alo + n) j = true
    · have e : run eq a b alo blo bhi (n + 1) j = before (run eq a b alo blo bhi n) j + 1 := by simp only [run, if_pos hh]
      obtain ⟨_, hs, h1, h2⟩ := hit_true.1 hh
      rw [e]
      by_cases hz : before (run eq a b alo blo bhi n) j = 0
      · rw [hz]
        refine ⟨by omega, by omega, h2, ?_⟩
        intro t ht
        have : t = 0 := by omega
        subst this
        simpa using hs
      · have hj : j ≠ 0 := by intro hj; apply hz; simp [before, hj]
        have eb : before (run eq a b alo blo bhi n) j = run eq a b alo blo bhi n (j - 1) := by simp [before, hj]
        rw [eb] at hz ⊢
        obtain ⟨i1, i2, i3, i4⟩ := run_sound alo blo bhi n (j - 1) (by omega)
        generalize run eq a b alo blo bhi n (j - 1) = k at *
        refine ⟨by omega, by omega, h2, ?_⟩
        intro t ht
        by_cases htk : t < k
        · have := i4 t htk
          have e1 : alo + (n + 1) - (k + 1) + t = alo + n - k + t := by omega
          have e2 : j + 1 - (k + 1) + t = j - 1 + 1 - k + t := by omega
          rw [e1, e2]; exact this
        · have e1 : alo + (n + 1) - (k + 1) + t = alo + n := by omega
          have e2 : j + 1 - (k + 1) + t = j := by omega
          rw [e1, e2]; exact hs
    · exfalso; simp [run, hh] at h

theorem scan_sound (alo ahi blo bhi : Nat) : ∀ (m n : Nat) (best : Match), alo + n + m = ahi →
    (Sound eq a b alo ahi blo bhi best) →
    Sound eq a b alo ahi blo bhi (scan eq a b blo bhi m (alo + n) (run eq a b alo blo bhi n) best)
  | 0, n, best, _, hb => by simpa [scan] using hb
  | m + 1, n, best, hm, hb => by
    simp only [scan]
    rw [scanRow_run, Nat.add_assoc]
    apply scan_sound alo ahi blo bhi m (n + 1) _ (by omega)
    apply scanRow_best _ _ _ _ _ _ hb
    intro j hj
    have hj := mem_places.1 hj
    have e : run eq a b alo blo bhi (n + 1) j = before (run eq a b alo blo bhi n) j + 1 := by simp only [run, if_pos hj]
    obtain ⟨i1, i2, i3, i4⟩ := run_sound (eq := eq) (a := a) (b := b) alo blo bhi (n + 1) j (by omega)
    rw [← e]
    generalize run eq a b alo blo bhi (n + 1) j = k at *
    refine ⟨by simp only; omega, by simp only; omega, by simp only; omega, by simp only; omega, ?_⟩
    intro t ht
    exact i4 t ht

/-- As long as nothing is found the match is empty and at the start. -/
theorem scan_zero (alo blo bhi : Nat) : ∀ (m i : Nat) (p : Nat → Nat) (best : Match),
    (best.k = 0 → best = ⟨alo, blo, 0⟩) → (scan eq a b blo bhi m i p best).k = 0 →
    scan eq a b blo bhi m i p best = ⟨alo, blo, 0⟩
  | 0, i, p, best, hb, h => by simpa [scan] using hb (by simpa [scan] using h)
  | m + 1, i, p, best, hb, h => by
    simp only [scan] at h ⊢
    refine scan_zero alo blo bhi m (i + 1) _ _ ?_ h
    exact scanRow_best (fun m => m.k = 0 → m = ⟨alo, blo, 0⟩) _ _ _ _ _ hb (fun j _ h => by simp at h)

theorem extendLeft_sound (alo ahi blo bhi : Nat) : ∀ (f : Nat) (m : Match), Sound eq a b alo ahi blo bhi m →
    Sound eq a b alo ahi blo bhi (extendLeft eq a b alo blo f m)
  | 0, m, h => by simpa [extendLeft] using h
  | f + 1, m, h => by
    simp only [extendLeft]
    split
    · rename_i hc
      apply extendLeft_sound alo ahi blo bhi f
      have := h.ihi
      have := h.jhi
      refine ⟨by simp only; omega, by simp only; omega, by simp only; omega, by simp only; omega, ?_⟩
      intro t ht
      simp only at ht ⊢
      by_cases h0 : t = 0
      · subst h0; simpa using hc.2.2
      · have := h.agree (t - 1) (by omega)
        rw [show m.i - 1 + t = m.i + (t - 1) by omega, show m.j - 1 + t = m.j + (t - 1) by omega]
        exact this
    · exact h

theorem extendRight_sound (alo ahi blo bhi : Nat) : ∀ (f : Nat) (m : Match), Sound eq a b alo ahi blo bhi m →
    Sound eq a b alo ahi blo bhi (extendRight eq a b ahi bhi f m)
  | 0, m, h => by simpa [extendRight] using h
  | f + 1, m, h => by
    simp only [extendRight]
    split
    · rename_i hc
      apply extendRight_sound alo ahi blo bhi f
      refine ⟨h.ilo, h.jlo, by simp only; omega, by simp only; omega, ?_⟩
      intro t ht
      simp only at ht ⊢
      by_cases h0 : t = m.k
      · subst h0; exact hc.2.2
      · exact h.agree t (by omega)
    · exact h

theorem findLongest_sound {alo ahi blo bhi : Nat} (h1 : alo ≤ ahi) (h2 : blo ≤ bhi) :
    Sound eq a b alo ahi blo bhi (findLongest eq a b alo ahi blo bhi) := by
  unfold findLongest
  apply extendRight_sound
  apply extendLeft_sound
  exact scan_sound alo ahi blo bhi (ahi - alo) 0 _ (by omega)
    ⟨Nat.le_refl _, Nat.le_refl _, by simpa using h1, by simpa using h2, fun t ht => by simp at ht⟩

theorem extendLeft_k (alo blo : Nat) : ∀ (f : Nat) (m : Match), m.k ≤ (extendLeft eq a b alo blo f m).k
  | 0, m => by simp [extendLeft]
  | f + 1, m => by
    simp only [extendLeft]
    split
    · have := extendLeft_k alo blo f ⟨m.i - 1, m.j - 1, m.k + 1⟩
      simp only at this
      omega
    · exact Nat.le_refl _

theorem extendRight_k (ahi bhi : Nat) : ∀ (f : Nat) (m : Match), m.k ≤ (extendRight eq a b ahi bhi f m).k
  | 0, m => by simp [extendRight]
  | f + 1, m => by
    simp only [extendRight]
    split
    · have := extendRight_k ahi bhi f ⟨m.i, m.j, m.k + 1⟩
      simp only at this
      omega
    · exact Nat.le_refl _

/-- If no match is found then the first elements of the ranges differ. -/
theorem findLongest_zero {alo ahi blo bhi : Nat} (h : (findLongest eq a b alo ahi blo bhi).k = 0) (h1 : alo < ahi) (h2 : blo < bhi) :
    same eq a b alo blo = false := by
  cases hs : same eq a b alo blo with
  | false => rfl
  | true =>
    exfalso
    unfold findLongest at h
    simp only at h
    generalize hm : scan eq a b blo bhi (ahi - alo) alo (fun _ => 0) ⟨alo, blo, 0⟩ = m at h
    have k1 := extendRight_k (eq := eq) (a := a) (b := b) ahi bhi a.length (extendLeft eq a b alo blo m.i m)
    have k2 := extendLeft_k (eq := eq) (a := a) (b := b) alo blo m.i m
    have hz : m.k = 0 := by omega
    have hmz : m = ⟨alo, blo, 0⟩ := by
      rw [← hm]
      apply scan_zero _ _ _ _ _ _ _ (fun _ => rfl)
      rw [hm]; exact hz
    subst hmz
    have el : extendLeft eq a b alo blo alo ⟨alo, blo, 0⟩ = ⟨alo, blo, 0⟩ := by
      cases alo with
      | zero => rfl
      | succ n => simp [extendLeft]
    simp only at h
    rw [el] at h
    have hl := (same_lt hs).1
    cases hal : a.length with
    | zero => omega
    | succ n =>
      rw [hal] at h
      have : extendRight eq a b ahi bhi (n + 1) ⟨alo, blo, 0⟩ = extendRight eq a b ahi bhi n ⟨alo, blo, 1⟩ := by
        simp only [extendRight]
        rw [if_pos ⟨by simpa using h1, by simpa using h2, by simpa using hs⟩]
      rw [this] at h
      have := extendRight_k (eq := eq) (a := a) (b := b) ahi bhi n ⟨alo, blo, 1⟩
      simp only at this
      omega

/-! ## Blocks -/

/-- Matching blocks one after the other in the given ranges. If there is something between two of them on both sides then it differs
at its start. -/
def Tiled (eq : α → α → Bool) (a b : List α) (ahi bhi : Nat) : Nat → Nat → List Match → Prop
  | alo, blo, [] => alo ≤ ahi ∧ blo ≤ bhi ∧ (alo < ahi → blo < bhi → same eq a b alo blo = false)
  | alo, blo, m :: ms =>
    alo ≤ m.i ∧ blo ≤ m.j ∧ (alo < m.i → blo < m.j → same eq a b alo blo = false) ∧ 0 < m.k ∧
      (∀ t, t < m.k → same eq a b (m.i + t) (m.j + t) = true) ∧ Tiled eq a b ahi bhi (m.i + m.k) (m.j + m.k) ms

theorem tiled_append {ahi bhi : Nat} (x : Match) (r : List Match) (hk : 0 < x.k)
    (hx : ∀ t, t < x.k → same eq a b (x.i + t) (x.j + t) = true) (hr : Tiled eq a b ahi bhi (x.i + x.k) (x.j + x.k) r) :
    ∀ (l : List Match) (alo blo : Nat), Tiled eq a b x.i x.j alo blo l → Tiled eq a b ahi bhi alo blo (l ++ x :: r)
  | [], alo, blo, h => by
    obtain ⟨h1, h2, h3⟩ := h
    exact ⟨h1, h2, h3, hk, hx, hr⟩
  | m :: l, alo, blo, h => by
    obtain ⟨h1, h2, h3, h4, h5, h6⟩ := h
    exact ⟨h1, h2, h3, h4, h5, tiled_append x r hk hx hr l _ _ h6⟩

theorem blocksIn_tiled : ∀ (f alo ahi blo bhi : Nat), alo ≤ ahi → blo ≤ bhi → ahi - alo < f →
    Tiled eq a b ahi bhi alo blo (blocksIn eq a b f alo ahi blo bhi)
  | 0, _, _, _, _, _, _, h => by omega
  | f + 1, alo, ahi, blo, bhi, h1, h2, hf => by
    have hs := findLongest_sound (eq := eq) (a := a) (b := b) h1 h2
    simp only [blocksIn]
    by_cases hz : (findLongest eq a b alo ahi blo bhi).k = 0
    · rw [if_pos hz]
      exact ⟨h1, h2, fun u v => findLongest_zero hz u v⟩
    · rw [if_neg hz]
      generalize findLongest eq a b alo ahi blo bhi = x at *
      obtain ⟨s1, s2, s3, s4, s5⟩ := hs
      apply tiled_append x _ (by omega) s5
      · split
        · exact blocksIn_tiled f _ _ _ _ s3 s4 (by omega)
        · exact ⟨s3, s4, fun u v => by omega⟩
      · split
        · exact blocksIn_tiled f _ _ _ _ s1 s2 (by omega)
        · exact ⟨s1, s2, fun u v => by omega⟩

def total (l : List Match) : Nat := (l.map (fun m => m.k)).sum

theorem collapse_total : ∀ (l : List Match) (c : Match), total (collapse c l) = c.k + total l
  | [], c => by
    unfold collapse
    split <;> simp [total] <;> omega
  | x :: l, c => by
    unfold collapse
    split
    · rw [collapse_total l]; simp [total]; omega
    · have ih := collapse_total l x
      split
      · rename_i hz
        rw [List.nil_append, ih]; simp [total]; omega
      · simp only [total, List.singleton_append, List.map_cons, List.sum_cons] at ih ⊢
        rw [ih]

theorem collapse_tiled {ahi bhi : Nat} : ∀ (l : List Match) (c : Match) (alo blo : Nat), alo ≤ c.i → blo ≤ c.j →
    (alo < c.i → blo < c.j → same eq a b alo blo = false) → (c.k = 0 → c.i = alo ∧ c.j = blo) →
    (∀ t, t < c.k → same eq a b (c.i + t) (c.j + t) = true) → Tiled eq a b ahi bhi (c.i + c.k) (c.j + c.k) l →
    Tiled eq a b ahi bhi alo blo (collapse c l)
  | [], c, alo, blo, h1, h2, h3, h4, h5, h6 => by
    unfold collapse
    split
    · rename_i hz
      obtain ⟨e1, e2⟩ := h4 hz
      rw [hz, e1, e2] at h6
      exact h6
    · exact ⟨h1, h2, h3, by omega, h5, h6⟩
  | x :: l, c, alo, blo, h1, h2, h3, h4, h5, h6 => by
    obtain ⟨g1, g2, g3, g4, g5, g6⟩ := h6
    unfold collapse
    split
    · rename_i hc
      refine collapse_tiled l ⟨c.i, c.j, c.k + x.k⟩ _ _ h1 h2 h3 ?_ ?_ ?_
      · simp only; omega
      · intro t ht
        simp only at ht ⊢
        by_cases htc : t < c.k
        · exact h5 t htc
        · have := g5 (t - c.k) (by omega)
          rw [← hc.1, ← hc.2] at this
          rw [show c.i + t = c.i + c.k + (t - c.k) by omega, show c.j + t = c.j + c.k + (t - c.k) by omega]
          exact this
      · simp only
        rw [show c.i + (c.k + x.k) = x.i + x.k by omega, show c.j + (c.k + x.k) = x.j + x.k by omega]
        exact g6
    · split
      · rename_i hz
        obtain ⟨e1, e2⟩ := h4 hz
        simp only [hz, e1, e2, Nat.add_zero] at g1 g2 g3
        exact collapse_tiled l x _ _ g1 g2 g3 (by omega) g5 g6
      · exact ⟨h1, h2, h3, by omega, h5, collapse_tiled l x _ _ g1 g2 g3 (by omega) g5 g6⟩

/-- The blocks without the sentinel. -/
def found (eq : α → α → Bool) (a b : List α) : List Match :=
  collapse ⟨0, 0, 0⟩ (blocksIn eq a b (a.length + 1) 0 a.length 0 b.length)

theorem found_tiled : Tiled eq a b a.length b.length 0 0 (found eq a b) := by
  refine collapse_tiled _ ⟨0, 0, 0⟩ 0 0 (Nat.le_refl _) (Nat.le_refl _) (fun h => absurd h (Nat.lt_irrefl _)) (fun _ => ⟨rfl, rfl⟩)
    (fun t ht => by simp at ht) ?_
  exact blocksIn_tiled _ _ _ _ _ (by simp) (by simp) (by omega)

theorem matches_total : matches_ eq a b = total (found eq a b) := by
  simp [matches_, blocks, total, found]

theorem tiled_total {ahi bhi : Nat} : ∀ (l : List Match) (alo blo : Nat), Tiled eq a b ahi bhi alo blo l →
    alo + total l ≤ ahi ∧ blo + total l ≤ bhi
  | [], alo, blo, h => by simpa [total] using ⟨h.1, h.2.1⟩
  | m :: l, alo, blo, h => by
    obtain ⟨h1, h2, h3, h4, h5, h6⟩ := h
    have := tiled_total l _ _ h6
    simp only [total, List.map_cons, List.sum_cons] at this ⊢
    omega

theorem tiled_full {ahi bhi : Nat} : ∀ (l : List Match) (alo blo : Nat), Tiled eq a b ahi bhi alo blo l →
    alo + total l = ahi → blo + total l = bhi → ∀ t, t < total l → same eq a b (alo + t) (blo + t) = true
  | [], alo, blo, _, _, _, t, ht => by simp [total] at ht
  | m :: l, alo, blo, h, e1, e2, t, ht => by
    obtain ⟨h1, h2, h3, h4, h5, h6⟩ := h
    have hb := tiled_total l _ _ h6
    have hf := tiled_full l _ _ h6
    simp only [total, List.map_cons, List.sum_cons] at e1 e2 ht hb hf
    have a1 : m.i = alo := by omega
    have a2 : m.j = blo := by omega
    rw [a1, a2] at h5 hf
    by_cases htm : t < m.k
    · exact h5 t htm
    · have := hf (by omega) (by omega) (t - m.k) (by omega)
      rw [show alo + t = alo + m.k + (t - m.k) by omega, show blo + t = blo + m.k + (t - m.k) by omega]
      exact this

/-! ## A common start of all of one of them -/

theorem scanRow_diag (p : Nat → Nat) (i : Nat) : ∀ (js : List Nat) (new : Nat → Nat) (best : Match), js.Pairwise (· < ·) →
    best.i = best.j → (∀ j ∈ js, j < i → before p j + 1 ≤ best.k) →
    (∀ j ∈ js, i < j → before p j + 1 ≤ best.k ∨ (i ∈ js ∧ before p j ≤ before p i)) →
    (scanRow p i js new best).2.i = (scanRow p i js new best).2.j
  | [], new, best, _, hd, _, _ => by simpa [scanRow] using hd
  | j :: js, new, best, hs, hd, h1, h2 => by
    simp only [scanRow]
    obtain ⟨hs1, hs2⟩ := List.pairwise_cons.1 hs
    rcases Nat.lt_trichotomy j i with hj | hj | hj
    · have := h1 j (by simp) hj
      rw [if_neg (by omega)]
      apply scanRow_diag p i js _ _ hs2 hd (fun x hx => h1 x (by simp [hx]))
      intro x hx hix
      rcases h2 x (by simp [hx]) hix with h | ⟨h, h'⟩
      · exact Or.inl h
      · rcases List.mem_cons.1 h with h | h
        · omega
        · exact Or.inr ⟨h, h'⟩
    · subst hj
      apply scanRow_diag p j js _ _ hs2
      · split
        · rfl
        · exact hd
      · intro x hx hxj
        have := hs1 x hx
        omega
      · intro x hx hix
        left
        rcases h2 x (by simp [hx]) hix with h | ⟨_, h⟩
        · split
          · simp only; omega
          · exact h
        · split
          · simp only; omega
          · omega
    · have : before p j + 1 ≤ best.k := by
        rcases h2 j (by simp) hj with h | ⟨h, _⟩
        · exact h
        · rcases List.mem_cons.1 h with h | h
          · omega
          · have := hs1 i h
            omega
      rw [if_neg (by omega)]
      apply scanRow_diag p i js _ _ hs2 hd (fun x hx => h1 x (by simp [hx]))
      intro x hx hix
      rcases h2 x (by simp [hx]) hix with h | ⟨h, h'⟩
      · exact Or.inl h
      · rcases List.mem_cons.1 h with h | h
        · omega
        · exact Or.inr ⟨h, h'⟩

/-- `a` and `b` agree as far as both go. -/
def Common (eq : α → α → Bool) (a b : List α) : Prop := ∀ t, t < a.length → t < b.length → same eq a b t t = true

theorem before_le {p q : Nat → Nat} {j i : Nat} (h : j ≠ 0 → i ≠ 0 ∧ p (j - 1) ≤ q (i - 1)) : before p j ≤ before q i := by
  unfold before
  split
  · omega
  · rename_i hj
    obtain ⟨h1, h2⟩ := h hj
    rw [if_neg h1]; exact h2

theorem run_le_right (hc : Common eq a b) : ∀ (n j : Nat), n < b.length →
    run eq a b 0 0 b.length (n + 1) j ≤ run eq a b 0 0 b.length (n + 1) n
  | n, j, hb => by
    rw [run, run]
    by_cases hh : hit eq a b 0 b.length (0 + n) j = true
    · have hr := hit_true.1 hh
      rw [Nat.zero_add] at hr
      have hn : hit eq a b 0 b.length (0 + n) n = true :=
        hit_true.2 (by rw [Nat.zero_add]; exact ⟨hr.1, hc n (same_lt hr.2.1).1 hb, by omega, hb⟩)
      rw [if_pos hh, if_pos hn]
      apply Nat.succ_le_succ
      cases n with
      | zero =>
        unfold before
        split <;> simp [run]
      | succ n =>
        apply before_le
        intro _
        exact ⟨by omega, run_le_right hc n (j - 1) (by omega)⟩
    · rw [if_neg hh]; omega

theorem run_le_diag (hp : Per eq) (hc : Common eq a b) : ∀ (j n : Nat), j < n →
    run eq a b 0 0 b.length (n + 1) j ≤ run eq a b 0 0 b.length (j + 1) j
  | j, n, hjn => by
    rw [run, run]
    by_cases hh : hit eq a b 0 b.length (0 + n) j = true
    · have hr := hit_true.1 hh
      rw [Nat.zero_add] at hr
      obtain ⟨hrare, hsame, _, hjb⟩ := hr
      have hna := (same_lt hsame).1
      have hjj := hc j (by omega) hjb
      obtain ⟨x, y, hx, hy, hxy⟩ := same_true.1 hsame
      obtain ⟨z, y', hz, hy', hzy⟩ := same_true.1 hjj
      rw [hy] at hy'
      cases hy'
      have hxz : eq x z = true := hp.trans x y z hxy (hp.symm z y hzy)
      have hrj : rare eq a b j = true := by
        simp only [rare, hx] at hrare
        simp only [rare, hz]
        rw [← popular_congr hp hxz]; exact hrare
      have hn : hit eq a b 0 b.length (0 + j) j = true :=
        hit_true.2 (by rw [Nat.zero_add]; exact ⟨hrj, hjj, by omega, hjb⟩)
      rw [if_pos hh, if_pos hn]
      apply Nat.succ_le_succ
      apply before_le
      intro hj
      refine ⟨hj, ?_⟩
      cases j with
      | zero => exact absurd rfl hj
      | succ j =>
        cases n with
        | zero => omega
        | succ n => exact run_le_diag hp hc j n (by omega)
    · rw [if_neg hh]; omega

theorem scan_diag (hp : Per eq) (hc : Common eq a b) : ∀ (m n : Nat) (best : Match), best.i = best.j →
    (∀ n' j, n' ≤ n → run eq a b 0 0 b.length n' j ≤ best.k) →
    (scan eq a b 0 b.length m n (run eq a b 0 0 b.length n) best).i = (scan eq a b 0 b.length m n (run eq a b 0 0 b.length n) best).j
  | 0, n, best, hd, _ => by simpa [scan] using hd
  | m + 1, n, best, hd, hm => by
    simp only [scan]
    have hrun := scanRow_run (eq := eq) (a := a) (b := b) 0 0 b.length n best
    rw [Nat.zero_add] at hrun
    have hval : ∀ j, j ∈ places eq a b 0 b.length n →
        run eq a b 0 0 b.length (n + 1) j = before (run eq a b 0 0 b.length n) j + 1 := by
      intro j hj
      simp only [run, Nat.zero_add, if_pos (mem_places.1 hj)]
    rw [hrun]
    apply scan_diag hp hc m (n + 1)
    · apply scanRow_diag _ _ _ _ _ (places_sorted _ _ _) hd
      · intro j hj hjn
        rw [← hval j hj]
        exact Nat.le_trans (run_le_diag hp hc j n hjn) (hm (j + 1) j (by omega))
      · intro j hj hjn
        right
        have hr := hit_true.1 (mem_places.1 hj)
        have hl := same_lt hr.2.1
        have hn : n ∈ places eq a b 0 b.length n :=
          mem_places.2 (hit_true.2 ⟨hr.1, hc n hl.1 (by omega), by omega, by omega⟩)
        refine ⟨hn, ?_⟩
        have := run_le_right hc n j (by omega)
        rw [hval j hj, hval n hn] at this
        omega
    · intro n' j hn'
      have hmx := scanRow_max (run eq a b 0 0 b.length n) n (places eq a b 0 b.length n) (fun _ => 0) best
      by_cases hq : n' ≤ n
      · exact Nat.le_trans (hm n' j hq) hmx.1
      · have : n' = n + 1 := by omega
        subst this
        by_cases hj : j ∈ places eq a b 0 b.length n
        · rw [hval j hj]; exact hmx.2 j hj
        · have : run eq a b 0 0 b.length (n + 1) j = 0 := by
            simp only [run, Nat.zero_add]
            rw [if_neg (fun h => hj (mem_places.2 h))]
          omega

theorem extendLeft_diag (hc : Common eq a b) : ∀ (d k : Nat), d ≤ a.length → d ≤ b.length →
    extendLeft eq a b 0 0 d ⟨d, d, k⟩ = ⟨0, 0, k + d⟩
  | 0, k, _, _ => rfl
  | d + 1, k, h1, h2 => by
    simp only [extendLeft]
    rw [if_pos ⟨by omega, by omega, by simpa using hc d (by omega) (by omega)⟩]
    simp only [Nat.add_sub_cancel]
    rw [extendLeft_diag hc d (k + 1) (by omega) (by omega)]
    congr 1
    omega

theorem extendRight_diag (hc : Common eq a b) : ∀ (f k : Nat), k ≤ min a.length b.length → min a.length b.length ≤ k + f →
    extendRight eq a b a.length b.length f ⟨0, 0, k⟩ = ⟨0, 0, min a.length b.length⟩
  | 0, k, h1, h2 => by
    simp only [extendRight]
    congr 1
    omega
  | f + 1, k, h1, h2 => by
    simp only [extendRight, Nat.zero_add]
    by_cases hk : k < a.length ∧ k < b.length
    · rw [if_pos ⟨hk.1, hk.2, hc k hk.1 hk.2⟩]
      exact extendRight_diag hc f (k + 1) (by omega) (by omega)
    · rw [if_neg (fun h => hk ⟨h.1, h.2.1⟩)]
      congr 1
      omega

theorem findLongest_common (hp : Per eq) (hc : Common eq a b) :
    findLongest eq a b 0 a.length 0 b.length = ⟨0, 0, min a.length b.length⟩ := by
  have hd := scan_diag hp hc (a.length - 0) 0 ⟨0, 0, 0⟩ rfl (by
    intro n' j hn
    have : n' = 0 := by omega
    subst this
    simp [run])
  have hs := scan_sound (eq := eq) (a := a) (b := b) 0 a.length 0 b.length (a.length - 0) 0 ⟨0, 0, 0⟩ (by omega)
    ⟨by simp, by simp, by simp, by simp, fun t ht => by simp at ht⟩
  rw [Nat.add_zero] at hs
  have hrun : run eq a b 0 0 b.length 0 = fun _ => 0 := by funext j; rfl
  rw [hrun] at hd hs
  unfold findLongest
  simp only
  generalize scan eq a b 0 b.length (a.length - 0) 0 (fun _ => 0) ⟨0, 0, 0⟩ = m at *
  obtain ⟨i, j, k⟩ := m
  simp only at hd
  subst hd
  have h3 := hs.ihi
  have h4 := hs.jhi
  simp only at h3 h4
  rw [extendLeft_diag hc i k (by omega) (by omega)]
  exact extendRight_diag hc _ _ (by omega) (by omega)

theorem found_common (hp : Per eq) (hc : Common eq a b) :
    found eq a b = if min a.length b.length = 0 then [] else [⟨0, 0, min a.length b.length⟩] := by
  unfold found
  simp only [blocksIn]
  rw [findLongest_common hp hc]
  by_cases hz : min a.length b.length = 0
  · simp [hz, collapse]
  · simp only [hz, if_false, Nat.lt_irrefl, false_and, List.nil_append, Nat.zero_add]
    rw [if_neg (by omega)]
    simp [collapse, hz]

/-! ## The verdict -/

theorem matches_le : matches_ eq a b ≤ a.length ∧ matches_ eq a b ≤ b.length := by
  rw [matches_total]
  have := tiled_total _ _ _ (found_tiled (eq := eq) (a := a) (b := b))
  omega

theorem ratio_one_iff : ratio eq a b = 1 ↔ 2 * matches_ eq a b = a.length + b.length := by
  unfold ratio
  by_cases h : a.length + b.length = 0
  · rw [if_pos h]
    have := matches_le (eq := eq) (a := a) (b := b)
    exact ⟨fun _ => by omega, fun _ => rfl⟩
  · rw [if_neg h]
    have h0 : ((a.length + b.length : Nat) : Rat) ≠ 0 := by exact_mod_cast h
    rw [div_eq_one_iff_eq h0]
    exact_mod_cast Iff.rfl

theorem ratio_le_one : 0 ≤ ratio eq a b ∧ ratio eq a b ≤ 1 := by
  unfold ratio
  by_cases h : a.length + b.length = 0
  · rw [if_pos h]; exact ⟨by decide, Rat.le_refl⟩
  · rw [if_neg h]
    have h0 : (0 : Rat) < ((a.length + b.length : Nat) : Rat) := by exact_mod_cast Nat.pos_of_ne_zero h
    have := matches_le (eq := eq) (a := a) (b := b)
    refine ⟨div_nonneg (by exact_mod_cast Nat.zero_le _) (le_of_lt h0), ?_⟩
    rw [div_le_one h0]
    have hle : 2 * matches_ eq a b ≤ a.length + b.length := by omega
    exact_mod_cast hle

theorem ratio_one (hp : Per eq) : ratio eq a b = 1 ↔ a.length = b.length ∧ Common eq a b := by
  rw [ratio_one_iff]
  constructor
  · intro h
    have hl := matches_le (eq := eq) (a := a) (b := b)
    refine ⟨by omega, ?_⟩
    intro t h1 h2
    rw [matches_total] at h hl
    have := tiled_full _ _ _ (found_tiled (eq := eq) (a := a) (b := b)) (by omega) (by omega) t (by omega)
    simpa using this
  · rintro ⟨hl, hc⟩
    rw [matches_total, found_common hp hc]
    split
    · simp [total]; omega
    · simp [total]; omega

end Verif.Compare.Matcher

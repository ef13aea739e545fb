import Verif.Numpy.Samples

/-!
# Lemmas on slices and arrays
-/

namespace Verif.Numpy

section
variable {α : Type}

theorem ext_getD (d : α) {l m : List α} (hl : l.length = m.length) (h : ∀ i, i < l.length → l.getD i d = m.getD i d) : l = m := by
  apply List.ext_getElem hl
  intro i h1 h2
  have := h i h1
  rw [List.getD_eq_getElem?_getD, List.getD_eq_getElem?_getD, List.getElem?_eq_getElem h1, List.getElem?_eq_getElem h2] at this
  exact this

theorem getD_map_range (d : α) (f : Nat → α) (n i : Nat) (h : i < n) : ((List.range n).map f).getD i d = f i := by
  rw [List.getD_eq_getElem?_getD, List.getElem?_map, List.getElem?_range h]; rfl

theorem getD_map {β : Type} (d : α) (e : β) (f : α → β) (l : List α) (i : Nat) (h : i < l.length) :
    (l.map f).getD i e = f (l.getD i d) := by
  rw [List.getD_eq_getElem?_getD, List.getD_eq_getElem?_getD, List.getElem?_map, List.getElem?_eq_getElem h]; rfl

theorem getD_replicate (d x : α) (n i : Nat) (h : i < n) : (List.replicate n x).getD i d = x := by
  rw [List.getD_eq_getElem?_getD, List.getElem?_replicate, if_pos h]; rfl

theorem getD_mem (d : α) (l : List α) (i : Nat) (h : i < l.length) : l.getD i d ∈ l := by
  rw [List.getD_eq_getElem?_getD, List.getElem?_eq_getElem h]; exact List.getElem_mem h

theorem getD_take (d : α) (l : List α) (k i : Nat) (h : i < k) : (l.take k).getD i d = l.getD i d := by
  rw [List.getD_eq_getElem?_getD, List.getD_eq_getElem?_getD, List.getElem?_take, if_pos h]

theorem slice_length (s k : Nat) (d : α) (l : List α) : (slice s k d l).length = sliceLen s k l.length := by
  simp [slice]

theorem slice_getD (s k : Nat) (d : α) (l : List α) (j : Nat) (h : j < sliceLen s k l.length) :
    (slice s k d l).getD j d = l.getD (s + k * j) d := getD_map_range d _ _ j h

theorem sliceLen_lt {s k n j : Nat} (hk : 0 < k) (hj : j < sliceLen s k n) : s + k * j < n := by
  unfold sliceLen at hj
  rw [Nat.lt_iff_add_one_le, Nat.le_div_iff_mul_le hk, Nat.add_mul, Nat.mul_comm] at hj
  omega

theorem slice_all (s k : Nat) (hk : 0 < k) (d : α) (l : List α) (Q : α → Prop) (h : ∀ x ∈ l, Q x) : ∀ x ∈ slice s k d l, Q x := by
  intro x hx
  unfold slice at hx
  obtain ⟨j, hj, rfl⟩ := List.mem_map.1 hx
  exact h _ (getD_mem d l _ (sliceLen_lt hk (List.mem_range.1 hj)))

/-- What `l[s::k][0:cnt] = src` leaves at index `i`. -/
def put (s k : Nat) (d : α) (src : List α) (old : α) (i : Nat) : α :=
  if s ≤ i ∧ (i - s) % k = 0 ∧ (i - s) / k < src.length then src.getD ((i - s) / k) d else old

theorem assignSlice_some {s k cnt : Nat} {d : α} {src l : List α} (h : src.length = min cnt (sliceLen s k l.length)) :
    ∃ r, assignSlice s k cnt d src l = some r ∧ r.length = l.length ∧
      (∀ i, i < l.length → r.getD i d = put s k d src (l.getD i d) i) ∧
      ∀ Q : α → Prop, (∀ x ∈ src, Q x) → (∀ x ∈ l, Q x) → ∀ x ∈ r, Q x := by
  refine ⟨_, by unfold assignSlice; rw [if_pos h], by simp, ?_, ?_⟩
  · intro i hi
    rw [getD_map_range d _ _ i hi]
    rfl
  · intro Q h1 h2 x hx
    obtain ⟨i, hi, rfl⟩ := List.mem_map.1 hx
    rw [List.mem_range] at hi
    by_cases hc : s ≤ i ∧ (i - s) % k = 0 ∧ (i - s) / k < src.length
    · rw [if_pos hc]; exact h1 _ (getD_mem d _ _ hc.2.2)
    · rw [if_neg hc]; exact h2 _ (getD_mem d _ _ hi)

theorem assign3_some {l : Plane} {a b c : Nat × Nat × Nat × Plane} (ha : a.2.2.2.length = min a.2.2.1 (sliceLen a.1 a.2.1 l.length))
    (hb : b.2.2.2.length = min b.2.2.1 (sliceLen b.1 b.2.1 l.length)) (hc : c.2.2.2.length = min c.2.2.1 (sliceLen c.1 c.2.1 l.length)) :
    ∃ r, assign3 l a b c = some r ∧ r.length = l.length ∧
      (∀ i, i < l.length → r.getD i [] =
        put c.1 c.2.1 [] c.2.2.2 (put b.1 b.2.1 [] b.2.2.2 (put a.1 a.2.1 [] a.2.2.2 (l.getD i []) i) i) i) ∧
      ∀ Q : List Nat → Prop, (∀ x ∈ a.2.2.2, Q x) → (∀ x ∈ b.2.2.2, Q x) → (∀ x ∈ c.2.2.2, Q x) → (∀ x ∈ l, Q x) → ∀ x ∈ r, Q x := by
  obtain ⟨r1, e1, l1, g1, q1⟩ := assignSlice_some (d := ([] : List Nat)) ha
  rw [← l1] at hb
  obtain ⟨r2, e2, l2, g2, q2⟩ := assignSlice_some (d := ([] : List Nat)) hb
  rw [← l1, ← l2] at hc
  obtain ⟨r3, e3, l3, g3, q3⟩ := assignSlice_some (d := ([] : List Nat)) hc
  refine ⟨r3, by unfold assign3; rw [e1]; simp only [Option.bind_some]; rw [e2]; exact e3, by rw [l3, l2, l1], ?_, ?_⟩
  · intro i hi
    rw [g3 i (by rw [l2, l1]; exact hi), g2 i (by rw [l1]; exact hi), g1 i hi]
  · intro Q h1 h2 h3 h4
    exact q3 Q h3 (q2 Q h2 (q1 Q h1 h4))

/-- Each element twice. -/
def dupList (d : α) (p : List α) : List α := (List.range (2 * p.length)).map (fun i => p.getD (i / 2) d)

theorem assign_dup (d : α) (p l : List α) (w : Nat) (hw : w = 2 * p.length) (hl : l.length = w) :
    (assignSlice 0 2 (sliceLen 0 2 w) d p l).bind (fun o => assignSlice 1 2 (sliceLen 1 2 w) d p o) = some (dupList d p) := by
  obtain ⟨r1, e1, l1, g1, _⟩ := assignSlice_some (s := 0) (k := 2) (cnt := sliceLen 0 2 w) (d := d) (src := p) (l := l)
    (by rw [hl]; unfold sliceLen; omega)
  obtain ⟨r2, e2, l2, g2, _⟩ := assignSlice_some (s := 1) (k := 2) (cnt := sliceLen 1 2 w) (d := d) (src := p) (l := r1)
    (by rw [l1, hl]; unfold sliceLen; omega)
  rw [e1, Option.bind_some, e2]
  congr 1
  apply ext_getD d
  · rw [l2, l1, hl]; simp [dupList, hw]
  · intro i hi
    rw [l2, l1, hl] at hi
    rw [g2 i (by omega), g1 i (by omega)]
    unfold dupList
    rw [getD_map_range d _ _ i (by omega)]
    unfold put
    by_cases h : i % 2 = 1
    · rw [if_pos (by refine ⟨?_, ?_, ?_⟩ <;> omega), show (i - 1) / 2 = i / 2 by omega]
    · rw [if_neg (by rintro ⟨h1, h2, _⟩; omega), if_pos (by refine ⟨?_, ?_, ?_⟩ <;> omega), Nat.sub_zero]

theorem dupList_length (d : α) (p : List α) : (dupList d p).length = 2 * p.length := by simp [dupList]

theorem dupList_getD (d : α) (p : List α) (i : Nat) (h : i < 2 * p.length) : (dupList d p).getD i d = p.getD (i / 2) d :=
  getD_map_range d _ _ i h

theorem slice_dup (d : α) (p : List α) (s : Nat) (hs : s < 2) : slice s 2 d (dupList d p) = p := by
  apply ext_getD d
  · rw [slice_length, dupList_length]; unfold sliceLen; omega
  · intro j hj
    rw [slice_length] at hj
    rw [slice_getD s 2 d _ j hj]
    have := sliceLen_lt (by omega) hj
    rw [dupList_length] at this
    rw [dupList_getD d p _ this, show (s + 2 * j) / 2 = j by omega]

theorem dupList_all (d : α) (p : List α) (Q : α → Prop) (h : ∀ x ∈ p, Q x) : ∀ x ∈ dupList d p, Q x := by
  intro x hx
  unfold dupList at hx
  obtain ⟨i, hi, rfl⟩ := List.mem_map.1 hx
  rw [List.mem_range] at hi
  exact h _ (getD_mem d p _ (by omega))

end

/-! ## Planes -/

/-- `w` columns of `h` numbers of `bits` bits. -/
def Good (bits w h : Nat) (p : Plane) : Prop := p.length = w ∧ ∀ c ∈ p, c.length = h ∧ ∀ v ∈ c, v < 2 ^ bits

theorem hasShape_iff (w h : Nat) (p : Plane) : hasShape w h p = true ↔ p.length = w ∧ ∀ c ∈ p, c.length = h := by
  simp [hasShape]

theorem Good.shape {bits w h : Nat} {p : Plane} (hp : Good bits w h p) : hasShape w h p = true :=
  (hasShape_iff w h p).2 ⟨hp.1, fun c hc => (hp.2 c hc).1⟩

theorem map_wrap_id (bits : Nat) (c : List Nat) (h : ∀ v ∈ c, v < 2 ^ bits) : c.map (wrap bits) = c := by
  conv => rhs; rw [← List.map_id c]
  apply List.map_congr_left
  intro v hv
  exact Nat.mod_eq_of_lt (h v hv)

theorem plane_wrap_id (bits w h : Nat) (p : Plane) (hp : Good bits w h p) : p.map (fun c => c.map (wrap bits)) = p := by
  conv => rhs; rw [← List.map_id p]
  apply List.map_congr_left
  intro c hc
  exact map_wrap_id bits c (hp.2 c hc).2

theorem assign_good {bits w h : Nat} {p : Plane} (hp : Good bits w h p) : assign bits w h p = some p := by
  unfold assign
  rw [if_pos hp.shape, plane_wrap_id bits w h p hp]

/-- Assigning an array of the right shape always gives numbers of the right size. -/
theorem assign_shape {bits w h : Nat} {p : Plane} (hp : hasShape w h p = true) :
    ∃ q, assign bits w h p = some q ∧ Good bits w h q := by
  refine ⟨_, by unfold assign; rw [if_pos hp], ?_⟩
  rw [hasShape_iff] at hp
  refine ⟨by simp [hp.1], ?_⟩
  intro c hc
  obtain ⟨c', hc', rfl⟩ := List.mem_map.1 hc
  refine ⟨by rw [List.length_map]; exact hp.2 c' hc', ?_⟩
  intro v hv
  obtain ⟨v', _, rfl⟩ := List.mem_map.1 hv
  exact Nat.mod_lt _ (Nat.two_pow_pos bits)

end Verif.Numpy

import Verif.Numpy.Lemmas

/-!
# Arrays made by the conversions
-/

namespace Verif.Numpy

/-- `p[x, y]` -/
def sample (p : Plane) (x y : Nat) : Nat := (p.getD x []).getD y 0

theorem good_sample {bits w h : Nat} {p : Plane} (hp : Good bits w h p) {x y : Nat} (hx : x < w) (hy : y < h) : sample p x y < 2 ^ bits := by
  have hc := getD_mem [] p x (by rw [hp.1]; exact hx)
  exact (hp.2 _ hc).2 _ (getD_mem 0 _ y (by rw [(hp.2 _ hc).1]; exact hy))

theorem plane_ext {w h : Nat} {p q : Plane} (hp : hasShape w h p = true) (hq : hasShape w h q = true)
    (hs : ∀ x y, x < w → y < h → sample p x y = sample q x y) : p = q := by
  rw [hasShape_iff] at hp hq
  apply ext_getD []
  · rw [hp.1, hq.1]
  · intro x hx
    have hpx := hp.2 _ (getD_mem [] p x hx)
    have hqx := hq.2 _ (getD_mem [] q x (by omega))
    apply ext_getD 0
    · rw [hpx, hqx]
    · intro y hy
      exact hs x y (by omega) (by omega)

theorem good_of_sample {bits w h : Nat} {p : Plane} (hp : hasShape w h p = true)
    (hs : ∀ x y, x < w → y < h → sample p x y < 2 ^ bits) : Good bits w h p := by
  rw [hasShape_iff] at hp
  refine ⟨hp.1, fun c hc => ⟨hp.2 c hc, fun v hv => ?_⟩⟩
  obtain ⟨x, hx, rfl⟩ := List.getElem_of_mem hc
  obtain ⟨y, hy, rfl⟩ := List.getElem_of_mem hv
  have hcl := hp.2 _ hc
  have := hs x y (by omega) (by omega)
  unfold sample at this
  rw [List.getD_eq_getElem?_getD, List.getD_eq_getElem?_getD, List.getElem?_eq_getElem hx, Option.getD_some,
    List.getElem?_eq_getElem hy, Option.getD_some] at this
  exact this

theorem mapPlane_shape {w h : Nat} (f : Nat → Nat) {p : Plane} (hp : hasShape w h p = true) : hasShape w h (mapPlane f p) = true := by
  rw [hasShape_iff] at hp ⊢
  refine ⟨by simp [mapPlane, hp.1], ?_⟩
  intro c hc
  obtain ⟨c', hc', rfl⟩ := List.mem_map.1 hc
  rw [List.length_map]; exact hp.2 c' hc'

theorem mapPlane_sample {w h : Nat} (f : Nat → Nat) {p : Plane} (hp : hasShape w h p = true) {x y : Nat} (hx : x < w) (hy : y < h) :
    sample (mapPlane f p) x y = f (sample p x y) := by
  rw [hasShape_iff] at hp
  have hx' : x < p.length := by rw [hp.1]; exact hx
  unfold sample mapPlane
  rw [getD_map [] [] _ p x hx', getD_map 0 0 f _ y (by rw [hp.2 _ (getD_mem [] p x hx')]; exact hy)]

theorem mapPlaneIdx_shape {w h : Nat} (f : Nat → Nat → Nat → Nat) {p : Plane} (hp : hasShape w h p = true) :
    hasShape w h (mapPlaneIdx f p) = true := by
  rw [hasShape_iff] at hp ⊢
  refine ⟨by simp [mapPlaneIdx, hp.1], ?_⟩
  intro c hc
  obtain ⟨c', hc', rfl⟩ := List.mem_map.1 hc
  rw [List.length_map, List.length_zipIdx]
  have := List.mem_zipIdx hc'
  rw [this.2.2]
  exact hp.2 _ (List.getElem_mem _)

theorem getD_zipIdx_map {α β : Type} (d : α) (e : β) (g : α × Nat → β) (l : List α) (i : Nat) (h : i < l.length) :
    (l.zipIdx.map g).getD i e = g (l.getD i d, i) := by
  rw [List.getD_eq_getElem?_getD, List.getD_eq_getElem?_getD, List.getElem?_map, List.getElem?_zipIdx, List.getElem?_eq_getElem h]
  simp

theorem mapPlaneIdx_sample {w h : Nat} (f : Nat → Nat → Nat → Nat) {p : Plane} (hp : hasShape w h p = true) {x y : Nat} (hx : x < w)
    (hy : y < h) : sample (mapPlaneIdx f p) x y = f x y (sample p x y) := by
  rw [hasShape_iff] at hp
  have hx' : x < p.length := by rw [hp.1]; exact hx
  unfold sample mapPlaneIdx
  rw [getD_zipIdx_map [] [] _ p x hx']
  exact getD_zipIdx_map 0 0 _ _ y (by rw [hp.2 _ (getD_mem [] p x hx')]; exact hy)

theorem assign_some {bits w h : Nat} {p : Plane} (hp : hasShape w h p = true) : assign bits w h p = some (mapPlane (wrap bits) p) := by
  unfold assign mapPlane; rw [if_pos hp]

theorem mapPlane_wrap_good {w h : Nat} (bits : Nat) {p : Plane} (hp : hasShape w h p = true) : Good bits w h (mapPlane (wrap bits) p) := by
  obtain ⟨q, e, g⟩ := assign_shape (bits := bits) hp
  rw [assign_some hp] at e
  rw [Option.some.inj e]; exact g

theorem zipPlanes_some (f : Nat → Nat → Nat) {w h : Nat} {p q : Plane} (hp : hasShape w h p = true) (hq : hasShape w h q = true) :
    ∃ r, zipPlanes f p q = some r ∧ hasShape w h r = true ∧ ∀ x y, x < w → y < h → sample r x y = f (sample p x y) (sample q x y) := by
  rw [hasShape_iff] at hp hq
  refine ⟨_, by
    unfold zipPlanes
    rw [if_pos]
    refine ⟨by rw [hp.1, hq.1], ?_⟩
    rw [List.all_eq_true]
    intro x hx
    have := List.of_mem_zip hx
    rw [hp.2 _ this.1, hq.2 _ this.2, beq_self_eq_true], ?_, ?_⟩
  · rw [hasShape_iff]
    refine ⟨by simp [hp.1, hq.1], ?_⟩
    intro c hc
    obtain ⟨i, hi, rfl⟩ := List.getElem_of_mem hc
    rw [List.getElem_zipWith, List.length_zipWith, hp.2 _ (List.getElem_mem _), hq.2 _ (List.getElem_mem _), Nat.min_self]
  · intro x y hx hy
    have hx1 : x < p.length := by rw [hp.1]; exact hx
    have hx2 : x < q.length := by rw [hq.1]; exact hx
    have hy1 : y < p[x].length := by rw [hp.2 _ (List.getElem_mem _)]; exact hy
    have hy2 : y < q[x].length := by rw [hq.2 _ (List.getElem_mem _)]; exact hy
    unfold sample
    simp only [List.getD_eq_getElem?_getD, List.getElem?_zipWith, List.getElem?_eq_getElem hx1, List.getElem?_eq_getElem hx2, Option.getD_some,
      List.getElem?_eq_getElem hy1, List.getElem?_eq_getElem hy2]

theorem slice_shape {w h s k : Nat} (hk : 0 < k) {p : Plane} (hp : hasShape w h p = true) :
    hasShape (sliceLen s k w) h (slice s k [] p) = true := by
  rw [hasShape_iff] at hp ⊢
  exact ⟨by rw [slice_length, hp.1], slice_all s k hk [] p (fun c => c.length = h) hp.2⟩

theorem slice_sample {w h s k : Nat} {p : Plane} (hp : hasShape w h p = true) {x y : Nat} (hx : x < sliceLen s k w) :
    sample (slice s k [] p) x y = sample p (s + k * x) y := by
  rw [hasShape_iff] at hp
  unfold sample
  rw [slice_getD s k [] p x (by rw [hp.1]; exact hx)]

theorem sliceRows_shape {w h s k : Nat} {p : Plane} (hp : hasShape w h p = true) :
    hasShape w (sliceLen s k h) (p.map (slice s k 0)) = true := by
  rw [hasShape_iff] at hp ⊢
  refine ⟨by rw [List.length_map, hp.1], ?_⟩
  intro c hc
  obtain ⟨c', hc', rfl⟩ := List.mem_map.1 hc
  rw [slice_length, hp.2 c' hc']

theorem sliceRows_sample {w h s k : Nat} {p : Plane} (hp : hasShape w h p = true) {x y : Nat} (hx : x < w) (hy : y < sliceLen s k h) :
    sample (p.map (slice s k 0)) x y = sample p x (s + k * y) := by
  rw [hasShape_iff] at hp
  have hx' : x < p.length := by rw [hp.1]; exact hx
  unfold sample
  rw [getD_map [] [] _ p x hx', slice_getD s k 0 _ y (by rw [hp.2 _ (getD_mem [] p x hx')]; exact hy)]

/-- The mean of pairs of columns of an array of even width. -/
theorem meanColumns_some (bits : Nat) {w h : Nat} {p : Plane} (hp : hasShape (2 * w) h p = true) :
    ∃ r, meanColumns bits p = some r ∧ hasShape w h r = true ∧
      ∀ x y, x < w → y < h → sample r x y = mean bits (sample p (2 * x) y) (sample p (2 * x + 1) y) := by
  have e0 : sliceLen 0 2 (2 * w) = w := by unfold sliceLen; omega
  have e1 : sliceLen 1 2 (2 * w) = w := by unfold sliceLen; omega
  have h0 := slice_shape (s := 0) (k := 2) (by omega) hp
  have h1 := slice_shape (s := 1) (k := 2) (by omega) hp
  rw [e0] at h0
  rw [e1] at h1
  obtain ⟨r, er, sr, vr⟩ := zipPlanes_some (mean bits) h0 h1
  refine ⟨r, er, sr, ?_⟩
  intro x y hx hy
  rw [vr x y hx hy, slice_sample hp (by rw [e0]; exact hx), slice_sample hp (by rw [e1]; exact hx), Nat.zero_add, Nat.add_comm 1]

/-- The mean of pairs of rows of an array of even height. -/
theorem meanRows_some (bits : Nat) {w h : Nat} {p : Plane} (hp : hasShape w (2 * h) p = true) :
    ∃ r, meanRows bits p = some r ∧ hasShape w h r = true ∧
      ∀ x y, x < w → y < h → sample r x y = mean bits (sample p x (2 * y)) (sample p x (2 * y + 1)) := by
  have e0 : sliceLen 0 2 (2 * h) = h := by unfold sliceLen; omega
  have e1 : sliceLen 1 2 (2 * h) = h := by unfold sliceLen; omega
  have h0 := sliceRows_shape (s := 0) (k := 2) hp
  have h1 := sliceRows_shape (s := 1) (k := 2) hp
  rw [e0] at h0
  rw [e1] at h1
  obtain ⟨r, er, sr, vr⟩ := zipPlanes_some (mean bits) h0 h1
  refine ⟨r, er, sr, ?_⟩
  intro x y hx hy
  rw [vr x y hx hy, sliceRows_sample hp hx (by rw [e0]; exact hy), sliceRows_sample hp hx (by rw [e1]; exact hy), Nat.zero_add, Nat.add_comm 1]

/-- Doubling the columns. -/
theorem dupColumns_some (bits : Nat) {w h : Nat} {p : Plane} (hp : hasShape w h p = true) :
    ∃ r, dupColumns bits (2 * w) h p = some r ∧ Good bits (2 * w) h r ∧
      ∀ x y, x < 2 * w → y < h → sample r x y = wrap bits (sample p (x / 2) y) := by
  have hp' := (hasShape_iff w h p).1 hp
  have hd : hasShape (2 * w) h (dupList [] p) = true := by
    rw [hasShape_iff]
    exact ⟨by rw [dupList_length, hp'.1], dupList_all [] p (fun c => c.length = h) hp'.2⟩
  refine ⟨mapPlane (wrap bits) (dupList [] p), ?_, mapPlane_wrap_good bits hd, ?_⟩
  · unfold dupColumns
    rw [if_pos (by rw [List.all_eq_true]; intro c hc; rw [beq_iff_eq]; exact hp'.2 c hc),
      assign_dup [] p _ (2 * w) (by rw [hp'.1]) (by simp)]
    rfl
  · intro x y hx hy
    rw [mapPlane_sample (wrap bits) hd hx hy]
    unfold sample
    rw [dupList_getD [] p x (by rw [hp'.1]; exact hx)]

theorem mapM_some {α β : Type} (f : α → Option β) (g : α → β) (l : List α) (h : ∀ x ∈ l, f x = some (g x)) : l.mapM f = some (l.map g) := by
  induction l with
  | nil => rfl
  | cons a l ih =>
    rw [List.mapM_cons, h a (by simp), ih (fun x hx => h x (by simp [hx]))]
    rfl

/-- Doubling the rows. -/
theorem dupRows_some (bits : Nat) {w h : Nat} {p : Plane} (hp : hasShape w h p = true) :
    ∃ r, dupRows bits w (2 * h) p = some r ∧ Good bits w (2 * h) r ∧
      ∀ x y, x < w → y < 2 * h → sample r x y = wrap bits (sample p x (y / 2)) := by
  have hp' := (hasShape_iff w h p).1 hp
  have hd : hasShape w (2 * h) (p.map (dupList 0)) = true := by
    rw [hasShape_iff]
    refine ⟨by rw [List.length_map, hp'.1], ?_⟩
    intro c hc
    obtain ⟨c', hc', rfl⟩ := List.mem_map.1 hc
    rw [dupList_length, hp'.2 c' hc']
  refine ⟨mapPlane (wrap bits) (p.map (dupList 0)), ?_, mapPlane_wrap_good bits hd, ?_⟩
  · unfold dupRows
    rw [if_pos hp'.1, mapM_some (dupColumn (2 * h)) (dupList 0) p (by
      intro c hc
      exact assign_dup 0 c _ (2 * h) (by rw [hp'.2 c hc]) (by simp))]
    rfl
  · intro x y hx hy
    rw [mapPlane_sample (wrap bits) hd hx hy]
    have hx' : x < p.length := by rw [hp'.1]; exact hx
    unfold sample
    rw [getD_map [] [] _ p x hx', dupList_getD 0 _ y (by rw [hp'.2 _ (getD_mem [] p x hx')]; exact hy)]

theorem zipPlanes3_some (f : Nat × Nat × Nat → Nat × Nat × Nat) {w h : Nat} {a b c : Plane} (ha : hasShape w h a = true)
    (hb : hasShape w h b = true) (hc : hasShape w h c = true) :
    ∃ p q r, zipPlanes3 f a b c = some (p, q, r) ∧ hasShape w h p = true ∧ hasShape w h q = true ∧ hasShape w h r = true ∧
      ∀ x y, x < w → y < h → (sample p x y, sample q x y, sample r x y) = f (sample a x y, sample b x y, sample c x y) := by
  have lens : ∀ p : Plane, hasShape w h p = true → p.map List.length = List.replicate w h := by
    intro p hp
    rw [hasShape_iff] at hp
    rw [List.eq_replicate_iff]
    refine ⟨by rw [List.length_map, hp.1], ?_⟩
    intro n hn
    obtain ⟨c', hc', rfl⟩ := List.mem_map.1 hn
    exact hp.2 c' hc'
  refine ⟨_, _, _, by unfold zipPlanes3; rw [if_pos (by rw [lens a ha, lens b hb, lens c hc]; exact ⟨rfl, rfl⟩)],
    mapPlaneIdx_shape _ ha, mapPlaneIdx_shape _ ha, mapPlaneIdx_shape _ ha, ?_⟩
  intro x y hx hy
  rw [mapPlaneIdx_sample _ ha hx hy, mapPlaneIdx_sample _ ha hx hy, mapPlaneIdx_sample _ ha hx hy]
  rfl

end Verif.Numpy

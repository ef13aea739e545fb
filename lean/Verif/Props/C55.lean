import Verif.Numpy.Arrays
import Verif.Props.C31

/-!
# C55: component arrays of numpy video grains
-/

namespace Verif.Props

open Verif Verif.Cog Verif.Numpy.Arrays

/-- `[x, y]` of component array `c` exists. -/
def Valid (views : List View) (c x y : Nat) : Prop :=
  ∃ v, views[c]? = some v ∧ x < v.width ∧ y < v.height

namespace VideoArrays

/-- The arrays address whole elements of `item` bytes, all inside the first `size` bytes, and no two of
their elements are the same. -/
def Sound (item size : Nat) (views : List View) : Prop :=
  0 < item ∧ ∃ idx : Nat → Nat → Nat → Nat,
    (∀ c v x y, views[c]? = some v → x < v.width → y < v.height →
      v.itemsize = item ∧ v.addr x y = item * idx c x y ∧ item * (idx c x y + 1) ≤ size) ∧
    ∀ c x y c' x' y', Valid views c x y → Valid views c' x' y' → idx c x y = idx c' x' y' →
      c = c' ∧ x = x' ∧ y = y'

theorem rows {R a a' y y' : Nat} (h : a < R) (h' : a' < R) (e : a + y * R = a' + y' * R) : y = y' ∧ a = a' := by
  have h1 : (a + y * R) / R = y := by
    rw [Nat.add_mul_div_right _ _ (by omega), Nat.div_eq_of_lt h, Nat.zero_add]
  have h2 : (a' + y' * R) / R = y' := by
    rw [Nat.add_mul_div_right _ _ (by omega), Nat.div_eq_of_lt h', Nat.zero_add]
  have : y = y' := by rw [← h1, ← h2, e]
  subst this
  exact ⟨rfl, by omega⟩

/-- Rows of `R` elements, in which element `x` of component `c` is the `r c x`th. -/
theorem sound_rows {item R h size : Nat} {views : List View} (hi : 0 < item) (r : Nat → Nat → Nat)
    (hsize : item * (R * h) ≤ size)
    (hv : ∀ c v, views[c]? = some v → v.itemsize = item ∧ v.height = h ∧ v.stride = item * R ∧
      ∀ x < v.width, 0 < h → v.base + x * v.step = item * r c x ∧ r c x < R)
    (hinj : ∀ c v c' v' x x', views[c]? = some v → views[c']? = some v' → x < v.width → x' < v'.width →
      r c x = r c' x' → c = c' ∧ x = x') : Sound item size views := by
  refine ⟨hi, fun c x y => r c x + y * R, ?_, ?_⟩
  · intro c v x y hc hx hy
    obtain ⟨h1, h2, h3, h4⟩ := hv c v hc
    obtain ⟨h5, h6⟩ := h4 x hx (by omega)
    refine ⟨h1, ?_, ?_⟩
    · unfold View.addr
      rw [h3, Nat.mul_add, ← h5, Nat.mul_left_comm]
      omega
    · refine Nat.le_trans (Nat.mul_le_mul_left _ ?_) hsize
      have : (y + 1) * R ≤ h * R := Nat.mul_le_mul_right _ (by omega)
      rw [Nat.add_mul, Nat.one_mul, Nat.mul_comm h R] at this
      show r c x + y * R + 1 ≤ _
      omega
  · rintro c x y c' x' y' ⟨v, hc, hx, hy⟩ ⟨v', hc', hx', hy'⟩ e
    obtain ⟨_, h2, _, h4⟩ := hv c v hc
    obtain ⟨_, h2', _, h4'⟩ := hv c' v' hc'
    obtain ⟨e1, e2⟩ := rows (h4 x hx (by omega)).2 (h4' x' hx' (by omega)).2 e
    obtain ⟨e3, e4⟩ := hinj c v c' v' x x' hc hc' hx hx' e2
    exact ⟨e3, e4, e1⟩

theorem get3 {a b c v : View} {i : Nat} (h : [a, b, c][i]? = some v) :
    (i = 0 ∧ v = a) ∨ (i = 1 ∧ v = b) ∨ (i = 2 ∧ v = c) := by
  match i, h with
  | 0, h => exact .inl ⟨rfl, by simpa using h.symm⟩
  | 1, h => exact .inr (.inl ⟨rfl, by simpa using h.symm⟩)
  | 2, h => exact .inr (.inr ⟨rfl, by simpa using h.symm⟩)

theorem sound_422 {item k0 k1 k2 w h : Nat} (hi : 0 < item) (c : Component) (hw : c.width = w) (hh : c.height = h)
    (hs : c.stride = item * (2 * w))
    (hk : (k0 = 1 ∧ k1 = 0 ∧ k2 = 2) ∨ (k0 = 0 ∧ k1 = 1 ∧ k2 = 3)) :
    Sound item (item * (2 * w * h)) (interleaved422 (2 * w * h) item k0 k1 k2 c) := by
  refine sound_rows hi (fun i x => if i = 0 then k0 + 2 * x else if i = 1 then k1 + 4 * x else k2 + 4 * x)
    (Nat.le_refl _) ?_ ?_
  · intro i v hv
    have base : ∀ k x s, 0 < h → k + s * x < 2 * w → min k (2 * w * h) * item + x * (item * s) = item * (k + s * x) := by
      intro k x s h0 hk
      have : 2 * w * 1 ≤ 2 * w * h := Nat.mul_le_mul_left _ h0
      rw [Nat.min_eq_left (by omega), Nat.mul_add]
      congr 1
      · exact Nat.mul_comm _ _
      · rw [Nat.mul_comm x, Nat.mul_assoc]
    rcases get3 hv with ⟨rfl, rfl⟩ | ⟨rfl, rfl⟩ | ⟨rfl, rfl⟩
    · refine ⟨rfl, hh, hs, fun x hx h0 => ?_⟩
      simp only [strided, hw] at hx
      have : k0 + 2 * x < 2 * w := by omega
      exact ⟨base _ _ _ h0 this, by simpa using this⟩
    · refine ⟨rfl, hh, hs, fun x hx h0 => ?_⟩
      simp only [strided, hw] at hx
      have : k1 + 4 * x < 2 * w := by omega
      exact ⟨base _ _ _ h0 this, by simpa using this⟩
    · refine ⟨rfl, hh, hs, fun x hx h0 => ?_⟩
      simp only [strided, hw] at hx
      have : k2 + 4 * x < 2 * w := by omega
      exact ⟨base _ _ _ h0 this, by simpa using this⟩
  · intro i v i' v' x x' hv hv' hx hx' e
    rcases get3 hv with ⟨rfl, rfl⟩ | ⟨rfl, rfl⟩ | ⟨rfl, rfl⟩ <;>
      rcases get3 hv' with ⟨rfl, rfl⟩ | ⟨rfl, rfl⟩ | ⟨rfl, rfl⟩ <;> simp at e <;> omega

theorem sound_444 {item k0 k1 k2 num w h : Nat} (hi : 0 < item) (c : Component) (hw : c.width = w) (hh : c.height = h)
    (hs : c.stride = item * (num * w)) (h0 : k0 < num) (h1 : k1 < num) (h2 : k2 < num) (h01 : k0 ≠ k1) (h02 : k0 ≠ k2)
    (h12 : k1 ≠ k2) :
    Sound item (item * (num * w * h)) (interleaved444 (num * w * h) item k0 k1 k2 num c) := by
  refine sound_rows hi (fun i x => (if i = 0 then k0 else if i = 1 then k1 else k2) + x * num)
    (Nat.le_refl _) ?_ ?_
  · intro i v hv
    have key : ∀ k x, 0 < h → k < num → x < w →
        min k (num * w * h) * item + x * (item * num) = item * (k + x * num) ∧ k + x * num < num * w := by
      intro k x hp hk hx
      have e1 : num * w * 1 ≤ num * w * h := Nat.mul_le_mul_left _ hp
      have e2 : (x + 1) * num ≤ w * num := Nat.mul_le_mul_right _ hx
      rw [Nat.add_mul, Nat.one_mul, Nat.mul_comm w] at e2
      rw [Nat.min_eq_left (by omega), Nat.mul_add]
      refine ⟨?_, by omega⟩
      congr 1
      · exact Nat.mul_comm _ _
      · rw [Nat.mul_left_comm]
    rcases get3 hv with ⟨rfl, rfl⟩ | ⟨rfl, rfl⟩ | ⟨rfl, rfl⟩
    · exact ⟨rfl, hh, hs, fun x hx hp => key _ x hp h0 (by simpa [strided, hw] using hx)⟩
    · exact ⟨rfl, hh, hs, fun x hx hp => key _ x hp h1 (by simpa [strided, hw] using hx)⟩
    · exact ⟨rfl, hh, hs, fun x hx hp => key _ x hp h2 (by simpa [strided, hw] using hx)⟩
  · intro i v i' v' x x' hv hv' hx hx' e
    have key : ∀ a a', a < num → a' < num → a + x * num = a' + x' * num → x = x' ∧ a = a' := fun a a' => rows
    rcases get3 hv with ⟨rfl, rfl⟩ | ⟨rfl, rfl⟩ | ⟨rfl, rfl⟩ <;>
      rcases get3 hv' with ⟨rfl, rfl⟩ | ⟨rfl, rfl⟩ | ⟨rfl, rfl⟩ <;>
      simp only [if_true, Nat.succ_ne_zero, if_false, Nat.reduceEqDiff] at e <;>
      obtain ⟨e1, e2⟩ := key _ _ (by assumption) (by assumption) e <;> first | exact ⟨rfl, e1⟩ | omega

/-- Planes one after the other. -/
theorem sound_planar {item w h w' h' p1 p2 p3 n : Nat} (hi : 0 < item) (h1 : w * h ≤ p1) (h2 : w' * h' ≤ p2)
    (h3 : w' * h' ≤ p3) (hn : p1 + p2 + p3 ≤ n) :
    Sound item (item * n) [strided n item 0 w h (item * w) item, strided n item p1 w' h' (item * w') item,
      strided n item (p1 + p2) w' h' (item * w') item] := by
  have cell : ∀ {w h x y : Nat}, x < w → y < h → x + y * w + 1 ≤ w * h := by
    intro w h x y hx hy
    have : (y + 1) * w ≤ h * w := Nat.mul_le_mul_right _ hy
    rw [Nat.add_mul, Nat.one_mul, Nat.mul_comm h w] at this
    omega
  have addr : ∀ {k w x y : Nat}, k ≤ n → min k n * item + y * (item * w) + x * item = item * (k + (x + y * w)) := by
    intro k w x y hk
    rw [Nat.min_eq_left hk, Nat.mul_add, Nat.mul_add, Nat.mul_left_comm y, Nat.mul_comm k, Nat.mul_comm x]
    omega
  refine ⟨hi, fun c x y => if c = 0 then 0 + (x + y * w) else if c = 1 then p1 + (x + y * w') else p1 + p2 + (x + y * w'),
    ?_, ?_⟩
  · intro c v x y hc hx hy
    rcases get3 hc with ⟨rfl, rfl⟩ | ⟨rfl, rfl⟩ | ⟨rfl, rfl⟩
    · have := cell (w := w) (h := h) hx hy
      exact ⟨rfl, addr (by omega), Nat.mul_le_mul_left _ (by simp only [if_true]; omega)⟩
    · have := cell (w := w') (h := h') hx hy
      exact ⟨rfl, addr (by omega), Nat.mul_le_mul_left _ (by simp; omega)⟩
    · have := cell (w := w') (h := h') hx hy
      exact ⟨rfl, addr (by omega), Nat.mul_le_mul_left _ (by simp; omega)⟩
  · rintro c x y c' x' y' ⟨v, hc, hx, hy⟩ ⟨v', hc', hx', hy'⟩ e
    rcases get3 hc with ⟨rfl, rfl⟩ | ⟨rfl, rfl⟩ | ⟨rfl, rfl⟩ <;>
      rcases get3 hc' with ⟨rfl, rfl⟩ | ⟨rfl, rfl⟩ | ⟨rfl, rfl⟩ <;>
      simp only [if_true, Nat.succ_ne_zero, if_false, Nat.reduceEqDiff] at e <;>
      simp only [strided] at hx hy hx' hy' <;>
      have c1 := cell hx hy <;> have c2 := cell hx' hy' <;>
      first
      | omega
      | (obtain ⟨e1, e2⟩ := rows (y := y) (y' := y') hx hx' (by omega); exact ⟨rfl, e2, e1⟩)

theorem sound_422' {item k0 k1 k2 w h len : Nat} {c : Component} {views : List View} (hi : 0 < item)
    (hl : len = item * (2 * w * h)) (hw : c.width = w) (hh : c.height = h) (hs : c.stride = item * (2 * w))
    (hk : (k0 = 1 ∧ k1 = 0 ∧ k2 = 2) ∨ (k0 = 0 ∧ k1 = 1 ∧ k2 = 3))
    (hv : (if len % item ≠ 0 then Except.error ArrErr.value
      else .ok (interleaved422 (len / item) item k0 k1 k2 c)) = .ok views) : Sound item len views := by
  subst hl
  rw [Nat.mul_mod_right, if_neg (by simp), Nat.mul_div_cancel_left _ hi] at hv
  cases hv
  exact sound_422 hi c hw hh hs hk

theorem sound_444' {k0 k1 k2 num w h len : Nat} {c : Component} {views : List View}
    (hl : len = w * h * num) (hw : c.width = w) (hh : c.height = h) (hs : c.stride = w * num)
    (h0 : k0 < num) (h1 : k1 < num) (h2 : k2 < num) (h01 : k0 ≠ k1) (h02 : k0 ≠ k2) (h12 : k1 ≠ k2)
    (hv : (if len % 1 ≠ 0 then Except.error ArrErr.value
      else .ok (interleaved444 (len / 1) 1 k0 k1 k2 num c)) = .ok views) : Sound 1 len views := by
  have e : len = num * w * h := by rw [hl]; ac_rfl
  rw [Nat.mod_one, if_neg (by simp), Nat.div_one] at hv
  cases hv
  have := sound_444 (item := 1) (by decide) c hw hh (by rw [hs]; ac_rfl) h0 h1 h2 h01 h02 h12
  rwa [← e, Nat.one_mul] at this

theorem planar_bit {fmt : Nat} (h : isPlanar fmt = true) : (fmt >>> 8) &&& 0x1 = 0 := by
  have h : (fmt >>> 8) &&& 0x3 = 0 := by simpa [isPlanar] using h
  have e : (fmt >>> 8) &&& (2 ^ 2 - 1) = 0 := h
  rw [Nat.and_two_pow_sub_one_eq_mod] at e
  rw [Nat.and_one_is_mod]
  omega

theorem itemsize_planar {fmt : Nat} (h : isPlanar fmt = true) : itemsize fmt = some (bytesPerValue fmt) ∧
    0 < bytesPerValue fmt := by
  unfold itemsize
  rw [if_pos h]
  unfold bytesPerValue
  split
  · simp
  · split <;> simp

theorem sound_planar' {fmt w h : Nat} {views : List View} (hp : isPlanar fmt = true)
    (hv : videoArrays fmt (sizeForFormat fmt w h) (componentsForFormat fmt w h) = .ok views) :
    Sound (bytesPerValue fmt) (sizeForFormat fmt w h) views := by
  obtain ⟨hi, h0⟩ := itemsize_planar hp
  unfold videoArrays at hv
  rw [hi] at hv
  simp only at hv
  unfold componentViews at hv
  rw [if_pos hp] at hv
  unfold componentsForFormat at hv
  rw [if_pos (planar_bit hp)] at hv
  have es : sizeForFormat fmt w h =
      bytesPerValue fmt * (w * h + 2 * ((w * h) >>> (hShift fmt + vShift fmt))) := by
    unfold sizeForFormat
    rw [if_pos (planar_bit hp), Nat.mul_comm]
  rw [es] at hv ⊢
  rw [Nat.mul_mod_right, if_neg (by simp), Nat.mul_div_cancel_left _ h0] at hv
  generalize bytesPerValue fmt = item at *
  have hc := shift_mul_le w h (hShift fmt) (vShift fmt)
  cases hv
  have := sound_planar (item := item) (w := w) (h := h) (w' := w >>> hShift fmt) (h' := h >>> vShift fmt)
    (n := w * h + 2 * ((w * h) >>> (hShift fmt + vShift fmt))) h0 (Nat.le_refl _) hc hc (by omega)
  simp only [List.map_cons, List.map_nil, Nat.zero_div, Nat.zero_add]
  rw [← Nat.add_mul, Nat.mul_div_cancel _ h0, Nat.mul_div_cancel _ h0, Nat.mul_comm w item,
    Nat.mul_comm (w >>> hShift fmt) item]
  exact this

theorem sound_all {fmt w h : Nat} {views : List View} (hne : fmt ≠ FrameFormat.AYUV)
    (hv : videoArrays fmt (sizeForFormat fmt w h) (componentsForFormat fmt w h) = .ok views) :
    ∃ item, itemsize fmt = some item ∧ Sound item (sizeForFormat fmt w h) views := by
  by_cases hp : isPlanar fmt = true
  · exact ⟨_, (itemsize_planar hp).1, sound_planar' hp hv⟩
  · have hf : fmt ∈ byteFormats ∨ fmt = FrameFormat.v216 ∨ fmt = FrameFormat.v210 := by
      have : itemsize fmt ≠ none := by
        intro h
        rw [videoArrays, h] at hv
        cases hv
      unfold itemsize at this
      rw [if_neg hp] at this
      by_cases h1 : fmt ∈ byteFormats
      · exact .inl h1
      · by_cases h2 : fmt = FrameFormat.v216
        · exact .inr (.inl h2)
        · by_cases h3 : fmt = FrameFormat.v210
          · exact .inr (.inr h3)
          · simp [h1, h2, h3] at this
    simp only [byteFormats, List.mem_cons, List.mem_nil_iff, or_false] at hf
    rcases hf with (rfl | rfl | rfl | rfl | rfl | rfl | rfl | rfl | rfl | rfl | rfl | rfl) | rfl | rfl
    · exact ⟨1, by decide, sound_422' (w := w) (h := h) (by decide) (show w * h * 2 = _ by rw [Nat.mul_comm _ 2, Nat.one_mul, Nat.mul_assoc]) rfl rfl
        (show w * 2 = _ by omega) (.inl ⟨rfl, rfl, rfl⟩) hv⟩
    · exact ⟨1, by decide, sound_422' (w := w) (h := h) (by decide) (show w * h * 2 = _ by rw [Nat.mul_comm _ 2, Nat.one_mul, Nat.mul_assoc]) rfl rfl
        (show w * 2 = _ by omega) (.inr ⟨rfl, rfl, rfl⟩) hv⟩
    · exact absurd rfl hne
    · exact ⟨1, by decide, sound_444' (w := w) (h := h) (num := 3) rfl rfl rfl rfl (by decide) (by decide) (by decide)
        (by decide) (by decide) (by decide) hv⟩
    all_goals first
    | exact ⟨1, by decide, sound_444' (w := w) (h := h) (num := 4) (k0 := 0) (k1 := 1) (k2 := 2) rfl rfl rfl rfl
        (by decide) (by decide) (by decide) (by decide) (by decide) (by decide) hv⟩
    | exact ⟨1, by decide, sound_444' (w := w) (h := h) (num := 4) (k0 := 1) (k1 := 2) (k2 := 3) rfl rfl rfl rfl
        (by decide) (by decide) (by decide) (by decide) (by decide) (by decide) hv⟩
    | exact ⟨2, by decide, sound_422' (w := w) (h := h) (by decide) (show w * h * 4 = _ by
          rw [Nat.mul_assoc 2 w h]; omega) rfl rfl
        (show w * 4 = _ by omega) (.inl ⟨rfl, rfl, rfl⟩) hv⟩
    | skip
    refine ⟨4, by decide, by decide, fun _ _ _ => 0, ?_, ?_⟩
    · intro c v x y hc
      have : views = [] := by
        have : (if sizeForFormat FrameFormat.v210 w h % 4 ≠ 0 then Except.error ArrErr.value else .ok []) = .ok views := hv
        split at this
        · cases this
        · cases this; rfl
      subst this
      cases hc
    · rintro c x y c' x' y' ⟨v, hc, _⟩
      have : views = [] := by
        have : (if sizeForFormat FrameFormat.v210 w h % 4 ≠ 0 then Except.error ArrErr.value else .ok []) = .ok views := hv
        split at this
        · cases this
        · cases this; rfl
      subst this
      cases hc

end VideoArrays

/-- The arrays of a grain with the components and the amount of data of its format and size. -/
def arraysOf (fmt w h : Nat) : Except ArrErr (List View) :=
  videoArrays fmt (sizeForFormat fmt w h) (componentsForFormat fmt w h)

/-- Every element of every array lies inside the data of the grain, whatever the format (but for AYUV) and the
size, odd ones too. -/
theorem C55_inside (fmt w h : Nat) (hne : fmt ≠ FrameFormat.AYUV) (views : List View)
    (hv : arraysOf fmt w h = .ok views) (data : Bytes) (hd : data.length = sizeForFormat fmt w h) :
    ∀ (c : Nat) (v : View) (x y : Nat), views[c]? = some v → x < v.width → y < v.height →
      ∃ b : Bytes, v.get data x y = some b ∧ some b.length = itemsize fmt := by
  obtain ⟨item, hi, h0, idx, h1, -⟩ := VideoArrays.sound_all hne hv
  intro c v x y hc hx hy
  obtain ⟨e1, e2, e3⟩ := h1 c v x y hc hx hy
  rw [Nat.mul_add, ← e2, Nat.mul_one] at e3
  refine ⟨(data.drop (v.addr x y)).take v.itemsize, ?_, ?_⟩
  · unfold View.get
    rw [if_pos (by omega)]
  · rw [hi, List.length_take, List.length_drop, e1, Nat.min_eq_left (by omega)]

/-- No two elements share a byte, in one array or in two. -/
theorem C55_disjoint (fmt w h : Nat) (hne : fmt ≠ FrameFormat.AYUV) (views : List View)
    (hv : arraysOf fmt w h = .ok views) (c c' x x' y y' : Nat) (v v' : View) (hc : views[c]? = some v)
    (hx : x < v.width) (hy : y < v.height) (hc' : views[c']? = some v') (hx' : x' < v'.width)
    (hy' : y' < v'.height) (hd : (c, x, y) ≠ (c', x', y')) :
    v.addr x y + v.itemsize ≤ v'.addr x' y' ∨ v'.addr x' y' + v'.itemsize ≤ v.addr x y := by
  obtain ⟨item, hi, h0, idx, h1, h2⟩ := VideoArrays.sound_all hne hv
  obtain ⟨e1, e2, -⟩ := h1 c v x y hc hx hy
  obtain ⟨e1', e2', -⟩ := h1 c' v' x' y' hc' hx' hy'
  have hidx : idx c x y ≠ idx c' x' y' := by
    intro e
    obtain ⟨a, b, d⟩ := h2 _ _ _ _ _ _ ⟨v, hc, hx, hy⟩ ⟨v', hc', hx', hy'⟩ e
    exact hd (by rw [a, b, d])
  rw [e1, e1', e2, e2']
  rcases Nat.lt_or_gt_of_ne hidx with hl | hl
  · left
    have := Nat.mul_le_mul_left item (Nat.succ_le_of_lt hl)
    rw [Nat.mul_succ] at this
    exact this
  · right
    have := Nat.mul_le_mul_left item (Nat.succ_le_of_lt hl)
    rw [Nat.mul_succ] at this
    exact this

namespace VideoArrays

theorem splice_get {data val : Bytes} {a n b m : Nat} (ha : a + n ≤ data.length) (hval : val.length = n)
    (hd : a + n ≤ b ∨ b + m ≤ a) :
    ((data.take a ++ val ++ data.drop (a + n)).drop b).take m = (data.drop b).take m := by
  apply List.ext_getElem?
  intro i
  by_cases hi : i < m
  · rw [List.getElem?_take_of_lt hi, List.getElem?_take_of_lt hi, List.getElem?_drop, List.getElem?_drop]
    rcases hd with hd | hd
    · rw [List.getElem?_append_right (by simp; omega), List.getElem?_drop]
      congr 1
      simp
      omega
    · rw [List.append_assoc, List.getElem?_append_left (by simp; omega), List.getElem?_take_of_lt (by omega)]
  · rw [List.getElem?_eq_none (by simp; omega), List.getElem?_eq_none (by simp; omega)]

theorem splice_same {data val : Bytes} {a n : Nat} (ha : a + n ≤ data.length) (hval : val.length = n) :
    ((data.take a ++ val ++ data.drop (a + n)).drop a).take n = val := by
  rw [List.append_assoc, List.drop_append_of_le_length (by simp; omega), List.drop_eq_nil_of_le (by simp; omega),
    List.nil_append, List.take_append_of_le_length (by omega), List.take_of_length_le (by omega)]

end VideoArrays

/-- Assigning to an element changes that element, leaves every other element of every array as it was, and
keeps the length of the data. -/
theorem C55_write (fmt w h : Nat) (hne : fmt ≠ FrameFormat.AYUV) (views : List View)
    (hv : arraysOf fmt w h = .ok views) (data : Bytes) (hd : data.length = sizeForFormat fmt w h)
    (c x y : Nat) (v : View) (hc : views[c]? = some v) (hx : x < v.width) (hy : y < v.height) (val : Bytes)
    (hval : val.length = v.itemsize) :
    ∃ data', v.set data x y val = some data' ∧ data'.length = data.length ∧ v.get data' x y = some val ∧
      ∀ (c' x' y' : Nat) (v' : View), views[c']? = some v' → x' < v'.width → y' < v'.height → (c, x, y) ≠ (c', x', y') →
        v'.get data' x' y' = v'.get data x' y' := by
  obtain ⟨b, hb, -⟩ := C55_inside fmt w h hne views hv data hd c v x y hc hx hy
  have hin : v.addr x y + v.itemsize ≤ data.length := by
    unfold View.get at hb
    split at hb
    · assumption
    · cases hb
  have hvt : val.take v.itemsize = val := List.take_of_length_le (by omega)
  have hlen : (data.take (v.addr x y) ++ val ++ data.drop (v.addr x y + v.itemsize)).length = data.length := by
    simp
    omega
  refine ⟨_, by unfold View.set; rw [if_pos hin, hvt], hlen, ?_, ?_⟩
  · unfold View.get
    rw [hlen, if_pos hin, VideoArrays.splice_same hin hval]
  · intro c' x' y' v' hc' hx' hy' hn
    unfold View.get
    rw [hlen, VideoArrays.splice_get hin hval (C55_disjoint fmt w h hne views hv c c' x x' y y' v v' hc hx hy hc' hx' hy' hn)]

/-! ## What the elements are -/

/-- The arrays of a planar format: one for each component, with its width and height, whose element `[x, y]`
is the `x`th sample of line `y` of the component. -/
theorem C55_planar (fmt w h : Nat) (hp : isPlanar fmt = true) : ∃ views, arraysOf fmt w h = .ok views ∧
    views.length = (componentsForFormat fmt w h).length ∧
    ∀ (c : Nat) (v : View) (comp : Component), views[c]? = some v → (componentsForFormat fmt w h)[c]? = some comp →
      v.width = comp.width ∧ v.height = comp.height ∧ v.itemsize = bytesPerValue fmt ∧
      ∀ x y, v.addr x y = comp.offset + y * comp.stride + x * bytesPerValue fmt := by
  obtain ⟨hi, h0⟩ := VideoArrays.itemsize_planar hp
  have es : sizeForFormat fmt w h =
      bytesPerValue fmt * (w * h + 2 * ((w * h) >>> (hShift fmt + vShift fmt))) := by
    unfold sizeForFormat
    rw [if_pos (VideoArrays.planar_bit hp), Nat.mul_comm]
  have hcv : ∀ n item cs, componentViews n item fmt cs =
      .ok (cs.map (fun c => strided n item (c.offset / item) c.width c.height c.stride item)) := by
    intro n item cs
    unfold componentViews
    rw [if_pos hp]
  refine ⟨_, by unfold arraysOf videoArrays; rw [hi]; simp only; rw [es, Nat.mul_mod_right, if_neg (by simp), hcv], ?_, ?_⟩
  · simp
  · intro c v comp hc hcomp
    rw [List.getElem?_map, hcomp] at hc
    cases hc
    refine ⟨rfl, rfl, rfl, fun x y => ?_⟩
    unfold View.addr strided
    simp only
    congr 2
    rw [Nat.mul_div_cancel_left _ h0]
    unfold componentsForFormat at hcomp
    rw [if_pos (VideoArrays.planar_bit hp)] at hcomp
    generalize bytesPerValue fmt = item at *
    have key : ∀ k n, k ≤ n → min (k * item / item) n * item = k * item := by
      intro k n hk
      rw [Nat.mul_div_cancel _ h0, Nat.min_eq_left hk]
    match c, hcomp with
    | 0, hcomp => cases hcomp; simp
    | 1, hcomp =>
      cases hcomp
      simp only [Nat.zero_add]
      exact key _ _ (by omega)
    | 2, hcomp =>
      cases hcomp
      simp only [Nat.zero_add]
      rw [← Nat.add_mul]
      exact key _ _ (by omega)

/-- Every byte of the data of a planar grain of even width and height belongs to an element. -/
theorem C55_planar_full (fmt w h : Nat) (hp : isPlanar fmt = true) (hw : 2 ∣ w) (hh : 2 ∣ h) (views : List View)
    (hv : arraysOf fmt w h = .ok views) (i : Nat) (hi : i < sizeForFormat fmt w h) :
    ∃ (c : Nat) (v : View) (x y : Nat), views[c]? = some v ∧ x < v.width ∧ y < v.height ∧ v.addr x y ≤ i ∧ i < v.addr x y + v.itemsize := by
  obtain ⟨views', hv', hl, hall⟩ := C55_planar fmt w h hp
  rw [hv] at hv'
  cases hv'
  have h0 := (VideoArrays.itemsize_planar hp).2
  have hex := C31_exact_planes fmt w h (VideoArrays.planar_bit hp) hw hh
  -- the component the byte is in
  have hin : ∃ (c : Nat) (comp : Component), (componentsForFormat fmt w h)[c]? = some comp ∧ comp.offset ≤ i ∧ i < comp.offset + comp.length ∧
      comp.stride = comp.width * bytesPerValue fmt := by
    unfold sizeForFormat at hi
    rw [if_pos (VideoArrays.planar_bit hp)] at hi
    unfold componentsForFormat
    rw [if_pos (VideoArrays.planar_bit hp)]
    simp only [Nat.add_mul, Nat.mul_assoc 2] at hi
    by_cases c0 : i < w * h * bytesPerValue fmt
    · exact ⟨0, _, rfl, by simp, by simpa using c0, rfl⟩
    · by_cases c1 : i < w * h * bytesPerValue fmt + (w * h) >>> (hShift fmt + vShift fmt) * bytesPerValue fmt
      · exact ⟨1, _, rfl, by simp only; omega, by simp only; omega, rfl⟩
      · exact ⟨2, _, rfl, by simp only; omega, by simp only; omega, rfl⟩
  obtain ⟨c, comp, hcomp, hlo, hhi, hst⟩ := hin
  have hlt : c < views.length := by
    rw [hl]
    exact (List.getElem?_eq_some_iff.1 hcomp).1
  obtain ⟨v, hc⟩ : ∃ v, views[c]? = some v := ⟨_, List.getElem?_eq_getElem hlt⟩
  obtain ⟨e1, e2, e3, e4⟩ := hall c v comp hc hcomp
  have hlen := hex comp (List.mem_of_getElem? hcomp)
  have hpos : 0 < comp.stride := by
    rcases Nat.eq_zero_or_pos comp.stride with e | e
    · rw [e] at hlen; omega
    · exact e
  have hy : (i - comp.offset) / comp.stride < comp.height := by
    apply Nat.div_lt_of_lt_mul
    rw [Nat.mul_comm, hlen]
    omega
  have hx : (i - comp.offset) % comp.stride / bytesPerValue fmt < comp.width := by
    apply Nat.div_lt_of_lt_mul
    rw [Nat.mul_comm, ← hst]
    exact Nat.mod_lt _ hpos
  refine ⟨c, v, (i - comp.offset) % comp.stride / bytesPerValue fmt, (i - comp.offset) / comp.stride, hc, by omega,
    by omega, ?_⟩
  rw [e4, e3]
  have d1 := Nat.div_add_mod (i - comp.offset) comp.stride
  have d2 := Nat.div_add_mod ((i - comp.offset) % comp.stride) (bytesPerValue fmt)
  have d3 := Nat.mod_lt ((i - comp.offset) % comp.stride) h0
  rw [Nat.mul_comm] at d1 d2
  generalize (i - comp.offset) / comp.stride * comp.stride = p at *
  generalize (i - comp.offset) % comp.stride / bytesPerValue fmt * bytesPerValue fmt = q at *
  omega

/-! ## Packed formats

The samples of a line of a packed format come in a fixed order that repeats. -/

/-- The order of the samples of the packed formats. -/
def packedOrder (fmt : Nat) : Option (List Part) :=
  if fmt = FrameFormat.UYVY ∨ fmt = FrameFormat.v216 then some [.U, .Y, .V, .Y]
  else if fmt = FrameFormat.YUYV then some [.Y, .U, .Y, .V]
  else if fmt = FrameFormat.RGB then some [.R, .G, .B]
  else if fmt = FrameFormat.RGBx then some [.R, .G, .B, .X]
  else if fmt = FrameFormat.RGBA then some [.R, .G, .B, .A]
  else if fmt = FrameFormat.BGRx then some [.B, .G, .R, .X]
  else if fmt = FrameFormat.ARGB then some [.A, .R, .G, .B]
  else if fmt = FrameFormat.xRGB then some [.X, .R, .G, .B]
  else if fmt = FrameFormat.ABGR then some [.A, .B, .G, .R]
  else if fmt = FrameFormat.xBGR then some [.X, .B, .G, .R]
  else none

/-- The `j`th sample of a line in which the samples of `o` repeat. -/
def lineSample (o : List Part) (j : Nat) : Option Part := o[j % o.length]?

/-- Position `j` of the line is the `x`th sample (from nought) of `p`. -/
def IsNth (o : List Part) (p : Part) (x j : Nat) : Prop :=
  lineSample o j = some p ∧ ((List.range j).filter (fun i => lineSample o i = some p)).length = x

namespace VideoArrays

theorem count_step (o : List Part) (p : Part) (j : Nat) :
    ((List.range (j + 1)).filter (fun i => lineSample o i = some p)).length =
      ((List.range j).filter (fun i => lineSample o i = some p)).length + if lineSample o j = some p then 1 else 0 := by
  rw [List.range_succ, List.filter_append, List.length_append]
  congr 1
  by_cases h : lineSample o j = some p <;> simp [h]

theorem line_period (o : List Part) (j q : Nat) : lineSample o (j + o.length * q) = lineSample o j := by
  unfold lineSample
  rw [Nat.add_mul_mod_self_left]

theorem count_period (o : List Part) (p : Part) (j : Nat) :
    ((List.range (j + o.length)).filter (fun i => lineSample o i = some p)).length =
      ((List.range j).filter (fun i => lineSample o i = some p)).length +
        ((List.range o.length).filter (fun i => lineSample o i = some p)).length := by
  induction j with
  | zero => simp
  | succ j ih =>
    have := line_period o j 1
    rw [Nat.mul_one] at this
    rw [show j + 1 + o.length = j + o.length + 1 by omega, count_step, ih, count_step, this]
    omega

/-- Every period later there are `n` more. -/
theorem nth_later {o : List Part} {p : Part} {x j n : Nat} (h : IsNth o p x j)
    (hn : ((List.range o.length).filter (fun i => lineSample o i = some p)).length = n) (q : Nat) :
    IsNth o p (x + n * q) (j + o.length * q) := by
  refine ⟨by rw [line_period]; exact h.1, ?_⟩
  induction q with
  | zero => exact h.2
  | succ q ih =>
    rw [Nat.mul_succ, ← Nat.add_assoc, count_period, ih, hn, Nat.mul_succ]
    omega

/-- One in each period. -/
theorem nth_one {o : List Part} {p : Part} {k : Nat} (h : IsNth o p 0 k)
    (hn : ((List.range o.length).filter (fun i => lineSample o i = some p)).length = 1) (x : Nat) :
    IsNth o p x (k + o.length * x) := by
  have := nth_later h hn x
  rwa [Nat.zero_add, Nat.one_mul] at this

/-- Two in each period of four. -/
theorem nth_two {o : List Part} {p : Part} {k : Nat} (ho : o.length = 4) (h : IsNth o p 0 k) (h' : IsNth o p 1 (k + 2))
    (hn : ((List.range o.length).filter (fun i => lineSample o i = some p)).length = 2) (x : Nat) :
    IsNth o p x (k + 2 * x) := by
  rcases Nat.mod_two_eq_zero_or_one x with e | e
  · have := nth_later h hn (x / 2)
    rw [ho] at this
    rwa [show 0 + 2 * (x / 2) = x by omega, show k + 4 * (x / 2) = k + 2 * x by omega] at this
  · have := nth_later h' hn (x / 2)
    rw [ho] at this
    rwa [show 1 + 2 * (x / 2) = x by omega, show k + 2 + 4 * (x / 2) = k + 2 * x by omega] at this

/-- What `C55_packed` says about one array. -/
def Packed (o : List Part) (item line w h : Nat) (p : Part) (v : View) : Prop :=
  v.height = h ∧ v.width = w ∧ ∀ x y, x < w → y < h →
    ∃ j, IsNth o p x j ∧ v.addr x y = y * line + item * j ∧ item * (j + 1) ≤ line

theorem packed_view {o : List Part} {p : Part} {item n k s w' h line R : Nat}
    (hnth : ∀ x, IsNth o p x (k + s * x)) (hl : line = item * R) (hn : R * h ≤ n)
    (hx : ∀ x, x < w' → k + s * x < R) :
    Packed o item line w' h p (strided n item k w' h line (item * s)) := by
  refine ⟨rfl, rfl, fun x y h1 h2 => ⟨k + s * x, hnth x, ?_, ?_⟩⟩
  · have a := hx x h1
    have b : R * 1 ≤ R * h := Nat.mul_le_mul_left _ (by omega)
    unfold View.addr strided
    simp only
    rw [Nat.min_eq_left (by omega), Nat.mul_add, Nat.mul_comm k item, Nat.mul_left_comm x, Nat.mul_comm x s]
    omega
  · rw [hl]
    exact Nat.mul_le_mul_left _ (hx x h1)

theorem packed_422 {o : List Part} {item k0 k1 k2 w h n line : Nat} {c : Component} (hw : c.width = w) (hh : c.height = h)
    (hs : c.stride = line) (hl : line = item * (2 * w)) (hn : 2 * w * h ≤ n) (hk0 : k0 ≤ 1) (hk1 : k1 ≤ 3) (hk2 : k2 ≤ 3)
    (hy : ∀ x, IsNth o .Y x (k0 + 2 * x)) (hu : ∀ x, IsNth o .U x (k1 + 4 * x)) (hv : ∀ x, IsNth o .V x (k2 + 4 * x)) :
    ∀ (i : Nat) (v : View) (p : Part), (interleaved422 n item k0 k1 k2 c)[i]? = some v → [Part.Y, .U, .V][i]? = some p →
      Packed o item line (if p = .U ∨ p = .V then w / 2 else w) h p v := by
  subst hw hh
  intro i v p hi hp
  unfold interleaved422 at hi
  rw [hs] at hi
  match i, hi, hp with
  | 0, hi, hp => cases hi; cases hp; exact packed_view hy hl hn (by simp; omega)
  | 1, hi, hp => cases hi; cases hp; exact packed_view hu hl hn (by simp; omega)
  | 2, hi, hp => cases hi; cases hp; exact packed_view hv hl hn (by simp; omega)

theorem packed_444 {o : List Part} {k0 k1 k2 num w h n line : Nat} {c : Component} {p0 p1 p2 : Part} (hw : c.width = w)
    (hh : c.height = h) (hs : c.stride = line) (hl : line = num * w) (hn : num * w * h ≤ n) (hk0 : k0 < num)
    (hk1 : k1 < num) (hk2 : k2 < num) (hnames : ∀ p ∈ [p0, p1, p2], p ≠ .U ∧ p ≠ .V)
    (h0 : ∀ x, IsNth o p0 x (k0 + num * x)) (h1 : ∀ x, IsNth o p1 x (k1 + num * x))
    (h2 : ∀ x, IsNth o p2 x (k2 + num * x)) :
    ∀ (i : Nat) (v : View) (p : Part), (interleaved444 n 1 k0 k1 k2 num c)[i]? = some v → [p0, p1, p2][i]? = some p →
      Packed o 1 line (if p = .U ∨ p = .V then w / 2 else w) h p v := by
  subst hw hh
  intro i v p hi hp
  unfold interleaved444 at hi
  rw [hs] at hi
  have key : ∀ k x, k < num → x < c.width → k + num * x < num * c.width := by
    intro k x hk hx
    have : num * (x + 1) ≤ num * c.width := Nat.mul_le_mul_left _ hx
    rw [Nat.mul_succ] at this
    omega
  have hp' := hnames p (List.mem_of_getElem? hp)
  rw [if_neg (by simp [hp'.1, hp'.2])]
  match i, hi, hp with
  | 0, hi, hp => cases hi; cases hp; exact packed_view h0 (by omega) hn (fun x => key _ _ hk0)
  | 1, hi, hp => cases hi; cases hp; exact packed_view h1 (by omega) hn (fun x => key _ _ hk1)
  | 2, hi, hp => cases hi; cases hp; exact packed_view h2 (by omega) hn (fun x => key _ _ hk2)

theorem per_line {w h k : Nat} (hh : 0 < h) : w * h * k / h = w * k := by
  rw [Nat.mul_right_comm, Nat.mul_div_cancel _ hh]

end VideoArrays

/-- The arrays of a packed format: one for each named component, of the width of the grain, or of half the
width for the chroma of 4:2:2.  Element `[x, y]` of the array named `p` is the `x`th sample of `p` in line `y`. -/
theorem C55_packed (fmt w h : Nat) (hh : 0 < h) (o : List Part) (ho : packedOrder fmt = some o) :
    ∃ views item, arraysOf fmt w h = .ok views ∧ itemsize fmt = some item ∧ views.length = (partNames fmt).length ∧
      ∀ (c : Nat) (v : View) (p : Part), views[c]? = some v → (partNames fmt)[c]? = some p →
        v.height = h ∧ v.width = (if p = .U ∨ p = .V then w / 2 else w) ∧ ∀ x y, x < v.width → y < h →
          ∃ j, IsNth o p x j ∧ v.addr x y = y * (sizeForFormat fmt w h / h) + item * j ∧
            item * (j + 1) ≤ sizeForFormat fmt w h / h := by
  have done : ∀ {views : List View} {item : Nat} {names : List Part} {line : Nat},
      arraysOf fmt w h = .ok views → itemsize fmt = some item → partNames fmt = names → views.length = names.length →
      sizeForFormat fmt w h / h = line →
      (∀ (i : Nat) (v : View) (p : Part), views[i]? = some v → names[i]? = some p →
        VideoArrays.Packed o item line (if p = .U ∨ p = .V then w / 2 else w) h p v) →
      ∃ views item, arraysOf fmt w h = .ok views ∧ itemsize fmt = some item ∧ views.length = (partNames fmt).length ∧
      ∀ (c : Nat) (v : View) (p : Part), views[c]? = some v → (partNames fmt)[c]? = some p →
        v.height = h ∧ v.width = (if p = .U ∨ p = .V then w / 2 else w) ∧ ∀ x y, x < v.width → y < h →
          ∃ j, IsNth o p x j ∧ v.addr x y = y * (sizeForFormat fmt w h / h) + item * j ∧
            item * (j + 1) ≤ sizeForFormat fmt w h / h := by
    intro views item names line h1 h2 h3 h4 h5 h6
    refine ⟨views, item, h1, h2, by rw [h3, h4], fun c v p hc hp => ?_⟩
    rw [h3] at hp
    obtain ⟨a, b, d⟩ := h6 c v p hc hp
    refine ⟨a, b, fun x y hx hy => ?_⟩
    rw [h5]
    exact d x y (by omega) hy
  unfold packedOrder at ho
  by_cases h1 : fmt = FrameFormat.UYVY ∨ fmt = FrameFormat.v216
  · rw [if_pos h1] at ho
    cases ho
    rcases h1 with rfl | rfl
    · refine done (show (if w * h * 2 % 1 ≠ 0 then Except.error ArrErr.value else .ok _) = _ by
        rw [if_neg (by omega)]) (show _ = some 1 by decide) (show _ = [Part.Y, .U, .V] by decide) rfl
        (line := w * 2) (VideoArrays.per_line hh) ?_
      exact VideoArrays.packed_422 rfl rfl rfl (by omega) (by rw [Nat.mul_assoc 2]; show _ ≤ w * h * 2 / 1; omega) (by decide) (by decide)
        (by decide) (VideoArrays.nth_two rfl (by unfold IsNth; decide) (by unfold IsNth; decide) (by decide))
        (VideoArrays.nth_one (by unfold IsNth; decide) (by decide))
        (VideoArrays.nth_one (by unfold IsNth; decide) (by decide))
    · refine done (show (if w * h * 4 % 2 ≠ 0 then Except.error ArrErr.value else .ok _) = _ by
        rw [if_neg (by omega)]) (show _ = some 2 by decide) (show _ = [Part.Y, .U, .V] by decide) rfl
        (line := w * 4) (VideoArrays.per_line hh) ?_
      exact VideoArrays.packed_422 rfl rfl rfl (by omega) (by rw [Nat.mul_assoc 2]; show _ ≤ w * h * 4 / 2; omega)
        (by decide) (by decide)
        (by decide) (VideoArrays.nth_two rfl (by unfold IsNth; decide) (by unfold IsNth; decide) (by decide))
        (VideoArrays.nth_one (by unfold IsNth; decide) (by decide))
        (VideoArrays.nth_one (by unfold IsNth; decide) (by decide))
  rw [if_neg h1] at ho
  by_cases h2 : fmt = FrameFormat.YUYV
  · rw [if_pos h2] at ho
    cases ho
    subst h2
    refine done (show (if w * h * 2 % 1 ≠ 0 then Except.error ArrErr.value else .ok _) = _ by
      rw [if_neg (by omega)]) (show _ = some 1 by decide) (show _ = [Part.Y, .U, .V] by decide) rfl
      (line := w * 2) (VideoArrays.per_line hh) ?_
    exact VideoArrays.packed_422 rfl rfl rfl (by omega) (by rw [Nat.mul_assoc 2]; show _ ≤ w * h * 2 / 1; omega) (by decide) (by decide)
      (by decide) (VideoArrays.nth_two rfl (by unfold IsNth; decide) (by unfold IsNth; decide) (by decide))
      (VideoArrays.nth_one (by unfold IsNth; decide) (by decide))
      (VideoArrays.nth_one (by unfold IsNth; decide) (by decide))
  rw [if_neg h2] at ho
  by_cases h3 : fmt = FrameFormat.RGB
  · rw [if_pos h3] at ho
    cases ho
    subst h3
    refine done (show (if w * h * 3 % 1 ≠ 0 then Except.error ArrErr.value else .ok _) = _ by
      rw [if_neg (by omega)]) (show _ = some 1 by decide) (show _ = [Part.R, .G, .B] by decide) rfl
      (line := w * 3) (VideoArrays.per_line hh) ?_
    exact VideoArrays.packed_444 rfl rfl rfl (by omega) (by rw [Nat.mul_assoc 3]; show _ ≤ w * h * 3 / 1; omega) (by decide) (by decide)
      (by decide) (by decide)
      (VideoArrays.nth_one (by unfold IsNth; decide) (by decide))
      (VideoArrays.nth_one (by unfold IsNth; decide) (by decide))
      (VideoArrays.nth_one (by unfold IsNth; decide) (by decide))
  rw [if_neg h3] at ho
  have four : ∀ {k0 k1 k2 : Nat} {p0 p1 p2 : Part} {c : Component} {n : Nat}, c = ⟨w * 4, 0, w, h, h * w * 4⟩ → n = w * h * 4 / 1 →
      arraysOf fmt w h = (if w * h * 4 % 1 ≠ 0 then Except.error ArrErr.value else .ok (interleaved444 n 1 k0 k1 k2 4 c)) →
      itemsize fmt = some 1 → partNames fmt = [p0, p1, p2] → sizeForFormat fmt w h = w * h * 4 →
      k0 < 4 → k1 < 4 → k2 < 4 → (∀ p ∈ [p0, p1, p2], p ≠ .U ∧ p ≠ .V) → o.length = 4 →
      (IsNth o p0 0 k0 ∧ IsNth o p1 0 k1 ∧ IsNth o p2 0 k2) →
      (∀ p ∈ [p0, p1, p2], ((List.range o.length).filter (fun i => lineSample o i = some p)).length = 1) →
      ∃ views item, arraysOf fmt w h = .ok views ∧ itemsize fmt = some item ∧ views.length = (partNames fmt).length ∧
      ∀ (c : Nat) (v : View) (p : Part), views[c]? = some v → (partNames fmt)[c]? = some p →
        v.height = h ∧ v.width = (if p = .U ∨ p = .V then w / 2 else w) ∧ ∀ x y, x < v.width → y < h →
          ∃ j, IsNth o p x j ∧ v.addr x y = y * (sizeForFormat fmt w h / h) + item * j ∧
            item * (j + 1) ≤ sizeForFormat fmt w h / h := by
    intro k0 k1 k2 p0 p1 p2 c n hc hn ha hi hnm hsz hk0 hk1 hk2 hp hol hI hcount
    subst hc hn
    rw [if_neg (by omega)] at ha
    refine done ha hi hnm rfl (line := w * 4) (by rw [hsz]; exact VideoArrays.per_line hh) ?_
    have a0 := VideoArrays.nth_one hI.1 (hcount p0 (by simp))
    have a1 := VideoArrays.nth_one hI.2.1 (hcount p1 (by simp))
    have a2 := VideoArrays.nth_one hI.2.2 (hcount p2 (by simp))
    rw [hol] at a0 a1 a2
    exact VideoArrays.packed_444 rfl rfl rfl (by omega) (by rw [Nat.mul_assoc 4]; omega) hk0 hk1 hk2 hp a0 a1 a2
  have pick : ∀ {f : Nat} {l : List Part} {r : Option (List Part)}, (if fmt = f then some l else r) = some o →
      (fmt = f ∧ o = l) ∨ r = some o := by
    intro f l r h
    split at h
    · cases h; exact .inl ⟨by assumption, rfl⟩
    · exact .inr h
  rcases pick ho with ⟨rfl, rfl⟩ | ho
  · exact four (k0 := 0) (k1 := 1) (k2 := 2) rfl rfl rfl rfl (p0 := .R) (p1 := .G) (p2 := .B) (by decide) rfl (by decide) (by decide) (by decide)
      (by decide) rfl (by unfold IsNth; decide) (by decide)
  rcases pick ho with ⟨rfl, rfl⟩ | ho
  · exact four (k0 := 0) (k1 := 1) (k2 := 2) rfl rfl rfl rfl (p0 := .R) (p1 := .G) (p2 := .B) (by decide) rfl (by decide) (by decide) (by decide)
      (by decide) rfl (by unfold IsNth; decide) (by decide)
  rcases pick ho with ⟨rfl, rfl⟩ | ho
  · exact four (k0 := 0) (k1 := 1) (k2 := 2) rfl rfl rfl rfl (p0 := .B) (p1 := .G) (p2 := .R) (by decide) rfl (by decide) (by decide) (by decide)
      (by decide) rfl (by unfold IsNth; decide) (by decide)
  rcases pick ho with ⟨rfl, rfl⟩ | ho
  · exact four (k0 := 1) (k1 := 2) (k2 := 3) rfl rfl rfl rfl (p0 := .R) (p1 := .G) (p2 := .B) (by decide) rfl (by decide) (by decide) (by decide)
      (by decide) rfl (by unfold IsNth; decide) (by decide)
  rcases pick ho with ⟨rfl, rfl⟩ | ho
  · exact four (k0 := 1) (k1 := 2) (k2 := 3) rfl rfl rfl rfl (p0 := .R) (p1 := .G) (p2 := .B) (by decide) rfl (by decide) (by decide) (by decide)
      (by decide) rfl (by unfold IsNth; decide) (by decide)
  rcases pick ho with ⟨rfl, rfl⟩ | ho
  · exact four (k0 := 1) (k1 := 2) (k2 := 3) rfl rfl rfl rfl (p0 := .B) (p1 := .G) (p2 := .R) (by decide) rfl (by decide) (by decide) (by decide)
      (by decide) rfl (by unfold IsNth; decide) (by decide)
  rcases pick ho with ⟨rfl, rfl⟩ | ho
  · exact four (k0 := 1) (k1 := 2) (k2 := 3) rfl rfl rfl rfl (p0 := .B) (p1 := .G) (p2 := .R) (by decide) rfl (by decide) (by decide) (by decide)
      (by decide) rfl (by unfold IsNth; decide) (by decide)
  cases ho

/-! ## Where it fails -/

/-- The arrays of AYUV grains reach past the end of the data, at every size: the last element of the third
array is outside.  (The size of the format counts two bytes for a pixel of four.) -/
theorem C55_ayuv_counterexample (w h : Nat) (hw : 0 < w) (hh : 0 < h) (data : Bytes)
    (hd : data.length = sizeForFormat FrameFormat.AYUV w h) : ∃ views v, arraysOf FrameFormat.AYUV w h = .ok views ∧
      views[2]? = some v ∧ w - 1 < v.width ∧ h - 1 < v.height ∧ v.get data (w - 1) (h - 1) = none := by
  refine ⟨interleaved444 (w * h * 2 / 1) 1 1 2 3 4 ⟨w * 2, 0, w, h, h * w * 2⟩, _, ?_, rfl, ?_, ?_, ?_⟩
  · show (if w * h * 2 % 1 ≠ 0 then Except.error ArrErr.value else .ok _) = _
    rw [if_neg (by omega)]
    rfl
  · show w - 1 < w; omega
  · show h - 1 < h; omega
  · have hd : data.length = w * h * 2 := hd
    unfold View.get View.addr strided
    rw [if_neg]
    simp only
    rw [hd, Nat.div_one]
    obtain ⟨h', rfl⟩ : ∃ h', h = h' + 1 := ⟨h - 1, by omega⟩
    have e : w * (h' + 1) * 2 = h' * (w * 2) + w * 2 := by
      rw [Nat.mul_add, Nat.add_mul, Nat.mul_one, Nat.mul_comm w h', Nat.mul_assoc]
    rw [e, Nat.add_sub_cancel]
    generalize h' * (w * 2) = z
    omega

/-- Two different elements of an AYUV array are the same byte. -/
theorem C55_ayuv_overlap_counterexample : ∃ views v, arraysOf FrameFormat.AYUV 2 2 = .ok views ∧ views[0]? = some v ∧
    1 < v.width ∧ 1 < v.height ∧ v.addr 1 0 = v.addr 0 1 := by
  refine ⟨_, _, rfl, rfl, ?_⟩
  decide

/-- There is no grain for BGRA, a format that has a size, components and named arrays: the table has `BGRx` twice
instead. -/
theorem C55_bgra_counterexample (w h : Nat) : arraysOf FrameFormat.BGRA w h = .error .notImplemented ∧
    sizeForFormat FrameFormat.BGRA w h = w * h * 4 ∧ partNames FrameFormat.BGRA = [.B, .G, .R] :=
  ⟨rfl, rfl, by decide⟩

/-- v210 grains have no arrays. -/
theorem C55_v210 (w h : Nat) : arraysOf FrameFormat.v210 w h = .ok [] := by
  show (if h * ((w + 47) / 48 * 128) % 4 ≠ 0 then Except.error ArrErr.value else .ok []) = _
  rw [if_neg]
  rw [← Nat.mul_assoc]
  omega

/-- Nothing compares the amount of data with the components: with a third of the data the arrays are made, and
those of the chroma are in memory that is not the grain's. -/
theorem C55_short_counterexample : ∃ views v,
    videoArrays FrameFormat.U8_444 4 (componentsForFormat FrameFormat.U8_444 2 2) = .ok views ∧ views[1]? = some v ∧
      0 < v.width ∧ 0 < v.height ∧ v.get [1, 2, 3, 4] 0 0 = none := by
  refine ⟨_, _, rfl, rfl, ?_⟩
  decide

/-! ## Examples -/

example : (arraysOf FrameFormat.U8_420 5 3).toOption = some [⟨0, 1, 5, 3, 5, 1⟩, ⟨15, 1, 2, 1, 2, 1⟩, ⟨18, 1, 2, 1, 2, 1⟩] := by
  decide

example : (arraysOf FrameFormat.UYVY 4 2).toOption = some [⟨1, 1, 4, 2, 8, 2⟩, ⟨0, 1, 2, 2, 8, 4⟩, ⟨2, 1, 2, 2, 8, 4⟩] := by
  decide

example : packedOrder FrameFormat.v216 = some [.U, .Y, .V, .Y] ∧ IsNth [.U, .Y, .V, .Y] .V 1 6 := by
  unfold IsNth; decide

end Verif.Props

import Verif.Pattern.Video

/-!
# Lemmas about drawing in the data of a frame
-/

namespace Verif.Pattern

open Verif.Cog

theorem patch_length {d : Bytes} {a : Nat} {line : Bytes} (h : a + line.length ≤ d.length) : (patch d a line).length = d.length := by
  unfold patch
  simp only [List.length_append, List.length_take, List.length_drop]
  omega

theorem patch_in {d : Bytes} {a j : Nat} {line : Bytes} (h : a + line.length ≤ d.length) (hj : j < line.length) :
    (patch d a line).getD (a + j) 0 = line.getD j 0 := by
  unfold patch
  simp only [List.getD_eq_getElem?_getD, List.append_assoc]
  rw [List.getElem?_append_right (by rw [List.length_take]; omega), List.length_take, Nat.min_eq_left (by omega),
    Nat.add_sub_cancel_left, List.getElem?_append_left hj]

theorem patch_out {d : Bytes} {a i : Nat} {line : Bytes} (h : a + line.length ≤ d.length) (hi : i < a ∨ a + line.length ≤ i) :
    (patch d a line).getD i 0 = d.getD i 0 := by
  unfold patch
  simp only [List.getD_eq_getElem?_getD, List.append_assoc]
  rcases hi with hi | hi
  · rw [List.getElem?_append_left (by rw [List.length_take]; omega), List.getElem?_take_of_lt hi]
  · rw [List.getElem?_append_right (by rw [List.length_take]; omega), List.length_take, Nat.min_eq_left (by omega),
      List.getElem?_append_right (by omega), List.getElem?_drop]
    congr 2
    omega

theorem patchRows_spec (off stride : Nat) (line : Nat → Bytes) (n : Nat) (d : Bytes) (hl : ∀ y, (line y).length = stride)
    (h : off + n * stride ≤ d.length) :
    (patchRows off stride line n d).length = d.length ∧
    (∀ y j, y < n → j < stride → (patchRows off stride line n d).getD (off + y * stride + j) 0 = (line y).getD j 0) ∧
    (∀ i, i < off ∨ off + n * stride ≤ i → (patchRows off stride line n d).getD i 0 = d.getD i 0) := by
  induction n with
  | zero => exact ⟨rfl, fun y j hy _ => absurd hy (by omega), fun i _ => rfl⟩
  | succ n ih =>
    have hs : (n + 1) * stride = n * stride + stride := Nat.succ_mul n stride
    obtain ⟨h1, h2, h3⟩ := ih (by omega)
    have hf : (off + n * stride) + (line n).length ≤ (patchRows off stride line n d).length := by rw [hl, h1]; omega
    have he : patchRows off stride line (n + 1) d = patch (patchRows off stride line n d) (off + n * stride) (line n) := rfl
    refine ⟨by rw [he, patch_length hf, h1], ?_, ?_⟩
    · intro y j hy hj
      rw [he]
      by_cases hyn : y = n
      · subst hyn
        exact patch_in hf (by rw [hl]; exact hj)
      · have hyl : y < n := by omega
        have hm : (y + 1) * stride ≤ n * stride := Nat.mul_le_mul_right _ hyl
        rw [Nat.succ_mul] at hm
        rw [patch_out hf (Or.inl (by omega)), h2 y j hyl hj]
    · intro i hi
      rw [he, patch_out hf (by rw [hl]; omega), h3 i (by omega)]

theorem foldl_set_length (ws : List (Nat × UInt8)) (d : Bytes) : (ws.foldl (fun d w => d.set w.1 w.2) d).length = d.length := by
  induction ws generalizing d with
  | nil => rfl
  | cons w ws ih => rw [List.foldl_cons, ih, List.length_set]

theorem foldl_set_out (ws : List (Nat × UInt8)) (d : Bytes) (i : Nat) (h : ∀ w ∈ ws, w.1 ≠ i) :
    (ws.foldl (fun d w => d.set w.1 w.2) d).getD i 0 = d.getD i 0 := by
  induction ws generalizing d with
  | nil => rfl
  | cons w ws ih =>
    rw [List.foldl_cons, ih _ (fun v hv => h v (List.mem_cons_of_mem _ hv)), List.getD_eq_getElem?_getD, List.getD_eq_getElem?_getD,
      List.getElem?_set_ne (h w List.mem_cons_self)]

theorem foldl_set_in (ws : List (Nat × UInt8)) (d : Bytes) (i : Nat) (b : UInt8) (hi : i < d.length)
    (hb : ∀ w ∈ ws, w.1 = i → w.2 = b) (h : (∃ w ∈ ws, w.1 = i) ∨ d.getD i 0 = b) :
    (ws.foldl (fun d w => d.set w.1 w.2) d).getD i 0 = b := by
  induction ws generalizing d with
  | nil =>
    rcases h with ⟨w, hw, _⟩ | h
    · cases hw
    · exact h
  | cons w ws ih =>
    rw [List.foldl_cons]
    apply ih _ (by rw [List.length_set]; exact hi) (fun v hv => hb v (List.mem_cons_of_mem _ hv))
    by_cases hw : w.1 = i
    · right
      rw [List.getD_eq_getElem?_getD, hw, List.getElem?_set_self hi]
      exact hb w List.mem_cons_self hw
    · rcases h with ⟨v, hv, hvi⟩ | h
      · rcases List.mem_cons.1 hv with rfl | hv
        · exact absurd hvi hw
        · exact Or.inl ⟨v, hv, hvi⟩
      · right
        rw [List.getD_eq_getElem?_getD, List.getElem?_set_ne hw, ← List.getD_eq_getElem?_getD]
        exact h

theorem sampleBytes_length {bpp : Nat} (h : bpp = 1 ∨ bpp = 2) (v : Nat) : (sampleBytes bpp v).length = bpp := by
  rcases h with rfl | rfl <;> rfl

theorem samples_length {bpp : Nat} (h : bpp = 1 ∨ bpp = 2) (vs : List Nat) : (vs.flatMap (sampleBytes bpp)).length = vs.length * bpp := by
  induction vs with
  | nil => simp
  | cons v vs ih => rw [List.flatMap_cons, List.length_append, ih, sampleBytes_length h, List.length_cons, Nat.succ_mul, Nat.add_comm]

theorem samples_getD {bpp : Nat} (h : bpp = 1 ∨ bpp = 2) (vs : List Nat) (x k : Nat) (hx : x < vs.length) (hk : k < bpp) :
    (vs.flatMap (sampleBytes bpp)).getD (x * bpp + k) 0 = (sampleBytes bpp (vs.getD x 0)).getD k 0 := by
  induction vs generalizing x with
  | nil => simp at hx
  | cons v vs ih =>
    rw [List.flatMap_cons]
    cases x with
    | zero =>
      rw [Nat.zero_mul, Nat.zero_add, List.getD_eq_getElem?_getD, List.getElem?_append_left (by rw [sampleBytes_length h]; exact hk)]
      simp [List.getD_eq_getElem?_getD]
    | succ x =>
      have := ih x (by simpa using hx)
      rw [List.getD_eq_getElem?_getD, List.getElem?_append_right (by rw [sampleBytes_length h, Nat.succ_mul]; omega),
        sampleBytes_length h, ← List.getD_eq_getElem?_getD]
      have e : (x + 1) * bpp + k - bpp = x * bpp + k := by rw [Nat.succ_mul]; omega
      rw [e, this]
      simp [List.getD_eq_getElem?_getD]

/-- The number at one place of a component, little endian. -/
def sampleAt (bpp : Nat) (c : Component) (data : Bytes) (x y : Nat) : Nat :=
  let i := c.offset + y * c.stride + x * bpp
  if bpp = 1 then (data.getD i 0).toNat else (data.getD i 0).toNat + 256 * (data.getD (i + 1) 0).toNat

theorem low_toNat (v : Nat) : (low v).toNat = v % 256 := by
  unfold low
  rw [UInt8.toNat_ofNat']
  omega

theorem sampleAt_of_bytes {bpp : Nat} (h : bpp = 1 ∨ bpp = 2) {c : Component} {data : Bytes} {x y v : Nat}
    (hb : ∀ k, k < bpp → data.getD (c.offset + y * c.stride + (x * bpp + k)) 0 = (sampleBytes bpp v).getD k 0) :
    sampleAt bpp c data x y = v % 256 ^ bpp := by
  unfold sampleAt
  rcases h with rfl | rfl
  · have h0 := hb 0 (by omega)
    rw [Nat.add_zero] at h0
    simp only [if_true, Nat.mul_one] at h0 ⊢
    rw [h0]
    show (low v).toNat = _
    rw [low_toNat]
  · have h0 := hb 0 (by omega)
    have h1 := hb 1 (by omega)
    rw [Nat.add_zero] at h0
    rw [← Nat.add_assoc] at h1
    have e : ¬ (2 : Nat) = 1 := by omega
    simp only [if_neg e]
    rw [h0, h1]
    show (low v).toNat + 256 * (low (v / 256)).toNat = _
    rw [low_toNat, low_toNat]
    omega

theorem sampleAt_congr {bpp : Nat} (h : bpp = 1 ∨ bpp = 2) {c : Component} {d d' : Bytes} {x y : Nat}
    (hb : ∀ k, k < bpp → d.getD (c.offset + y * c.stride + (x * bpp + k)) 0 = d'.getD (c.offset + y * c.stride + (x * bpp + k)) 0) :
    sampleAt bpp c d x y = sampleAt bpp c d' x y := by
  unfold sampleAt
  rcases h with rfl | rfl
  · have h0 := hb 0 (by omega)
    rw [Nat.add_zero] at h0
    simp only [if_true]
    rw [h0]
  · have h0 := hb 0 (by omega)
    have h1 := hb 1 (by omega)
    rw [Nat.add_zero] at h0
    rw [← Nat.add_assoc] at h1
    have e : ¬ (2 : Nat) = 1 := by omega
    simp only [if_neg e]
    rw [h0, h1]

/-- A component whose lines are packed and inside the first `size` bytes. -/
structure Fits (bpp size : Nat) (c : Component) : Prop where
  stride : c.stride = c.width * bpp
  inside : c.offset + c.height * c.stride ≤ size

theorem place_lt {bpp w x k : Nat} (hx : x < w) (hk : k < bpp) : x * bpp + k < w * bpp := by
  have : (x + 1) * bpp ≤ w * bpp := Nat.mul_le_mul_right _ hx
  rw [Nat.succ_mul] at this
  omega

theorem row_lt {s h y j : Nat} (hy : y < h) (hj : j < s) : y * s + j < h * s := by
  have : (y + 1) * s ≤ h * s := Nat.mul_le_mul_right _ hy
  rw [Nat.succ_mul] at this
  omega

/-- Two components which do not overlap. -/
def Apart (c c' : Component) : Prop := c.offset + c.height * c.stride ≤ c'.offset ∨ c'.offset + c'.height * c'.stride ≤ c.offset

/-- All lines of a component written: what is seen afterwards. -/
theorem fill_spec {bpp : Nat} (hb : bpp = 1 ∨ bpp = 2) {c : Component} {d : Bytes} (hc : Fits bpp d.length c) (vs : List Nat)
    (hv : vs.length = c.width) :
    let r := patchRows c.offset c.stride (fun _ => vs.flatMap (sampleBytes bpp)) c.height d
    r.length = d.length ∧ (∀ x y, x < c.width → y < c.height → sampleAt bpp c r x y = vs.getD x 0 % 256 ^ bpp) ∧
    (∀ c', Fits bpp d.length c' → Apart c c' → ∀ x y, x < c'.width → y < c'.height → sampleAt bpp c' r x y = sampleAt bpp c' d x y) := by
  intro r
  have hl : (vs.flatMap (sampleBytes bpp)).length = c.stride := by rw [samples_length hb, hv, hc.stride]
  obtain ⟨h1, h2, h3⟩ := patchRows_spec c.offset c.stride (fun _ => vs.flatMap (sampleBytes bpp)) c.height d (fun _ => hl) hc.inside
  refine ⟨h1, ?_, ?_⟩
  · intro x y hx hy
    apply sampleAt_of_bytes hb
    intro k hk
    rw [h2 y _ hy (by rw [hc.stride]; exact place_lt hx hk)]
    exact samples_getD hb vs x k (by omega) hk
  · intro c' hc' ha x y hx hy
    apply sampleAt_congr hb
    intro k hk
    apply h3
    have hp : x * bpp + k < c'.stride := by rw [hc'.stride]; exact place_lt hx hk
    have := row_lt hy hp
    rcases ha with ha | ha <;> omega

/-- The layout of the twelve formats. -/
theorem layout {fmt : Nat} {r : PixelRange} (hr : pixelRanges.lookup fmt = some r) (w h : Nat) :
    (r.bpp = 1 ∨ r.bpp = 2) ∧
    (component fmt w h 0).width = w ∧ (component fmt w h 0).height = h ∧
    (component fmt w h 1).width = w >>> hShift fmt ∧ (component fmt w h 1).height = h >>> vShift fmt ∧
    (component fmt w h 2).width = w >>> hShift fmt ∧ (component fmt w h 2).height = h >>> vShift fmt ∧
    (∀ i, i < 3 → Fits r.bpp (sizeForFormat fmt w h) (component fmt w h i)) ∧
    (∀ i j, i < j → j < 3 → Apart (component fmt w h i) (component fmt w h j)) := by
  have hm : ∀ p ∈ pixelRanges, (p.1 >>> 8) &&& 0x1 = 0 ∧ bytesPerValue p.1 = p.2.bpp ∧ (p.2.bpp = 1 ∨ p.2.bpp = 2) := by
    decide +kernel
  have hl : ∀ (l : List (Nat × PixelRange)), l.lookup fmt = some r → (fmt, r) ∈ l := by
    intro l
    induction l with
    | nil => intro h; cases h
    | cons p l ih =>
      intro h
      rw [List.lookup_cons] at h
      by_cases hp : fmt = p.1
      · subst hp
        simp at h
        rw [← h]
        exact List.mem_cons_self
      · have : (fmt == p.1) = false := by simpa using hp
        rw [this] at h
        exact List.mem_cons_of_mem _ (ih h)
  obtain ⟨h1, h2, h3⟩ := hm _ (hl _ hr)
  simp only at h1 h2 h3
  have hcs : componentsForFormat fmt w h =
      [⟨w * r.bpp, 0, w, h, w * h * r.bpp⟩,
      ⟨(w >>> hShift fmt) * r.bpp, 0 + w * h * r.bpp, w >>> hShift fmt, h >>> vShift fmt, ((w * h) >>> (hShift fmt + vShift fmt)) * r.bpp⟩,
      ⟨(w >>> hShift fmt) * r.bpp, 0 + w * h * r.bpp + ((w * h) >>> (hShift fmt + vShift fmt)) * r.bpp, w >>> hShift fmt, h >>> vShift fmt,
        ((w * h) >>> (hShift fmt + vShift fmt)) * r.bpp⟩] := by
    unfold componentsForFormat
    rw [if_pos h1, h2]
  have hsz : sizeForFormat fmt w h = (w * h + 2 * ((w * h) >>> (hShift fmt + vShift fmt))) * r.bpp := by
    unfold sizeForFormat
    rw [if_pos h1, h2]
  have hle : (h >>> vShift fmt) * ((w >>> hShift fmt) * r.bpp) ≤ ((w * h) >>> (hShift fmt + vShift fmt)) * r.bpp := by
    rw [← Nat.mul_assoc]
    apply Nat.mul_le_mul_right
    rw [Nat.shiftRight_eq_div_pow, Nat.shiftRight_eq_div_pow, Nat.shiftRight_eq_div_pow, Nat.pow_add,
      Nat.le_div_iff_mul_le (Nat.mul_pos (Nat.two_pow_pos _) (Nat.two_pow_pos _))]
    have a := Nat.div_mul_le_self w (2 ^ hShift fmt)
    have b := Nat.div_mul_le_self h (2 ^ vShift fmt)
    calc _ = (w / 2 ^ hShift fmt * 2 ^ hShift fmt) * (h / 2 ^ vShift fmt * 2 ^ vShift fmt) := by ac_rfl
      _ ≤ w * h := Nat.mul_le_mul a b
  have h0 : h * (w * r.bpp) = w * h * r.bpp := by ac_rfl
  have hsz' : sizeForFormat fmt w h = w * h * r.bpp + 2 * (((w * h) >>> (hShift fmt + vShift fmt)) * r.bpp) := by
    rw [hsz, Nat.add_mul, Nat.mul_assoc 2]
  unfold component
  rw [hcs]
  refine ⟨h3, rfl, rfl, rfl, rfl, rfl, rfl, ?_, ?_⟩
  · intro i hi
    match i, hi with
    | 0, _ => exact ⟨rfl, by rw [hsz']; show 0 + h * (w * r.bpp) ≤ _; omega⟩
    | 1, _ => exact ⟨rfl, by rw [hsz']; show 0 + w * h * r.bpp + (h >>> vShift fmt) * ((w >>> hShift fmt) * r.bpp) ≤ _; omega⟩
    | 2, _ =>
      refine ⟨rfl, ?_⟩
      rw [hsz']
      show 0 + w * h * r.bpp + ((w * h) >>> (hShift fmt + vShift fmt)) * r.bpp + (h >>> vShift fmt) * ((w >>> hShift fmt) * r.bpp) ≤ _
      omega
  · intro i j hij hj
    left
    match i, j, hij, hj with
    | 0, 1, _, _ => show 0 + h * (w * r.bpp) ≤ 0 + w * h * r.bpp; omega
    | 0, 2, _, _ => show 0 + h * (w * r.bpp) ≤ 0 + w * h * r.bpp + ((w * h) >>> (hShift fmt + vShift fmt)) * r.bpp; omega
    | 1, 2, _, _ =>
      show 0 + w * h * r.bpp + (h >>> vShift fmt) * ((w >>> hShift fmt) * r.bpp) ≤
        0 + w * h * r.bpp + ((w * h) >>> (hShift fmt + vShift fmt)) * r.bpp
      omega
    | i + 2, j, a, b => exact absurd a (by omega)

theorem mem_chromaWrites {r : PixelRange} {c1 c2 : Component} {w : Nat × UInt8} (hb : r.bpp = 1 ∨ r.bpp = 2) :
    w ∈ chromaWrites r c1 c2 ↔ ∃ y x k, y < c1.height ∧ x < c1.width ∧ k < r.bpp ∧
      (w = (c1.offset + y * c1.stride + (x * r.bpp + k), (sampleBytes r.bpp r.chroma.1).getD k 0) ∨
       w = (c2.offset + y * c2.stride + (x * r.bpp + k), (sampleBytes r.bpp r.chroma.1).getD k 0)) := by
  unfold chromaWrites
  simp only [List.mem_flatMap, List.mem_range]
  constructor
  · rintro ⟨y, hy, x, hx, hw⟩
    rcases hb with hb | hb
    · rw [if_pos hb] at hw
      simp only [List.mem_cons, List.not_mem_nil, or_false] at hw
      refine ⟨y, x, 0, hy, hx, by omega, ?_⟩
      simp only [hb, Nat.mul_one, Nat.add_zero]
      exact hw
    · rw [if_neg (by omega)] at hw
      simp only [List.mem_cons, List.not_mem_nil, or_false] at hw
      simp only [hb]
      rw [Nat.mul_comm 2 x] at hw
      rcases hw with hw | hw | hw | hw
      · exact ⟨y, x, 0, hy, hx, by omega, Or.inl hw⟩
      · exact ⟨y, x, 1, hy, hx, by omega, Or.inl hw⟩
      · exact ⟨y, x, 0, hy, hx, by omega, Or.inr hw⟩
      · exact ⟨y, x, 1, hy, hx, by omega, Or.inr hw⟩
  · rintro ⟨y, x, k, hy, hx, hk, hw⟩
    refine ⟨y, hy, x, hx, ?_⟩
    rcases hb with hb | hb
    · rw [if_pos hb]
      have : k = 0 := by omega
      subst this
      simp only [hb, Nat.mul_one, Nat.add_zero] at hw
      simp only [List.mem_cons, List.not_mem_nil, or_false]
      exact hw
    · rw [if_neg (by omega)]
      simp only [hb, Nat.mul_comm x 2] at hw
      simp only [List.mem_cons, List.not_mem_nil, or_false]
      have : k = 0 ∨ k = 1 := by omega
      rcases this with rfl | rfl
      · rcases hw with hw | hw
        · exact Or.inl hw
        · exact Or.inr (Or.inr (Or.inl hw))
      · rcases hw with hw | hw
        · exact Or.inr (Or.inl hw)
        · exact Or.inr (Or.inr (Or.inr hw))

/-- Places in the lines of a component determine line and byte. -/
theorem place_unique {s y y' j j' : Nat} (hj : j < s) (hj' : j' < s) (h : y * s + j = y' * s + j') : y = y' ∧ j = j' := by
  rcases Nat.lt_trichotomy y y' with hlt | rfl | hlt
  · have := row_lt hlt hj; omega
  · exact ⟨rfl, by omega⟩
  · have := row_lt hlt hj'; omega

/-- The chroma samples drawn one by one: what is seen afterwards. -/
theorem chroma_spec {r : PixelRange} (hb : r.bpp = 1 ∨ r.bpp = 2) {c1 c2 : Component} {d : Bytes} (h1 : Fits r.bpp d.length c1)
    (h2 : Fits r.bpp d.length c2) (ha : Apart c1 c2) (hw : c2.width = c1.width) (hh : c2.height = c1.height) :
    ∃ d', poke d (chromaWrites r c1 c2) = some d' ∧ d'.length = d.length ∧
    (∀ c, (c = c1 ∨ c = c2) → ∀ x y, x < c.width → y < c.height → sampleAt r.bpp c d' x y = r.chroma.1 % 256 ^ r.bpp) ∧
    (∀ c', Fits r.bpp d.length c' → Apart c' c1 → Apart c' c2 → ∀ x y, x < c'.width → y < c'.height →
      sampleAt r.bpp c' d' x y = sampleAt r.bpp c' d x y) := by
  have hpos : ∀ (c : Component), Fits r.bpp d.length c → ∀ x y k, x < c.width → y < c.height → k < r.bpp →
      x * r.bpp + k < c.stride ∧ y * c.stride + (x * r.bpp + k) < c.height * c.stride := by
    intro c hc x y k hx hy hk
    have hp : x * r.bpp + k < c.stride := by rw [hc.stride]; exact place_lt hx hk
    exact ⟨hp, row_lt hy hp⟩
  have hall : (chromaWrites r c1 c2).all (fun w => w.1 < d.length) = true := by
    rw [List.all_eq_true]
    intro w hm
    obtain ⟨y, x, k, hy, hx, hk, hw'⟩ := (mem_chromaWrites hb).1 hm
    rw [decide_eq_true_eq]
    rcases hw' with rfl | rfl
    · have := (hpos c1 h1 x y k hx hy hk).2
      have := h1.inside
      simp only
      omega
    · have := (hpos c2 h2 x y k (by omega) (by omega) hk).2
      have := h2.inside
      simp only
      omega
  refine ⟨_, by unfold poke; rw [if_pos hall], foldl_set_length _ _, ?_, ?_⟩
  · intro c hc x y hx hy
    have hfc : Fits r.bpp d.length c := by rcases hc with rfl | rfl <;> assumption
    apply sampleAt_of_bytes hb
    intro k hk
    have hp := hpos c hfc x y k hx hy hk
    apply foldl_set_in
    · have := hfc.inside; omega
    · intro w hm hi
      obtain ⟨y', x', k', hy', hx', hk', hw'⟩ := (mem_chromaWrites hb).1 hm
      have hp1 := hpos c1 h1 x' y' k' hx' hy' hk'
      have hp2 := hpos c2 h2 x' y' k' (by omega) (by omega) hk'
      have key : ∀ (s : Nat), s = c.stride → y' * s + (x' * r.bpp + k') = y * s + (x * r.bpp + k) → x' * r.bpp + k' < s → k' = k := by
        intro s hs he hlt
        have h3 := (place_unique hlt (by rw [hs]; exact hp.1) he).2
        exact (place_unique hk' hk h3).2
      rcases hw' with rfl | rfl
      · rcases hc with rfl | rfl
        · simp only at hi ⊢
          rw [key _ rfl (by omega) hp1.1]
        · simp only at hi
          rcases ha with ha | ha <;> omega
      · rcases hc with rfl | rfl
        · simp only at hi
          rcases ha with ha | ha <;> omega
        · simp only at hi ⊢
          rw [key _ rfl (by omega) hp2.1]
    · left
      rcases hc with rfl | rfl
      · exact ⟨_, (mem_chromaWrites hb).2 ⟨y, x, k, hy, hx, hk, Or.inl rfl⟩, rfl⟩
      · exact ⟨_, (mem_chromaWrites hb).2 ⟨y, x, k, by omega, by omega, hk, Or.inr rfl⟩, rfl⟩
  · intro c' hc' ha1 ha2 x y hx hy
    apply sampleAt_congr hb
    intro k hk
    have hp := hpos c' hc' x y k hx hy hk
    apply foldl_set_out
    intro w hm hi
    obtain ⟨y', x', k', hy', hx', hk', hw'⟩ := (mem_chromaWrites hb).1 hm
    have hp1 := hpos c1 h1 x' y' k' hx' hy' hk'
    have hp2 := hpos c2 h2 x' y' k' (by omega) (by omega) hk'
    rcases hw' with rfl | rfl
    · simp only at hi
      rcases ha1 with ha1 | ha1 <;> omega
    · simp only at hi
      rcases ha2 with ha2 | ha2 <;> omega

/-- Lines of a bar drawn in a component: what is seen afterwards. -/
theorem drawBar_spec {r : PixelRange} (hb : r.bpp = 1 ∨ r.bpp = 2) {c : Component} {d : Bytes} (hc : Fits r.bpp d.length c)
    (first : Int) (v n : Nat) (hn : n = 0 ∨ 0 < c.height) :
    ∃ d', drawBar r c first v n d = some d' ∧ d'.length = d.length ∧
    (∀ x y, x < c.width → y < c.height → sampleAt r.bpp c d' x y =
      if ∃ k, k < n ∧ (first + (k : Int)) % (c.height : Int) = (y : Int) then v % 256 ^ r.bpp else sampleAt r.bpp c d x y) ∧
    (∀ c', Fits r.bpp d.length c' → Apart c c' → ∀ x y, x < c'.width → y < c'.height →
      sampleAt r.bpp c' d' x y = sampleAt r.bpp c' d x y) := by
  induction n with
  | zero =>
    refine ⟨d, rfl, rfl, ?_, fun _ _ _ _ _ _ _ => rfl⟩
    intro x y _ _
    rw [if_neg]
    rintro ⟨k, hk, _⟩
    omega
  | succ n ih =>
    have hh : 0 < c.height := by omega
    obtain ⟨d', e, hl, hin, hout⟩ := ih (Or.inr hh)
    have hz : ¬ c.height = 0 := by omega
    have hline : ((List.replicate c.width (sampleBytes r.bpp v)).flatten).length = c.stride := by
      have := samples_length hb (List.replicate c.width v)
      rw [List.flatMap_def, List.map_replicate, List.length_replicate] at this
      rw [this, hc.stride]
    have hrow : ((first + (n : Int)) % (c.height : Int)).toNat < c.height := by
      have := Int.emod_lt_of_pos (first + (n : Int)) (by omega : (0 : Int) < (c.height : Int))
      have := Int.emod_nonneg (first + (n : Int)) (by omega : (c.height : Int) ≠ 0)
      omega
    have hnn : ((((first + (n : Int)) % (c.height : Int)).toNat : Nat) : Int) = (first + (n : Int)) % (c.height : Int) :=
      Int.toNat_of_nonneg (Int.emod_nonneg _ (by omega))
    generalize hro : ((first + (n : Int)) % (c.height : Int)).toNat = row at hrow hnn
    have hfit : (c.offset + row * c.stride) + ((List.replicate c.width (sampleBytes r.bpp v)).flatten).length ≤ d'.length := by
      have : (row + 1) * c.stride ≤ c.height * c.stride := Nat.mul_le_mul_right _ hrow
      rw [Nat.succ_mul] at this
      have := hc.inside
      rw [hline, hl]
      omega
    refine ⟨_, by unfold drawBar; rw [if_neg hz, e, Option.map_some, hro], ?_, ?_, ?_⟩
    · rw [patch_length hfit, hl]
    · intro x y hx hy
      by_cases hyr : y = row
      · subst hyr
        rw [if_pos ⟨n, by omega, hnn.symm⟩]
        apply sampleAt_of_bytes hb
        intro k hk
        have hp : x * r.bpp + k < c.stride := by rw [hc.stride]; exact place_lt hx hk
        rw [patch_in hfit (by rw [hline]; exact hp)]
        have := samples_getD hb (List.replicate c.width v) x k (by rw [List.length_replicate]; exact hx) hk
        rw [List.flatMap_def, List.map_replicate] at this
        rw [this]
        congr 2
        rw [List.getD_eq_getElem?_getD, List.getElem?_replicate, if_pos hx]
        rfl
      · have e2 : sampleAt r.bpp c (patch d' (c.offset + row * c.stride) (List.replicate c.width (sampleBytes r.bpp v)).flatten) x y =
            sampleAt r.bpp c d' x y := by
          apply sampleAt_congr hb
          intro k hk
          have hp : x * r.bpp + k < c.stride := by rw [hc.stride]; exact place_lt hx hk
          apply patch_out hfit
          rw [hline]
          rcases Nat.lt_or_gt_of_ne hyr with hlt | hlt
          · have := row_lt hlt hp; omega
          · have : (row + 1) * c.stride ≤ y * c.stride := Nat.mul_le_mul_right _ hlt
            rw [Nat.succ_mul] at this
            omega
        rw [e2, hin x y hx hy]
        by_cases hk : ∃ k, k < n ∧ (first + (k : Int)) % (c.height : Int) = (y : Int)
        · rw [if_pos hk, if_pos]
          obtain ⟨k, a, b⟩ := hk
          exact ⟨k, by omega, b⟩
        · rw [if_neg hk, if_neg]
          rintro ⟨k, a, b⟩
          by_cases hkn : k = n
          · subst hkn
            apply hyr
            omega
          · exact hk ⟨k, by omega, b⟩
    · intro c' hc' ha x y hx hy
      rw [← hout c' hc' ha x y hx hy]
      apply sampleAt_congr hb
      intro k hk
      have hp : x * r.bpp + k < c'.stride := by rw [hc'.stride]; exact place_lt hx hk
      have := row_lt hy hp
      apply patch_out hfit
      rw [hline]
      have : (row + 1) * c.stride ≤ c.height * c.stride := Nat.mul_le_mul_right _ hrow
      rw [Nat.succ_mul] at this
      rcases ha with ha | ha <;> omega

end Verif.Pattern

import Verif.Wrap.H264

/-!
# C41: Exp-Golomb codes and emulation prevention
-/

namespace Verif.Props.H264Bits

open Verif Verif.Wrap Verif.Wrap.H264

/-! ## Specification -/

/-- `n` in `w` bits, most significant first. -/
def bin : Nat → Nat → List Bool
  | 0, _ => []
  | w + 1, n => bin w (n / 2) ++ [n % 2 == 1]

/-- ISO/IEC 14496-10, 9.1: the code of `n` is `n + 1` in binary after as many zeros as there are bits after its leading one. -/
def ueCode (n : Nat) : List Bool := List.replicate (Nat.log2 (n + 1)) false ++ bin (Nat.log2 (n + 1) + 1) (n + 1)

/-- 9.1.1: the signed numbers 0, 1, -1, 2, -2, … have the codes of 0, 1, 2, 3, 4, … -/
def seCode (v : Int) : List Bool := ueCode (if v > 0 then (2 * v - 1).toNat else (-2 * v).toNat)

/-- 7.4.1: an emulation prevention byte is put before a byte of at most three that would follow two zero bytes; `z` zeros have
just been written. -/
def escape : Nat → Bytes → Bytes
  | _, [] => []
  | z, x :: r =>
    if 2 ≤ z ∧ x ≤ 3 then 3 :: x :: escape (if x = 0 then 1 else 0) r
    else x :: escape (if x = 0 then z + 1 else 0) r

/-! ## Numbers -/

theorem bin_length (w n : Nat) : (bin w n).length = w := by
  induction w generalizing n with
  | zero => rfl
  | succ w ih => rw [bin, List.length_append, ih]; rfl

theorem natOf_append (l r : List Bool) : natOf (l ++ r) = natOf l * 2 ^ r.length + natOf r := by
  have key : ∀ (r : List Bool) (a : Nat), r.foldl (fun a x => 2 * a + x.toNat) a = a * 2 ^ r.length + natOf r := by
    intro r
    induction r with
    | nil => intro a; simp [natOf]
    | cons x r ih =>
      intro a
      unfold natOf
      rw [List.foldl_cons, List.foldl_cons, ih, ih, List.length_cons, Nat.pow_succ]
      simp only [Nat.mul_zero, Nat.zero_add, Nat.add_mul]
      rw [show 2 * a * 2 ^ r.length = a * (2 ^ r.length * 2) by
        rw [Nat.mul_comm 2 a, Nat.mul_assoc, Nat.mul_comm 2]]
      omega
  unfold natOf
  rw [List.foldl_append, key]
  rfl

theorem natOf_bin (w n : Nat) : natOf (bin w n) = n % 2 ^ w := by
  induction w generalizing n with
  | zero => simp [bin, natOf, Nat.mod_one]
  | succ w ih =>
    rw [bin, natOf_append, ih, List.length_singleton, Nat.pow_one]
    have h : natOf [n % 2 == 1] = n % 2 := by
      unfold natOf
      rcases Nat.mod_two_eq_zero_or_one n with h | h <;> rw [h] <;> rfl
    rw [h, Nat.pow_succ, Nat.mul_comm (2 ^ w) 2, Nat.mod_mul]
    omega

theorem natOf_cons (x : Bool) (l : List Bool) : natOf (x :: l) = x.toNat * 2 ^ l.length + natOf l := by
  have := natOf_append [x] l
  rw [List.singleton_append] at this
  rw [this]
  simp [natOf]

theorem natOf_lt (l : List Bool) : natOf l < 2 ^ l.length := by
  induction l with
  | nil => simp [natOf]
  | cons x l ih =>
    rw [natOf_cons, List.length_cons, Nat.pow_succ]
    cases x
    · simp only [Bool.toNat_false, Nat.zero_mul]; omega
    · simp only [Bool.toNat_true, Nat.one_mul]; omega

theorem natOf_inj {l r : List Bool} (hl : l.length = r.length) (h : natOf l = natOf r) : l = r := by
  induction l generalizing r with
  | nil => cases r with
    | nil => rfl
    | cons y r => simp at hl
  | cons x l ih =>
    cases r with
    | nil => simp at hl
    | cons y r =>
      simp only [List.length_cons, Nat.add_right_cancel_iff] at hl
      rw [natOf_cons, natOf_cons, hl] at h
      have h1 := natOf_lt l
      have h2 := natOf_lt r
      rw [hl] at h1
      cases x <;> cases y <;> simp only [Bool.toNat_true, Bool.toNat_false, Nat.zero_mul, Nat.one_mul, Nat.zero_add] at h
      · rw [ih hl h]
      · omega
      · omega
      · rw [ih hl (by omega)]

theorem bin_natOf (l : List Bool) : bin l.length (natOf l) = l := by
  apply natOf_inj (bin_length _ _)
  rw [natOf_bin, Nat.mod_eq_of_lt (natOf_lt l)]

theorem bin_top {k m : Nat} (h : m < 2 ^ k) : bin (k + 1) (2 ^ k + m) = true :: bin k m := by
  apply natOf_inj
  · rw [bin_length, List.length_cons, bin_length]
  · rw [natOf_bin, natOf_cons, bin_length, natOf_bin, Nat.mod_eq_of_lt h, Nat.mod_eq_of_lt (by rw [Nat.pow_succ]; omega)]
    simp

theorem log2_top {k m : Nat} (h : m < 2 ^ k) : Nat.log2 (2 ^ k + m) = k := by
  have h0 : 2 ^ k + m ≠ 0 := by have := Nat.two_pow_pos k; omega
  have h1 : Nat.log2 (2 ^ k + m) < k + 1 := (Nat.log2_lt h0).2 (by rw [Nat.pow_succ]; omega)
  have h2 : k ≤ Nat.log2 (2 ^ k + m) := (Nat.le_log2 h0).2 (by omega)
  omega

/-- Every number is `2^k - 1 + m` with `m < 2^k`, and its code is `k` zeros, a one, and `m` in `k` bits. -/
theorem ueCode_eq {k m : Nat} (h : m < 2 ^ k) :
    ueCode (2 ^ k - 1 + m) = List.replicate k false ++ true :: bin k m := by
  have hp := Nat.two_pow_pos k
  unfold ueCode
  rw [show 2 ^ k - 1 + m + 1 = 2 ^ k + m by omega, log2_top h, bin_top h]

theorem ue_split (n : Nat) : ∃ k m, m < 2 ^ k ∧ n = 2 ^ k - 1 + m := by
  refine ⟨Nat.log2 (n + 1), n + 1 - 2 ^ Nat.log2 (n + 1), ?_, ?_⟩
  · have := @Nat.lt_log2_self (n + 1)
    rw [Nat.pow_succ] at this
    have := Nat.log2_self_le (n := n + 1) (by omega)
    omega
  · have := Nat.log2_self_le (n := n + 1) (by omega)
    have := Nat.two_pow_pos (Nat.log2 (n + 1))
    omega

theorem leading_eq (k : Nat) (r : List Bool) : leadingZeros (List.replicate k false ++ true :: r) = some (k, r) := by
  induction k with
  | zero => rfl
  | succ k ih => rw [List.replicate_succ, List.cons_append, leadingZeros, ih]; rfl

theorem leading_inv {l r : List Bool} {k : Nat} (h : leadingZeros l = some (k, r)) :
    l = List.replicate k false ++ true :: r := by
  induction l generalizing k with
  | nil => cases h
  | cons x l ih =>
    cases x with
    | true =>
      rw [leadingZeros] at h
      injection h with h
      injection h with h1 h2
      subst h1 h2; rfl
    | false =>
      rw [leadingZeros] at h
      cases hl : leadingZeros l with
      | none => rw [hl] at h; cases h
      | some x =>
        obtain ⟨j, r'⟩ := x
        rw [hl] at h
        injection h with h
        injection h with h1 h2
        simp only at h1 h2
        subst h1 h2
        rw [ih hl, List.replicate_succ, List.cons_append]

theorem readUe_code (n : Nat) (r : List Bool) : readUe (ueCode n ++ r) = .ok n r := by
  obtain ⟨k, m, hm, rfl⟩ := ue_split n
  unfold readUe
  rw [ueCode_eq hm, List.append_assoc, List.cons_append, leading_eq]
  simp only
  rw [if_neg (by rw [List.length_append, bin_length]; omega), List.take_append_of_le_length (by rw [bin_length]; omega),
    List.take_of_length_le (by rw [bin_length]; omega), natOf_bin, Nat.mod_eq_of_lt hm,
    List.drop_append_of_le_length (by rw [bin_length]; omega), List.drop_of_length_le (by rw [bin_length]; omega)]
  rfl

theorem readUe_inv {l r : List Bool} {n : Nat} (h : readUe l = .ok n r) : l = ueCode n ++ r := by
  unfold readUe at h
  cases hl : leadingZeros l with
  | none => rw [hl] at h; cases h
  | some x =>
    obtain ⟨k, r0⟩ := x
    rw [hl] at h
    simp only at h
    by_cases hk : r0.length < k
    · rw [if_pos hk] at h; cases h
    · rw [if_neg hk] at h
      injection h with h1 h2
      have hlen : (r0.take k).length = k := by rw [List.length_take]; omega
      have hlt := natOf_lt (r0.take k)
      rw [hlen] at hlt
      have hb := bin_natOf (r0.take k)
      rw [hlen] at hb
      rw [← h1, ueCode_eq hlt, hb, ← h2, leading_inv hl, List.append_assoc, List.cons_append, List.take_append_drop]

theorem signed_code (v : Int) : signed (if v > 0 then (2 * v - 1).toNat else (-2 * v).toNat) = v := by
  unfold signed
  by_cases h : v > 0
  · rw [if_pos h, if_neg (by omega)]; omega
  · rw [if_neg h, if_pos (by omega)]; omega

theorem code_signed (n : Nat) : (if signed n > 0 then (2 * signed n - 1).toNat else (-2 * signed n).toNat) = n := by
  unfold signed
  by_cases h : n % 2 = 0
  · rw [if_pos h, if_neg (by omega)]; omega
  · rw [if_neg h, if_pos (by omega)]; omega

/-! ## Emulation prevention -/

theorem unescape_ne (x : UInt8) (r : Bytes) (h : x ≠ 0) : unescape (x :: r) = x :: unescape r := by
  rw [unescape]
  intro r' hx
  exact absurd hx h

theorem unescape_ne2 (x : UInt8) (r : Bytes) (h : x ≠ 0) : unescape (0 :: x :: r) = 0 :: x :: unescape r := by
  rw [unescape, unescape_ne x r h]
  intro r' _ hx
  injection hx with hx _
  exact absurd hx h

theorem unescape_ne3 (x : UInt8) (r : Bytes) (h : x ≠ 0) (h3 : x ≠ 3) :
    unescape (0 :: 0 :: x :: r) = 0 :: 0 :: x :: unescape r := by
  rw [unescape, unescape_ne2 x r h]
  intro r' _ hx
  injection hx with _ hx
  injection hx with hx _
  exact absurd hx h3

theorem unescape_escape (b : Bytes) :
    unescape (escape 0 b) = b ∧ unescape (0 :: escape 1 b) = 0 :: b ∧ unescape (0 :: 0 :: escape 2 b) = 0 :: 0 :: b := by
  induction b with
  | nil => exact ⟨rfl, rfl, rfl⟩
  | cons x r ih =>
    obtain ⟨i0, i1, i2⟩ := ih
    refine ⟨?_, ?_, ?_⟩
    · rw [escape, if_neg (by omega)]
      by_cases h : x = 0
      · rw [if_pos h, h]; exact i1
      · rw [if_neg h, unescape_ne x _ h, i0]
    · rw [escape, if_neg (by omega)]
      by_cases h : x = 0
      · rw [if_pos h, h]; exact i2
      · rw [if_neg h, unescape_ne2 x _ h, i0]
    · rw [escape]
      by_cases h3 : x ≤ 3
      · rw [if_pos ⟨Nat.le_refl 2, h3⟩, unescape]
        by_cases h : x = 0
        · rw [if_pos h, h, i1]
        · rw [if_neg h, unescape_ne x _ h, i0]
      · rw [if_neg (fun h => h3 h.2)]
        have h0 : x ≠ 0 := by intro h; subst h; exact h3 (by decide)
        have hx3 : x ≠ 3 := by intro h; subst h; exact h3 (by decide)
        rw [if_neg h0, unescape_ne3 x _ h0 hx3, i0]

/-- Two zeros are followed by a byte of at least three, and never end at a start code: no window of three bytes is 000000, 000001
or 000002. -/
def NoCode : Bytes → Prop
  | x :: y :: z :: r => ¬ (x = 0 ∧ y = 0 ∧ z ≤ 2) ∧ NoCode (y :: z :: r)
  | _ => True

theorem noCode_cons_ne (x : UInt8) (r : Bytes) (h : x ≠ 0) (hr : NoCode r) : NoCode (x :: r) := by
  match r, hr with
  | [], _ => trivial
  | [y], _ => trivial
  | y :: z :: r, hr => exact ⟨fun hc => h hc.1, hr⟩

theorem noCode_cons2_ne (x : UInt8) (r : Bytes) (h : x ≠ 0) (hr : NoCode (x :: r)) : NoCode (0 :: x :: r) := by
  match r, hr with
  | [], _ => trivial
  | z :: r, hr => exact ⟨fun hc => h hc.2.1, hr⟩

theorem noCode_cons3 (x : UInt8) (r : Bytes) (h : ¬ x ≤ 2) (hr : NoCode (0 :: x :: r)) : NoCode (0 :: 0 :: x :: r) :=
  ⟨fun hc => h hc.2.2, hr⟩

theorem noCode_escape (b : Bytes) :
    NoCode (escape 0 b) ∧ NoCode (0 :: escape 1 b) ∧ NoCode (0 :: 0 :: escape 2 b) := by
  induction b with
  | nil => exact ⟨trivial, trivial, trivial⟩
  | cons x r ih =>
    obtain ⟨i0, i1, i2⟩ := ih
    refine ⟨?_, ?_, ?_⟩
    · rw [escape, if_neg (by omega)]
      by_cases h : x = 0
      · rw [if_pos h, h]; exact i1
      · rw [if_neg h]; exact noCode_cons_ne _ _ h i0
    · rw [escape, if_neg (by omega)]
      by_cases h : x = 0
      · rw [if_pos h, h]; exact i2
      · rw [if_neg h]; exact noCode_cons2_ne _ _ h (noCode_cons_ne _ _ h i0)
    · rw [escape]
      by_cases h3 : x ≤ 3
      · rw [if_pos ⟨Nat.le_refl 2, h3⟩]
        apply noCode_cons3 _ _ (by decide)
        apply noCode_cons2_ne _ _ (by decide)
        apply noCode_cons_ne _ _ (by decide)
        by_cases h : x = 0
        · rw [if_pos h, h]; exact i1
        · rw [if_neg h]; exact noCode_cons_ne _ _ h i0
      · rw [if_neg (fun h => h3 h.2)]
        have h0 : x ≠ 0 := by intro h; subst h; exact h3 (by decide)
        have h2 : ¬ x ≤ 2 := fun h => h3 (UInt8.le_trans h (by decide))
        rw [if_neg h0]
        exact noCode_cons3 _ _ h2 (noCode_cons2_ne _ _ h0 (noCode_cons_ne _ _ h0 i0))

theorem noCode_isCode (b : Bytes) (h : NoCode b) (i : Nat) : isCode b i = false := by
  induction i generalizing b with
  | zero =>
    match b, h with
    | [], _ => rfl
    | [x], _ => simp [isCode]
    | [x, y], _ => simp [isCode]
    | x :: y :: z :: r, h =>
      unfold isCode
      rw [beq_eq_false_iff_ne]
      intro he
      simp only [List.drop_zero, List.take_succ_cons, List.take_zero] at he
      injection he with h1 he
      injection he with h2 he
      injection he with h3 _
      exact h.1 ⟨h1, h2, by rw [h3]; decide⟩
  | succ i ih =>
    match b, h with
    | [], _ => simp [isCode]
    | [x], _ => simp [isCode]
    | [x, y], _ =>
      unfold isCode
      rw [beq_eq_false_iff_ne]
      intro he
      have := congrArg List.length he
      simp at this
      omega
    | x :: y :: z :: r, h => exact ih (y :: z :: r) h.2

end Verif.Props.H264Bits

namespace Verif.Props

open Verif Verif.Wrap Verif.Wrap.H264 Verif.Props.H264Bits

/-- **C41**, unsigned codes: the code of a number is read as that number, whatever follows, and nothing else is. -/
theorem C41_ue (n : Nat) (l r : List Bool) : readUe l = .ok n r ↔ l = ueCode n ++ r :=
  ⟨readUe_inv, fun h => h ▸ readUe_code n r⟩

/-- **C41**, signed codes. -/
theorem C41_se (v : Int) (l r : List Bool) : readSe l = .ok v r ↔ l = seCode v ++ r := by
  unfold readSe seCode
  constructor
  · intro h
    cases hu : readUe l with
    | ok n r' =>
      rw [hu] at h
      injection h with h1 h2
      rw [← h1, code_signed, readUe_inv hu, h2]
    | short => rw [hu] at h; cases h
    | invalid => rw [hu] at h; cases h
  · intro h
    rw [h, readUe_code]
    simp only
    rw [signed_code]

/-- **C41**, numbers of a fixed width. -/
theorem C41_uint (w n : Nat) (hw : 0 < w) (hn : n < 2 ^ w) (l r : List Bool) : readU w l = .ok n r ↔ l = bin w n ++ r := by
  unfold readU
  rw [if_neg (by omega)]
  constructor
  · intro h
    by_cases hl : l.length < w
    · rw [if_pos hl] at h; cases h
    · rw [if_neg hl] at h
      injection h with h1 h2
      have hlen : (l.take w).length = w := by rw [List.length_take]; omega
      have hb := bin_natOf (l.take w)
      rw [hlen, h1] at hb
      rw [hb, ← h2, List.take_append_drop]
  · intro h
    subst h
    rw [if_neg (by rw [List.length_append, bin_length]; omega), List.take_append_of_le_length (by rw [bin_length]; omega),
      List.take_of_length_le (by rw [bin_length]; omega), natOf_bin, Nat.mod_eq_of_lt hn,
      List.drop_append_of_le_length (by rw [bin_length]; omega), List.drop_of_length_le (by rw [bin_length]; omega)]
    rfl

/-- **C41**, emulation prevention: removing the bytes inverts inserting them. -/
theorem C41_emulation (b : Bytes) : unescape (escape 0 b) = b := (unescape_escape b).1

/-- **C41**, what emulation prevention is for: a payload contains no start code, so that a unit is split off where it ends; and
its bits are those of the payload. -/
theorem C41_no_start_code (b : Bytes) : offsets (escape 0 b) = [] ∧ rbsp ([0, 0, 1] ++ escape 0 b) = bitsOf b := by
  constructor
  · unfold offsets
    rw [List.filter_eq_nil_iff]
    intro i _
    rw [noCode_isCode _ (noCode_escape b).1]
    simp
  · unfold rbsp
    rw [show ([0, 0, 1] ++ escape 0 b : Bytes).drop 3 = escape 0 b from rfl, C41_emulation]

/-! ## Examples -/

example : ueCode 4 = [false, false, true, false, true] ∧ seCode (-2) = ueCode 4 ∧ seCode 3 = ueCode 5 := by decide +kernel

example : readUe [false, false, true, false, true, true] = .ok 4 [true] ∧ readUe [false, false, true, false] = .short := by
  decide +kernel

example : escape 0 [0, 0, 0, 0, 1, 0, 0, 3, 0, 0, 4] = [0, 0, 3, 0, 0, 3, 1, 0, 0, 3, 3, 0, 0, 4] ∧
    unescape [0, 0, 3, 0, 0, 3, 1, 0, 0, 3, 3, 0, 0, 4] = [0, 0, 0, 0, 1, 0, 0, 3, 0, 0, 4] := by decide +kernel

end Verif.Props

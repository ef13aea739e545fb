import Verif.Bytes

/-!
# UTF-8 and NUL stripping

Python's `str.encode('utf-8')` and strict `bytes.decode('utf-8')`, as used throughout
`mediagrains/gsf.py` (lines 684-704, 869, 2143-2147, 2241, 2295, 2467).  A python `str` is a list of
`Char`, i.e. of Unicode scalar values: strings holding lone surrogates, which python refuses to
encode, are not represented.
-/

namespace Verif

/-- `s.encode('utf-8')`; the per-character encoding is the one of Lean's core library. -/
def encodeUtf8 (s : List Char) : Bytes := s.flatMap String.utf8EncodeChar

/-- A continuation byte `10xxxxxx`. -/
def isCont (b : UInt8) : Bool := 0x80 ≤ b.toNat && b.toNat < 0xC0

/-- Strict `bytes.decode('utf-8')`: `none` where python raises `UnicodeDecodeError` (stray or missing
continuation bytes, overlong forms, surrogates, values above U+10FFFF). -/
def decodeUtf8 : Bytes → Option (List Char)
  | [] => some []
  | a :: t =>
    if a.toNat < 0x80 then (decodeUtf8 t).map (Char.ofNat a.toNat :: ·)
    else match t with
      | [] => none
      | b :: t =>
        if !isCont b then none
        else if a.toNat < 0xC2 then none
        else if a.toNat < 0xE0 then
          (decodeUtf8 t).map (Char.ofNat ((a.toNat - 0xC0) * 64 + (b.toNat - 0x80)) :: ·)
        else match t with
          | [] => none
          | c :: t =>
            if !isCont c then none
            else if a.toNat < 0xF0 then
              let v := (a.toNat - 0xE0) * 4096 + (b.toNat - 0x80) * 64 + (c.toNat - 0x80)
              if v < 0x800 ∨ (0xD800 ≤ v ∧ v < 0xE000) then none
              else (decodeUtf8 t).map (Char.ofNat v :: ·)
            else match t with
              | [] => none
              | d :: t =>
                if !isCont d then none
                else
                  let v := (a.toNat - 0xF0) * 262144 + (b.toNat - 0x80) * 4096 +
                    (c.toNat - 0x80) * 64 + (d.toNat - 0x80)
                  if v < 0x10000 ∨ 0x110000 ≤ v then none
                  else (decodeUtf8 t).map (Char.ofNat v :: ·)

theorem Char.toNat_valid (c : Char) : c.toNat < 0xD800 ∨ (0xDFFF < c.toNat ∧ c.toNat < 0x110000) :=
  c.valid

theorem decodeUtf8_char (c : Char) (t : Bytes) :
    decodeUtf8 (String.utf8EncodeChar c ++ t) = (decodeUtf8 t).map (c :: ·) := by
  have hv := Char.toNat_valid c
  have hc : Char.ofNat c.toNat = c := Char.ofNat_toNat c
  have hval : c.val.toNat = c.toNat := rfl
  unfold String.utf8EncodeChar
  simp only [hval]
  generalize hn : c.toNat = n at *
  split
  · have h1 : n % 256 = n := by omega
    have h2 : n < 128 := by omega
    rw [List.cons_append, List.nil_append]
    conv => lhs; unfold decodeUtf8
    simp [h1, h2, hc]
  · split
    · have e1 : (n / 64 % 32 + 192) % 256 = n / 64 + 192 := by omega
      have e2 : (n % 64 + 128) % 256 = n % 64 + 128 := by omega
      have g1 : ¬ (n / 64 + 192 < 128) := by omega
      have g2 : ¬ (n / 64 + 192 < 194) := by omega
      have g3 : (n / 64 + 192 < 224) := by omega
      have g4 : 128 ≤ n % 64 + 128 ∧ n % 64 + 128 < 192 := by omega
      have g5 : (n / 64 + 192 - 192) * 64 + (n % 64 + 128 - 128) = n := by omega
      rw [List.cons_append, List.cons_append, List.nil_append]
      conv => lhs; unfold decodeUtf8
      simp only [UInt8.toNat_ofNat', Nat.reducePow, isCont, e1, e2, g1, g2, g3, g4, g5]
      simp [hc]
    · split
      · have e1 : (n / 4096 % 16 + 224) % 256 = n / 4096 + 224 := by omega
        have e2 : (n / 64 % 64 + 128) % 256 = n / 64 % 64 + 128 := by omega
        have e3 : (n % 64 + 128) % 256 = n % 64 + 128 := by omega
        have g1 : ¬ (n / 4096 + 224 < 128) := by omega
        have g2 : ¬ (n / 4096 + 224 < 194) := by omega
        have g3 : ¬ (n / 4096 + 224 < 224) := by omega
        have g3' : (n / 4096 + 224 < 240) := by omega
        have g4 : 128 ≤ n % 64 + 128 ∧ n % 64 + 128 < 192 := by omega
        have g4' : 128 ≤ n / 64 % 64 + 128 ∧ n / 64 % 64 + 128 < 192 := by omega
        have g5 : (n / 4096 + 224 - 224) * 4096 + (n / 64 % 64 + 128 - 128) * 64
            + (n % 64 + 128 - 128) = n := by omega
        have g6 : ¬ (n < 0x800 ∨ (0xD800 ≤ n ∧ n < 0xE000)) := by omega
        rw [List.cons_append, List.cons_append, List.cons_append]
        conv => lhs; unfold decodeUtf8
        simp only [List.cons_append, List.nil_append, UInt8.toNat_ofNat', Nat.reducePow,
          isCont, e1, e2, e3, g1, g2, g3, g3', g4, g4', g5, g6]
        simp [hc]
      · have e1 : (n / 262144 % 8 + 240) % 256 = n / 262144 + 240 := by omega
        have e2 : (n / 4096 % 64 + 128) % 256 = n / 4096 % 64 + 128 := by omega
        have e2' : (n / 64 % 64 + 128) % 256 = n / 64 % 64 + 128 := by omega
        have e3 : (n % 64 + 128) % 256 = n % 64 + 128 := by omega
        have g1 : ¬ (n / 262144 + 240 < 128) := by omega
        have g2 : ¬ (n / 262144 + 240 < 194) := by omega
        have g3 : ¬ (n / 262144 + 240 < 224) := by omega
        have g3' : ¬ (n / 262144 + 240 < 240) := by omega
        have g4 : 128 ≤ n % 64 + 128 ∧ n % 64 + 128 < 192 := by omega
        have g4' : 128 ≤ n / 64 % 64 + 128 ∧ n / 64 % 64 + 128 < 192 := by omega
        have g4'' : 128 ≤ n / 4096 % 64 + 128 ∧ n / 4096 % 64 + 128 < 192 := by omega
        have g5 : (n / 262144 + 240 - 240) * 262144 + (n / 4096 % 64 + 128 - 128) * 4096 +
            (n / 64 % 64 + 128 - 128) * 64 + (n % 64 + 128 - 128) = n := by omega
        have g6 : ¬ (n < 0x10000 ∨ 0x110000 ≤ n) := by omega
        rw [List.cons_append, List.cons_append, List.cons_append]
        conv => lhs; unfold decodeUtf8
        simp only [List.cons_append, List.nil_append, UInt8.toNat_ofNat', Nat.reducePow,
          isCont, e1, e2, e2', e3, g1, g2, g3, g3', g4, g4', g4'', g5, g6]
        simp [hc]

theorem decodeUtf8_encodeUtf8 (s : List Char) : decodeUtf8 (encodeUtf8 s) = some s := by
  induction s with
  | nil => rfl
  | cons c s ih =>
    have : encodeUtf8 (c :: s) = String.utf8EncodeChar c ++ encodeUtf8 s := rfl
    rw [this, decodeUtf8_char, ih]; rfl

theorem toNat_ofNat_of_valid (n : Nat) (h : n < 0xD800 ∨ (0xDFFF < n ∧ n < 0x110000)) :
    (Char.ofNat n).val.toNat = n := by
  have hv : n.isValidChar := h
  simp [Char.ofNat, hv, Char.ofNatAux]

theorem ofNat_eq_of_toNat {n : Nat} {a : UInt8} (h : a.toNat = n) : UInt8.ofNat n = a := by
  subst h; simp

theorem encodeUtf8_of_decodeUtf8 (bs : Bytes) : ∀ (s : List Char), decodeUtf8 bs = some s →
    encodeUtf8 s = bs := by
  have key : ∀ (t : Bytes) (c : Char) (pre : Bytes),
      (∀ s, decodeUtf8 t = some s → encodeUtf8 s = t) →
      String.utf8EncodeChar c = pre →
      ∀ s, (decodeUtf8 t).map (c :: ·) = some s → encodeUtf8 s = pre ++ t := by
    intro t c pre ih hc s hs
    cases h : decodeUtf8 t with
    | none => simp [h] at hs
    | some s' =>
      simp only [h, Option.map_some, Option.some.injEq] at hs
      subst hs
      have : encodeUtf8 (c :: s') = String.utf8EncodeChar c ++ encodeUtf8 s' := rfl
      rw [this, hc, ih s' h]
  fun_induction decodeUtf8 bs with
  | case1 => intro s h; simp at h; subst h; rfl
  | case2 a t ha ih =>
    apply key t _ [a] ih
    have := toNat_ofNat_of_valid a.toNat (by omega)
    unfold String.utf8EncodeChar
    simp only [this]
    rw [if_pos (by omega), ofNat_eq_of_toNat rfl]
  | case3 => intro s h; simp at h
  | case4 => intro s h; simp at h
  | case5 => intro s h; simp at h
  | case6 a ha b t hb h1 h2 ih =>
    apply key t _ [a, b] ih
    simp [isCont] at hb
    have hv := toNat_ofNat_of_valid ((a.toNat - 0xC0) * 64 + (b.toNat - 0x80)) (by omega)
    unfold String.utf8EncodeChar
    simp only [hv]
    rw [if_neg (by omega), if_pos (by omega), ofNat_eq_of_toNat (a := a) (by omega),
      ofNat_eq_of_toNat (a := b) (by omega)]
  | case7 => intro s h; simp at h
  | case8 => intro s h; simp at h
  | case9 => intro s h; simp at h
  | case10 a ha b hb h1 h2 c t hc h3 v hv0 ih => 
    apply key t _ [a, b, c] ih
    simp [isCont] at hb hc
    have hv := toNat_ofNat_of_valid v (by omega)
    unfold String.utf8EncodeChar
    simp only [hv]
    rw [if_neg (by omega), if_neg (by omega), if_pos (by omega), ofNat_eq_of_toNat (a := a) (by omega),
      ofNat_eq_of_toNat (a := b) (by omega), ofNat_eq_of_toNat (a := c) (by omega)]
  | case11 => intro s h; simp at h
  | case12 => intro s h; simp at h
  | case13 => intro s h; simp at h
  | case14 a ha b hb h1 h2 c hc h3 d t hd v hv0 ih => 
    apply key t _ [a, b, c, d] ih
    simp [isCont] at hb hc hd
    have hv := toNat_ofNat_of_valid v (by omega)
    unfold String.utf8EncodeChar
    simp only [hv]
    rw [if_neg (by omega), if_neg (by omega), if_neg (by omega), ofNat_eq_of_toNat (a := a) (by omega),
      ofNat_eq_of_toNat (a := b) (by omega), ofNat_eq_of_toNat (a := c) (by omega),
      ofNat_eq_of_toNat (a := d) (by omega)]

theorem decodeUtf8_injective {a b : Bytes} {s : List Char} (ha : decodeUtf8 a = some s)
    (hb : decodeUtf8 b = some s) : a = b := by
  rw [← encodeUtf8_of_decodeUtf8 a s ha, ← encodeUtf8_of_decodeUtf8 b s hb]

end Verif

/-!
# Little-endian integer fields

Models `mediagrains/gsf.py` lines 1525-1540 (`_encode_uint`, `_encode_sint`, `_encode_bool`) and the
arithmetic inside lines 621-682 (`read_uint`, `read_sint`, `read_optional_bool`,
`read_optional_sint`).  A python `bytes` value is a `List UInt8`.
-/

namespace Verif

/-- A python `bytes` / `bytearray` value. -/
abbrev Bytes := List UInt8

/-- `gsf.py:1525-1530` `_encode_uint(val, size)`: `size` times take the low byte and shift right.
Python's `&` and `>>` on (possibly negative) integers are floor modulo and floor division, which is
what `%` and `/` are on `Int` for a positive divisor. -/
def encodeUint (val : Int) : Nat → Bytes
  | 0 => []
  | n + 1 => UInt8.ofNat (val % 256).toNat :: encodeUint (val / 256) n

/-- `gsf.py:1533-1536` `_encode_sint`. -/
def encodeSint (val : Int) (size : Nat) : Bytes :=
  encodeUint (if val < 0 then val + (256 : Int) ^ size else val) size

/-- `gsf.py:1539-1540` `_encode_bool`. -/
def encodeBool (b : Bool) : Bytes := encodeUint (if b then 1 else 0) 1

/-- `gsf.py:634-636`: `for n in range(length): r += bytes[n] << (n*8)`, written as a recursion on the
bytes from the first one. -/
def uintOf : Bytes → Nat
  | [] => 0
  | b :: bs => b.toNat + 256 * uintOf bs

/-- `gsf.py:664-667`: the sign correction of `read_sint` (`r >> (8*length-1) == 1`).
`length = 0` would be a negative shift in python; it is never used. -/
def signFix (r : Nat) (length : Nat) : Int :=
  if r / 2 ^ (8 * length - 1) = 1 then (r : Int) - (2 ^ (8 * length) : Nat) else r

@[simp] theorem encodeUint_length (v : Int) (n : Nat) : (encodeUint v n).length = n := by
  induction n generalizing v with
  | zero => rfl
  | succ n ih => simp [encodeUint, ih]

@[simp] theorem encodeSint_length (v : Int) (n : Nat) : (encodeSint v n).length = n := by
  simp [encodeSint]

@[simp] theorem encodeBool_length (b : Bool) : (encodeBool b).length = 1 := by
  simp [encodeBool]

theorem uintOf_lt (bs : Bytes) : uintOf bs < 256 ^ bs.length := by
  induction bs with
  | nil => simp [uintOf]
  | cons b bs ih =>
    have hb := b.toNat_lt
    simp only [uintOf, List.length_cons, Nat.pow_succ]
    omega

theorem Int.emod_mul' (x a b : Int) (ha : 0 < a) (hb : 0 < b) :
    x % (a * b) = x % a + a * (x / a % b) := by
  have h1 := Int.emod_add_mul_ediv x a
  have h2 := Int.emod_add_mul_ediv (x / a) b
  have h3 := Int.emod_nonneg x (by omega : a ≠ 0)
  have h4 := Int.emod_lt_of_pos x ha
  have h5 := Int.emod_nonneg (x / a) (by omega : b ≠ 0)
  have h6 := Int.emod_lt_of_pos (x / a) hb
  have hx : x = (x % a + a * (x / a % b)) + (a * b) * (x / a / b) := by
    rw [Int.mul_assoc, Int.add_assoc, ← Int.mul_add, h2, h1]
  have hlt : x % a + a * (x / a % b) < a * b := by
    have : a * (x / a % b) ≤ a * (b - 1) := Int.mul_le_mul_of_nonneg_left (by omega) (by omega)
    rw [Int.mul_sub] at this
    omega
  have hnn : 0 ≤ x % a + a * (x / a % b) := by
    have := Int.mul_nonneg (by omega : 0 ≤ a) h5
    omega
  conv => lhs; rw [hx]
  rw [Int.add_mul_emod_self_left, Int.emod_eq_of_lt hnn hlt]

theorem uintOf_encodeUint (v : Int) (n : Nat) :
    ((uintOf (encodeUint v n) : Nat) : Int) = v % (256 : Int) ^ n := by
  induction n generalizing v with
  | zero => simp [encodeUint, uintOf, Int.emod_one]
  | succ n ih =>
    have h0 : 0 ≤ v % 256 := Int.emod_nonneg _ (by decide)
    have h1 : v % 256 < 256 := Int.emod_lt_of_pos _ (by decide)
    have hb : (UInt8.ofNat (v % 256).toNat).toNat = (v % 256).toNat := by
      simp; omega
    simp only [encodeUint, uintOf, hb]
    have hpow : (256 : Int) ^ (n + 1) = 256 * 256 ^ n := by
      rw [Int.pow_succ, Int.mul_comm]
    rw [hpow, Int.emod_mul' _ _ _ (by decide) (Int.pow_pos (by decide))]
    rw [Int.natCast_add, Int.natCast_mul, ih]
    omega

theorem uintOf_encodeUint_nat (v n : Nat) (h : v < 256 ^ n) : uintOf (encodeUint v n) = v := by
  have := uintOf_encodeUint v n
  have h2 : ((v : Int)) % (256 : Int) ^ n = v := by
    apply Int.emod_eq_of_lt (by omega)
    have : ((256 ^ n : Nat) : Int) = (256 : Int) ^ n := Int.natCast_pow 256 n
    omega
  omega

end Verif

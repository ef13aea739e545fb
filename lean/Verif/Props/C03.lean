import Verif.Props.Sample

/-!
# C03: integer field codecs
-/

namespace Verif.Props

open Verif Verif.Gsf

/-- **C03**, unsigned, in range: an `n` byte field anywhere in a file reads back as the value written, and
reading ends right after the field. -/
theorem C03_uint (n v : Nat) (h : v < 256 ^ n) (pre post : Bytes) :
    readUint n ⟨0, pre ++ (encodeUint v n ++ post)⟩ pre.length = .ok (v, pre.length + n) := by
  have := reads_uint h _ _ (at_mid pre (encodeUint v n) post)
  simpa using this

/-- **C03**, unsigned, any integer: exactly `n` bytes are written and they read back as the value modulo
`256 ^ n`. -/
theorem C03_uint_any (n : Nat) (v : Int) (pre post : Bytes) :
    (encodeUint v n).length = n ∧ ∃ r : Nat, (r : Int) = v % 256 ^ n ∧
      readUint n ⟨0, pre ++ (encodeUint v n ++ post)⟩ pre.length = .ok (r, pre.length + n) := by
  refine ⟨encodeUint_length v n, (v % 256 ^ n).toNat, ?_, ?_⟩
  · exact Int.toNat_of_nonneg (Int.emod_nonneg _ (Int.ne_of_gt (Int.pow_pos (by decide))))
  · have := reads_uint_int (n := n) v _ _ (at_mid pre (encodeUint v n) post)
    simpa using this

/-- **C03**, signed, in range. -/
theorem C03_sint (n : Nat) (hn : 0 < n) (v : Int) (h1 : -(2 : Int) ^ (8 * n - 1) ≤ v) (h2 : v < 2 ^ (8 * n - 1))
    (pre post : Bytes) :
    readSint n ⟨0, pre ++ (encodeSint v n ++ post)⟩ pre.length = .ok (v, pre.length + n) := by
  have e : ((2 ^ (8 * n - 1) : Nat) : Int) = 2 ^ (8 * n - 1) := Int.natCast_pow 2 _
  have := reads_sint hn v (by rw [e]; exact h1) (by rw [e]; exact h2) _ _ (at_mid pre (encodeSint v n) post)
  simpa using this

theorem signFix_range (n : Nat) (hn : 0 < n) (r : Nat) (hr : r < 256 ^ n) :
    -(2 : Int) ^ (8 * n - 1) ≤ signFix r n ∧ signFix r n < 2 ^ (8 * n - 1) ∧
      (signFix r n) % 256 ^ n = r := by
  have hp := pow256_int n
  have hpow : 256 ^ n = 2 ^ (8 * n) := by
    rw [show (256 : Nat) = 2 ^ 8 by rfl, ← Nat.pow_mul]
  have hsplit : 2 ^ (8 * n) = 2 * 2 ^ (8 * n - 1) := by
    rw [← Nat.pow_succ']
    congr 1
    omega
  have e : ((2 ^ (8 * n - 1) : Nat) : Int) = 2 ^ (8 * n - 1) := Int.natCast_pow 2 _
  rw [signFix_spec r n hn hr, ← e, hp]
  split
  · refine ⟨by omega, by omega, Int.emod_eq_of_lt (by omega) (by omega)⟩
  · refine ⟨by omega, by omega, ?_⟩
    rw [Int.sub_emod_right]
    exact Int.emod_eq_of_lt (by omega) (by omega)

/-- **C03**, signed, any bytes: whatever an `n` byte signed field contains, what is read is in the
two's-complement range and congruent to the unsigned value of the bytes. -/
theorem C03_sint_range (n : Nat) (hn : 0 < n) (s : Stream) (p q : Nat) (v : Int)
    (h : readSint n s p = .ok (v, q)) :
    -(2 : Int) ^ (8 * n - 1) ≤ v ∧ v < 2 ^ (8 * n - 1) ∧
      v % 256 ^ n = uintOf ((s.buf.drop (p - s.base)).take n) ∧ q = p + n := by
  unfold readSint at h
  obtain ⟨r, q1, h1, h⟩ := Rd.bind_ok h
  simp only [Rd.pure_apply, Except.ok.injEq, Prod.mk.injEq] at h
  obtain ⟨rfl, rfl⟩ := h
  unfold readUint at h1
  obtain ⟨bs, q2, h2, h1⟩ := Rd.bind_ok h1
  simp only [Rd.pure_apply, Except.ok.injEq, Prod.mk.injEq] at h1
  obtain ⟨rfl, rfl⟩ := h1
  obtain ⟨h3, h4, rfl⟩ := readExact_ok h2
  have hlt := uintOf_lt bs
  rw [h4] at hlt
  obtain ⟨a, b, c⟩ := signFix_range n hn _ hlt
  exact ⟨a, b, by rw [c, h3], rfl⟩

/-- **C03**, signed, any integer: exactly `n` bytes are written, and what is read back is the one value in
the two's-complement range that is congruent to it modulo `256 ^ n`. -/
theorem C03_sint_any (n : Nat) (hn : 0 < n) (v : Int) (pre post : Bytes) :
    (encodeSint v n).length = n ∧ ∃ r : Int, -(2 : Int) ^ (8 * n - 1) ≤ r ∧ r < 2 ^ (8 * n - 1) ∧
      r % 256 ^ n = v % 256 ^ n ∧
      readSint n ⟨0, pre ++ (encodeSint v n ++ post)⟩ pre.length = .ok (r, pre.length + n) := by
  refine ⟨encodeSint_length v n, ?_⟩
  have h1 := reads_uint_int (n := n) (if v < 0 then v + (256 : Int) ^ n else v) _ _
    (at_mid pre (encodeSint v n) post)
  have e : (if v < 0 then v + (256 : Int) ^ n else v) % 256 ^ n = v % 256 ^ n := by
    split
    · exact Int.add_emod_right _ _
    · rfl
  rw [e] at h1
  have hpos : (0 : Int) < 256 ^ n := Int.pow_pos (by decide)
  have hnn : 0 ≤ v % 256 ^ n := Int.emod_nonneg _ (Int.ne_of_gt hpos)
  have hlt : v % 256 ^ n < 256 ^ n := Int.emod_lt_of_pos _ hpos
  have hcast : ((256 ^ n : Nat) : Int) = 256 ^ n := Int.natCast_pow 256 _
  obtain ⟨a, b, c⟩ := signFix_range n hn (v % 256 ^ n).toNat (by omega)
  refine ⟨_, a, b, ?_, ?_⟩
  · rw [c]; omega
  · unfold readSint
    rw [Rd.bind_of_ok h1]
    simp

example : (300 : Nat) < 256 ^ 2 := by decide
example : -(2 : Int) ^ (8 * 4 - 1) ≤ -5 ∧ (-5 : Int) < 2 ^ (8 * 4 - 1) := by decide
/-- An out-of-range value is written modulo the field size. -/
example : encodeUint 65537 2 = [1, 0] ∧ encodeUint (-1) 2 = [255, 255] := by decide
example : readSint 2 ⟨0, [0xff, 0x7f]⟩ 0 = .ok (32767, 2) ∧ readSint 2 ⟨0, [0, 0x80]⟩ 0 = .ok (-32768, 2) :=
  ⟨rfl, rfl⟩

end Verif.Props

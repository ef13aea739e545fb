import Verif.Gsf.ReaderLemmas
import Verif.Gsf.Encode
import Verif.Gsf.Decode

/-!
# Field codecs: what is written is read back
-/

namespace Verif.Gsf

open Verif

/-! ## Strings -/

/-- A string that does not start or end with a NUL character. -/
def StrOk (s : List Char) : Prop := s.head? ≠ some '\x00' ∧ s.getLast? ≠ some '\x00'

instance (s : List Char) : Decidable (StrOk s) := by unfold StrOk; infer_instance

theorem rstripNul_append (s : List Char) (k : Nat) :
    rstripNul (s ++ List.replicate k '\x00') = rstripNul s := by
  unfold rstripNul
  rw [List.reverse_append, List.reverse_replicate]
  congr 1
  induction k with
  | zero => rfl
  | succ k ih => simpa [List.replicate_succ] using ih

theorem rstripNul_ok {s : List Char} (h : s.getLast? ≠ some '\x00') : rstripNul s = s := by
  unfold rstripNul
  rw [← List.head?_reverse] at h
  cases hr : s.reverse with
  | nil => simp_all
  | cons c t =>
    have hc : ¬ c = '\x00' := by simpa [hr] using h
    rw [List.dropWhile_cons_of_neg (by simpa using hc), ← hr, List.reverse_reverse]

theorem lstripNul_ok {s : List Char} (h : s.head? ≠ some '\x00') : lstripNul s = s := by
  unfold lstripNul
  cases s with
  | nil => rfl
  | cons c t =>
    have hc : ¬ c = '\x00' := by simpa using h
    rw [List.dropWhile_cons_of_neg (by simpa using hc)]

theorem cleanString_pad {s : List Char} (h : StrOk s) (k : Nat) :
    cleanString (s ++ List.replicate k '\x00') = s := by
  unfold cleanString
  rw [rstripNul_append, rstripNul_ok h.2]
  cases s with
  | nil => rfl
  | cons c t =>
    have hc : ¬ c = '\x00' := by simpa using h.1
    simp [hc]

theorem cleanString_ok {s : List Char} (h : StrOk s) : cleanString s = s := by
  simpa using cleanString_pad h 0

theorem encodeUtf8_append (a b : List Char) : encodeUtf8 (a ++ b) = encodeUtf8 a ++ encodeUtf8 b := by
  simp [encodeUtf8]

theorem encodeUtf8_nuls (k : Nat) : encodeUtf8 (List.replicate k '\x00') = List.replicate k 0 := by
  induction k with
  | zero => rfl
  | succ k ih =>
    rw [List.replicate_succ, List.replicate_succ]
    change String.utf8EncodeChar '\x00' ++ encodeUtf8 _ = _
    rw [ih]; rfl

theorem padString_eq {s : List Char} {n : Nat} (h : (encodeUtf8 s).length ≤ n) :
    padString s n = encodeUtf8 (s ++ List.replicate (n - (encodeUtf8 s).length) '\x00') := by
  unfold padString
  rw [encodeUtf8_append, encodeUtf8_nuls, List.take_append, List.take_of_length_le h,
    List.take_replicate]
  congr 2
  omega

@[simp] theorem padString_length (s : List Char) (n : Nat) : (padString s n).length = n := by
  unfold padString
  simp

theorem reads_string_bytes {n : Nat} {bs : Bytes} {u : List Char} (hl : bs.length = n)
    (hu : decodeUtf8 bs = some u) : Reads (readString n) bs (cleanString u) := by
  intro s p hat
  simp only [readString]
  rw [Rd.bind_of_ok (reads_exact hl s p hat)]
  simp [hu, hl]

theorem reads_padString {s : List Char} {n : Nat} (h : StrOk s) (hl : (encodeUtf8 s).length ≤ n) :
    Reads (readString n) (padString s n) s := by
  have h2 := reads_string_bytes (n := n) (bs := padString s n) (padString_length s n)
    (by rw [padString_eq hl]; exact decodeUtf8_encodeUtf8 _)
  rwa [cleanString_pad h] at h2

/-- A tag key or value that is read back as itself. -/
def TagStrOk (s : List Char) : Prop := StrOk s ∧ (encodeUtf8 s).length ≤ 65535

instance (s : List Char) : Decidable (TagStrOk s) := by unfold TagStrOk; infer_instance

theorem reads_varstring {s : List Char} (h : TagStrOk s) :
    Reads readVarstring (encodeUint (tagString s).length 2 ++ tagString s) s := by
  have he : tagString s = encodeUtf8 s := List.take_of_length_le h.2
  rw [he]
  have h1 : Reads (readUint 2) (encodeUint (encodeUtf8 s).length 2) (encodeUtf8 s).length :=
    reads_uint (by have := h.2; omega)
  apply h1.bind
  have h2 := reads_string_bytes (n := (encodeUtf8 s).length) rfl (decodeUtf8_encodeUtf8 s)
  rwa [cleanString_ok h.1] at h2

/-! ## Signed integers -/

theorem signFix_spec (r n : Nat) (hn : 0 < n) (hr : r < 256 ^ n) :
    signFix r n = if r < 2 ^ (8 * n - 1) then (r : Int) else (r : Int) - (2 ^ (8 * n) : Nat) := by
  unfold signFix
  have hpow : 256 ^ n = 2 ^ (8 * n) := by
    rw [show (256 : Nat) = 2 ^ 8 by rfl, ← Nat.pow_mul]
  have hsplit : 2 ^ (8 * n) = 2 * 2 ^ (8 * n - 1) := by
    rw [← Nat.pow_succ']
    congr 1
    omega
  have hpos : 0 < 2 ^ (8 * n - 1) := Nat.pow_pos (by omega)
  by_cases h : r < 2 ^ (8 * n - 1)
  · rw [if_pos h, if_neg]
    rw [Nat.div_eq_of_lt h]; omega
  · rw [if_neg h, if_pos]
    rw [Nat.div_eq_iff hpos]
    omega

theorem pow256_int (n : Nat) : (256 : Int) ^ n = ((2 ^ (8 * n) : Nat) : Int) := by
  have : (256 : Nat) ^ n = 2 ^ (8 * n) := by
    rw [show (256 : Nat) = 2 ^ 8 by rfl, ← Nat.pow_mul]
  rw [← this]
  exact (Int.natCast_pow 256 n).symm

theorem reads_sint_raw {n : Nat} (hn : 0 < n) (v : Int) (h1 : -(2 ^ (8 * n - 1) : Nat) ≤ v)
    (h2 : v < (2 ^ (8 * n - 1) : Nat)) :
    ∃ r, Reads (readUint n) (encodeSint v n) r ∧ r < 256 ^ n ∧ signFix r n = v := by
  have hp := pow256_int n
  have hpow : 256 ^ n = 2 ^ (8 * n) := by
    rw [show (256 : Nat) = 2 ^ 8 by rfl, ← Nat.pow_mul]
  have hsplit : 2 ^ (8 * n) = 2 * 2 ^ (8 * n - 1) := by
    rw [← Nat.pow_succ']
    congr 1
    omega
  have key : ∀ r : Nat, (r : Int) = (if v < 0 then v + (256 : Int) ^ n else v) → r < 256 ^ n ∧
      signFix r n = v := by
    intro r hr
    have hlt : r < 256 ^ n := by
      rw [hp] at hr; split at hr <;> omega
    refine ⟨hlt, ?_⟩
    rw [signFix_spec r n hn hlt]
    rw [hp] at hr
    split at hr <;> split <;> omega
  have hnn : 0 ≤ (if v < 0 then v + (256 : Int) ^ n else v) := by
    rw [hp]; split <;> omega
  obtain ⟨r, hr⟩ := Int.eq_ofNat_of_zero_le hnn
  obtain ⟨hlt, hs⟩ := key r hr.symm
  refine ⟨r, ?_, hlt, hs⟩
  unfold encodeSint
  rw [hr]
  exact reads_uint (n := n) hlt

theorem reads_sint {n : Nat} (hn : 0 < n) (v : Int) (h1 : -(2 ^ (8 * n - 1) : Nat) ≤ v)
    (h2 : v < (2 ^ (8 * n - 1) : Nat)) : Reads (readSint n) (encodeSint v n) v := by
  obtain ⟨r, hr, -, hs⟩ := reads_sint_raw hn v h1 h2
  have := hr.bind_pure (f := fun r => signFix r n)
  rwa [hs] at this

/-! ## Timestamps, rationals, dates -/

/-- In the range of the timestamp type. -/
def TsOk (t : Int) : Prop := -maxTs ≤ t ∧ t ≤ maxTs

instance (t : Int) : Decidable (TsOk t) := by unfold TsOk; infer_instance

theorem mkTimestamp_split (t : Int) (h : TsOk t) :
    mkTimestamp (t.natAbs / 1000000000) (t.natAbs % 1000000000) (if 0 ≤ t then 1 else -1) = t := by
  unfold TsOk maxTs at h
  unfold mkTimestamp
  have hd := Nat.div_add_mod t.natAbs 1000000000
  generalize t.natAbs / 1000000000 = a at *
  generalize t.natAbs % 1000000000 = b at *
  simp only [nsPerSec, maxTs]
  split
  · rw [if_neg (by omega), if_neg (by omega)]; omega
  · rw [if_neg (by omega), if_neg (by omega)]; omega

theorem reads_tsV7_raw (t : Int) (h : TsOk t) :
    Reads readTimestampV7 (encodeTsV7 t)
      (mkTimestamp (t.natAbs / 1000000000) (t.natAbs % 1000000000) 1) := by
  unfold TsOk maxTs at h
  unfold encodeTsV7 readTimestampV7
  apply Reads.bind (reads_uint (by omega))
  exact (reads_uint (n := 4) (by omega)).bind_pure

theorem reads_tsV7 (t : Int) (h : TsOk t) (hp : 0 ≤ t) : Reads readTimestampV7 (encodeTsV7 t) t := by
  have h1 := reads_tsV7_raw t h
  have h2 := mkTimestamp_split t h
  rw [if_pos hp] at h2
  rwa [h2] at h1

/-- Version 7 loses the sign: what is read back is the magnitude. -/
theorem reads_tsV7_abs (t : Int) (h : TsOk t) : Reads readTimestampV7 (encodeTsV7 t) t.natAbs := by
  have h1 := reads_tsV7_raw t h
  have h2 := mkTimestamp_split (t.natAbs : Int) (by unfold TsOk maxTs at *; omega)
  rw [if_pos (by omega), Int.natAbs_natCast] at h2
  rwa [h2] at h1

theorem reads_ts (t : Int) (h : TsOk t) : Reads readTimestamp (encodeTs t) t := by
  have h2 := mkTimestamp_split t h
  unfold TsOk maxTs at h
  unfold encodeTs encodeTsV7 readTimestamp
  apply Reads.bind (reads_bool _)
  apply Reads.bind (reads_uint (by omega))
  have := (reads_uint (n := 4) (v := t.natAbs % 1000000000) (by omega)).bind_pure
    (f := fun nano => mkTimestamp (t.natAbs / 1000000000) nano (if decide (0 ≤ t) = true then 1 else -1))
  simp only [decide_eq_true_eq] at this
  rw [h2] at this
  simpa only [decide_eq_true_eq] using this

/-- A rational the 32-bit fields can hold. -/
def RatOk (q : Rat) : Prop := 0 ≤ q.num ∧ q.num < 2 ^ 32 ∧ q.den < 2 ^ 32

instance (q : Rat) : Decidable (RatOk q) := by unfold RatOk; infer_instance

theorem reads_rational (q : Rat) (h : RatOk q) : Reads readRational (encodeRational q) q := by
  obtain ⟨h0, h1, h2⟩ := h
  obtain ⟨n, hn⟩ := Int.eq_ofNat_of_zero_le h0
  unfold encodeRational readRational
  rw [hn]
  rw [hn] at h1
  apply Reads.bind (reads_uint (by omega))
  rw [← List.append_nil (encodeUint _ 4)]
  apply Reads.bind (reads_uint (by omega))
  have hden := q.den_pos
  by_cases hz : n = 0
  · rw [if_pos (.inl hz)]
    have : q = 0 := by
      rw [← Rat.num_eq_zero, hn, hz]; rfl
    rw [this]
    exact Reads.pure _
  · rw [if_neg (by omega)]
    have : mkRat n q.den = q := by
      have := Rat.mkRat_self q
      rwa [hn] at this
    rw [this]
    exact Reads.pure _

theorem reads_datetime (d : DateTime) (h : d.Valid) :
    Reads readDatetime (encodeSint d.year 2 ++ (encodeUint d.month 1 ++ (encodeUint d.day 1 ++
      (encodeUint d.hour 1 ++ (encodeUint d.minute 1 ++ encodeUint d.second 1))))) d := by
  have hv := h
  obtain ⟨h1, h2, h3, h4, h5, h6, h7, h8, h9⟩ := h
  have h6' : daysInMonth d.year d.month ≤ 31 := by
    unfold daysInMonth; repeat' split
    all_goals omega
  unfold readDatetime
  apply Reads.bind (reads_sint (by omega) _ (by simp; omega) (by simp; omega))
  apply Reads.bind (reads_uint (by omega))
  apply Reads.bind (reads_uint (by omega))
  apply Reads.bind (reads_uint (by omega))
  apply Reads.bind (reads_uint (by omega))
  rw [← List.append_nil (encodeUint _ 1)]
  apply Reads.bind (reads_uint (by omega))
  rw [if_pos hv]
  exact Reads.pure _

end Verif.Gsf

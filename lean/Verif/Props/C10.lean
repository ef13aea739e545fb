import Verif.Props.Sample
import Verif.Gsf.Total

/-!
# C10: file type and version gate; C11: decoding terminates and makes progress
-/

namespace Verif.Props

open Verif Verif.Gsf

/-- The bytes `SSBBgrsg`. -/
def sigBytes : Bytes := [0x53, 0x53, 0x42, 0x42, 0x67, 0x72, 0x73, 0x67]

/-- The major version field of a file: bytes 8 and 9, little endian. -/
def majorField (file : Bytes) : Nat := uintOf ((file.drop 8).take 2)

/-- A version that may be opened. -/
def Supported (v : Nat) : Prop := v = 7 ∨ v = 8 ∨ v = 9

instance (v) : Decidable (Supported v) := by unfold Supported; infer_instance

theorem rstripNul_sublist (u : List Char) : ∃ k, u = rstripNul u ++ List.replicate k '\x00' := by
  unfold rstripNul
  have h1 : u.reverse = u.reverse.takeWhile (· == '\x00') ++ u.reverse.dropWhile (· == '\x00') :=
    List.takeWhile_append_dropWhile.symm
  have h2 : u.reverse.takeWhile (· == '\x00') =
      List.replicate (u.reverse.takeWhile (· == '\x00')).length '\x00' := by
    apply List.eq_replicate_of_mem
    intro b hb
    have := List.all_eq_true.1 (List.all_takeWhile (p := (· == '\x00')) (l := u.reverse)) b hb
    simpa using this
  refine ⟨(u.reverse.takeWhile (· == '\x00')).length, ?_⟩
  have h3 := congrArg List.reverse h1
  rw [List.reverse_reverse, List.reverse_append] at h3
  conv => lhs; rw [h3]
  congr 1
  conv => lhs; rw [h2]
  simp

theorem cleanString_eight {u : List Char} (h : cleanString u = tSSBB ++ tGrsg) :
    ∃ k, u = (tSSBB ++ tGrsg) ++ List.replicate k '\x00' := by
  obtain ⟨k, hk⟩ := rstripNul_sublist u
  refine ⟨k, ?_⟩
  unfold cleanString at h
  split at h
  · simp at h
  · rename_i c t hr
    split at h
    · simp at h
    · rw [hk, hr, h]

theorem decode_sig {bs : Bytes} (hl : bs.length = 8) {u : List Char} (hu : decodeUtf8 bs = some u)
    (hc : cleanString u = tSSBB ++ tGrsg) : bs = sigBytes := by
  obtain ⟨k, rfl⟩ := cleanString_eight hc
  have := encodeUtf8_of_decodeUtf8 _ _ hu
  rw [encodeUtf8_append, encodeUtf8_nuls] at this
  have e : encodeUtf8 (tSSBB ++ tGrsg) = sigBytes := by decide
  rw [e] at this
  have hk : k = 0 := by
    have h2 := congrArg List.length this
    rw [List.length_append, List.length_replicate, hl] at h2
    have e8 : sigBytes.length = 8 := rfl
    omega
  subst hk
  simpa using this.symm

/-- The gate itself: everything `_decode_ssb_header` and the version test can do. -/
theorem decodeSsb_spec (file : Bytes) :
    decodeSsb false ⟨0, file⟩ 0 =
      if file.length < 8 then .error .eof
      else match decodeUtf8 (file.take 8) with
        | none => .error .decode
        | some _ =>
          if file.take 8 ≠ sigBytes then .error .badFileType
          else if file.length < 12 then .error .eof
          else .ok ((majorField file, uintOf ((file.drop 10).take 2)), 12) := by
  unfold decodeSsb
  simp only [Bool.not_false, if_true]
  by_cases h8 : file.length < 8
  · rw [if_pos h8]
    have : readString 8 ⟨0, file⟩ 0 = .error .eof := by
      unfold readString
      rw [Rd.bind_of_error]
      rw [readExact_eq, if_neg]
      simp; omega
    rw [Rd.bind_of_error this]
  · rw [if_neg h8]
    have hr : readExact 8 ⟨0, file⟩ 0 = .ok (file.take 8, 8) := by
      rw [readExact_eq, if_pos]
      · simp
      · simp; omega
    cases hu : decodeUtf8 (file.take 8) with
    | none =>
      have : readString 8 ⟨0, file⟩ 0 = .error .decode := by
        unfold readString
        rw [Rd.bind_of_ok hr, Rd.bind_of_error]
        rw [hu]; rfl
      rw [Rd.bind_of_error this]
    | some v =>
      have hrs : readString 8 ⟨0, file⟩ 0 = .ok (cleanString v, 8) := by
        unfold readString
        rw [Rd.bind_of_ok hr]
        simp [hu]
      rw [Rd.bind_of_ok hrs]
      simp only
      by_cases hs : file.take 8 = sigBytes
      · have hv : v = tSSBB ++ tGrsg := by
          rw [hs] at hu
          have : decodeUtf8 sigBytes = some (tSSBB ++ tGrsg) := by decide
          rw [this] at hu
          exact (Option.some.inj hu).symm
        subst hv
        have hcl : cleanString (tSSBB ++ tGrsg) = tSSBB ++ tGrsg := by decide
        rw [hcl, if_neg (by simp), if_neg (c := file.take 8 ≠ sigBytes) (by simpa using hs)]
        by_cases h12 : file.length < 12
        · rw [if_pos h12]
          by_cases h10 : file.length < 10
          · rw [Rd.bind_of_error]
            unfold readUint
            rw [Rd.bind_of_error]
            rw [readExact_eq, if_neg]
            simp; omega
          · have h1 : readUint 2 ⟨0, file⟩ 8 = .ok (majorField file, 10) := by
              unfold readUint
              rw [Rd.bind_of_ok (a := (file.drop 8).take 2) (p' := 10)]
              · rfl
              · rw [readExact_eq, if_pos]
                · rfl
                · simp; omega
            rw [Rd.bind_of_ok h1, Rd.bind_of_error]
            unfold readUint
            rw [Rd.bind_of_error]
            rw [readExact_eq, if_neg]
            simp; omega
        · rw [if_neg h12]
          have h1 : readUint 2 ⟨0, file⟩ 8 = .ok (majorField file, 10) := by
            unfold readUint
            rw [Rd.bind_of_ok (a := (file.drop 8).take 2) (p' := 10)]
            · rfl
            · rw [readExact_eq, if_pos]
              · rfl
              · simp; omega
          have h2 : readUint 2 ⟨0, file⟩ 10 = .ok (uintOf ((file.drop 10).take 2), 12) := by
            unfold readUint
            rw [Rd.bind_of_ok (a := (file.drop 10).take 2) (p' := 12)]
            · rfl
            · rw [readExact_eq, if_pos]
              · rfl
              · simp; omega
          rw [Rd.bind_of_ok h1, Rd.bind_of_ok h2]
          rfl
      · rw [if_pos (c := file.take 8 ≠ sigBytes) hs, if_pos]
        · rfl
        · intro hc
          exact hs (decode_sig (by simp; omega) hu hc)

/-- **C10**, opening succeeds only for the right file type and a supported version. -/
theorem C10_accepts (o : Opts) (file : Bytes) (r : Run) (h : decodeFile o file = .ok r) :
    12 ≤ file.length ∧ file.take 8 = sigBytes ∧ Supported (majorField file) := by
  unfold decodeFile at h
  split at h
  · simp at h
  · rename_i hd p hh
    unfold decodeFileHeaders at hh
    obtain ⟨⟨mj, mn⟩, q1, h1, hh⟩ := Rd.bind_ok hh
    rw [decodeSsb_spec] at h1
    split at h1
    · simp at h1
    · split at h1
      · simp at h1
      · split at h1
        · simp at h1
        · rename_i hs
          split at h1
          · simp at h1
          · rename_i h12
            simp only [Except.ok.injEq, Prod.mk.injEq] at h1
            obtain ⟨⟨rfl, rfl⟩, rfl⟩ := h1
            simp only [Rd.ite_apply] at hh
            split at hh
            · rename_i hm
              exact ⟨by omega, by simpa using hs, hm⟩
            · simp at hh

/-- **C10**, a readable but different file type is refused with the bad-file-type error. -/
theorem C10_bad_file_type (o : Opts) (file : Bytes) (h8 : 8 ≤ file.length) (h : file.take 8 ≠ sigBytes)
    (hu : decodeUtf8 (file.take 8) ≠ none) : decodeFile o file = .error .badFileType := by
  have : decodeSsb false ⟨0, file⟩ 0 = .error .badFileType := by
    rw [decodeSsb_spec, if_neg (by omega)]
    cases hd : decodeUtf8 (file.take 8) with
    | none => exact absurd hd hu
    | some v => simp only; rw [if_pos h]
  unfold decodeFile
  have h2 : decodeFileHeaders false ⟨0, file⟩ 0 = .error .badFileType := by
    unfold decodeFileHeaders
    rw [Rd.bind_of_error this]
  rw [h2]

/-- **C10**, bytes that are not even text are refused with a decode error (the base class). -/
theorem C10_not_text (o : Opts) (file : Bytes) (h8 : 8 ≤ file.length)
    (hu : decodeUtf8 (file.take 8) = none) : decodeFile o file = .error .decode := by
  have : decodeSsb false ⟨0, file⟩ 0 = .error .decode := by
    rw [decodeSsb_spec, if_neg (by omega), hu]
  unfold decodeFile
  have h2 : decodeFileHeaders false ⟨0, file⟩ 0 = .error .decode := by
    unfold decodeFileHeaders
    rw [Rd.bind_of_error this]
  rw [h2]

/-- **C10**, an unsupported version is refused with the bad-version error carrying that version. -/
theorem C10_bad_version (o : Opts) (file : Bytes) (h12 : 12 ≤ file.length) (h : file.take 8 = sigBytes)
    (hv : ¬ Supported (majorField file)) : decodeFile o file = .error (.badVersion (majorField file)) := by
  have hd : decodeUtf8 sigBytes = some (tSSBB ++ tGrsg) := by decide
  have : decodeSsb false ⟨0, file⟩ 0 = .ok ((majorField file, uintOf ((file.drop 10).take 2)), 12) := by
    rw [decodeSsb_spec, if_neg (by omega), h, hd]
    simp only
    rw [if_neg (by simp), if_neg (by omega)]
  unfold decodeFile
  have h2 : decodeFileHeaders false ⟨0, file⟩ 0 = .error (.badVersion (majorField file)) := by
    unfold decodeFileHeaders
    rw [Rd.bind_of_ok this]
    simp only [Rd.ite_apply]
    unfold Supported at hv
    rw [if_neg hv]
    rfl
  rw [h2]

/-- **C10**, a file too short for the 12 byte header raises `EOFError`, not a GSF error. -/
theorem C10_short (o : Opts) (file : Bytes) (h : file.length < 12)
    (hs : file.length < 8 ∨ file.take 8 = sigBytes) : decodeFile o file = .error .eof := by
  have hd : decodeUtf8 sigBytes = some (tSSBB ++ tGrsg) := by decide
  have : decodeSsb false ⟨0, file⟩ 0 = .error .eof := by
    rw [decodeSsb_spec]
    by_cases h8 : file.length < 8
    · rw [if_pos h8]
    · rw [if_neg h8]
      rcases hs with hs | hs
      · exact absurd hs h8
      · rw [hs, hd]; simp only; rw [if_neg (by simp), if_pos h]
  unfold decodeFile
  have h2 : decodeFileHeaders false ⟨0, file⟩ 0 = .error .eof := by
    unfold decodeFileHeaders
    rw [Rd.bind_of_error this]
  rw [h2]

theorem decodeFileHeaders_supported {known s p h q} (hh : decodeFileHeaders known s p = .ok (h, q)) :
    Supported h.major := by
  unfold decodeFileHeaders at hh
  obtain ⟨⟨mj, mn⟩, q1, h1, hh⟩ := Rd.bind_ok hh
  simp only [Rd.ite_apply] at hh
  split at hh
  · rename_i hm
    obtain ⟨x, q2, h2, hh⟩ := Rd.bind_ok hh
    simp only [Rd.pure_apply, Except.ok.injEq, Prod.mk.injEq] at hh
    rw [← hh.1]
    exact hm
  · simp at hh

theorem grainsStep_supported {o h hc s p h' hc' q} (hb : s.base ≤ p) (hm : Supported h.major)
    (hs : grainsStep o h hc s p = .ok (.next h' hc', q)) : Supported h'.major := by
  unfold grainsStep at hs
  cases hc with
  | true =>
    rw [if_pos rfl] at hs
    obtain ⟨x, q1, h1, hs⟩ := Rd.bind_ok hs
    have := decodeFileHeaders_supported h1
    simp only [Rd.pure_apply, Except.ok.injEq, Prod.mk.injEq, Step.next.injEq] at hs
    rw [← hs.1.1]; exact this
  | false =>
    rw [if_neg (by simp)] at hs
    obtain ⟨b, q1, h1, hs⟩ := Rd.bind_ok hs
    suffices h' = h by rw [this]; exact hm
    rw [Rd.ite_apply] at hs
    split at hs
    · simp only [Block.exit, Rd.bind_apply, Rd.seek_apply, Rd.ite_apply, Rd.pure_apply] at hs
      split at hs
      · split at hs <;> simp at hs; exact hs.1.1.symm
      · simp at hs; exact hs.1.1.symm
    · rw [Rd.ite_apply] at hs
      split at hs
      · simp only [Block.exit, Rd.bind_apply, Rd.seek_apply, Rd.ite_apply, Rd.pure_apply] at hs
        split at hs <;> simp at hs; exact hs.1.1.symm
      · obtain ⟨lid, q2, h2, hs⟩ := Rd.bind_ok hs
        rw [Rd.ite_apply] at hs
        split at hs
        · simp [Block.exit] at hs; exact hs.1.1.symm
        · obtain ⟨info, q3, h3, hs⟩ := Rd.bind_ok hs
          obtain ⟨data, q4, h4, hs⟩ := Rd.bind_ok hs
          simp [Block.exit] at hs

/-- **C10**, concatenation: at every point of a decode, the headers in force have a supported version: a
header with another version never gets in force. -/
theorem C10_concatenated (o : Opts) (s : Stream) (n : Nat) (a b : LState) (items : List Item)
    (hb : s.base ≤ a.pos) (hm : Supported a.hdr.major) (h : Steps o s n a items b) : Supported b.hdr.major := by
  induction h with
  | refl => exact hm
  | next h1 _ ih =>
    have := grainsStep_progress hb h1
    exact ih (by simp only; omega) (grainsStep_supported hb hm h1)
  | yield h1 _ ih =>
    have := grainsStep_progress hb h1
    exact ih (by simp only; omega) hm

/-- **C10**, concatenation: a further header with an unsupported version ends the decode with the
bad-version error; no further grain is produced. -/
theorem C10_concatenated_bad_version (o : Opts) (s : Stream) (h : Hdr) (p major minor : Nat)
    (h1 : major < 2 ^ 16) (h2 : minor < 2 ^ 16) (hat : At s p (encodeUint major 2 ++ encodeUint minor 2))
    (hv : ¬ Supported major) : run o s h true p = ⟨[], h, .err (.badVersion major)⟩ := by
  rw [run_eq _ _ _ _ _ hat.base]
  have e1 := reads_uint (n := 2) (v := major) (by omega) s p hat.left
  have e2 := reads_uint (n := 2) (v := minor) (by omega) s _ hat.right
  have : grainsStep o h true s p = .error (.badVersion major) := by
    unfold grainsStep
    rw [if_pos rfl, Rd.bind_of_error]
    unfold decodeFileHeaders decodeSsb
    simp only [Bool.not_true, Bool.false_eq_true, if_false]
    rw [Rd.bind_of_ok (a := (major, minor)) (p' := p + 4)]
    · simp only [Rd.ite_apply]
      unfold Supported at hv
      rw [if_neg hv]
      rfl
    · rw [Rd.bind_of_ok e1, Rd.bind_of_ok e2]
      simp
  rw [this]

example : 12 ≤ sample.bytes.length ∧ sample.bytes.take 8 = sigBytes ∧ Supported (majorField sample.bytes) := by
  decide +kernel

example : (encodeFileHeader 6 0).length = 12 ∧ (encodeFileHeader 6 0).take 8 = sigBytes ∧
    ¬ Supported (majorField (encodeFileHeader 6 0)) := by decide +kernel

/-- **C11.** On every byte string and with all options decoding ends: either opening fails, or after
finitely many turns, each of which moves at least 8 bytes forward, the generator ends. The bounds the
model puts on its loops play no role (`fuel` is never raised). -/
theorem C11_terminates (o : Opts) (file : Bytes) :
    (∃ e, decodeFile o file = .error e ∧ e ≠ .fuel) ∨
    ∃ h p n items b e, decodeFileHeaders false ⟨0, file⟩ 0 = .ok (h, p) ∧
      Steps o ⟨0, file⟩ n ⟨h, false, p⟩ items b ∧ Ends o ⟨0, file⟩ b e ∧ e ≠ .err .fuel ∧
      8 * n ≤ file.length ∧ decodeFile o file = .ok ⟨items, b.hdr, e⟩ := by
  cases hh : decodeFileHeaders false ⟨0, file⟩ 0 with
  | error e =>
    left
    refine ⟨e, by unfold decodeFile; rw [hh], ?_⟩
    rintro rfl
    exact (decodeFileHeaders_safe false).noFuel (Nat.zero_le _) hh
  | ok v =>
    right
    obtain ⟨h, p⟩ := v
    obtain ⟨n, items, b, e, h1, h2, h3⟩ := steps_exist o ⟨0, file⟩ ⟨h, false, p⟩ (Nat.zero_le _)
    have hrun : grains o file h p = ⟨items, b.hdr, e⟩ := by
      rw [grains_eq_run, h1.run (Nat.zero_le _), h2.run h3]
      simp [Run.prepend]
    refine ⟨h, p, n, items, b, e, rfl, h1, h2, ?_, ?_, by unfold decodeFile; rw [hh]; simp only [hrun]⟩
    · have := run_noFuel o ⟨0, file⟩ h false p (Nat.zero_le _)
      rw [← grains_eq_run, hrun] at this
      exact this
    · by_cases hf : p ≤ file.length
      · have := h1.progress (Nat.zero_le _) (by simpa [Stream.fin] using hf)
        simp only [Stream.fin] at this
        rcases Nat.eq_zero_or_pos n with h0 | h0
        · omega
        · have := this.2 h0; omega
      · cases h1 with
        | refl => omega
        | next h3 _ => have := grainsStep_progress (Nat.zero_le _) h3; simp only [Stream.fin] at this; omega
        | yield h3 _ => have := grainsStep_progress (Nat.zero_le _) h3; simp only [Stream.fin] at this; omega

/-- **C11**, progress: every turn starts with 8 bytes of the file left and ends at least 8 bytes further. -/
theorem C11_progress (o : Opts) (h : Hdr) (hc : Bool) (file : Bytes) (p q : Nat) (st : Step)
    (hs : grainsStep o h hc ⟨0, file⟩ p = .ok (st, q)) : p + 8 ≤ q ∧ p + 8 ≤ file.length := by
  have := grainsStep_progress (Nat.zero_le _) hs
  simpa [Stream.fin] using this

end Verif.Props

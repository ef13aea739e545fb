import Verif.Gsf.Short
import Verif.Props.C05
import Verif.Props.C10

/-!
# C06: truncation inside the head is reported
-/

namespace Verif.Props

open Verif Verif.Gsf

/-- The number of bytes at the very end of the head that are flow metadata: the data of the last segment's
flow, if neither segment tags nor file tags follow it. -/
def trailingFlowData (h : HeadIn) : Nat :=
  if h.tags = [] then
    match h.segments.getLast? with
    | none => 0
    | some sg => if sg.tags = [] then (match sg.flow with | none => 0 | some f => f.data.length) else 0
  else 0

theorem trailingFlowData_eq (h : HeadIn) : trailingFlowData h = h.slack := by
  unfold trailingFlowData HeadIn.slack SegmIn.slack
  cases h.segments.getLast? <;> rfl

/-- **C06, the part that holds.** A written file that is cut before the end of its head, but not inside
flow metadata that the head ends with, is reported as an error when it is opened. -/
theorem C06_reported_partial (o : Opts) (f : FileSpec) (hf : f.Ok) (n : Nat)
    (hn : n + trailingFlowData f.head < (encodeFileHeader f.major f.minor ++ encodeHead f.head).length) :
    ∃ e, decodeFile o (f.bytes.take n) = .error e := by
  rw [trailingFlowData_eq] at hn
  have hh := encodeHead_eq f.head hf.head.wf
  rw [hh] at hn
  have hl12 : (encodeFileHeader f.major f.minor).length = 12 := by
    have h1 : (tagBytes tSSBB).length = 4 := by decide
    have h2 : (tagBytes tGrsg).length = 4 := by decide
    simp [encodeFileHeader, h1, h2]
  rw [List.length_append, hl12] at hn
  unfold decodeFile
  cases hd : decodeFileHeaders false ⟨0, f.bytes.take n⟩ 0 with
  | error e => exact ⟨e, rfl⟩
  | ok r =>
    exfalso
    by_cases h12 : n < 12
    · have := C10_short o (f.bytes.take n) (by simp; omega) (by
        by_cases h8 : n < 8
        · left; simp; omega
        · right
          rw [List.take_take, Nat.min_eq_left (by omega)]
          unfold FileSpec.bytes encodeFileHeader
          rw [List.append_assoc, List.append_assoc, List.append_assoc, ← List.append_assoc]
          exact List.take_left' (by decide))
      unfold decodeFile at this
      rw [hd] at this
      simp at this
    · unfold decodeFileHeaders at hd
      obtain ⟨⟨mj, mn⟩, q1, h1, h2⟩ := Rd.bind_ok hd
      simp only [Rd.ite_apply] at h2
      split at h2
      · obtain ⟨x, q2, h3, -⟩ := Rd.bind_ok h2
        have h3 := Rd.eofToDecode_ok h3
        have hq : q1 = 12 := by
          unfold decodeSsb at h1
          simp only [Bool.not_false, if_true] at h1
          obtain ⟨t, q3, h4, h5⟩ := Rd.bind_ok h1
          obtain ⟨bs, u, h6, -, -⟩ := readString_ok h4
          obtain ⟨-, -, rfl⟩ := readExact_ok h6
          rw [Rd.ite_apply] at h5
          split at h5
          · simp at h5
          · obtain ⟨a, q4, h7, h8⟩ := Rd.bind_ok h5
            obtain ⟨b, q5, h9, h10⟩ := Rd.bind_ok h8
            obtain ⟨_, h11, -⟩ := readUint_ok h7
            obtain ⟨_, h13, -⟩ := readUint_ok h9
            obtain ⟨-, -, rfl⟩ := readExact_ok h11
            obtain ⟨-, -, rfl⟩ := readExact_ok h13
            simp at h10
            omega
        subst hq
        refine decodeHeadBlock_fails hf.head ⟨0, f.bytes.take n⟩ 12 ?_ _ h3
        have e : (f.bytes.take n).drop 12 = (headBlk f.head).bytes.take (n - 12) := by
          unfold FileSpec.bytes
          rw [List.drop_take, hh, List.drop_left' hl12, List.take_append_of_le_length (by omega)]
        refine ⟨Nat.zero_le _, ?_⟩
        simp only [Nat.sub_zero]
        rw [e]
        refine ⟨List.take_prefix _ _, ?_⟩
        rw [List.length_take]
        omega
      · simp at h2

/-- A file whose head ends with flow metadata `{"a":1}`. -/
def flowFile : FileSpec :=
  ⟨9, 0, ⟨u 9, ⟨2024, 2, 29, 23, 59, 59⟩,
    [⟨1, u 10, 0, some ⟨u 1, u 2, hello, [123, 34, 97, 34, 58, 49, 125]⟩, []⟩], []⟩, []⟩

/-- **C06 is violated** inside such trailing metadata: the file opens, with cut flow metadata. -/
theorem C06_counterexample :
    flowFile.Ok ∧ ∃ n r fl, n < (encodeFileHeader flowFile.major flowFile.minor ++ encodeHead flowFile.head).length ∧
      decodeFile {} (flowFile.bytes.take n) = .ok r ∧
      r.hdr.head.segments.map Segm.flow = [some fl] ∧ fl.data = ['{', '"'] := by
  refine ⟨by decide +kernel, 12 + 31 + 34 + 108 + 2, ?_⟩
  have h : (decodeFile {} (flowFile.bytes.take (12 + 31 + 34 + 108 + 2))).toOption.map
      (fun r => r.hdr.head.segments.map Segm.flow) = some [some ⟨u 1, u 2, hello, ['{', '"']⟩] := by
    decide +kernel
  cases hd : decodeFile {} (flowFile.bytes.take (12 + 31 + 34 + 108 + 2)) with
  | error e => rw [hd] at h; simp [Except.toOption] at h
  | ok r =>
    rw [hd] at h
    exact ⟨r, ⟨u 1, u 2, hello, ['{', '"']⟩, by decide +kernel, rfl, Option.some.inj h, rfl⟩

/-- The hypotheses of the positive part hold for cuts inside the first segment of the sample. -/
example : sample.Ok ∧ 70 + trailingFlowData sample.head <
    (encodeFileHeader sample.major sample.minor ++ encodeHead sample.head).length :=
  ⟨sample_ok, by decide +kernel⟩

/-- The sample has file tags, so *every* cut inside its head is reported. -/
example (o : Opts) (n : Nat) (hn : n < 12 + headSize sample.head) :
    ∃ e, decodeFile o (sample.bytes.take n) = .error e :=
  C06_reported_partial o sample sample_ok n (by
    have h1 : (encodeFileHeader sample.major sample.minor ++ encodeHead sample.head).length =
      12 + headSize sample.head := by decide +kernel
    have h2 : trailingFlowData sample.head = 0 := by decide +kernel
    omega)

end Verif.Props

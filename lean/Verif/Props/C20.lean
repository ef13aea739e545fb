import Verif.Props.C09

/-!
# C20, C21, C22: optional coded-video fields, strings and timestamps through a file
-/

namespace Verif.Props

open Verif Verif.Gsf

/-- The metadata the decoder hands out for the `i`-th grain of a written file. -/
theorem decoded_grain (f : FileSpec) (hf : f.Ok) :
    ∃ r, decodeFile {} f.bytes = .ok r ∧ r.items.length = f.grains.length ∧
      ∀ (i : Nat) (x : Nat × Grain), f.grains[i]? = some x → ∃ it, r.items[i]? = some it ∧ it.localId = x.1 ∧
        it.info = x.2.toMeta f.major := by
  obtain ⟨r, h1, -, -, h2⟩ := C01_round_trip_normal_form f hf
  have hl := congrArg List.length h2
  simp only [Run.view, List.length_map] at hl
  refine ⟨r, h1, hl, ?_⟩
  intro i x hx
  have h3 : (r.view f.bytes)[i]? = some (x.2.toMeta f.major, x.2.payload, x.1) := by
    rw [h2, List.getElem?_map, hx]; rfl
  unfold Run.view at h3
  rw [List.getElem?_map] at h3
  cases hi : r.items[i]? with
  | none => rw [hi] at h3; simp at h3
  | some it =>
    rw [hi] at h3
    simp only [Option.map_some, Option.some.injEq, Item.view, Prod.mk.injEq] at h3
    exact ⟨it, rfl, h3.2.2, h3.1⟩

/-! ## C20 -/

theorem toMeta_codedVideo (major : Nat) (g : Grain) (c : CodedVideoHdr) (h : g.body = .codedVideo c) :
    (g.toMeta major).cogCodedFrame = some (c.canon major) := by
  unfold Grain.toMeta; rw [h]; rfl

/-- **C20, the part that holds.** Present key-frame flags and temporal offsets survive in every version,
absent ones survive in version 9; excepted is the temporal offset `0x7fffffff` in version 9. -/
theorem C20_optional_fields_partial (f : FileSpec) (hf : f.Ok) :
    ∃ r, decodeFile {} f.bytes = .ok r ∧ ∀ (i : Nat) (x : Nat × Grain) (c : CodedVideoHdr),
      f.grains[i]? = some x → x.2.body = .codedVideo c →
        ∃ it c', r.items[i]? = some it ∧ it.info.cogCodedFrame = some c' ∧
          (f.major = 9 ∨ c.isKeyFrame ≠ none → c'.isKeyFrame = c.isKeyFrame) ∧
          ((f.major = 9 ∧ c.temporalOffset ≠ some 0x7fffffff) ∨ (f.major ≠ 9 ∧ c.temporalOffset ≠ none) →
            c'.temporalOffset = c.temporalOffset) := by
  obtain ⟨r, h1, -, h2⟩ := decoded_grain f hf
  refine ⟨r, h1, ?_⟩
  intro i x c hx hc
  obtain ⟨it, h3, -, h4⟩ := h2 i x hx
  refine ⟨it, c.canon f.major, h3, by rw [h4]; exact toMeta_codedVideo _ _ _ hc, ?_, ?_⟩
  · intro h
    simp only [CodedVideoHdr.canon, canonKey]
    cases hk : c.isKeyFrame with
    | none => rw [if_neg (by simp [hk] at h; omega)]
    | some k => simp
  · intro h
    simp only [CodedVideoHdr.canon, canonTemporal]
    have hm := hf.major
    rcases h with ⟨h9, h⟩ | ⟨h9, h⟩
    · rw [if_neg (by omega)]
      cases hk : c.temporalOffset with
      | none => rfl
      | some t =>
        have : t ≠ 0x7fffffff := fun e => h (by rw [hk, e])
        simp [this]
    · rw [if_pos (by omega)]
      cases hk : c.temporalOffset with
      | none => exact absurd hk h
      | some t => rfl

/-- **C20 is violated** in versions 7 and 8: an absent key-frame flag comes back as "key frame", an absent
temporal offset comes back as `0x7fffffff`. -/
theorem C20_absent_before_v9 (f : FileSpec) (hf : f.Ok) (hm : f.major ≠ 9) :
    ∃ r, decodeFile {} f.bytes = .ok r ∧ ∀ (i : Nat) (x : Nat × Grain) (c : CodedVideoHdr),
      f.grains[i]? = some x → x.2.body = .codedVideo c →
        ∃ it c', r.items[i]? = some it ∧ it.info.cogCodedFrame = some c' ∧
          (c.isKeyFrame = none → c'.isKeyFrame = some true) ∧
          (c.temporalOffset = none → c'.temporalOffset = some 0x7fffffff) := by
  obtain ⟨r, h1, -, h2⟩ := decoded_grain f hf
  have hv := hf.major
  refine ⟨r, h1, ?_⟩
  intro i x c hx hc
  obtain ⟨it, h3, -, h4⟩ := h2 i x hx
  refine ⟨it, c.canon f.major, h3, by rw [h4]; exact toMeta_codedVideo _ _ _ hc, ?_, ?_⟩
  · intro h; simp only [CodedVideoHdr.canon, canonKey, h]; rw [if_pos (by omega)]; rfl
  · intro h; simp only [CodedVideoHdr.canon, canonTemporal, h]; rw [if_pos (by omega)]; rfl

/-- **C20 is violated** in version 9 at the one value that stands for "absent". -/
theorem C20_sentinel_v9 (f : FileSpec) (hf : f.Ok) (hm : f.major = 9) :
    ∃ r, decodeFile {} f.bytes = .ok r ∧ ∀ (i : Nat) (x : Nat × Grain) (c : CodedVideoHdr),
      f.grains[i]? = some x → x.2.body = .codedVideo c → c.temporalOffset = some 0x7fffffff →
        ∃ it c', r.items[i]? = some it ∧ it.info.cogCodedFrame = some c' ∧ c'.temporalOffset = none := by
  obtain ⟨r, h1, -, h2⟩ := decoded_grain f hf
  refine ⟨r, h1, ?_⟩
  intro i x c hx hc h
  obtain ⟨it, h3, -, h4⟩ := h2 i x hx
  refine ⟨it, c.canon f.major, h3, by rw [h4]; exact toMeta_codedVideo _ _ _ hc, ?_⟩
  simp only [CodedVideoHdr.canon, canonTemporal, h]; rw [if_neg (by omega)]; rfl

/-- Version 8 with an absent flag, and version 9 with the reserved offset, are accepted by the encoder. -/
def gSentinel : Grain :=
  { gCoded with body := .codedVideo ⟨0x0200, 1, 1920, 1080, 1920, 1088, none, some 0x7fffffff, none⟩ }

example : ({ sample with major := 8, grains := [(1, gCodedNone)] } : FileSpec).Ok ∧
    ({ sample with grains := [(1, gSentinel), (1, gCoded)] } : FileSpec).Ok := by decide +kernel

/-! ## C22 -/

theorem toMeta_ts (major : Nat) (g : Grain) :
    (g.toMeta major).origin = canonTs major g.origin ∧ (g.toMeta major).sync = canonTs major g.sync := by
  unfold Grain.toMeta Meta.addTils Meta.addBody
  split <;> split <;> exact ⟨rfl, rfl⟩

/-- **C22, the part that holds.** Timestamps survive exactly, of every sign in versions 8 and 9,
non-negative ones in version 7. -/
theorem C22_timestamps_partial (f : FileSpec) (hf : f.Ok) :
    ∃ r, decodeFile {} f.bytes = .ok r ∧ ∀ (i : Nat) (x : Nat × Grain), f.grains[i]? = some x →
      ∃ it, r.items[i]? = some it ∧
        (f.major ≠ 7 ∨ 0 ≤ x.2.origin → it.info.origin = x.2.origin) ∧
        (f.major ≠ 7 ∨ 0 ≤ x.2.sync → it.info.sync = x.2.sync) := by
  obtain ⟨r, h1, -, h2⟩ := decoded_grain f hf
  refine ⟨r, h1, ?_⟩
  intro i x hx
  obtain ⟨it, h3, -, h4⟩ := h2 i x hx
  obtain ⟨h5, h6⟩ := toMeta_ts f.major x.2
  refine ⟨it, h3, ?_, ?_⟩
  · intro h
    rw [h4, h5, canonTs]; split <;> omega
  · intro h
    rw [h4, h6, canonTs]; split <;> omega

/-- **C22 is violated** in version 7: a negative timestamp comes back positive. -/
theorem C22_negative_v7 (f : FileSpec) (hf : f.Ok) (hm : f.major = 7) :
    ∃ r, decodeFile {} f.bytes = .ok r ∧ ∀ (i : Nat) (x : Nat × Grain), f.grains[i]? = some x →
      ∃ it, r.items[i]? = some it ∧
        (x.2.origin < 0 → it.info.origin = -x.2.origin) ∧ (x.2.sync < 0 → it.info.sync = -x.2.sync) := by
  obtain ⟨r, h1, -, h2⟩ := decoded_grain f hf
  refine ⟨r, h1, ?_⟩
  intro i x hx
  obtain ⟨it, h3, -, h4⟩ := h2 i x hx
  obtain ⟨h5, h6⟩ := toMeta_ts f.major x.2
  refine ⟨it, h3, ?_, ?_⟩
  · intro h; rw [h4, h5, canonTs, if_pos hm]; omega
  · intro h; rw [h4, h6, canonTs, if_pos hm]; omega

/-- The encoder accepts negative timestamps in version 7. -/
example : ({ sample with major := 7, grains := [(1, gEmpty)] } : FileSpec).Ok ∧ gEmpty.origin < 0 := by decide +kernel

/-! ## C21 -/

theorem toMeta_tils (major : Nat) (g : Grain) :
    ((g.toMeta major).timelabels.getD []).map TimeLabel.tag = g.timelabels.map TimeLabel.tag := by
  have h1 : (g.toMeta major).timelabels = ((g.baseMeta major).addTils g.timelabels).timelabels := by
    unfold Grain.toMeta Meta.addBody; split <;> rfl
  rw [h1]
  unfold Meta.addTils
  split
  · simp [TimeLabel.canon, Function.comp_def]
  · rename_i h
    have : g.timelabels = [] := by simpa using h
    simp [this, Grain.baseMeta]

/-- **C21, first half.** Strings that fit their fields and neither begin nor end with NUL (that is what
`FileSpec.Ok` says about strings) read back identically: file tags, segment tags, flow formats and time
label tags. -/
theorem C21_fitting_strings (f : FileSpec) (hf : f.Ok) :
    ∃ r, decodeFile {} f.bytes = .ok r ∧ r.hdr.head.tags = f.head.tags ∧
      r.hdr.head.segments.map Segm.tags = f.head.segments.map SegmIn.tags ∧
      r.hdr.head.segments.map (fun sg => sg.flow.map Flow.format) =
        f.head.segments.map (fun sg => sg.flow.map FlowIn.format) ∧
      ∀ (i : Nat) (x : Nat × Grain), f.grains[i]? = some x → ∃ it, r.items[i]? = some it ∧
        (it.info.timelabels.getD []).map TimeLabel.tag = x.2.timelabels.map TimeLabel.tag := by
  obtain ⟨r, h1, -, h2⟩ := decoded_grain f hf
  obtain ⟨r', h1', -, h3, -⟩ := C01_round_trip_normal_form f hf
  obtain rfl : r = r' := by rw [h1] at h1'; exact Except.ok.inj h1'
  refine ⟨r, h1, by rw [h3]; rfl, ?_, ?_, ?_⟩
  · rw [h3]; simp only [hdrOf, List.map_map]; rfl
  · rw [h3]; simp only [hdrOf, List.map_map, Function.comp_def, Option.map_map]
  · intro i x hx
    obtain ⟨it, h4, -, h5⟩ := h2 i x hx
    exact ⟨it, h4, by rw [h5, toMeta_tils]⟩

theorem decodeUtf8_append (s : List Char) (t : Bytes) :
    decodeUtf8 (encodeUtf8 s ++ t) = (decodeUtf8 t).map (s ++ ·) := by
  induction s with
  | nil => simp [encodeUtf8]
  | cons c s ih =>
    have : encodeUtf8 (c :: s) = String.utf8EncodeChar c ++ encodeUtf8 s := rfl
    rw [this, List.append_assoc, decodeUtf8_char, ih]
    cases decodeUtf8 t <;> rfl

theorem encodeUtf8_prefix {t s : List Char} (h : encodeUtf8 t <+: encodeUtf8 s) : t <+: s := by
  obtain ⟨r, hr⟩ := h
  have h1 := decodeUtf8_append t r
  rw [hr, decodeUtf8_encodeUtf8] at h1
  cases hd : decodeUtf8 r with
  | none => rw [hd] at h1; simp at h1
  | some u => rw [hd] at h1; simp at h1; exact ⟨u, h1.symm⟩

/-- **C21, second half, the part that holds.** A string too long for a fixed field of `n` bytes or a
variable one is cut: what is read back, if it can be decoded at all, is a first part of the string (with
NULs stripped). -/
theorem C21_truncated_partial (s : List Char) (n : Nat) (hl : n ≤ (encodeUtf8 s).length) (st : Stream) (p : Nat)
    (hat : At st p (padString s n)) :
    readString n st p = .error .decode ∨
      ∃ t, t <+: s ∧ encodeUtf8 t = (encodeUtf8 s).take n ∧ readString n st p = .ok (cleanString t, p + n) := by
  have e : padString s n = (encodeUtf8 s).take n := by
    unfold padString; rw [List.take_append_of_le_length hl]
  rw [e] at hat
  have hlen : ((encodeUtf8 s).take n).length = n := by rw [List.length_take]; omega
  cases hd : decodeUtf8 ((encodeUtf8 s).take n) with
  | none =>
    left
    unfold readString
    rw [Rd.bind_of_ok (reads_exact hlen st p hat), hd]
    rfl
  | some t =>
    right
    have ht := encodeUtf8_of_decodeUtf8 _ _ hd
    refine ⟨t, encodeUtf8_prefix (by rw [ht]; exact List.take_prefix _ _), ht, ?_⟩
    unfold readString
    rw [Rd.bind_of_ok (reads_exact hlen st p hat), hd, hlen]
    rfl

theorem C21_truncated_tag_partial (s : List Char) (hl : 65535 ≤ (encodeUtf8 s).length) (st : Stream) (p : Nat)
    (hat : At st p (encodeUint (tagString s).length 2 ++ tagString s)) :
    readVarstring st p = .error .decode ∨
      ∃ t, t <+: s ∧ encodeUtf8 t = (encodeUtf8 s).take 65535 ∧ readVarstring st p = .ok (cleanString t, p + 2 + 65535) := by
  have hlen : (tagString s).length = 65535 := by unfold tagString; rw [List.length_take]; omega
  have h1 := reads_uint (n := 2) (v := (tagString s).length) (by omega) st p hat.left
  have h2 := hat.right
  rw [encodeUint_length] at h2
  have e : tagString s = padString s 65535 := by
    unfold padString tagString; rw [List.take_append_of_le_length hl]
  have h3 := C21_truncated_partial s 65535 hl st (p + 2) (by rw [← e]; exact h2)
  unfold readVarstring
  rw [Rd.bind_of_ok h1, hlen, encodeUint_length]
  rcases h3 with h3 | ⟨t, h4, h5, h3⟩
  · exact .inl h3
  · exact .inr ⟨t, h4, h5, h3⟩

/-- Fifteen letters and a two byte character: 17 bytes for the 16 byte field of a time label. -/
def longTag : List Char := List.replicate 15 'a' ++ ['é']

/-- A flow format of 63 letters and a two byte character. -/
def longFormat : List Char := List.replicate 63 'a' ++ ['é']

/-- **C21 is violated**: the field cut can split a character.  Then the grains are lost to the decoder
(time label) or the file cannot be opened at all (flow format), although the encoder wrote it without
complaint. -/
theorem C21_counterexample :
    (∃ r, decodeFile {} ({ tiny with grains := [(1, { gAudio with timelabels := [⟨longTag, 1, 25, 1, false⟩] })] } :
        FileSpec).bytes = .ok r ∧ r.items = [] ∧ r.ending = .err .decode) ∧
      decodeFile {} ({ tiny with head := { tiny.head with
        segments := [⟨1, u 10, 1, some ⟨u 1, u 2, longFormat, [123, 125]⟩, []⟩] } } : FileSpec).bytes =
          .error .decode := by
  constructor
  · have h : (decodeFile {} ({ tiny with grains := [(1, { gAudio with timelabels := [⟨longTag, 1, 25, 1, false⟩] })] } :
        FileSpec).bytes).toOption.map (fun r => (r.items, r.ending)) = some ([], .err .decode) := by decide +kernel
    revert h
    generalize decodeFile {} _ = d
    intro h
    cases d with
    | error e => simp [Except.toOption] at h
    | ok r =>
      simp only [Except.toOption, Option.map_some, Option.some.injEq, Prod.mk.injEq] at h
      exact ⟨r, rfl, h.1, h.2⟩
  · have h : (match decodeFile {} ({ tiny with head := { tiny.head with
        segments := [⟨1, u 10, 1, some ⟨u 1, u 2, longFormat, [123, 125]⟩, []⟩] } } : FileSpec).bytes with
        | .error e => some e | .ok _ => none) = some Err.decode := by decide +kernel
    revert h
    generalize decodeFile {} _ = d
    intro h
    cases d with
    | error e => simp at h; rw [h]
    | ok r => simp at h

/-- Both positive parts apply: to the sample, and to a long string that is cut between characters. -/
example : sample.Ok ∧ ∃ t, t <+: longTag ∧ encodeUtf8 t = (encodeUtf8 longTag).take 15 :=
  ⟨sample_ok, List.replicate 15 'a', ⟨['é'], rfl⟩, by decide +kernel⟩

end Verif.Props

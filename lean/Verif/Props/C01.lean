import Verif.Props.Sample

/-!
# C01: whole-file round trip
-/

namespace Verif.Props

open Verif Verif.Gsf

/-! ## Specification: what must come back, field by field -/

/-- The metadata dictionary that says exactly what the grain object says. -/
def metaOf (g : Grain) : Meta :=
  { sourceId := g.sourceId, flowId := g.flowId, origin := g.origin, sync := g.sync, rate := g.rate,
    duration := g.duration
    timelabels := if g.timelabels = [] then none else some g.timelabels
    grainType := match g.body with
      | .empty => none
      | .event => some .event
      | .video _ => some .video
      | .codedVideo _ => some .codedVideo
      | .audio _ => some .audio
      | .codedAudio _ => some .codedAudio
    cogFrame := match g.body with | .video v => some v | _ => none
    cogCodedFrame := match g.body with | .codedVideo c => some c | _ => none
    cogAudio := match g.body with | .audio a => some a | _ => none
    cogCodedAudio := match g.body with | .codedAudio a => some a | _ => none }

/-- The header that says exactly what was given to the encoder. -/
def hdrOf (f : FileSpec) : Hdr :=
  ⟨f.major, f.minor, f.head.id, f.head.created,
   f.head.segments.map (fun sg => ⟨sg.localId, sg.id, sg.count,
     sg.flow.map (fun fl => ⟨fl.srcId, fl.flowId, fl.format, (decodeUtf8 fl.data).getD []⟩), sg.tags⟩),
   f.head.tags⟩

/-- Offsets are the running sums of the lengths: the components are packed one after the other. -/
def Packed : Nat → List Component → Prop
  | _, [] => True
  | off, c :: cs => c.offset = off ∧ Packed (off + c.length) cs

instance : ∀ off cs, Decidable (Packed off cs)
  | _, [] => inferInstanceAs (Decidable True)
  | off, c :: cs =>
    have := instDecidablePacked (off + c.length) cs
    inferInstanceAs (Decidable (c.offset = off ∧ Packed (off + c.length) cs))

/-- The type header has a representation of its own in the file: aspect ratios are not zero, components
are packed, the reserved temporal offset is not used, optional fields are only left out in version 9, and
an empty list of unit offsets is left out. -/
def PlainBody (major : Nat) : Body → Prop
  | .video v => v.srcAspect ≠ some 0 ∧ v.pixAspect ≠ some 0 ∧ Packed 0 v.components
  | .codedVideo c =>
    (major = 9 ∨ (c.isKeyFrame.isSome ∧ c.temporalOffset.isSome)) ∧
      (major = 9 → c.temporalOffset ≠ some 0x7fffffff) ∧ c.unitOffsets ≠ some []
  | _ => True

instance (major b) : Decidable (PlainBody major b) := by cases b <;> unfold PlainBody <;> infer_instance

/-- The values that have a representation of their own in a version `major` file. -/
def Plain (major : Nat) (g : Grain) : Prop :=
  (major = 7 → 0 ≤ g.origin ∧ 0 ≤ g.sync) ∧
    (∀ l ∈ g.timelabels, l.rateNum.Coprime l.rateDen ∧ l.rateDen ≠ 0) ∧ PlainBody major g.body ∧
    g.data ≠ some []

instance (major g) : Decidable (Plain major g) := by unfold Plain; infer_instance

/-! ## The general result and its reduction to the specification -/

theorem canonRate_plain {n d : Nat} (h : n.Coprime d) (hd : d ≠ 0) :
    (canonRate n d).num.toNat = n ∧ (canonRate n d).den = d := by
  unfold canonRate
  by_cases hn : n = 0
  · subst hn
    have : d = 1 := by simpa using h
    subst this
    rw [if_pos (.inl rfl)]
    exact ⟨rfl, rfl⟩
  · rw [if_neg (by omega)]
    have e : mkRat (n : Int) d = Rat.mk' n d hd (by simpa using h) := by
      rw [Rat.mk_eq_mkRat]
    rw [e]
    exact ⟨rfl, rfl⟩

theorem canonComps_packed : ∀ (off : Nat) (cs : List Component), Packed off cs → canonComps off cs = cs
  | _, [], _ => rfl
  | off, c :: cs, h => by
    rw [canonComps, canonComps_packed _ cs h.2, ← h.1]

theorem canonAspect_plain {q : Option Rat} (h : q ≠ some 0) : canonAspect q = q := by
  unfold canonAspect
  cases q with
  | none => simp
  | some q =>
    have : q ≠ 0 := fun e => h (by rw [e])
    simp [this]

theorem toMeta_plain {major : Nat} (hm : major = 7 ∨ major = 8 ∨ major = 9) {g : Grain} (h : Plain major g) :
    g.toMeta major = metaOf g := by
  obtain ⟨h1, h2, h3, -⟩ := h
  have ht : g.timelabels.map TimeLabel.canon = g.timelabels := by
    conv => rhs; rw [← List.map_id g.timelabels]
    apply List.map_congr_left
    intro l hl
    have := canonRate_plain (h2 l hl).1 (h2 l hl).2
    unfold TimeLabel.canon
    rw [this.1, this.2]; rfl
  have ho : canonTs major g.origin = g.origin := by
    unfold canonTs; split
    · rename_i h7; have := h1 h7; omega
    · rfl
  have hsy : canonTs major g.sync = g.sync := by
    unfold canonTs; split
    · rename_i h7; have := h1 h7; omega
    · rfl
  have hb : (g.baseMeta major).addTils g.timelabels =
      { sourceId := g.sourceId, flowId := g.flowId, origin := g.origin, sync := g.sync, rate := g.rate,
        duration := g.duration, timelabels := if g.timelabels = [] then none else some g.timelabels } := by
    unfold Meta.addTils Grain.baseMeta
    rw [ho, hsy, ht]
    cases hg : g.timelabels with
    | nil => simp
    | cons a b => simp
  unfold Grain.toMeta metaOf
  rw [hb]
  cases hbd : g.body with
  | empty => rfl
  | event => rfl
  | audio a => rfl
  | codedAudio a => rfl
  | video v =>
    rw [hbd] at h3
    have : v.canon = v := by
      unfold VideoHdr.canon
      rw [canonAspect_plain h3.1, canonAspect_plain h3.2.1, canonComps_packed _ _ h3.2.2]
    simp only [Meta.addBody, this]
  | codedVideo c =>
    rw [hbd] at h3
    obtain ⟨a1, a2, a3⟩ := h3
    have : c.canon major = c := by
      have e1 : canonKey major c.isKeyFrame = c.isKeyFrame := by
        unfold canonKey
        split
        · cases hk : c.isKeyFrame with
          | none => rw [hk] at a1; simp at a1; omega
          | some k => rfl
        · rfl
      have e2 : canonTemporal major c.temporalOffset = c.temporalOffset := by
        unfold canonTemporal
        cases hk : c.temporalOffset with
        | none =>
          rw [hk] at a1
          have : major = 9 := by simpa using a1
          subst this
          rfl
        | some t =>
          rw [hk] at a2
          split
          · rfl
          · have h9 : major = 9 := by omega
            have := a2 h9
            have : t ≠ 0x7fffffff := fun e => this (by rw [e])
            simp [this]
      have e3 : (if c.offsets.length > 0 then some c.offsets else none) = c.unitOffsets := by
        unfold CodedVideoHdr.offsets
        cases hu : c.unitOffsets with
        | none => rfl
        | some l =>
          cases l with
          | nil => exact absurd hu a3
          | cons a l => simp
      unfold CodedVideoHdr.canon
      rw [e1, e2, e3]
    simp only [Meta.addBody, this]

/-- **C01.** Decoding what was encoded gives back the same headers and, in order, the same grain
metadata, data and local ids, for every file whose values fit their fields and have a representation of
their own (`Plain`). -/
theorem C01_round_trip (f : FileSpec) (hf : f.Ok) (hp : ∀ x ∈ f.grains, Plain f.major x.2) :
    ∃ r, decodeFile {} f.bytes = .ok r ∧ r.ending = .eof ∧ r.hdr = hdrOf f ∧
      r.view f.bytes = f.grains.map (fun x => (metaOf x.2, x.2.data, x.1)) := by
  obtain ⟨r, h1, h2, h3, h4⟩ := decodeFile_concat (o := {}) rfl hf (decoFile_self hf) (fs := []) (by simp)
  simp only [List.flatMap_nil, List.append_nil, List.foldl_nil, List.flatMap_cons] at h1 h2 h3
  refine ⟨r, h1, h4, h3, ?_⟩
  rw [h2, List.filter_eq_self.2 (show ∀ a ∈ f.grains, (!Opts.drops {} a.1) = true from fun _ _ => rfl)]
  apply List.map_congr_left
  intro x hx
  have hpx := hp x hx
  unfold Opts.viewOf Grain.payload
  simp only [toMeta_plain hf.major hpx]
  rw [if_neg (by decide)]
  congr 2
  cases hd : x.2.data with
  | none => rfl
  | some d =>
    cases d with
    | nil => exact absurd hd hpx.2.2.2
    | cons a l => rfl

/-- The same for every in-range value, also those without a representation of their own: they come back
as their normal form (rates in lowest terms, zero aspect ratio absent, packed components, version 7
timestamps unsigned, …). -/
theorem C01_round_trip_normal_form (f : FileSpec) (hf : f.Ok) :
    ∃ r, decodeFile {} f.bytes = .ok r ∧ r.ending = .eof ∧ r.hdr = hdrOf f ∧
      r.view f.bytes = f.grains.map (fun x => (x.2.toMeta f.major, x.2.payload, x.1)) := by
  obtain ⟨r, h1, h2, h3, h4⟩ := decodeFile_concat (o := {}) rfl hf (decoFile_self hf) (fs := []) (by simp)
  simp only [List.flatMap_nil, List.append_nil, List.foldl_nil, List.flatMap_cons] at h1 h2 h3
  refine ⟨r, h1, h4, h3, ?_⟩
  rw [h2, List.filter_eq_self.2 (show ∀ a ∈ f.grains, (!Opts.drops {} a.1) = true from fun _ _ => rfl)]
  rfl

/-- The hypotheses hold for a file with every grain type. -/
example : sample.Ok ∧ ∀ x ∈ sample.grains, Plain sample.major x.2 := ⟨sample_ok, by decide +kernel⟩

example : sample7.Ok ∧ ∀ x ∈ sample7.grains, Plain sample7.major x.2 := ⟨sample7_ok, by decide +kernel⟩

end Verif.Props

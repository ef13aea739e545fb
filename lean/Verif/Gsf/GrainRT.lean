import Verif.Gsf.Layout

/-!
# Grain blocks: what is written is read back
-/

namespace Verif.Gsf

open Verif

/-! ## The metadata a written grain decodes to -/

/-- The fraction written as numerator and denominator; zero when either is zero. -/
def canonRate (n d : Nat) : Rat := if n = 0 ∨ d = 0 then 0 else mkRat n d

/-- A time label comes back with its rate in lowest terms. -/
def TimeLabel.canon (l : TimeLabel) : TimeLabel :=
  { l with rateNum := (canonRate l.rateNum l.rateDen).num.toNat, rateDen := (canonRate l.rateNum l.rateDen).den }

/-- A zero aspect ratio comes back as a missing one. -/
def canonAspect (q : Option Rat) : Option Rat := if q.getD 0 ≠ 0 then some (q.getD 0) else none

/-- Component offsets are not stored; they come back as the running sum of the lengths. -/
def canonComps : Nat → List Component → List Component
  | _, [] => []
  | off, c :: cs => { c with offset := off } :: canonComps (off + c.length) cs

def VideoHdr.canon (v : VideoHdr) : VideoHdr :=
  { v with srcAspect := canonAspect v.srcAspect, pixAspect := canonAspect v.pixAspect,
           components := canonComps 0 v.components }

/-- Before version 9 the "unknown" values of the two optional fields come back as ordinary values; from
version 9 the reserved offset comes back as unknown. -/
def canonKey (major : Nat) (k : Option Bool) : Option Bool :=
  if major < 9 then some (k.getD true) else k

def canonTemporal (major : Nat) (t : Option Int) : Option Int :=
  if major < 9 then some (t.getD 0x7fffffff)
  else if t.getD 0x7fffffff = 0x7fffffff then none else some (t.getD 0x7fffffff)

def CodedVideoHdr.canon (major : Nat) (c : CodedVideoHdr) : CodedVideoHdr :=
  { c with isKeyFrame := canonKey major c.isKeyFrame, temporalOffset := canonTemporal major c.temporalOffset,
           unitOffsets := if c.offsets.length > 0 then some c.offsets else none }

/-- Version 7 stores no sign. -/
def canonTs (major : Nat) (t : Int) : Int := if major = 7 then t.natAbs else t

/-- The fixed part. -/
def Grain.baseMeta (major : Nat) (g : Grain) : Meta :=
  { sourceId := g.sourceId, flowId := g.flowId, origin := canonTs major g.origin,
    sync := canonTs major g.sync, rate := g.rate, duration := g.duration }

def Meta.addTils (ls : List TimeLabel) (m : Meta) : Meta :=
  if ls.length > 0 then { m with timelabels := some (ls.map TimeLabel.canon) } else m

def Meta.addBody (major : Nat) (m : Meta) : Body → Meta
  | .empty => m
  | .event => { m with grainType := some .event }
  | .video v => { m with grainType := some .video, cogFrame := some v.canon }
  | .codedVideo c => { m with grainType := some .codedVideo, cogCodedFrame := some (c.canon major) }
  | .audio a => { m with grainType := some .audio, cogAudio := some a }
  | .codedAudio a => { m with grainType := some .codedAudio, cogCodedAudio := some a }

/-- The metadata a grain decodes to after being written in version `major`. -/
def Grain.toMeta (major : Nat) (g : Grain) : Meta :=
  ((g.baseMeta major).addTils g.timelabels).addBody major g.body

/-! ## The values the fields can hold -/

def TimeLabel.Ok (l : TimeLabel) : Prop :=
  StrOk l.tag ∧ (encodeUtf8 l.tag).length ≤ 16 ∧ l.frames < 2 ^ 32 ∧ l.rateNum < 2 ^ 32 ∧ l.rateDen < 2 ^ 32

instance (l : TimeLabel) : Decidable l.Ok := by unfold TimeLabel.Ok; infer_instance

def Component.Ok (c : Component) : Prop :=
  c.width < 2 ^ 32 ∧ c.height < 2 ^ 32 ∧ c.stride < 2 ^ 32 ∧ c.length < 2 ^ 32

instance (c : Component) : Decidable c.Ok := by unfold Component.Ok; infer_instance

def AspectOk (q : Option Rat) : Prop := RatOk (q.getD 0)

instance (q) : Decidable (AspectOk q) := by unfold AspectOk; infer_instance

def VideoHdr.Ok (v : VideoHdr) : Prop :=
  v.format < 2 ^ 32 ∧ v.layout < 2 ^ 32 ∧ v.width < 2 ^ 32 ∧ v.height < 2 ^ 32 ∧ v.extension < 2 ^ 32 ∧
    AspectOk v.srcAspect ∧ AspectOk v.pixAspect ∧ v.components.length < 2 ^ 16 ∧
    ∀ c ∈ v.components, c.Ok

instance (v : VideoHdr) : Decidable v.Ok := by unfold VideoHdr.Ok; infer_instance

def TemporalOk (t : Option Int) : Prop := -(2 : Int) ^ 31 ≤ t.getD 0 ∧ t.getD 0 < 2 ^ 31

instance (t) : Decidable (TemporalOk t) := by unfold TemporalOk; infer_instance

def CodedVideoHdr.Ok (c : CodedVideoHdr) : Prop :=
  c.format < 2 ^ 32 ∧ c.layout < 2 ^ 32 ∧ c.originWidth < 2 ^ 32 ∧ c.originHeight < 2 ^ 32 ∧
    c.codedWidth < 2 ^ 32 ∧ c.codedHeight < 2 ^ 32 ∧ TemporalOk c.temporalOffset ∧
    c.offsets.length < 2 ^ 16 ∧ ∀ o ∈ c.offsets, o < 2 ^ 32

instance (c : CodedVideoHdr) : Decidable c.Ok := by unfold CodedVideoHdr.Ok; infer_instance

def AudioHdr.Ok (a : AudioHdr) : Prop :=
  a.format < 2 ^ 32 ∧ a.channels < 2 ^ 16 ∧ a.samples < 2 ^ 32 ∧ a.sampleRate < 2 ^ 32

instance (c : AudioHdr) : Decidable c.Ok := by unfold AudioHdr.Ok; infer_instance

def CodedAudioHdr.Ok (a : CodedAudioHdr) : Prop :=
  a.format < 2 ^ 32 ∧ a.channels < 2 ^ 16 ∧ a.samples < 2 ^ 32 ∧ a.priming < 2 ^ 32 ∧
    a.remainder < 2 ^ 32 ∧ a.sampleRate < 2 ^ 32

instance (c : CodedAudioHdr) : Decidable c.Ok := by unfold CodedAudioHdr.Ok; infer_instance

def Body.Ok : Body → Prop
  | .empty => True
  | .event => True
  | .video v => v.Ok
  | .codedVideo c => c.Ok
  | .audio a => a.Ok
  | .codedAudio a => a.Ok

instance (b : Body) : Decidable b.Ok := by cases b <;> unfold Body.Ok <;> infer_instance

/-- Every field of the grain fits the field it is written to. -/
structure Grain.Ok (major : Nat) (g : Grain) : Prop where
  wf : g.Wf
  origin : TsOk g.origin
  sync : TsOk g.sync
  rate : RatOk g.rate
  duration : RatOk g.duration
  tils : g.timelabels.length < 2 ^ 16
  til : ∀ l ∈ g.timelabels, l.Ok
  body : g.body.Ok
  size : graiSize major g < 2 ^ 32

instance (major) (g : Grain) : Decidable (g.Ok major) :=
  decidable_of_iff (g.Wf ∧ TsOk g.origin ∧ TsOk g.sync ∧ RatOk g.rate ∧ RatOk g.duration ∧
    g.timelabels.length < 2 ^ 16 ∧ (∀ l ∈ g.timelabels, l.Ok) ∧ g.body.Ok ∧ graiSize major g < 2 ^ 32)
    ⟨fun ⟨a, b, c, d, e, f, h, i, j⟩ => ⟨a, b, c, d, e, f, h, i, j⟩,
     fun ⟨a, b, c, d, e, f, h, i, j⟩ => ⟨a, b, c, d, e, f, h, i, j⟩⟩

/-! ## Reading the parts -/

theorem reads_rational_raw {n d : Nat} (hn : n < 2 ^ 32) (hd : d < 2 ^ 32) :
    Reads readRational (encodeUint n 4 ++ encodeUint d 4) (canonRate n d) := by
  unfold readRational
  apply Reads.bind (reads_uint (by omega))
  rw [← List.append_nil (encodeUint _ 4)]
  apply Reads.bind (reads_uint (by omega))
  unfold canonRate
  split
  · exact Reads.pure _
  · exact Reads.pure _

theorem reads_timeLabel {l : TimeLabel} (h : l.Ok) : Reads readTimeLabel (encodeTimeLabel l) l.canon := by
  obtain ⟨h1, h2, h3, h4, h5⟩ := h
  have e : encodeTimeLabel l = padString l.tag 16 ++ (encodeUint l.frames 4 ++
      ((encodeUint l.rateNum 4 ++ encodeUint l.rateDen 4) ++ (encodeBool l.drop ++ []))) := by
    simp [encodeTimeLabel, encodeBool]
  rw [e]
  unfold readTimeLabel
  apply Reads.bind (reads_padString h1 h2)
  apply Reads.bind (reads_uint (by omega))
  apply Reads.bind (reads_rational_raw h4 h5)
  apply Reads.bind (reads_bool _)
  rw [rstripNul_ok h1.2, lstripNul_ok h1.1]
  exact Reads.pure _

theorem reads_repeat' {m : Rd β} (enc : α → Bytes) (g : α → β) (l : List α)
    (h : ∀ a ∈ l, Reads m (enc a) (g a)) :
    Reads (repeatRd l.length m) (l.flatMap enc) (l.map g) := by
  induction l with
  | nil => exact Reads.pure _
  | cons a l ih =>
    rw [List.flatMap_cons]
    apply Reads.bind (h a (by simp))
    exact (ih (fun b hb => h b (by simp [hb]))).bind_pure

theorem reads_tils {ls : List TimeLabel} (hl : ls.length < 2 ^ 16) (h : ∀ l ∈ ls, l.Ok) :
    Reads readTils (encodeUint ls.length 2 ++ ls.flatMap encodeTimeLabel) (ls.map TimeLabel.canon) := by
  unfold readTils
  apply Reads.bind (reads_uint (by omega))
  exact reads_repeat' _ _ _ (fun a ha => reads_timeLabel (h a ha))

theorem reads_components (cs : List Component) (h : ∀ c ∈ cs, c.Ok) (off : Nat) :
    Reads (readComponents cs.length off) (cs.flatMap encodeComponent) (canonComps off cs) := by
  induction cs generalizing off with
  | nil => exact Reads.pure _
  | cons c cs ih =>
    obtain ⟨h1, h2, h3, h4⟩ := h c (by simp)
    rw [List.flatMap_cons]
    unfold encodeComponent
    simp only [List.append_assoc, List.length_cons, readComponents, canonComps]
    apply Reads.bind (reads_uint (by omega))
    apply Reads.bind (reads_uint (by omega))
    apply Reads.bind (reads_uint (by omega))
    apply Reads.bind (reads_uint (by omega))
    exact (ih (fun b hb => h b (by simp [hb])) _).bind_pure

theorem vghdChild_comp (cs : List Component) (hl : cs.length < 2 ^ 16) (h : ∀ c ∈ cs, c.Ok) (v : VideoHdr) :
    ChildReads vghdChild (compBlk cs) tComp v { v with components := canonComps 0 cs } := by
  apply childReads_of tc
  intro s p
  unfold vghdChild
  rw [if_neg (by simp)]
  apply Reads.at
  apply Reads.bind (reads_uint (by omega))
  exact (reads_components cs h 0).bind_pure

theorem compBlk_ok (cs : List Component) (hl : cs.length < 2 ^ 16) : (compBlk cs).Ok tComp := by
  apply mkBlk_ok tc tne
  rw [List.length_append, length_flatMap_const _ 16 _ (fun a _ => encodeComponent_length a), encodeUint_length]
  omega

theorem compKids_read (cs : List Component) (hl : cs.length < 2 ^ 16) (h : ∀ c ∈ cs, c.Ok) (v : VideoHdr)
    (hv : v.components = []) :
    ChildrenRead vghdChild (compKids cs) v { v with components := canonComps 0 cs } := by
  unfold compKids
  split
  · exact .single (compBlk_ok cs hl) (vghdChild_comp cs hl h v)
  · have : cs = [] := List.eq_nil_of_length_eq_zero (by omega)
    subst this
    have : { v with components := canonComps 0 [] } = v := by cases v; simp_all [canonComps]
    rw [this]
    exact .nil _

theorem reads_aspect {q : Option Rat} (h : AspectOk q) : Reads readRational (encodeAspect q) (q.getD 0) :=
  reads_rational _ h

theorem vghd_read {v : VideoHdr} (h : v.Ok) {kids} (hp : Pad [tComp] (compKids v.components) kids)
    (s : Stream) (p : Nat) :
    ReadsAt s (p + 8) (readVghd ⟨p, (mkBlk tVghd (vghdFixed v ++ blksBytes kids)).size, tVghd⟩)
      (vghdFixed v ++ blksBytes kids) v.canon := by
  obtain ⟨h1, h2, h3, h4, h5, h6, h7, h8, h9⟩ := h
  unfold readVghd mkBlk vghdFixed
  simp only [List.append_assoc]
  refine (reads_uint (by omega)).bindAt ?_
  refine (reads_uint (by omega)).bindAt ?_
  refine (reads_uint (by omega)).bindAt ?_
  refine (reads_uint (by omega)).bindAt ?_
  refine (reads_uint (by omega)).bindAt ?_
  refine (reads_aspect h6).bindAt ?_
  refine (reads_aspect h7).bindAt ?_
  apply readsAt_children
  · refine ChildrenRead.pad hp ?_ (compKids_read v.components h8 h9 _ rfl)
    intro child st ht
    unfold vghdChild; rw [if_pos (by simpa using ht)]
  · simp only [List.length_append, encodeUint_length, encodeAspect_length]; omega

theorem gbhdChild_vghd {v : VideoHdr} (h : v.Ok) {kids} (hp : Pad [tComp] (compKids v.components) kids)
    (major : Nat) (m : Meta) :
    ChildReads (gbhdChild major) (mkBlk tVghd (vghdFixed v ++ blksBytes kids)) tVghd m
      (m.addBody major (.video v)) := by
  apply childReads_of tc
  intro s p hat
  have := vghd_read h hp s p hat
  unfold gbhdChild
  rw [if_neg (by simp), if_pos rfl]
  exact (Rd.bind_of_ok this).trans rfl

/-! ## Coded video -/

theorem cghdChild_unof (offs : List Nat) (hl : offs.length < 2 ^ 16) (h : ∀ o ∈ offs, o < 2 ^ 32)
    (c : CodedVideoHdr) :
    ChildReads cghdChild (unofBlk offs) tUnof c { c with unitOffsets := some offs } := by
  apply childReads_of tc
  intro s p
  unfold cghdChild
  rw [if_neg (by simp)]
  apply Reads.at
  apply Reads.bind (reads_uint (by omega))
  exact (reads_repeat (fun (o : Nat) => encodeUint o 4) offs
    (fun a ha => reads_uint (by have := h a ha; omega))).bind_pure

theorem unofBlk_ok (offs : List Nat) (hl : offs.length < 2 ^ 16) : (unofBlk offs).Ok tUnof := by
  apply mkBlk_ok tc tne
  rw [List.length_append, length_flatMap_const _ 4 _ (fun (a : Nat) _ => encodeUint_length a 4),
    encodeUint_length]
  omega

theorem unofKids_read (offs : List Nat) (hl : offs.length < 2 ^ 16) (h : ∀ o ∈ offs, o < 2 ^ 32)
    (c : CodedVideoHdr) (hc : c.unitOffsets = none) :
    ChildrenRead cghdChild (unofKids offs) c
      { c with unitOffsets := if offs.length > 0 then some offs else none } := by
  unfold unofKids
  split
  · exact .single (unofBlk_ok offs hl) (cghdChild_unof offs hl h c)
  · have : { c with unitOffsets := none } = c := by cases c; simp_all
    rw [this]
    exact .nil _

theorem reads_sint_default {t : Option Int} (h : TemporalOk t) :
    Reads (readSint 4) (encodeTemporal t) (t.getD 0x7fffffff) := by
  unfold TemporalOk at h
  unfold encodeTemporal
  apply reads_sint (by omega)
  · cases t <;> simp_all
  · cases t <;> simp_all

theorem reads_keyFrame (major : Nat) (k : Option Bool) {t : Option Int} (h : TemporalOk t) :
    Reads (readKeyFrame major) (encodeKeyFrame k ++ encodeTemporal t)
      (canonKey major k, canonTemporal major t) := by
  have hs := reads_sint_default h
  unfold readKeyFrame canonKey canonTemporal
  by_cases hm : major < 9
  · simp only [if_pos hm]
    have hk : Reads readBool (encodeKeyFrame k) (k.getD true) := by
      unfold readBool encodeKeyFrame
      rcases k with _ | _ | _
      · exact (reads_uint (n := 1) (v := 3) (by omega)).bind_pure (f := fun n => decide (n ≠ 0))
      · exact (reads_uint (n := 1) (v := 0) (by omega)).bind_pure (f := fun n => decide (n ≠ 0))
      · exact (reads_uint (n := 1) (v := 1) (by omega)).bind_pure (f := fun n => decide (n ≠ 0))
    apply Reads.bind hk
    exact hs.bind_pure
  · simp only [if_neg hm]
    have hk : Reads readOptionalBool (encodeKeyFrame k) k := by
      unfold readOptionalBool encodeKeyFrame
      rcases k with _ | _ | _
      · exact (reads_uint (n := 1) (v := 3) (by omega)).bind (b2 := []) (Reads.pure _)
      · exact (reads_uint (n := 1) (v := 0) (by omega)).bind (b2 := []) (Reads.pure _)
      · exact (reads_uint (n := 1) (v := 1) (by omega)).bind (b2 := []) (Reads.pure _)
    apply Reads.bind hk
    have hk2 : Reads (readOptionalSint 4 0x7fffffff) (encodeTemporal t)
        (if t.getD 0x7fffffff = 0x7fffffff then none else some (t.getD 0x7fffffff)) := by
      unfold TemporalOk at h
      obtain ⟨r, hr, hlt, hv⟩ := reads_sint_raw (n := 4) (by omega) (t.getD 0x7fffffff)
        (by cases t <;> simp_all) (by cases t <;> simp_all)
      unfold readOptionalSint encodeTemporal
      rw [← List.append_nil (encodeSint _ 4)]
      apply Reads.bind hr
      have hsp := signFix_spec r 4 (by omega) hlt
      by_cases h7 : r = 0x7fffffff
      · have : t.getD 0x7fffffff = 0x7fffffff := by
          rw [← hv, hsp, h7]; decide
        rw [if_pos this, if_pos h7]
        exact Reads.pure _
      · have : t.getD 0x7fffffff ≠ 0x7fffffff := by
          rw [← hv, hsp]
          have : 256 ^ 4 = 4294967296 := by decide
          split <;> omega
        rw [if_neg this, if_neg h7, hv]
        exact Reads.pure _
    exact hk2.bind_pure

/-- The fixed part of a coded video header. -/
def cghdFixed (c : CodedVideoHdr) : Bytes :=
  encodeUint c.format 4 ++ (encodeUint c.layout 4 ++ (encodeUint c.originWidth 4 ++
    (encodeUint c.originHeight 4 ++ (encodeUint c.codedWidth 4 ++ (encodeUint c.codedHeight 4 ++
    (encodeKeyFrame c.isKeyFrame ++ encodeTemporal c.temporalOffset))))))

theorem cghd_read {c : CodedVideoHdr} (h : c.Ok) {kids} (hp : Pad [tUnof] (unofKids c.offsets) kids)
    (major : Nat) (s : Stream) (p : Nat) :
    ReadsAt s (p + 8) (readCghd major ⟨p, (mkBlk tCghd (cghdFixed c ++ blksBytes kids)).size, tCghd⟩)
      (cghdFixed c ++ blksBytes kids) (c.canon major) := by
  obtain ⟨h1, h2, h3, h4, h5, h6, h7, h8, h9⟩ := h
  have e : cghdFixed c ++ blksBytes kids = encodeUint c.format 4 ++ (encodeUint c.layout 4 ++
    (encodeUint c.originWidth 4 ++ (encodeUint c.originHeight 4 ++ (encodeUint c.codedWidth 4 ++
    (encodeUint c.codedHeight 4 ++ ((encodeKeyFrame c.isKeyFrame ++ encodeTemporal c.temporalOffset) ++
    blksBytes kids)))))) := by simp [cghdFixed]
  rw [e]
  unfold readCghd mkBlk
  simp only
  refine (reads_uint (by omega)).bindAt ?_
  refine (reads_uint (by omega)).bindAt ?_
  refine (reads_uint (by omega)).bindAt ?_
  refine (reads_uint (by omega)).bindAt ?_
  refine (reads_uint (by omega)).bindAt ?_
  refine (reads_uint (by omega)).bindAt ?_
  refine (reads_keyFrame major _ h7).bindAt ?_
  apply readsAt_children
  · refine ChildrenRead.pad hp ?_ (unofKids_read c.offsets h8 h9 _ rfl)
    intro child st ht
    unfold cghdChild; rw [if_pos (by simpa using ht)]
  · simp only [List.length_append, encodeUint_length, encodeKeyFrame_length, encodeTemporal_length]; omega

theorem gbhdChild_cghd {c : CodedVideoHdr} (h : c.Ok) {kids} (hp : Pad [tUnof] (unofKids c.offsets) kids)
    (major : Nat) (m : Meta) :
    ChildReads (gbhdChild major) (mkBlk tCghd (cghdFixed c ++ blksBytes kids)) tCghd m
      (m.addBody major (.codedVideo c)) := by
  apply childReads_of tc
  intro s p hat
  have := cghd_read h hp major s p hat
  unfold gbhdChild
  rw [if_neg (by simp), if_neg (by simp), if_pos rfl]
  exact (Rd.bind_of_ok this).trans rfl

/-! ## Audio, events -/

theorem gbhdChild_aghd {a : AudioHdr} (h : a.Ok) (major : Nat) (m : Meta) :
    ChildReads (gbhdChild major) (aghdBlk a) tAghd m (m.addBody major (.audio a)) := by
  obtain ⟨h1, h2, h3, h4⟩ := h
  apply childReads_of tc
  intro s p
  unfold gbhdChild
  rw [if_neg (by simp), if_neg (by simp), if_neg (by simp), if_pos rfl]
  apply Reads.at
  have : Reads readAghd (encodeUint a.format 4 ++ (encodeUint a.channels 2 ++ (encodeUint a.samples 4 ++
    encodeUint a.sampleRate 4))) a := by
    unfold readAghd
    apply Reads.bind (reads_uint (by omega))
    apply Reads.bind (reads_uint (by omega))
    apply Reads.bind (reads_uint (by omega))
    exact (reads_uint (n := 4) (by omega)).bind_pure
  exact this.bind_pure

theorem gbhdChild_cahd {a : CodedAudioHdr} (h : a.Ok) (major : Nat) (m : Meta) :
    ChildReads (gbhdChild major) (cahdBlk a) tCahd m (m.addBody major (.codedAudio a)) := by
  obtain ⟨h1, h2, h3, h4, h5, h6⟩ := h
  apply childReads_of tc
  intro s p
  unfold gbhdChild
  rw [if_neg (by simp), if_neg (by simp), if_neg (by simp), if_neg (by simp), if_pos rfl]
  apply Reads.at
  have : Reads readCahd (encodeUint a.format 4 ++ (encodeUint a.channels 2 ++ (encodeUint a.samples 4 ++
    (encodeUint a.priming 4 ++ (encodeUint a.remainder 4 ++ encodeUint a.sampleRate 4))))) a := by
    unfold readCahd
    apply Reads.bind (reads_uint (by omega))
    apply Reads.bind (reads_uint (by omega))
    apply Reads.bind (reads_uint (by omega))
    apply Reads.bind (reads_uint (by omega))
    apply Reads.bind (reads_uint (by omega))
    exact (reads_uint (n := 4) (by omega)).bind_pure
  exact this.bind_pure

theorem gbhdChild_eghd (major : Nat) (m : Meta) :
    ChildReads (gbhdChild major) eghdBlk tEghd m (m.addBody major .event) := by
  intro s p _
  refine ⟨p + 8, ?_⟩
  unfold gbhdChild
  rw [if_neg (by simp), if_neg (by simp), if_neg (by simp), if_neg (by simp), if_neg (by simp), if_pos rfl]
  rfl

theorem tilsBlk_ok (ls : List TimeLabel) (hl : ls.length < 2 ^ 16) : (tilsBlk ls).Ok tTils := by
  apply mkBlk_ok tc tne
  rw [List.length_append, length_flatMap_const _ 29 _ (fun a _ => encodeTimeLabel_length a),
    encodeUint_length]
  omega

theorem gbhdChild_tils {ls : List TimeLabel} (hl : ls.length < 2 ^ 16) (h : ∀ l ∈ ls, l.Ok)
    (major : Nat) (m : Meta) :
    ChildReads (gbhdChild major) (tilsBlk ls) tTils m { m with timelabels := some (ls.map TimeLabel.canon) } := by
  apply childReads_of tc
  intro s p
  unfold gbhdChild
  rw [if_pos rfl]
  apply Reads.at
  exact (reads_tils hl h).bind_pure

theorem tilsKids_read {ls : List TimeLabel} (hl : ls.length < 2 ^ 16) (h : ∀ l ∈ ls, l.Ok)
    (major : Nat) (m : Meta) :
    ChildrenRead (gbhdChild major) (tilsKids ls) m (m.addTils ls) := by
  unfold tilsKids Meta.addTils
  split
  · exact .single (tilsBlk_ok ls hl) (gbhdChild_tils hl h major m)
  · exact .nil _

/-! ## The grain header

Headers are read back as written also when blocks with unknown tags were inserted at any level. -/

/-- Tags that mean something inside a grain header. -/
abbrev gbhdKnown : List (List Char) := [tTils, tVghd, tCghd, tAghd, tCahd, tEghd]

theorem gbhdChild_unknown (major : Nat) (child : Block) (m : Meta) (h : child.tag ∉ gbhdKnown) :
    gbhdChild major child m = Pure.pure m := by
  simp only [gbhdKnown, List.mem_cons, List.not_mem_nil, or_false, not_or] at h
  obtain ⟨h1, h2, h3, h4, h5, h6⟩ := h
  unfold gbhdChild
  rw [if_neg h1, if_neg h2, if_neg h3, if_neg h4, if_neg h5, if_neg h6]

/-- The blocks for a grain's type header, with unknown blocks inserted inside them. -/
inductive DecoBody : Body → List Blk → Prop where
  | empty : DecoBody .empty []
  | event : DecoBody .event [eghdBlk]
  | video {v : VideoHdr} {kids} : Pad [tComp] (compKids v.components) kids →
      (mkBlk tVghd (vghdFixed v ++ blksBytes kids)).size < 2 ^ 32 →
      DecoBody (.video v) [mkBlk tVghd (vghdFixed v ++ blksBytes kids)]
  | codedVideo {c : CodedVideoHdr} {kids} : Pad [tUnof] (unofKids c.offsets) kids →
      (mkBlk tCghd (cghdFixed c ++ blksBytes kids)).size < 2 ^ 32 →
      DecoBody (.codedVideo c) [mkBlk tCghd (cghdFixed c ++ blksBytes kids)]
  | audio {a} : DecoBody (.audio a) [aghdBlk a]
  | codedAudio {a} : DecoBody (.codedAudio a) [cahdBlk a]

/-- A grain header block for `g` with unknown blocks inserted at any level. -/
def DecoGbhd (major : Nat) (g : Grain) (b : Blk) : Prop :=
  ∃ bk kids, DecoBody g.body bk ∧ Pad gbhdKnown (tilsKids g.timelabels ++ bk) kids ∧
    b = mkBlk tGbhd (encodeGbhdFixed major g ++ blksBytes kids) ∧ b.size < 2 ^ 32

theorem decoBody_read {b : Body} {bk} (hd : DecoBody b bk) (h : b.Ok) (major : Nat) (m : Meta) :
    ChildrenRead (gbhdChild major) bk m (m.addBody major b) := by
  cases hd with
  | empty => exact .nil _
  | event => exact .single (mkBlk_ok tc tne (by decide)) (gbhdChild_eghd major m)
  | video hp hs => exact .single (mkBlk_ok tc tne hs) (gbhdChild_vghd h hp major m)
  | codedVideo hp hs => exact .single (mkBlk_ok tc tne hs) (gbhdChild_cghd h hp major m)
  | audio => exact .single (mkBlk_ok tc tne (by simp)) (gbhdChild_aghd h major m)
  | codedAudio => exact .single (mkBlk_ok tc tne (by simp)) (gbhdChild_cahd h major m)

theorem vghdBlk_eq (v : VideoHdr) :
    vghdBlk v = mkBlk tVghd (vghdFixed v ++ blksBytes (compKids v.components)) := by
  simp [vghdBlk, vghdFixed]

theorem cghdBlk_eq (c : CodedVideoHdr) :
    cghdBlk c = mkBlk tCghd (cghdFixed c ++ blksBytes (unofKids c.offsets)) := by
  simp [cghdBlk, cghdFixed]

theorem vghdSize_lt {v : VideoHdr} (h : v.components.length < 2 ^ 16) : vghdSize v < 2 ^ 21 := by
  unfold vghdSize; split <;> omega

theorem vghdBlk_size (v : VideoHdr) : (vghdBlk v).size = vghdSize v := by
  have h1 := encodeVghd_length v
  rw [encodeVghd_eq, vghdBlk, mkBlk_length _ _ tl4] at h1
  exact h1

theorem cghdSize_lt {c : CodedVideoHdr} (h : c.offsets.length < 2 ^ 16) : cghdSize c < 2 ^ 21 := by
  unfold cghdSize; split <;> omega

theorem cghdBlk_size (c : CodedVideoHdr) : (cghdBlk c).size = cghdSize c := by
  have h1 := encodeCghd_length c
  rw [encodeCghd_eq, cghdBlk, mkBlk_length _ _ tl4] at h1
  exact h1

theorem decoBody_self {b : Body} (h : b.Ok) : DecoBody b (bodyKids b) := by
  cases b with
  | empty => exact .empty
  | event => exact .event
  | video v =>
    have h1 := vghdSize_lt h.2.2.2.2.2.2.2.1
    rw [← vghdBlk_size, vghdBlk_eq] at h1
    have := DecoBody.video (Pad.refl [tComp] (compKids v.components)) (by omega)
    simpa only [bodyKids, vghdBlk_eq] using this
  | codedVideo c =>
    have h1 := cghdSize_lt h.2.2.2.2.2.2.2.1
    rw [← cghdBlk_size, cghdBlk_eq] at h1
    have := DecoBody.codedVideo (Pad.refl [tUnof] (unofKids c.offsets)) (by omega)
    simpa only [bodyKids, cghdBlk_eq] using this
  | audio a => exact .audio
  | codedAudio a => exact .codedAudio

theorem reads_skip16 : Reads (skip 16) (List.replicate 16 0) () := by
  intro s p _
  simp [skip]

theorem reads_gbhdFixed {major : Nat} {g : Grain} (h : g.Ok major) :
    Reads (readGbhdFixed major) (encodeGbhdFixed major g) (g.baseMeta major) := by
  unfold readGbhdFixed encodeGbhdFixed Grain.baseMeta canonTs
  simp only [List.append_assoc]
  apply Reads.bind (reads_uuid h.wf.1)
  apply Reads.bind (reads_uuid h.wf.2.1)
  by_cases hm : major = 7
  · simp only [if_pos hm, List.append_assoc]
    apply Reads.bind reads_skip16
    apply Reads.bind (reads_tsV7_abs _ h.origin)
    apply Reads.bind (reads_tsV7_abs _ h.sync)
    apply Reads.bind (reads_rational _ h.rate)
    exact (reads_rational _ h.duration).bind_pure
  · simp only [if_neg hm, List.append_assoc]
    apply Reads.bind (reads_ts _ h.origin)
    apply Reads.bind (reads_ts _ h.sync)
    apply Reads.bind (reads_rational _ h.rate)
    exact (reads_rational _ h.duration).bind_pure

theorem gbhdBlk_size (major : Nat) (g : Grain) (h : g.Wf) : (gbhdBlk major g).size = gbhdSize major g := by
  have h1 := encodeGbhd_length major g h
  rw [encodeGbhd_eq _ _ h, gbhdBlk, mkBlk_length _ _ tl4] at h1
  exact h1

theorem decoGbhd_self {major : Nat} {g : Grain} (h : g.Ok major) : DecoGbhd major g (gbhdBlk major g) := by
  refine ⟨_, _, decoBody_self h.body, Pad.refl _ _, rfl, ?_⟩
  have h2 := gbhdBlk_size major g h.wf
  have := h.size
  unfold graiSize at this
  omega

theorem DecoGbhd.ok {major g b} (h : DecoGbhd major g b) : b.Ok tGbhd := by
  obtain ⟨_, _, _, _, rfl, hs⟩ := h
  exact mkBlk_ok tc tne hs

/-- A `head`- or `gbhd`-like block read through a private copy of its contents. -/
theorem inRemaining_mk {m : Rd α} {t : List Char} {body : Bytes} {a : α} {s p} (ht : TagConst t)
    (hat : At s p (mkBlk t body).bytes)
    (h : ReadsAt ⟨p + 8, body⟩ (p + 8) m body a) :
    Block.inRemaining ⟨p, (mkBlk t body).size, t⟩ m s (p + 8) = .ok (a, p + (mkBlk t body).bytes.length) := by
  rw [mkBlk_length _ _ ht.1]
  rw [mkBlk_bytes, ← List.append_assoc] at hat
  have h2 := hat.right
  rw [List.length_append, encodeUint_length, ht.1] at h2
  have e : ((p : Int) + ((8 + body.length : Nat) : Int) - ((p + 8 : Nat) : Int)).toNat = body.length := by omega
  have h2' : At s (p + 8) body := h2
  simp only [Block.inRemaining, mkBlk, e, h2'.take]
  rw [h (at_self _ _)]
  simp only [Nat.add_assoc]

theorem gbhdBlock_read {major : Nat} {g : Grain} {b : Blk} (h : g.Ok major) (hd : DecoGbhd major g b) :
    Reads (readGbhdBlock major) b.bytes (g.toMeta major) := by
  intro s p hat
  have hok := hd.ok
  obtain ⟨bk, kids, hb, hp, rfl, hs⟩ := hd
  simp only [readGbhdBlock]
  rw [Rd.bind_of_ok (enter_blk hat hok (.inr rfl))]
  have : Block.inRemaining ⟨p, (mkBlk tGbhd (encodeGbhdFixed major g ++ blksBytes kids)).size, tGbhd⟩
      (decodeGbhd major ⟨p, (mkBlk tGbhd (encodeGbhdFixed major g ++ blksBytes kids)).size, tGbhd⟩) s (p + 8) =
      .ok (g.toMeta major, p + (mkBlk tGbhd (encodeGbhdFixed major g ++ blksBytes kids)).bytes.length) := by
    apply inRemaining_mk tc hat
    unfold decodeGbhd
    refine (reads_gbhdFixed h).bindAt ?_
    apply readsAt_children
    · refine ChildrenRead.pad hp (gbhdChild_unknown major) ?_
      exact (tilsKids_read h.tils h.til major _).append (decoBody_read hb h.body major _)
    · unfold mkBlk
      simp only [List.length_append]; omega
  rw [Rd.bind_of_ok this]
  simp only [Block.exit, Rd.bind_apply, Rd.seek_apply, Rd.pure_apply, Block.endPos]
  rw [hok.length]

end Verif.Gsf

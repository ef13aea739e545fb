import Verif.Gsf.Copy
import Verif.Props.C12
import Verif.Props.C68
import Verif.Props.C71

/-!
# C79: a file copied through the library is the same file, byte for byte
-/

namespace Verif.Props

open Verif Verif.Gsf
open Verif.Attrs (Lib)

/-! ## Specification -/

/-- A grain as a reader of a version `major` file sees it (the normal form of C01): time label rates in lowest terms, zero aspect ratios
absent, component offsets the sums of the lengths, in version 7 times without sign, before version 9 no unknown key frame flag or
temporal offset. -/
def Copy.normalBody (major : Nat) : Body → Body
  | .video v => .video v.canon
  | .codedVideo c => .codedVideo (c.canon major)
  | b => b

def Copy.normal (major : Nat) (g : Grain) : Grain :=
  { g with origin := canonTs major g.origin, sync := canonTs major g.sync, timelabels := g.timelabels.map TimeLabel.canon
           body := Copy.normalBody major g.body }

/-- The file with its grains in normal form and counts that are right. -/
def Copy.normalFile (f : FileSpec) : FileSpec :=
  ⟨f.major, f.minor,
    { f.head with segments := f.head.segments.map (fun sg =>
        { sg with count := ((f.grains.filter (fun x => x.1 == sg.localId)).length : Nat) }) },
    f.grains.map (fun x => (x.1, Copy.normal f.major x.2))⟩

/-- What a grain object can be made of: formats and layouts are members of the enumerations, times are not negative, the data of
events is a payload that the library has written. -/
structure Copy.Objective (major : Nat) (g : Grain) : Prop where
  times : 0 ≤ canonTs major g.origin ∧ 0 ≤ canonTs major g.sync
  enums : match (generalizing := false) g.body with
    | .video v => v.format ∈ Cog.FrameFormat.all ∧ v.layout ∈ Cog.FrameLayout.all
    | .codedVideo c => c.format ∈ Cog.FrameFormat.all ∧ c.layout ∈ Cog.FrameLayout.all
    | .audio a => a.format ∈ Cog.AudioFormat.all
    | .codedAudio a => a.format ∈ Cog.AudioFormat.all
    | _ => True
  event : g.body = .event → ∃ p, PayloadOk p ∧ (∀ d ∈ p.data, PlainItem d) ∧ g.data = some (Event.getData p)

/-- The decoder hands out the data. -/
def Copy.Loads (o : Opts) : Prop := o.defers = true ∨ o.mode ≠ .loadNever

/-- The grains that the decoder is asked for. -/
def Copy.selected (o : Opts) (f : FileSpec) : FileSpec := { f with grains := f.grains.filter (fun x => !o.drops x.1) }

/-- The file with its grains grouped by segment. -/
def Copy.grouped (f : FileSpec) : FileSpec :=
  { f with grains := f.head.segments.flatMap (fun sg => f.grains.filter (fun x => x.1 == sg.localId)) }

/-- The values that are written again as they were: time label rates in lowest terms; before version 9, a known key frame flag. -/
def Copy.Lasting (major : Nat) (g : Grain) : Prop :=
  (∀ l ∈ g.timelabels, l.rateNum.Coprime l.rateDen ∧ l.rateDen ≠ 0) ∧
    (major < 9 → ∀ c, g.body = .codedVideo c → c.isKeyFrame ≠ none)

/-- A file that can be copied: every local id has one segment, and every grain is of a segment of the header. -/
structure Copy.Segmented (f : FileSpec) : Prop where
  distinct : (f.head.segments.map SegmIn.localId).Nodup
  declared : ∀ x ∈ f.grains, x.1 ∈ f.head.segments.map SegmIn.localId

end Verif.Props

namespace Verif.Props.Copy

open Verif Verif.Gsf Verif.Easy
open Verif.Attrs
open Verif.Objects
open Verif.Meta (Dict put dflt GClass)
open Verif.New (dictOf)

/-! ## One grain -/

theorem toMeta_normal (major : Nat) (g : Grain) : g.toMeta major = metaOf (normal major g) := by
  have hb : (g.baseMeta major).addTils g.timelabels =
      { sourceId := g.sourceId, flowId := g.flowId, origin := canonTs major g.origin, sync := canonTs major g.sync, rate := g.rate,
        duration := g.duration
        timelabels := if g.timelabels.map TimeLabel.canon = [] then none else some (g.timelabels.map TimeLabel.canon) } := by
    unfold Meta.addTils Grain.baseMeta
    cases hg : g.timelabels with
    | nil => simp
    | cons a b => simp
  unfold Grain.toMeta metaOf normal
  rw [hb]
  cases hbd : g.body <;> simp only [normalBody, Meta.addBody]

/-- An attribute of a grain of a known class. -/
theorem attr_of (lib : Lib) {o : Obj} {c : GClass} (hc : o.cls = c) (a : Attr) (ha : a ∈ attrs c) : o.attr lib a.name = Attrs.get lib a o.d := by
  subst hc
  exact C68.attr_own lib o a ha

theorem nat_attr {lib : Lib} {o : Obj} {n : Nat} {name : String} (h : o.attr lib name = .ok (.int n) ∨ o.attr lib name = .ok (.enum n)) :
    o.nat lib name = .ok n := by
  rcases h with h | h
  · exact C68.nat_int h
  · exact C68.nat_enum h

theorem video_body {lib : Lib} {o : Obj} (hc : o.cls = .video) {v : Gsf.VideoHdr} {w : Dict T}
    (hd : o.d "cog_frame" = some (.dict w)) (hw : videoDict v = .dict w)
    (he : v.format ∈ Cog.FrameFormat.all ∧ v.layout ∈ Cog.FrameLayout.all) (hcs : o.comps = v.components) :
    videoHdr lib o = .ok v := by
  injection hw with hw
  subst hw
  have m : ∀ b ∈ videoAttrs, b ∈ attrs .video := fun b hb => List.mem_append_right _ hb
  have h1 : o.nat lib "cog_frame_format" = .ok v.format := nat_attr (.inr
    ((attr_of lib hc ⟨"cog_frame_format", "cog_frame", "format", .enum Cog.FrameFormat.all⟩ (m _ (by decide))).trans
      (C68.get_enum lib hd he.1 rfl)))
  have h2 : o.nat lib "cog_frame_layout" = .ok v.layout := nat_attr (.inr
    ((attr_of lib hc ⟨"cog_frame_layout", "cog_frame", "layout", .enum Cog.FrameLayout.all⟩ (m _ (by decide))).trans
      (C68.get_enum lib hd he.2 rfl)))
  have h3 : o.nat lib "width" = .ok v.width := nat_attr (.inl
    ((attr_of lib hc ⟨"width", "cog_frame", "width", .plain⟩ (m _ (by decide))).trans (C68.get_num lib hd (.inl rfl) rfl)))
  have h4 : o.nat lib "height" = .ok v.height := nat_attr (.inl
    ((attr_of lib hc ⟨"height", "cog_frame", "height", .plain⟩ (m _ (by decide))).trans (C68.get_num lib hd (.inl rfl) rfl)))
  have h5 : o.nat lib "extension" = .ok v.extension := nat_attr (.inl
    ((attr_of lib hc ⟨"extension", "cog_frame", "extension", .plain⟩ (m _ (by decide))).trans (C68.get_num lib hd (.inl rfl) rfl)))
  have h6 : o.optFrac lib "source_aspect_ratio" = .ok v.srcAspect := by
    unfold Obj.optFrac
    rw [attr_of lib hc ⟨"source_aspect_ratio", "cog_frame", "source_aspect_ratio", .optFrac⟩ (m _ (by decide)),
      C68.get_optFrac lib hd (q := v.srcAspect) (by cases v.srcAspect <;> cases v.pixAspect <;> rfl)]
    cases v.srcAspect <;> rfl
  have h7 : o.optFrac lib "pixel_aspect_ratio" = .ok v.pixAspect := by
    unfold Obj.optFrac
    rw [attr_of lib hc ⟨"pixel_aspect_ratio", "cog_frame", "pixel_aspect_ratio", .optFrac⟩ (m _ (by decide)),
      C68.get_optFrac lib hd (q := v.pixAspect) (by cases v.srcAspect <;> cases v.pixAspect <;> rfl)]
    cases v.pixAspect <;> rfl
  simp only [videoHdr, h1, h2, h3, h4, h5, h6, h7, hcs, bind, Except.bind, pure, Except.pure]

theorem codedVideo_body {lib : Lib} {o : Obj} (hc : o.cls = .codedVideo) {v : Gsf.CodedVideoHdr} {w w' : Dict T}
    (hd : o.d "cog_coded_frame" = some (.dict w')) (hw : codedVideoDict v = .dict w)
    (hk : ∀ k, (w k ≠ none ∨ k ∉ Meta.codedVideoSpec.missing.map Prod.fst) → w' k = w k)
    (he : v.format ∈ Cog.FrameFormat.all ∧ v.layout ∈ Cog.FrameLayout.all) (hcs : o.offsets = v.unitOffsets.getD [])
    (hu : v.unitOffsets ≠ some []) : codedVideoHdr lib o = .ok v := by
  injection hw with hw
  subst hw
  have m : ∀ b ∈ codedVideoAttrs, b ∈ attrs .codedVideo := fun b hb => List.mem_append_right _ hb
  have k1 := hk "format" (.inl (by simp [New.dictOf, List.lookup]))
  have k2 := hk "layout" (.inl (by simp [New.dictOf, List.lookup]))
  have k3 := hk "origin_width" (.inl (by simp [New.dictOf, List.lookup]))
  have k4 := hk "origin_height" (.inl (by simp [New.dictOf, List.lookup]))
  have k5 := hk "coded_width" (.inl (by simp [New.dictOf, List.lookup]))
  have k6 := hk "coded_height" (.inl (by simp [New.dictOf, List.lookup]))
  have k7 := hk "is_key_frame" (.inr (by decide))
  have k8 := hk "temporal_offset" (.inr (by decide))
  have h1 : o.nat lib "cog_frame_format" = .ok v.format := nat_attr (.inr
    ((attr_of lib hc ⟨"cog_frame_format", "cog_coded_frame", "format", .enum Cog.FrameFormat.all⟩ (m _ (by decide))).trans
      (C68.get_enum lib hd he.1 k1)))
  have h2 : o.nat lib "cog_frame_layout" = .ok v.layout := nat_attr (.inr
    ((attr_of lib hc ⟨"cog_frame_layout", "cog_coded_frame", "layout", .enum Cog.FrameLayout.all⟩ (m _ (by decide))).trans
      (C68.get_enum lib hd he.2 k2)))
  have h3 : o.nat lib "origin_width" = .ok v.originWidth := nat_attr (.inl
    ((attr_of lib hc ⟨"origin_width", "cog_coded_frame", "origin_width", .plain⟩ (m _ (by decide))).trans (C68.get_num lib hd (.inl rfl) k3)))
  have h4 : o.nat lib "origin_height" = .ok v.originHeight := nat_attr (.inl
    ((attr_of lib hc ⟨"origin_height", "cog_coded_frame", "origin_height", .plain⟩ (m _ (by decide))).trans (C68.get_num lib hd (.inl rfl) k4)))
  have h5 : o.nat lib "coded_width" = .ok v.codedWidth := nat_attr (.inl
    ((attr_of lib hc ⟨"coded_width", "cog_coded_frame", "coded_width", .plain⟩ (m _ (by decide))).trans (C68.get_num lib hd (.inl rfl) k5)))
  have h6 : o.nat lib "coded_height" = .ok v.codedHeight := nat_attr (.inl
    ((attr_of lib hc ⟨"coded_height", "cog_coded_frame", "coded_height", .plain⟩ (m _ (by decide))).trans (C68.get_num lib hd (.inl rfl) k6)))
  have h7 : o.optBool lib "is_key_frame" = .ok v.isKeyFrame := by
    unfold Obj.optBool
    rw [attr_of lib hc ⟨"is_key_frame", "cog_coded_frame", "is_key_frame", .optBool⟩ (m _ (by decide)),
      C68.get_optBool lib hd (q := v.isKeyFrame) (k7.trans (by cases v.isKeyFrame <;> cases v.temporalOffset <;> rfl))]
    cases v.isKeyFrame <;> rfl
  have h8 : o.optInt lib "temporal_offset" = .ok v.temporalOffset := by
    unfold Obj.optInt
    rw [attr_of lib hc ⟨"temporal_offset", "cog_coded_frame", "temporal_offset", .optPlain⟩ (m _ (by decide)),
      C68.get_optInt lib hd (q := v.temporalOffset) (k8.trans (by cases v.isKeyFrame <;> cases v.temporalOffset <;> rfl))]
    cases v.temporalOffset <;> rfl
  have h9 : (if o.offsets = [] then none else some o.offsets) = v.unitOffsets := by
    rw [hcs]
    cases hv : v.unitOffsets with
    | none => rfl
    | some l =>
      have : l ≠ [] := fun e => hu (by rw [hv, e])
      exact if_neg this
  simp only [codedVideoHdr, h1, h2, h3, h4, h5, h6, h7, h8, h9, bind, Except.bind, pure, Except.pure]

theorem audio_body {lib : Lib} {o : Obj} (hc : o.cls = .audio) {v : Gsf.AudioHdr} {w w' : Dict T}
    (hd : o.d "cog_audio" = some (.dict w')) (hw : audioDict v = .dict w) (hk : ∀ k, w k ≠ none → w' k = w k)
    (he : v.format ∈ Cog.AudioFormat.all) : audioHdr lib o = .ok v := by
  injection hw with hw
  subst hw
  have m : ∀ b ∈ audioAttrs, b ∈ attrs .audio := fun b hb => List.mem_append_right _ hb
  have k1 := hk "format" (by simp [New.dictOf, List.lookup])
  have k2 := hk "channels" (by simp [New.dictOf, List.lookup])
  have k3 := hk "samples" (by simp [New.dictOf, List.lookup])
  have k4 := hk "sample_rate" (by simp [New.dictOf, List.lookup])
  have h1 : o.nat lib "cog_audio_format" = .ok v.format := nat_attr (.inr
    ((attr_of lib hc ⟨"cog_audio_format", "cog_audio", "format", .enum Cog.AudioFormat.all⟩ (m _ (by decide))).trans
      (C68.get_enum lib hd he k1)))
  have h2 : o.nat lib "channels" = .ok v.channels := nat_attr (.inl
    ((attr_of lib hc ⟨"channels", "cog_audio", "channels", .int⟩ (m _ (by decide))).trans (C68.get_num lib hd (.inr rfl) k2)))
  have h3 : o.nat lib "samples" = .ok v.samples := nat_attr (.inl
    ((attr_of lib hc ⟨"samples", "cog_audio", "samples", .int⟩ (m _ (by decide))).trans (C68.get_num lib hd (.inr rfl) k3)))
  have h4 : o.nat lib "sample_rate" = .ok v.sampleRate := nat_attr (.inl
    ((attr_of lib hc ⟨"sample_rate", "cog_audio", "sample_rate", .int⟩ (m _ (by decide))).trans (C68.get_num lib hd (.inr rfl) k4)))
  simp only [audioHdr, h1, h2, h3, h4, bind, Except.bind, pure, Except.pure]

theorem codedAudio_body {lib : Lib} {o : Obj} (hc : o.cls = .codedAudio) {v : Gsf.CodedAudioHdr} {w w' : Dict T}
    (hd : o.d "cog_coded_audio" = some (.dict w')) (hw : codedAudioDict v = .dict w) (hk : ∀ k, w k ≠ none → w' k = w k)
    (he : v.format ∈ Cog.AudioFormat.all) : codedAudioHdr lib o = .ok v := by
  injection hw with hw
  subst hw
  have m : ∀ b ∈ codedAudioAttrs, b ∈ attrs .codedAudio := fun b hb => List.mem_append_right _ hb
  have k1 := hk "format" (by simp [New.dictOf, List.lookup])
  have k2 := hk "channels" (by simp [New.dictOf, List.lookup])
  have k3 := hk "samples" (by simp [New.dictOf, List.lookup])
  have k4 := hk "sample_rate" (by simp [New.dictOf, List.lookup])
  have k5 := hk "priming" (by simp [New.dictOf, List.lookup])
  have k6 := hk "remainder" (by simp [New.dictOf, List.lookup])
  have h1 : o.nat lib "cog_audio_format" = .ok v.format := nat_attr (.inr
    ((attr_of lib hc ⟨"cog_audio_format", "cog_coded_audio", "format", .enum Cog.AudioFormat.all⟩ (m _ (by decide))).trans
      (C68.get_enum lib hd he k1)))
  have h2 : o.nat lib "channels" = .ok v.channels := nat_attr (.inl
    ((attr_of lib hc ⟨"channels", "cog_coded_audio", "channels", .plain⟩ (m _ (by decide))).trans (C68.get_num lib hd (.inl rfl) k2)))
  have h3 : o.nat lib "samples" = .ok v.samples := nat_attr (.inl
    ((attr_of lib hc ⟨"samples", "cog_coded_audio", "samples", .plain⟩ (m _ (by decide))).trans (C68.get_num lib hd (.inl rfl) k3)))
  have h4 : o.nat lib "sample_rate" = .ok v.sampleRate := nat_attr (.inl
    ((attr_of lib hc ⟨"sample_rate", "cog_coded_audio", "sample_rate", .plain⟩ (m _ (by decide))).trans (C68.get_num lib hd (.inl rfl) k4)))
  have h5 : o.nat lib "priming" = .ok v.priming := nat_attr (.inl
    ((attr_of lib hc ⟨"priming", "cog_coded_audio", "priming", .plain⟩ (m _ (by decide))).trans (C68.get_num lib hd (.inl rfl) k5)))
  have h6 : o.nat lib "remainder" = .ok v.remainder := nat_attr (.inl
    ((attr_of lib hc ⟨"remainder", "cog_coded_audio", "remainder", .plain⟩ (m _ (by decide))).trans (C68.get_num lib hd (.inl rfl) k6)))
  simp only [codedAudioHdr, h1, h2, h3, h4, h5, h6, bind, Except.bind, pure, Except.pure]

theorem body_video {lib : Lib} {o : Obj} {v} (ht : o.attr lib "grain_type" = .ok (.str (New.lit "video"))) (hv : videoHdr lib o = .ok v) :
    body lib o = .ok (.video v) := by
  unfold body
  rw [ht]
  simp only [bind, Except.bind, pure, Except.pure]
  rw [if_pos (by decide), hv]

theorem body_codedVideo {lib : Lib} {o : Obj} {v} (ht : o.attr lib "grain_type" = .ok (.str (New.lit "coded_video"))) (hv : codedVideoHdr lib o = .ok v) :
    body lib o = .ok (.codedVideo v) := by
  unfold body
  rw [ht]
  simp only [bind, Except.bind, pure, Except.pure]
  rw [if_neg (by decide), if_pos (by decide), hv]

theorem body_audio {lib : Lib} {o : Obj} {v} (ht : o.attr lib "grain_type" = .ok (.str (New.lit "audio"))) (hv : audioHdr lib o = .ok v) :
    body lib o = .ok (.audio v) := by
  unfold body
  rw [ht]
  simp only [bind, Except.bind, pure, Except.pure]
  rw [if_neg (by decide), if_neg (by decide), if_pos (by decide), hv]

theorem body_codedAudio {lib : Lib} {o : Obj} {v} (ht : o.attr lib "grain_type" = .ok (.str (New.lit "coded_audio"))) (hv : codedAudioHdr lib o = .ok v) :
    body lib o = .ok (.codedAudio v) := by
  unfold body
  rw [ht]
  simp only [bind, Except.bind, pure, Except.pure]
  rw [if_neg (by decide), if_neg (by decide), if_neg (by decide), if_pos (by decide), hv]

/-- A grain made of the metadata and the data, and what the encoder reads of it. -/
theorem remade_any {lib : Lib} (hl : lib.Lawful) (now : Int) {g : Gsf.Grain} (hi : g.sourceId.length = 16 ∧ g.flowId.length = 16)
    (ho : Objective 9 g) (hu : ∀ v, g.body = .codedVideo v → v.unitOffsets ≠ some []) {q : Option Bytes} (hq : q.getD [] = g.data.getD [])
    (hqe : g.body = .event → q = g.payload) :
    ∃ o b, Objects.read lib now (metaOf g) q = .ok o ∧
      write lib o = .ok { g with data := b, length := (b.getD []).length } ∧ b.getD [] = g.data.getD [] := by
  obtain ⟨d, hd, hb, hown⟩ := C68.init_ok lib now g
  have hlab : (metaOf g).timelabels.getD [] = g.timelabels := by
    show (if g.timelabels = [] then none else some g.timelabels).getD [] = _
    by_cases e : g.timelabels = []
    · rw [if_pos e, e]; rfl
    · rw [if_neg e]; rfl
  have key : ∀ (o : Obj), o.cls = C68.clsOf g.body → o.d = d → o.labels = g.timelabels → o.content.getD [] = g.data.getD [] →
      body lib o = .ok g.body →
      ∃ b, write lib o = .ok { g with data := b, length := (b.getD []).length } ∧ b.getD [] = g.data.getD [] := by
    intro o h1 h2 h3 h4 h5
    have at1 : ∀ a ∈ grainAttrs, o.attr lib a.name = Attrs.get lib a d := fun a ha => by rw [C68.attr_base lib o a ha, h2]
    have a1 : o.attr lib "source_id" = .ok (.uuid g.sourceId) := by
      rw [at1 ⟨"source_id", none, "source_id", .uuid⟩ (by decide)]
      simp [Attrs.get, home, hb.src, Kind.read, Attrs.readUuid, hl.uuid _ hi.1]
    have a2 : o.attr lib "flow_id" = .ok (.uuid g.flowId) := by
      rw [at1 ⟨"flow_id", none, "flow_id", .uuid⟩ (by decide)]
      simp [Attrs.get, home, hb.flow, Kind.read, Attrs.readUuid, hl.uuid _ hi.2]
    have a3 : o.attr lib "origin_timestamp" = .ok (.ts g.origin) := by
      rw [at1 ⟨"origin_timestamp", none, "origin_timestamp", .time⟩ (by decide)]
      simp [Attrs.get, home, hb.origin, Kind.read, readTime, hl.time _ (show 0 ≤ g.origin from ho.times.1)]
    have a4 : o.attr lib "sync_timestamp" = .ok (.ts g.sync) := by
      rw [at1 ⟨"sync_timestamp", none, "sync_timestamp", .time⟩ (by decide)]
      simp [Attrs.get, home, hb.sync, Kind.read, readTime, hl.time _ (show 0 ≤ g.sync from ho.times.2)]
    have a5 : o.attr lib "rate" = .ok (.frac g.rate) := by
      rw [at1 ⟨"rate", none, "rate", .frac⟩ (by decide)]
      simp [Attrs.get, home, hb.rate, Kind.read, C60.readFrac_dict]
    have a6 : o.attr lib "duration" = .ok (.frac g.duration) := by
      rw [at1 ⟨"duration", none, "duration", .frac⟩ (by decide)]
      simp [Attrs.get, home, hb.duration, Kind.read, C60.readFrac_dict]
    refine ⟨o.content, ?_, h4⟩
    simp [write, Obj.uuid, Obj.time, Obj.frac, a1, a2, a3, a4, a5, a6, h5, bind, Except.bind, asUuid, asTime, asFrac, pure,
      Except.pure, h3]
  have typ : ∀ (o : Obj), o.d = d → o.attr lib "grain_type" = .ok (.str (New.lit (New.typeName (C68.clsOf g.body)))) := by
    intro o h2
    rw [C68.attr_base lib o ⟨"grain_type", none, "grain_type", .plain⟩ (by decide), h2]
    simp [Attrs.get, home, hb.type, Kind.read, readLeaf]
  unfold Objects.read
  rw [C68.dispatch_ok]
  simp only [hd, bind, Except.bind]
  by_cases hev : g.body = .event
  · obtain ⟨p, hp1, hp2, hp3⟩ := ho.event hev
    have h1 := C33_round_trip_eq p blank hp1 hp2
    have hne : Event.getData p ≠ [] := by
      intro e
      rw [e] at h1
      have : (Event.setData blank (.bytes [])).2 = .error .value := rfl
      rw [h1] at this
      cases this
    have hdat : g.payload = some (Event.getData p) := by
      unfold Gsf.Grain.payload
      rw [hp3]
      exact if_neg hne
    have hc : C68.clsOf g.body = .event := by rw [hev]; rfl
    rw [hdat] at hqe
    simp only [hc, hqe hev, initPayload, h1]
    simp only [initData, New.newData]
    obtain ⟨b, h2, h3⟩ := key ⟨.event, d, (metaOf g).timelabels.getD [],
      (match (metaOf g).cogFrame with | some v => initComps v.components | none => []),
      (match (metaOf g).cogCodedFrame with | some v => v.unitOffsets.getD [] | none => []), p, some (Event.getData p)⟩
      hc.symm rfl hlab (by unfold Obj.content; rw [if_pos rfl, hp3]) (by
        unfold body
        rw [typ _ rfl, hc]
        simp only [bind, Except.bind, pure, Except.pure]
        rw [if_neg (by decide), if_neg (by decide), if_neg (by decide), if_neg (by decide), if_pos (by decide), hev])
    exact ⟨_, b, rfl, h2, h3⟩
  · have hcev : C68.clsOf g.body ≠ .event := by
      intro h
      cases hbd : g.body <;> rw [hbd] at h hev <;> first | exact hev rfl | cases h
    have hp : initPayload (C68.clsOf g.body) q = .ok blank := by
      unfold initPayload
      generalize C68.clsOf g.body = c at hcev
      cases c <;> first | rfl | exact absurd rfl hcev
    obtain ⟨b, h1, h2⟩ := C68.initData_any (C68.clsOf g.body) hcev q
    rw [hq] at h2
    simp only [hp, h1]
    obtain ⟨b', h3, h4⟩ := key ⟨C68.clsOf g.body, d, (metaOf g).timelabels.getD [],
      (match (metaOf g).cogFrame with | some v => initComps v.components | none => []),
      (match (metaOf g).cogCodedFrame with | some v => v.unitOffsets.getD [] | none => []), blank, b⟩
      rfl rfl hlab (by unfold Obj.content; rw [if_neg hcev]; exact h2) (by
        have he := ho.enums
        generalize hoo : (⟨C68.clsOf g.body, d, (metaOf g).timelabels.getD [],
          (match (metaOf g).cogFrame with | some v => initComps v.components | none => []),
          (match (metaOf g).cogCodedFrame with | some v => v.unitOffsets.getD [] | none => []), blank, b⟩ : Obj) = o
        have ht := typ o (by rw [← hoo])
        have hcl : o.cls = C68.clsOf g.body := by rw [← hoo]
        have hod : o.d = d := by rw [← hoo]
        cases hbd : g.body with
        | empty =>
          rw [hbd] at ht
          unfold body
          rw [ht]
          simp only [bind, Except.bind, pure, Except.pure]
          rw [if_neg (by decide), if_neg (by decide), if_neg (by decide), if_neg (by decide), if_neg (by decide), if_pos (by decide)]
        | event => exact absurd hbd hev
        | video v =>
          rw [hbd] at hown he ht hcl
          obtain ⟨w', k1, k2⟩ := hown _ rfl _ rfl
          exact body_video ht (video_body (v := v) (w := w') hcl (hod ▸ k1)
            (congrArg T.dict (funext fun k => (k2 k (.inr (by simp [Meta.videoSpec]))).symm)) he
            (by rw [← hoo]; simp only [metaOf, hbd]; exact C68.initComps_eq _))
        | codedVideo v =>
          rw [hbd] at hown he ht hcl
          obtain ⟨w', k1, k2⟩ := hown _ rfl _ rfl
          exact body_codedVideo ht (codedVideo_body (v := v) (w' := w') hcl (hod ▸ k1) rfl k2 he
            (by rw [← hoo]; simp only [metaOf, hbd]) (hu v hbd))
        | audio v =>
          rw [hbd] at hown he ht hcl
          obtain ⟨w', k1, k2⟩ := hown _ rfl _ rfl
          exact body_audio ht (audio_body (v := v) (w' := w') hcl (hod ▸ k1) rfl (fun k hk => k2 k (.inl hk)) he)
        | codedAudio v =>
          rw [hbd] at hown he ht hcl
          obtain ⟨w', k1, k2⟩ := hown _ rfl _ rfl
          exact body_codedAudio ht (codedAudio_body (v := v) (w' := w') hcl (hod ▸ k1) rfl (fun k hk => k2 k (.inl hk)) he))
    exact ⟨_, b', rfl, h3, h4⟩

theorem payload_getD (g : Grain) : g.payload.getD [] = g.data.getD [] := by
  unfold Grain.payload
  by_cases h : g.data.getD [] = []
  · rw [if_pos h, h]; rfl
  · rw [if_neg h]; rfl

theorem remade {lib : Lib} (hl : lib.Lawful) (now : Int) {g : Gsf.Grain} (hi : g.sourceId.length = 16 ∧ g.flowId.length = 16)
    (ho : Objective 9 g) (hu : ∀ v, g.body = .codedVideo v → v.unitOffsets ≠ some []) :
    ∃ o b, Objects.read lib now (metaOf g) g.payload = .ok o ∧
      write lib o = .ok { g with data := b, length := (b.getD []).length } ∧ b.getD [] = g.data.getD [] :=
  remade_any hl now hi ho hu (payload_getD g) (fun _ => rfl)

/-- The data of a grain may be `None` or empty, which are written alike. -/
theorem encode_data (major l : Nat) {g : Grain} (hw : (g.data.getD []).length = g.length) {b : Option Bytes}
    (hb : b.getD [] = g.data.getD []) :
    encodeGrain major l { g with data := b, length := (b.getD []).length } = encodeGrain major l g := by
  have h1 : graiSize major { g with data := b, length := (b.getD []).length } = graiSize major g := by
    show 10 + gbhdSize major g + 8 + _ = 10 + gbhdSize major g + 8 + _
    rw [hb, hw]
  have h2 : encodeGrdt { g with data := b, length := (b.getD []).length } = encodeGrdt g := by
    unfold encodeGrdt
    simp only
    rw [hb, hw]
  unfold encodeGrain
  rw [h1, h2]
  rfl

theorem normal_objective {major : Nat} {g : Grain} (ho : Objective major g) : Objective 9 (normal major g) where
  times := ho.times
  enums := by
    have h := ho.enums
    unfold normal
    cases hb : g.body <;> rw [hb] at h <;> exact h
  event := by
    intro h
    refine ho.event ?_
    unfold normal at h
    cases hb : g.body <;> rw [hb] at h <;> first | rfl | cases h

theorem normal_offsets (major : Nat) (g : Grain) : ∀ v, (normal major g).body = .codedVideo v → v.unitOffsets ≠ some [] := by
  intro v h
  unfold normal at h
  cases hb : g.body <;> rw [hb] at h <;> first | (cases h; done) | skip
  simp only [normalBody, Body.codedVideo.injEq] at h
  subst h
  unfold CodedVideoHdr.canon
  simp only
  split
  · rename_i h
    intro e
    injection e with e
    rw [e] at h
    simp at h
  · simp

/-- What becomes of a grain that is read and written. -/
def re (lib : Lib) (now : Int) (major : Nat) (g : Grain) : Grain :=
  match rewrite lib now (g.toMeta major, g.payload, 0) with
  | .ok y => y.2
  | .error _ => g

theorem rewrite_ok {lib : Lib} (hl : lib.Lawful) (now : Int) {major : Nat} {g : Grain} (hw : g.Wf) (ho : Objective major g) (l : Nat) :
    rewrite lib now (g.toMeta major, g.payload, l) = .ok (l, re lib now major g) ∧
      encodeGrain major l (re lib now major g) = encodeGrain major l (normal major g) := by
  obtain ⟨o, b, h1, h2, h3⟩ := remade hl now (g := normal major g) ⟨hw.1, hw.2.1⟩ (normal_objective ho) (normal_offsets major g)
  have h : ∀ k, rewrite lib now (g.toMeta major, g.payload, k) =
      .ok (k, { normal major g with data := b, length := (b.getD []).length }) := by
    intro k
    unfold rewrite
    rw [toMeta_normal]
    have : g.payload = (normal major g).payload := rfl
    rw [this]
    simp only [h1, h2]
  have hr : re lib now major g = { normal major g with data := b, length := (b.getD []).length } := by
    unfold re
    rw [h]
  have hd : ((normal major g).data.getD []).length = (normal major g).length := hw.2.2
  rw [h, hr]
  exact ⟨rfl, encode_data (g := normal major g) major l hd h3⟩

theorem rewrite_all {lib : Lib} (hl : lib.Lawful) (now : Int) {major : Nat} (gs : List (Nat × Grain))
    (hg : ∀ x ∈ gs, x.2.Wf ∧ Objective major x.2) :
    (gs.map (fun x => (x.2.toMeta major, x.2.payload, x.1))).mapM (rewrite lib now) =
      .ok (gs.map (fun x => (x.1, re lib now major x.2))) := by
  induction gs with
  | nil => rfl
  | cons x gs ih =>
    rw [List.map_cons, List.mapM_cons, (rewrite_ok hl now (hg x (by simp)).1 (hg x (by simp)).2 x.1).1,
      ih (fun y hy => hg y (by simp [hy]))]
    rfl

theorem bytes_all {lib : Lib} (hl : lib.Lawful) (now : Int) {major : Nat} (gs : List (Nat × Grain))
    (hg : ∀ x ∈ gs, x.2.Wf ∧ Objective major x.2) :
    (gs.map (fun x => (x.1, re lib now major x.2))).flatMap (fun x => encodeGrain major x.1 x.2) =
      (gs.map (fun x => (x.1, normal major x.2))).flatMap (fun x => encodeGrain major x.1 x.2) := by
  induction gs with
  | nil => rfl
  | cons x gs ih =>
    simp only [List.map_cons, List.flatMap_cons]
    rw [(rewrite_ok hl now (hg x (by simp)).1 (hg x (by simp)).2 x.1).2, ih (fun y hy => hg y (by simp [hy]))]

/-! ## The encoder -/

/-- A segment with its flow. -/
def full (sg : SegmIn) : Seg := { kept sg with flow := sg.flow }

theorem placed_given : ∀ (n : Nat) (sgs : List SegmIn),
    ((placed n (sgs.map (fun s => (⟨some s.id, some s.localId, s.tags, []⟩ : SegArg)))).1.map kept = sgs.map kept) ∧
    (placed n (sgs.map (fun s => (⟨some s.id, some s.localId, s.tags, []⟩ : SegArg)))).1.map SegmIn.localId = sgs.map SegmIn.localId
  | _, [] => ⟨rfl, rfl⟩
  | n, s :: ss => by
    obtain ⟨h1, h2⟩ := placed_given (max n (s.localId + 1)) ss
    simp only [List.map_cons, placed, Option.getD_some]
    exact ⟨by rw [h1]; rfl, by rw [h2]⟩

/-- The flow as `add_flow` gets it. -/
theorem flow_back {f : FlowIn} (h : f.Ok) :
    (⟨f.toFlow.sourceId, f.toFlow.flowId, f.toFlow.format, encodeUtf8 f.toFlow.data⟩ : FlowIn) = f := by
  obtain ⟨-, -, -, h1, -⟩ := h
  obtain ⟨s, hs⟩ := Option.isSome_iff_exists.mp h1
  have : encodeUtf8 ((decodeUtf8 f.data).getD []) = f.data := by
    rw [hs]
    exact encodeUtf8_of_decodeUtf8 _ _ hs
  unfold FlowIn.toFlow
  simp only [this]

theorem try_flows (e : Enc) (pre post : List SegmIn) (hs : e.segs = pre.map full ++ post.map kept)
    (hn : ((pre ++ post).map SegmIn.localId).Nodup) (hk : ∀ sg ∈ post, sg.Ok) :
    tryAll e ((post.map SegmIn.toSegm).flatMap (fun s =>
      s.flow.toList.map (fun f => .sAddFlow s.localId ⟨f.sourceId, f.flowId, f.format, encodeUtf8 f.data⟩))) =
      .ok { e with segs := (pre ++ post).map full } := by
  induction post generalizing e pre with
  | nil =>
    simp only [List.map_nil, List.append_nil] at hs ⊢
    show Except.ok e = _
    rw [← hs]
  | cons sg post ih =>
    have hcat : pre ++ sg :: post = (pre ++ [sg]) ++ post := by simp
    have hne : ∀ x ∈ pre, x.localId ≠ sg.localId := by
      intro x hx e1
      rw [List.map_append] at hn
      exact (List.nodup_append.mp hn).2.2 x.localId (List.mem_map.mpr ⟨x, hx, rfl⟩) sg.localId (by simp) e1
    have hne2 : ∀ x ∈ post, x.localId ≠ sg.localId := by
      intro x hx e1
      rw [List.map_append] at hn
      have := (List.nodup_append.mp hn).2.1
      rw [List.map_cons, List.nodup_cons] at this
      exact this.1 (List.mem_map.mpr ⟨x, hx, e1⟩)
    rw [List.map_cons, List.flatMap_cons]
    cases hfl : sg.flow with
    | none =>
      have : sg.toSegm.flow = none := by unfold SegmIn.toSegm; rw [hfl]; rfl
      rw [this, hcat]
      refine ih e (pre ++ [sg]) ?_ (hcat ▸ hn) (fun x hx => hk x (by simp [hx]))
      rw [hs]
      have : full sg = kept sg := by unfold full; rw [hfl]; rfl
      simp [this]
    | some fl =>
      have hfo : fl.Ok := (hk sg (by simp)).2.2.2.1 fl hfl
      have h1 : sg.toSegm.flow = some fl.toFlow := by unfold SegmIn.toSegm; rw [hfl]; rfl
      rw [h1]
      have hfind : e.seg sg.localId = some (kept sg) := by
        unfold Enc.seg
        rw [hs, List.find?_append, List.find?_eq_none.mpr]
        · simp [kept, Seg.new]
        · intro x hx
          obtain ⟨y, hy, rfl⟩ := List.mem_map.mp hx
          simpa [full, kept, Seg.new] using hne y hy
      have hrun : Op.run e (.sAddFlow sg.localId fl) =
          ({ e with segs := (pre ++ [sg]).map full ++ post.map kept }, .ok none) := by
        simp only [Op.run, Enc.sAddFlow, hfind]
        rw [if_neg (by simp [kept, Seg.new])]
        simp only [Except.map, Enc.updSeg]
        congr 2
        rw [hs, List.map_append, List.map_cons, List.map_append]
        have e1 : (pre.map full).map (fun s => if s.localId = sg.localId then { s with flow := some fl } else s) = pre.map full := by
          rw [List.map_map]
          apply List.map_congr_left
          intro x hx
          exact if_neg (hne x hx)
        have e2 : (post.map kept).map (fun s => if s.localId = sg.localId then { s with flow := some fl } else s) = post.map kept := by
          rw [List.map_map]
          apply List.map_congr_left
          intro x hx
          exact if_neg (hne2 x hx)
        have e3 : (if (kept sg).localId = sg.localId then { kept sg with flow := some fl } else kept sg) = full sg := by
          have hid : (kept sg).localId = sg.localId := rfl
          simp only [hid, if_true]
          unfold full
          rw [hfl]
          rfl
        rw [List.map_cons, e1, e2, e3]
        simp
      simp only [Option.toList_some, List.map_cons, List.map_nil, List.singleton_append]
      have hb := flow_back hfo
      show tryAll e (Op.sAddFlow sg.localId _ :: _) = _
      rw [hb]
      simp only [tryAll, hrun]
      rw [hcat]
      exact ih _ (pre ++ [sg]) rfl (hcat ▸ hn) (fun x hx => hk x (by simp [hx]))

/-- The encoder after the setup. -/
def setUp (out : OutFile) (f : FileSpec) (streaming : Bool) : Enc :=
  { made out (copyArgs f.hdr streaming) with segs := f.head.segments.map full }

theorem setup_ok (out : OutFile) (f : FileSpec) (streaming : Bool) (hf : f.Ok)
    (hn : (f.head.segments.map SegmIn.localId).Nodup) :
    construct out (copyArgs f.hdr streaming) = .ok (made out (copyArgs f.hdr streaming)) ∧
    tryAll (made out (copyArgs f.hdr streaming)) (flowOps f.hdr) = .ok (setUp out f streaming) := by
  have hargs : (copyArgs f.hdr streaming).segments =
      f.head.segments.map (fun s => (⟨some s.id, some s.localId, s.tags, []⟩ : SegArg)) := by
    show (f.head.segments.map SegmIn.toSegm).map _ = _
    rw [List.map_map]
    rfl
  obtain ⟨h1, h2⟩ := placed_given 1 f.head.segments
  refine ⟨construct_ok out _ ?_, ?_⟩
  · unfold DistinctIds
    rw [hargs, h2]
    exact hn
  · have := try_flows (made out (copyArgs f.hdr streaming)) [] f.head.segments (by
      show (placed 1 (copyArgs f.hdr streaming).segments).1.map kept = _
      rw [hargs, h1]
      rfl) hn hf.head.2.2.1
    exact this

theorem setup_born (out : OutFile) (f : FileSpec) (streaming : Bool) (hf : f.Ok)
    (hn : (f.head.segments.map SegmIn.localId).Nodup) : Born (setUp out f streaming) := by
  obtain ⟨h1, h2⟩ := setup_ok out f streaming hf hn
  have hd : DistinctIds (copyArgs f.hdr streaming) := by
    unfold DistinctIds
    have hargs : (copyArgs f.hdr streaming).segments =
        f.head.segments.map (fun s => (⟨some s.id, some s.localId, s.tags, []⟩ : SegArg)) := by
      show (f.head.segments.map SegmIn.toSegm).map _ = _
      rw [List.map_map]
      rfl
    rw [hargs, (placed_given 1 f.head.segments).2]
    exact hn
  rw [tryAll_runs h2]
  apply (made_born out _ hd).edits
  intro o ho
  unfold flowOps at ho
  obtain ⟨s, -, ho⟩ := List.mem_flatMap.mp ho
  obtain ⟨fl, -, rfl⟩ := List.mem_map.mp ho
  rfl

/-- Calls that hand over one grain each. -/
def adds (gs : List (Nat × Grain)) : List Op := gs.map (fun x => .addGrains [x.2] none (some x.1) [])

theorem taken_le (gs : List (Nat × Grain)) (e : Enc) : (e.taken (adds gs)).length ≤ gs.length := by
  induction gs generalizing e with
  | nil => exact Nat.le_refl 0
  | cons x gs ih =>
    show (Op.takes e _ ++ _).length ≤ _
    rw [List.length_append]
    have h1 := ih (Op.run e (.addGrains [x.2] none (some x.1) [])).1
    have h2 : (Op.takes e (.addGrains [x.2] none (some x.1) [])).length ≤ 1 := by
      unfold Op.takes
      split <;> simp [Op.grains]
    simp only [List.length_cons]
    unfold adds at h1
    omega

/-- If every grain is taken, no call has raised. -/
theorem try_adds (gs : List (Nat × Grain)) (e : Enc) (h : (e.taken (adds gs)).length = gs.length) :
    tryAll e (adds gs) = .ok (e.runs (adds gs)) := by
  induction gs generalizing e with
  | nil => rfl
  | cons x gs ih =>
    have hle := taken_le gs (Op.run e (.addGrains [x.2] none (some x.1) [])).1
    change (Op.takes e (.addGrains [x.2] none (some x.1) []) ++
      (Op.run e (.addGrains [x.2] none (some x.1) [])).1.taken (adds gs)).length = gs.length + 1 at h
    rw [List.length_append] at h
    show (match Op.run e (.addGrains [x.2] none (some x.1) []) with
      | (_, Except.error y) => Except.error y
      | (e1, Except.ok _) => tryAll e1 (adds gs)) = Except.ok ((Op.run e (.addGrains [x.2] none (some x.1) [])).1.runs (adds gs))
    cases hr : Op.run e (.addGrains [x.2] none (some x.1) []) with
    | mk e1 r =>
      rw [hr] at h hle
      simp only at h hle
      have h2 : (Op.takes e (.addGrains [x.2] none (some x.1) [])).length ≤ 1 := by
        unfold Op.takes
        split <;> simp [Op.grains]
      cases r with
      | error y =>
        have : Op.takes e (.addGrains [x.2] none (some x.1) []) = [] := by
          unfold Op.takes
          rw [hr]
        rw [this] at h
        simp only [List.length_nil] at h
        omega
      | ok v =>
        simp only
        exact ih e1 (by omega)

theorem routed_adds (e : Enc) (gs : List (Nat × Grain)) : routed e (adds gs) = gs := by
  unfold routed adds
  rw [List.flatMap_map]
  induction gs with
  | nil => rfl
  | cons x gs ih => rw [List.flatMap_cons, ih]; rfl

theorem adds_declared {e : Enc} {gs : List (Nat × Grain)} (h : ∀ x ∈ gs, x.1 ∈ e.lids) : ∀ o ∈ adds gs, Declared e o := by
  intro o ho
  obtain ⟨x, hx, rfl⟩ := List.mem_map.mp ho
  show ((some x.1).filter e.hasSeg).isSome
  rw [Option.filter_some, if_pos ((e.hasSeg_iff x.1).mpr (h x hx))]
  rfl

theorem try_copy_any {e : Enc} (hb : Born e) (gs : List (Nat × Grain))
    (hd : ∀ x ∈ gs, x.1 ∈ e.lids) :
    ∃ e2, tryAll e (copyOps gs) = .ok e2 ∧ e2.file.bytes = (if e.file.seekable then [] else e.file.bytes) ++
      (if e.streaming then (if e.file.seekable then streamSpec (opened e) gs else plainSpec (opened e) false gs)
      else plainSpec { opened e with segs := withGrains e.segs gs } true []).bytes := by
  have hdec := adds_declared hd
  obtain ⟨h1, h2, h3, h4⟩ := session_any e hb (adds gs) hdec
  rw [routed_adds] at h1 h2 h3 h4
  have hm : e.inMode e.streaming = e := rfl
  have htk : (Op.enter.run e).1.taken (adds gs) = gs := by
    cases hs : e.streaming with
    | true => rw [hs] at hm; rw [hm] at h3; exact h3
    | false => rw [hs] at hm; rw [hm] at h4; exact h4
  refine ⟨e.runs (copyOps gs), ?_, ?_⟩
  · show tryAll (Op.enter.run e).1 (adds gs ++ [.exit]) = _
    rw [tryAll_append _ _ _ _ (try_adds gs _ (by rw [htk]))]
    show Except.ok _ = Except.ok ((Op.enter.run e).1.runs (adds gs ++ [.exit]))
    rw [runs_append]
    rfl
  · cases hs : e.streaming with
    | true => rw [hs] at hm; rw [hm] at h1; rw [if_pos (c := true = true) rfl]; exact h1
    | false => rw [hs] at hm; rw [hm] at h2; rw [if_neg (c := false = true) (by simp)]; exact h2

theorem try_copy {e : Enc} (hb : Born e) (hf : e.file.seekable = true) (gs : List (Nat × Grain))
    (hd : ∀ x ∈ gs, x.1 ∈ e.lids) :
    ∃ e2, tryAll e (copyOps gs) = .ok e2 ∧ e2.file.bytes = (if e.streaming then streamSpec (opened e) gs
      else plainSpec { opened e with segs := withGrains e.segs gs } true []).bytes := by
  have := try_copy_any hb gs hd
  rwa [if_pos hf, if_pos hf, List.nil_append] at this

/-! ## The files -/

theorem ofSeg_length (l : Nat) (h : Nat → Grain → Grain) (gs : List (Nat × Grain)) :
    (ofSeg l (gs.map (fun x => (x.1, h x.1 x.2)))).length = (gs.filter (fun x => x.1 == l)).length := by
  unfold ofSeg
  rw [List.length_map, List.filter_map, List.length_map]
  rfl

theorem filter_pairs (l : Nat) (gs : List (Nat × Grain)) : (ofSeg l gs).map (fun g => (l, g)) = gs.filter (fun x => x.1 == l) := by
  unfold ofSeg
  rw [List.map_map]
  conv => rhs; rw [← List.map_id (gs.filter _)]
  apply List.map_congr_left
  intro x hx
  have := (List.mem_filter.1 hx).2
  simp only [beq_iff_eq] at this
  show (l, x.2) = x
  rw [← this]

theorem setup_pending (out : OutFile) (f : FileSpec) (streaming : Bool) : (opened (setUp out f streaming)).pending = [] := by
  unfold Enc.pending
  rw [List.flatMap_eq_nil_iff]
  intro s hs
  obtain ⟨sg, -, rfl⟩ := List.mem_map.mp hs
  rfl

theorem bytes_of {a b : FileSpec} (h1 : a.major = b.major) (h2 : a.minor = b.minor) (h3 : a.head = b.head)
    (h4 : a.grains.flatMap (fun x => encodeGrain b.major x.1 x.2) = b.grains.flatMap (fun x => encodeGrain b.major x.1 x.2)) :
    a.bytes = b.bytes := by
  unfold FileSpec.bytes
  rw [h1, h2, h3, h4]

theorem stream_bytes {lib : Lib} (hl : lib.Lawful) (now : Int) (out : OutFile) (f : FileSpec) (streaming : Bool) (gs : List (Nat × Grain))
    (hg : ∀ x ∈ gs, x.2.Wf ∧ Objective f.major x.2) :
    (streamSpec (opened (setUp out f streaming)) (gs.map (fun x => (x.1, re lib now f.major x.2)))).bytes =
      (normalFile { f with grains := gs }).bytes := by
  have h1 : (streamSpec (opened (setUp out f streaming)) (gs.map (fun x => (x.1, re lib now f.major x.2)))).head =
      (normalFile { f with grains := gs }).head := by
    unfold streamSpec normalFile
    simp only
    have : (opened (setUp out f streaming)).segs = f.head.segments.map full := rfl
    rw [this, List.map_map]
    have e : ∀ sg : SegmIn, (full sg).writeCount + (full sg).grains.length +
        (ofSeg (full sg).localId (gs.map (fun x => (x.1, re lib now f.major x.2)))).length =
          (gs.filter (fun x => x.1 == sg.localId)).length := by
      intro sg
      rw [ofSeg_length _ (fun _ g => re lib now f.major g)]
      show 0 + 0 + _ = _
      simp only [Nat.zero_add]
      rfl
    show HeadIn.mk _ _ _ _ = HeadIn.mk _ _ _ _
    congr 1
    apply List.map_congr_left
    intro sg _
    simp only [Function.comp_apply, e]
    rfl
  have h2 : (streamSpec (opened (setUp out f streaming)) (gs.map (fun x => (x.1, re lib now f.major x.2)))).grains =
      gs.map (fun x => (x.1, re lib now f.major x.2)) := by
    show (opened (setUp out f streaming)).pending ++ _ = _
    rw [setup_pending, List.nil_append]
  refine bytes_of rfl rfl h1 ?_
  rw [h2]
  exact bytes_all hl now gs hg

theorem plain_bytes {lib : Lib} (hl : lib.Lawful) (now : Int) (out : OutFile) (f : FileSpec) (streaming : Bool) (gs : List (Nat × Grain))
    (hg : ∀ x ∈ gs, x.2.Wf ∧ Objective f.major x.2) :
    (plainSpec { opened (setUp out f streaming) with
        segs := withGrains (setUp out f streaming).segs (gs.map (fun x => (x.1, re lib now f.major x.2))) } true []).bytes =
      (grouped (normalFile { f with grains := gs })).bytes := by
  have hsegs : withGrains (setUp out f streaming).segs (gs.map (fun x => (x.1, re lib now f.major x.2))) =
      f.head.segments.map (fun sg => { full sg with
        grains := ofSeg sg.localId (gs.map (fun x => (x.1, re lib now f.major x.2))) }) := by
    unfold withGrains
    have : (setUp out f streaming).segs = f.head.segments.map full := rfl
    rw [this, List.map_map]
    rfl
  rw [hsegs]
  have h1 : (plainSpec { opened (setUp out f streaming) with
        segs := f.head.segments.map (fun sg => { full sg with
          grains := ofSeg sg.localId (gs.map (fun x => (x.1, re lib now f.major x.2))) }) } true []).head =
      (grouped (normalFile { f with grains := gs })).head := by
    show HeadIn.mk _ _ _ _ = HeadIn.mk _ _ _ _
    congr 1
    rw [List.map_map]
    apply List.map_congr_left
    intro sg _
    show SegmIn.mk _ _ (((ofSeg sg.localId (gs.map (fun x => (x.1, re lib now f.major x.2)))).length + 0 : Nat) : Int) _ _ = _
    rw [ofSeg_length _ (fun _ g => re lib now f.major g)]
    rfl
  have h2 : (plainSpec { opened (setUp out f streaming) with
        segs := f.head.segments.map (fun sg => { full sg with
          grains := ofSeg sg.localId (gs.map (fun x => (x.1, re lib now f.major x.2))) }) } true []).grains =
      f.head.segments.flatMap (fun sg => (gs.filter (fun x => x.1 == sg.localId)).map (fun x => (x.1, re lib now f.major x.2))) := by
    show Enc.pending _ ++ [] = _
    rw [List.append_nil]
    unfold Enc.pending
    rw [List.flatMap_map]
    congr 1
    funext sg
    show (ofSeg sg.localId _).map (fun g => (sg.localId, g)) = _
    rw [filter_pairs, List.filter_map]
    rfl
  have h3 : (grouped (normalFile { f with grains := gs })).grains =
      f.head.segments.flatMap (fun sg => (gs.filter (fun x => x.1 == sg.localId)).map (fun x => (x.1, normal f.major x.2))) := by
    show List.flatMap _ (f.head.segments.map _) = _
    rw [List.flatMap_map]
    congr 1
    funext sg
    show ((gs.map (fun x => (x.1, normal f.major x.2))).filter _) = _
    rw [List.filter_map]
    rfl
  refine bytes_of rfl rfl h1 ?_
  rw [h2, h3, List.flatMap_assoc, List.flatMap_assoc]
  congr 1
  funext sg
  exact bytes_all hl now _ (fun x hx => hg x (List.mem_filter.1 hx).1)

theorem decoded {o : Opts} (ho : Loads o) {f : FileSpec} {bs : Bytes} (hf : f.Ok) (hd : DecoFile f bs) :
    ∃ r, decodeFile o bs = .ok r ∧ r.hdr = f.hdr ∧ (r.ending = .eof ∨ r.ending = .break_) ∧
      r.view bs = (selected o f).grains.map (fun x => (x.2.toMeta f.major, x.2.payload, x.1)) := by
  have hv : ∀ x, o.viewOf f.major x = (x.2.toMeta f.major, x.2.payload, x.1) := by
    intro x
    unfold Opts.viewOf
    rw [if_neg]
    rintro ⟨h1, h2⟩
    rcases ho with h | h
    · rw [h] at h1; cases h1
    · exact h h2
  cases hc : o.concat with
  | true =>
    obtain ⟨r, h1, h2, h3, h4⟩ := decodeFile_concat hc hf hd (fs := []) (by simp)
    simp only [List.flatMap_nil, List.append_nil] at h1 h2
    refine ⟨r, h1, h3, .inl h4, ?_⟩
    rw [h2]
    simp only [List.flatMap_cons, List.flatMap_nil, List.append_nil]
    exact List.map_congr_left (fun x _ => hv x)
  | false =>
    obtain ⟨r, h1, h2, h3, h4⟩ := decodeFile_single hc hf hd []
    simp only [List.append_nil] at h1 h2
    refine ⟨r, h1, h3, .inr h4, ?_⟩
    rw [h2]
    exact List.map_congr_left (fun x _ => hv x)

theorem lids_setup (out : OutFile) (f : FileSpec) (streaming : Bool) :
    (setUp out f streaming).lids = f.head.segments.map SegmIn.localId := by
  show (f.head.segments.map full).map Seg.localId = _
  rw [List.map_map]
  rfl

/-! ## Files that are in normal form -/

theorem canonRate_nonneg (n d : Nat) : 0 ≤ (canonRate n d).num := by
  unfold canonRate
  split
  · decide
  · rw [Rat.num_mkRat]
    split
    · exact Int.le_refl 0
    · exact Int.ediv_nonneg (Int.natCast_nonneg n) (Int.natCast_nonneg _)

theorem canonRate_le (n d : Nat) : (canonRate n d).num.toNat ≤ n ∧ (canonRate n d).den ≤ max d 1 := by
  unfold canonRate
  split
  · exact ⟨Nat.zero_le n, Nat.le_max_right d 1⟩
  · rename_i h
    rw [Rat.num_mkRat, Rat.den_mkRat, if_neg (by omega), if_neg (by omega)]
    constructor
    · have h1 : ((n : Int) / ((d.gcd (n : Int).natAbs : Nat) : Int)) = ((n / d.gcd (n : Int).natAbs : Nat) : Int) := by simp
      rw [h1, Int.toNat_natCast]
      exact Nat.div_le_self _ _
    · exact Nat.le_trans (Nat.div_le_self _ _) (Nat.le_max_left _ _)

theorem label_canon (l : TimeLabel) : l.canon.canon = l.canon := by
  have h0 := canonRate_nonneg l.rateNum l.rateDen
  have hc : (canonRate l.rateNum l.rateDen).num.toNat.Coprime (canonRate l.rateNum l.rateDen).den := by
    have := (canonRate l.rateNum l.rateDen).reduced
    rwa [show (canonRate l.rateNum l.rateDen).num.natAbs = (canonRate l.rateNum l.rateDen).num.toNat by omega] at this
  have := canonRate_plain hc (canonRate l.rateNum l.rateDen).den_nz
  show ({ l with rateNum := _, rateDen := _ } : TimeLabel) = _
  simp only [TimeLabel.canon, this]

theorem canonTs_canon (major : Nat) (t : Int) : canonTs major (canonTs major t) = canonTs major t := by
  unfold canonTs
  split <;> simp

theorem canonAspect_canon (q : Option Rat) : canonAspect (canonAspect q) = canonAspect q := by
  unfold canonAspect
  by_cases h : q.getD 0 ≠ 0
  · simp [h]
  · simp [h]

theorem canonComps_canon : ∀ (off : Nat) (cs : List Component), canonComps off (canonComps off cs) = canonComps off cs
  | _, [] => rfl
  | off, c :: cs => by
    simp only [canonComps]
    rw [canonComps_canon (off + c.length) cs]

theorem video_canon (v : VideoHdr) : v.canon.canon = v.canon := by
  simp only [VideoHdr.canon, canonAspect_canon, canonComps_canon]

theorem offsets_canon (major : Nat) (c : CodedVideoHdr) : (c.canon major).offsets = c.offsets := by
  show Option.getD (if c.offsets.length > 0 then some c.offsets else none) [] = c.offsets
  split
  · rfl
  · rename_i h
    exact (List.eq_nil_of_length_eq_zero (by omega)).symm

theorem canonKey_canon (major : Nat) (k : Option Bool) : canonKey major (canonKey major k) = canonKey major k := by
  unfold canonKey
  split <;> simp

theorem canonTemporal_canon (major : Nat) (t : Option Int) : canonTemporal major (canonTemporal major t) = canonTemporal major t := by
  unfold canonTemporal
  by_cases h : major < 9
  · simp [h]
  · simp only [h, if_false]
    by_cases h2 : t.getD 0x7fffffff = 0x7fffffff
    · simp [h2]
    · simp [h2]

theorem coded_canon (major : Nat) (c : CodedVideoHdr) : (c.canon major).canon major = c.canon major := by
  have h := offsets_canon major c
  unfold CodedVideoHdr.canon at h ⊢
  simp only [h, canonKey_canon, canonTemporal_canon]

theorem normal_normal (major : Nat) (g : Grain) : normal major (normal major g) = normal major g := by
  unfold normal
  simp only [canonTs_canon, List.map_map]
  congr 1
  · exact List.map_congr_left (fun l _ => label_canon l)
  · cases g.body <;> simp only [normalBody, video_canon, coded_canon]

theorem comps_length : ∀ (off : Nat) (cs : List Component), (canonComps off cs).length = cs.length
  | _, [] => rfl
  | off, a :: cs => by simp [canonComps, comps_length]

theorem aspect_bytes (q : Option Rat) : encodeAspect (canonAspect q) = encodeAspect q := by
  unfold encodeAspect canonAspect
  split
  · rfl
  · rename_i h
    have : q.getD 0 = 0 := by simpa using h
    rw [this]
    rfl

theorem comps_bytes (off : Nat) (cs : List Component) : encodeComp (canonComps off cs) = encodeComp cs := by
  have : ∀ (off : Nat) (cs : List Component), (canonComps off cs).flatMap encodeComponent = cs.flatMap encodeComponent := by
    intro off cs
    induction cs generalizing off with
    | nil => rfl
    | cons c cs ih => rw [canonComps, List.flatMap_cons, List.flatMap_cons, ih]; rfl
  unfold encodeComp
  rw [comps_length, this]

theorem body_bytes (major : Nat) (b : Body) (h : major < 9 → ∀ c, b = .codedVideo c → c.isKeyFrame ≠ none) :
    encodeBody (normalBody major b) = encodeBody b := by
  cases b with
  | video v =>
    show encodeVghd v.canon = encodeVghd v
    unfold encodeVghd
    have h1 : vghdSize v.canon = vghdSize v := by
      show 44 + (if (canonComps 0 v.components).length > 0 then 10 + 16 * (canonComps 0 v.components).length else 0) = _
      rw [comps_length]
      rfl
    have h2 : encodeComp v.canon.components = encodeComp v.components := comps_bytes 0 _
    have h3 : encodeAspect v.canon.srcAspect = encodeAspect v.srcAspect := aspect_bytes _
    have h4 : encodeAspect v.canon.pixAspect = encodeAspect v.pixAspect := aspect_bytes _
    rw [h1, h2, h3, h4]
    rfl
  | codedVideo c =>
    show encodeCghd (c.canon major) = encodeCghd c
    unfold encodeCghd
    have h1 : cghdSize (c.canon major) = cghdSize c := by
      unfold cghdSize
      rw [offsets_canon]
    have h2 : encodeKeyFrame (c.canon major).isKeyFrame = encodeKeyFrame c.isKeyFrame := by
      show encodeKeyFrame (canonKey major c.isKeyFrame) = _
      unfold canonKey
      split
      · rename_i h9
        cases hk : c.isKeyFrame with
        | none => exact absurd hk (h h9 c rfl)
        | some k => rfl
      · rfl
    have h3 : encodeTemporal (c.canon major).temporalOffset = encodeTemporal c.temporalOffset := by
      show encodeTemporal (canonTemporal major c.temporalOffset) = _
      unfold canonTemporal encodeTemporal
      split
      · rfl
      · split
        · rename_i h; rw [h]; rfl
        · rfl
    rw [h1, h2, h3, offsets_canon]
    rfl
  | _ => rfl

theorem normal_size (major : Nat) (g : Grain) : gbhdSize major (normal major g) = gbhdSize major g := by
  have hb : bodySize (normalBody major g.body) = bodySize g.body := by
    cases g.body with
    | video v =>
      show 44 + (if (canonComps 0 v.components).length > 0 then 10 + 16 * (canonComps 0 v.components).length else 0) = _
      rw [comps_length]
      rfl
    | codedVideo v =>
      show 37 + (if (v.canon major).offsets.length > 0 then 10 + 4 * (v.canon major).offsets.length else 0) = _
      rw [offsets_canon]
      rfl
    | _ => rfl
  show (if major = 7 then 78 + 16 - 2 else 78) +
    (if (g.timelabels.map TimeLabel.canon).length > 0 then 10 + 29 * (g.timelabels.map TimeLabel.canon).length else 0) +
      bodySize (normalBody major g.body) = _
  rw [hb, List.length_map]
  rfl

theorem normal_bytes {major : Nat} {g : Grain} (h : Lasting major g) (l : Nat) :
    encodeGrain major l (normal major g) = encodeGrain major l g := by
  have ht : (normal major g).timelabels = g.timelabels := by
    show g.timelabels.map TimeLabel.canon = g.timelabels
    conv => rhs; rw [← List.map_id g.timelabels]
    apply List.map_congr_left
    intro l hl
    have := canonRate_plain (h.1 l hl).1 (h.1 l hl).2
    unfold TimeLabel.canon
    rw [this.1, this.2]; rfl
  have hf : encodeGbhdFixed major (normal major g) = encodeGbhdFixed major g := by
    unfold encodeGbhdFixed
    by_cases h7 : major = 7
    · rw [if_pos h7, if_pos h7]
      have hv : ∀ t, encodeTsV7 (canonTs major t) = encodeTsV7 t := by
        intro t
        unfold canonTs encodeTsV7
        rw [if_pos h7]
        rfl
      show _ ++ (_ ++ encodeTsV7 (canonTs major g.origin) ++ encodeTsV7 (canonTs major g.sync)) ++ _ ++ _ = _
      rw [hv, hv]
      rfl
    · rw [if_neg h7, if_neg h7]
      have hv : ∀ t, canonTs major t = t := fun t => if_neg h7
      show _ ++ (encodeTs (canonTs major g.origin) ++ encodeTs (canonTs major g.sync)) ++ _ ++ _ = _
      rw [hv, hv]
      rfl
  have hg : encodeGbhd major (normal major g) = encodeGbhd major g := by
    unfold encodeGbhd
    rw [normal_size, hf, ht]
    show _ ++ encodeBody (normalBody major g.body) = _
    rw [body_bytes major g.body h.2]
  have hs : graiSize major (normal major g) = graiSize major g := by
    unfold graiSize
    rw [normal_size]
    rfl
  unfold encodeGrain
  rw [hs, hg]
  rfl

theorem normalFile_self {f : FileSpec}
    (h1 : f.head.segments.map (fun sg => { sg with count := ((f.grains.filter (fun x => x.1 == sg.localId)).length : Nat) }) = f.head.segments)
    (h2 : f.grains.map (fun x => (x.1, normal f.major x.2)) = f.grains) : normalFile f = f := by
  unfold normalFile
  rw [h1, h2]

theorem normalFile_bytes {f : FileSpec} (hc : CountsRight f) (hp : ∀ x ∈ f.grains, Lasting f.major x.2) :
    (normalFile f).bytes = f.bytes := by
  have h1 : f.head.segments.map (fun sg => { sg with count := ((f.grains.filter (fun x => x.1 == sg.localId)).length : Nat) }) =
      f.head.segments := by
    conv => rhs; rw [← List.map_id f.head.segments]
    apply List.map_congr_left
    intro sg hs
    show SegmIn.mk _ _ _ _ _ = SegmIn.mk _ _ _ _ _
    congr 1
    exact (hc.1 sg hs).symm
  refine bytes_of rfl rfl ?_ ?_
  · unfold normalFile
    rw [h1]
  · show (f.grains.map (fun x => (x.1, normal f.major x.2))).flatMap _ = _
    rw [List.flatMap_map]
    have : ∀ gs : List (Nat × Grain), (∀ x ∈ gs, Lasting f.major x.2) →
        gs.flatMap (fun x => encodeGrain f.major x.1 (normal f.major x.2)) = gs.flatMap (fun x => encodeGrain f.major x.1 x.2) := by
      intro gs h
      induction gs with
      | nil => rfl
      | cons x gs ih =>
        rw [List.flatMap_cons, List.flatMap_cons, ih (fun y hy => h y (by simp [hy])), normal_bytes (h x (by simp))]
    exact this _ hp

theorem count_normal (f : FileSpec) (l : Nat) :
    ((normalFile f).grains.filter (fun x => x.1 == l)).length = (f.grains.filter (fun x => x.1 == l)).length := by
  show ((f.grains.map (fun x => (x.1, normal f.major x.2))).filter _).length = _
  rw [List.filter_map, List.length_map]
  rfl

theorem normalFile_normal (f : FileSpec) : normalFile (normalFile f) = normalFile f := by
  have h1 : (normalFile f).head.segments.map (fun sg =>
      { sg with count := (((normalFile f).grains.filter (fun x => x.1 == sg.localId)).length : Nat) }) = (normalFile f).head.segments := by
    show (f.head.segments.map _).map _ = _
    rw [List.map_map]
    apply List.map_congr_left
    intro sg _
    show SegmIn.mk _ _ _ _ _ = SegmIn.mk _ _ _ _ _
    congr 2
    exact count_normal f sg.localId
  have h2 : (normalFile f).grains.map (fun x => (x.1, normal (normalFile f).major x.2)) = (normalFile f).grains := by
    show (f.grains.map _).map _ = _
    rw [List.map_map]
    apply List.map_congr_left
    intro x _
    show (x.1, normal f.major (normal f.major x.2)) = (x.1, normal f.major x.2)
    rw [normal_normal]
  exact normalFile_self h1 h2

theorem canonTs_ok {major : Nat} {t : Int} (h : TsOk t) : TsOk (canonTs major t) := by
  unfold canonTs TsOk at *
  have : (0 : Int) ≤ maxTs := by decide
  split <;> omega

theorem label_ok {l : TimeLabel} (h : l.Ok) : l.canon.Ok := by
  obtain ⟨h1, h2, h3, h4, h5⟩ := h
  have := canonRate_le l.rateNum l.rateDen
  refine ⟨h1, h2, h3, ?_, ?_⟩
  · show (canonRate l.rateNum l.rateDen).num.toNat < _
    omega
  · show (canonRate l.rateNum l.rateDen).den < _
    omega

theorem aspect_ok {q : Option Rat} (h : AspectOk q) : AspectOk (canonAspect q) := by
  unfold AspectOk canonAspect at *
  split
  · exact h
  · exact ⟨by decide, by decide, by decide⟩

theorem comps_ok : ∀ (off : Nat) (cs : List Component), (∀ c ∈ cs, c.Ok) → ∀ c ∈ canonComps off cs, c.Ok
  | _, [], _, c, hc => by cases hc
  | off, a :: cs, h, c, hc => by
    rcases List.mem_cons.mp hc with rfl | hc
    · exact h a (by simp)
    · exact comps_ok _ cs (fun x hx => h x (by simp [hx])) c hc

theorem temporal_ok {major : Nat} {t : Option Int} (h : TemporalOk t) : TemporalOk (canonTemporal major t) := by
  unfold TemporalOk canonTemporal at *
  cases t with
  | none =>
    simp only [Option.getD_none]
    split
    · decide
    · decide
  | some t =>
    simp only [Option.getD_some] at *
    split
    · exact h
    · split
      · decide
      · exact h

theorem normal_ok {major : Nat} {g : Grain} (h : g.Ok major) : (normal major g).Ok major where
  wf := h.wf
  origin := canonTs_ok h.origin
  sync := canonTs_ok h.sync
  rate := h.rate
  duration := h.duration
  tils := by
    show (g.timelabels.map TimeLabel.canon).length < _
    rw [List.length_map]
    exact h.tils
  til := by
    intro l hl
    obtain ⟨x, hx, rfl⟩ := List.mem_map.mp hl
    exact label_ok (h.til x hx)
  body := by
    have hb := h.body
    show (normalBody major g.body).Ok
    cases hbd : g.body with
    | empty => trivial
    | event => trivial
    | audio a => rw [hbd] at hb; exact hb
    | codedAudio a => rw [hbd] at hb; exact hb
    | video v =>
      rw [hbd] at hb
      obtain ⟨a1, a2, a3, a4, a5, a6, a7, a8, a9⟩ := hb
      refine ⟨a1, a2, a3, a4, a5, aspect_ok a6, aspect_ok a7, ?_, comps_ok 0 _ a9⟩
      show (canonComps 0 v.components).length < _
      rw [comps_length]
      exact a8
    | codedVideo v =>
      rw [hbd] at hb
      obtain ⟨a1, a2, a3, a4, a5, a6, a7, a8, a9⟩ := hb
      refine ⟨a1, a2, a3, a4, a5, a6, temporal_ok a7, ?_, ?_⟩
      · rw [offsets_canon]; exact a8
      · rw [offsets_canon]; exact a9
  size := by
    have hs := h.size
    unfold graiSize at hs ⊢
    rw [normal_size]
    exact hs

theorem normalFile_ok {f : FileSpec} (h : f.Ok) (hn : f.grains.length < 2 ^ 63) : (normalFile f).Ok where
  major := h.major
  minor := h.minor
  head := by
    obtain ⟨a1, a2, a3, a4, a5⟩ := h.head
    refine ⟨a1, a2, ?_, a4, ?_⟩
    · intro sg hs
      obtain ⟨x, hx, rfl⟩ := List.mem_map.mp hs
      obtain ⟨b1, b2, b3, b4, b5⟩ := a3 x hx
      refine ⟨b1, b2, ?_, b4, b5⟩
      have := List.length_filter_le (fun y : Nat × Grain => y.1 == x.localId) f.grains
      simp only
      omega
    · have : headSize (normalFile f).head = headSize f.head := by
        show 31 + ((f.head.segments.map _).map segmBlockSize).sum + _ = _
        rw [List.map_map]
        rfl
      omega
  grains := by
    intro x hx
    obtain ⟨y, hy, rfl⟩ := List.mem_map.mp hx
    exact ⟨(h.grains y hy).1, normal_ok (h.grains y hy).2⟩

theorem normal_objective' {major : Nat} {g : Grain} (ho : Objective major g) : Objective major (normal major g) where
  times := by
    show 0 ≤ canonTs major (canonTs major g.origin) ∧ 0 ≤ canonTs major (canonTs major g.sync)
    rw [canonTs_canon, canonTs_canon]
    exact ho.times
  enums := (normal_objective ho).enums
  event := (normal_objective ho).event

theorem normal_segmented {f : FileSpec} (h : Segmented f) : Segmented (normalFile f) where
  distinct := by
    show ((f.head.segments.map _).map SegmIn.localId).Nodup
    rw [List.map_map]
    exact h.distinct
  declared := by
    intro x hx
    obtain ⟨y, hy, rfl⟩ := List.mem_map.mp hx
    show y.1 ∈ (f.head.segments.map _).map SegmIn.localId
    rw [List.map_map]
    exact h.declared y hy

theorem selected_all (f : FileSpec) : selected {} f = f := by
  unfold selected
  have : f.grains.filter (fun x => !Opts.drops {} x.1) = f.grains := by
    rw [List.filter_eq_self]
    intro x _
    rfl
  rw [this]

theorem loads_all : Loads {} := .inl rfl

/-- Every grain that the encoder can write is one that can be copied. -/
theorem written_objective {lib : Lib} {o : Obj} {g : Grain} (hw : write lib o = .ok g) (ht : Typed lib o)
    (hp : ∀ d ∈ o.payload.data, PlainItem d) (major : Nat) : Objective major g := by
  have hwas := C68.write_was hw
  have hb := C68.body_cls ht hwas.body
  refine ⟨?_, ?_, ?_⟩
  · have h1 := ht.times _ _ (.inl rfl) hwas.origin
    have h2 := ht.times _ _ (.inr rfl) hwas.sync
    unfold canonTs
    split <;> omega
  · cases hc : o.cls with
    | grain => rw [hc] at hb; rw [hb]; trivial
    | event => rw [hc] at hb; rw [hb]; trivial
    | video =>
      rw [hc] at hb
      obtain ⟨v, hb, hv⟩ := hb
      rw [hb]
      unfold videoHdr at hv
      simp only [bind, C68.bind_ok, pure, Except.pure] at hv
      obtain ⟨a1, h1, a2, h2, a3, h3, a4, h4, a5, h5, a6, h6, a7, h7, h8⟩ := hv
      injection h8 with h8
      subst h8
      exact ⟨(C68.enum_ok h1 (by rw [hc]; rfl) rfl).2, (C68.enum_ok h2 (by rw [hc]; rfl) rfl).2⟩
    | codedVideo =>
      rw [hc] at hb
      obtain ⟨v, hb, hv⟩ := hb
      rw [hb]
      unfold codedVideoHdr at hv
      simp only [bind, C68.bind_ok, pure, Except.pure] at hv
      obtain ⟨a1, h1, a2, h2, a3, h3, a4, h4, a5, h5, a6, h6, a7, h7, a8, h8, h9⟩ := hv
      injection h9 with h9
      subst h9
      exact ⟨(C68.enum_ok h1 (by rw [hc]; rfl) rfl).2, (C68.enum_ok h2 (by rw [hc]; rfl) rfl).2⟩
    | audio =>
      rw [hc] at hb
      obtain ⟨v, hb, hv⟩ := hb
      rw [hb]
      unfold audioHdr at hv
      simp only [bind, C68.bind_ok, pure, Except.pure] at hv
      obtain ⟨a1, h1, a2, h2, a3, h3, a4, h4, h8⟩ := hv
      injection h8 with h8
      subst h8
      exact (C68.enum_ok h1 (by rw [hc]; rfl) rfl).2
    | codedAudio =>
      rw [hc] at hb
      obtain ⟨v, hb, hv⟩ := hb
      rw [hb]
      unfold codedAudioHdr at hv
      simp only [bind, C68.bind_ok, pure, Except.pure] at hv
      obtain ⟨a1, h1, a2, h2, a3, h3, a4, h4, a5, h5, a6, h6, h8⟩ := hv
      injection h8 with h8
      subst h8
      exact (C68.enum_ok h1 (by rw [hc]; rfl) rfl).2
  · intro he
    have hc : o.cls = .event := by
      cases hc : o.cls with
      | event => rfl
      | grain => rw [hc] at hb; rw [hb] at he; cases he
      | video => rw [hc] at hb; obtain ⟨v, hb, -⟩ := hb; rw [hb] at he; cases he
      | codedVideo => rw [hc] at hb; obtain ⟨v, hb, -⟩ := hb; rw [hb] at he; cases he
      | audio => rw [hc] at hb; obtain ⟨v, hb, -⟩ := hb; rw [hb] at he; cases he
      | codedAudio => rw [hc] at hb; obtain ⟨v, hb, -⟩ := hb; rw [hb] at he; cases he
    refine ⟨o.payload, ht.payload hc, hp, ?_⟩
    rw [hwas.data]
    unfold Obj.content
    rw [hc]
    rfl

end Verif.Props.Copy

namespace Verif.Props

open Verif Verif.Gsf Verif.Easy
open Verif.Attrs (Lib)
open Copy

/-- **C79.** A file is read, with any options that hand out the data, and what is read is written to another file: the new file has the
header of the old one, with the right counts, and the grains that were asked for, in normal form; in their order when the encoder
streams, grouped by segment when it writes at the end. Nothing raises. Of blocks with unknown tags (`DecoFile`) nothing is left. -/
theorem C79_copy (lib : Lib) (hl : lib.Lawful) (now : Int) (o : Opts) (ho : Loads o) (f : FileSpec) (hf : f.Ok) (bs : Bytes)
    (hd : DecoFile f bs) (hs : Segmented (selected o f)) (hg : ∀ x ∈ (selected o f).grains, Objective f.major x.2)
    (out : OutFile) (hout : out.seekable = true) (streaming : Bool) :
    ∃ out', copyFile lib now o out streaming bs = .ok out' ∧
      out'.bytes = (if streaming then normalFile (selected o f) else grouped (normalFile (selected o f))).bytes := by
  obtain ⟨r, h1, h2, h3, h4⟩ := decoded ho hf hd
  have hwf : ∀ x ∈ (selected o f).grains, x.2.Wf ∧ Objective f.major x.2 :=
    fun x hx => ⟨(hf.grains x (List.mem_filter.1 hx).1).2.wf, hg x hx⟩
  obtain ⟨h5, h6⟩ := setup_ok out f streaming hf hs.distinct
  have hb := setup_born out f streaming hf hs.distinct
  obtain ⟨e2, h7, h8⟩ := try_copy hb hout ((selected o f).grains.map (fun x => (x.1, re lib now f.major x.2))) (by
    intro x hx
    obtain ⟨y, hy, rfl⟩ := List.mem_map.mp hx
    rw [lids_setup]
    exact hs.declared y hy)
  refine ⟨e2.file, ?_, ?_⟩
  · have h9 := rewrite_all hl now (selected o f).grains hwf
    rw [← h4] at h9
    unfold copyFile
    rw [h1]
    simp only [h2, h5, h6, h9, h7]
    rcases h3 with h3 | h3 <;> rw [h3]
  · rw [h8]
    have hst : (setUp out f streaming).streaming = streaming := rfl
    rw [hst]
    cases streaming with
    | true =>
      simp only [if_true]
      exact stream_bytes hl now out f true _ hwf
    | false =>
      simp only [Bool.false_eq_true, if_false]
      exact plain_bytes hl now out f false _ hwf

/-- **C79**, for files whose counts are right, whose time label rates are in lowest terms and whose key frame flags the version has a value
for: the copy is the same file, byte for byte. -/
theorem C79_same (lib : Lib) (hl : lib.Lawful) (now : Int) (f : FileSpec) (hf : f.Ok) (hc : CountsRight f)
    (hn : (f.head.segments.map SegmIn.localId).Nodup) (hg : ∀ x ∈ f.grains, Objective f.major x.2 ∧ Lasting f.major x.2)
    (out : OutFile) (hout : out.seekable = true) :
    ∃ out', copyFile lib now {} out true f.bytes = .ok out' ∧ out'.bytes = f.bytes := by
  obtain ⟨out', h1, h2⟩ := C79_copy lib hl now {} loads_all f hf f.bytes (decoFile_self hf) (by rw [selected_all]; exact ⟨hn, hc.2⟩)
    (by rw [selected_all]; exact fun x hx => (hg x hx).1) out hout true
  refine ⟨out', h1, ?_⟩
  rw [h2, if_pos rfl, selected_all, normalFile_bytes hc (fun x hx => (hg x hx).2)]

/-- **C79**, from grain objects: the grains `objs` are written to a file, which is copied: the same bytes. -/
theorem C79_objects (lib : Lib) (hl : lib.Lawful) (now : Int) (objs : List (Nat × Objects.Obj))
    (ht : ∀ x ∈ objs, Objects.Typed lib x.2 ∧ ∀ d ∈ x.2.payload.data, PlainItem d)
    (f : FileSpec) (hw : objs.mapM (fun x => (Objects.write lib x.2).map (fun g => (x.1, g))) = .ok f.grains) (hf : f.Ok)
    (hc : CountsRight f) (hn : (f.head.segments.map SegmIn.localId).Nodup) (hp : ∀ x ∈ f.grains, Lasting f.major x.2)
    (out : OutFile) (hout : out.seekable = true) :
    ∃ out', copyFile lib now {} out true f.bytes = .ok out' ∧ out'.bytes = f.bytes := by
  have hz : ∀ (l : List (Nat × Objects.Obj)) (gs : List (Nat × Grain)),
      l.mapM (fun x => (Objects.write lib x.2).map (fun g => (x.1, g))) = Except.ok gs →
      ∀ y ∈ gs, ∃ x ∈ l, Objects.write lib x.2 = .ok y.2 := by
    intro l
    induction l with
    | nil =>
      intro gs h
      cases h
      intro y hy
      cases hy
    | cons a l ih =>
      intro gs h
      rw [List.mapM_cons] at h
      simp only [bind, Objects.C68.bind_ok, pure, Except.pure] at h
      obtain ⟨b, h5, bs, h6, h7⟩ := h
      injection h7 with h7
      subst h7
      intro y hy
      rcases List.mem_cons.mp hy with rfl | hy
      · refine ⟨a, by simp, ?_⟩
        cases hwr : Objects.write lib a.2 with
        | error e => rw [hwr] at h5; simp [Except.map] at h5
        | ok g =>
          rw [hwr] at h5
          simp only [Except.map] at h5
          injection h5 with h5
          subst h5
          rfl
      · obtain ⟨x, hx, h8⟩ := ih bs h6 y hy
        exact ⟨x, by simp [hx], h8⟩
  refine C79_same lib hl now f hf hc hn ?_ out hout
  intro y hy
  obtain ⟨x, hx, h1⟩ := hz _ _ hw y hy
  exact ⟨written_objective h1 (ht x hx).1 (ht x hx).2 f.major, hp y hy⟩

/-- **C79**: whatever was copied, with whatever options, a copy of the copy is the copy. -/
theorem C79_twice (lib : Lib) (hl : lib.Lawful) (now now' : Int) (o : Opts) (ho : Loads o) (f : FileSpec) (hf : f.Ok) (bs : Bytes)
    (hd : DecoFile f bs) (hs : Segmented (selected o f)) (hg : ∀ x ∈ (selected o f).grains, Objective f.major x.2)
    (hn : f.grains.length < 2 ^ 63) (out out' : OutFile) (hout : out.seekable = true) (hout' : out'.seekable = true) :
    ∃ c d, copyFile lib now o out true bs = .ok c ∧ copyFile lib now' {} out' true c.bytes = .ok d ∧ d.bytes = c.bytes := by
  obtain ⟨c, h1, h2⟩ := C79_copy lib hl now o ho f hf bs hd hs hg out hout true
  rw [if_pos rfl] at h2
  have hsel : (selected o f).Ok := ⟨hf.major, hf.minor, hf.head, fun x hx => hf.grains x (List.mem_filter.1 hx).1⟩
  have hok : (normalFile (selected o f)).Ok := normalFile_ok hsel (Nat.lt_of_le_of_lt (List.length_filter_le _ _) hn)
  obtain ⟨d, h3, h4⟩ := C79_copy lib hl now' {} loads_all (normalFile (selected o f)) hok c.bytes (by rw [h2]; exact decoFile_self hok)
    (by rw [selected_all]; exact normal_segmented hs) (by
      rw [selected_all]
      intro x hx
      obtain ⟨y, hy, rfl⟩ := List.mem_map.mp hx
      exact normal_objective' (hg y hy)) out' hout' true
  refine ⟨c, d, h1, h3, ?_⟩
  rw [h4, if_pos rfl, selected_all, normalFile_normal, h2]

/-! ## The hypotheses are met -/

def C79_event : Grain :=
  ⟨u 3, u 4, 7, 8, 50, (1 / 50 : Rat), [], .event, (Event.getData sampleP).length, some (Event.getData sampleP)⟩

/-- A file with two segments and a grain of every type. -/
def C79_file : FileSpec :=
  ⟨9, 1, { sampleHead with segments := [⟨1, u 10, 4, some ⟨u 1, u 2, hello, [123, 125]⟩, [(hello, []), (['é'], hello)]⟩, ⟨300, u 11, 3, none, []⟩] },
    [(1, { gVideo with origin := 5 }), (300, gAudio), (1, { gEmpty with origin := 9 }), (1, gCoded), (1, gCodedNone), (300, gCodedAudio),
      (300, C79_event)]⟩

def C79_out : OutFile := ⟨true, [], 0⟩

theorem C79_event_objective : Objective 9 C79_event where
  times := by decide
  enums := trivial
  event := fun _ => ⟨sampleP, sampleP_ok, by
    intro d hd
    simp only [sampleP, Event.append, List.nil_append, List.singleton_append, List.mem_cons, List.mem_nil_iff, or_false] at hd
    rcases hd with rfl | rfl
    · exact ⟨_, some _, none, rfl⟩
    · exact ⟨_, some _, some _, rfl⟩, rfl⟩

example : C79_file.Ok ∧ CountsRight C79_file ∧ (C79_file.head.segments.map SegmIn.localId).Nodup ∧
    ∀ x ∈ C79_file.grains, Objective C79_file.major x.2 ∧ Lasting C79_file.major x.2 := by
  have hl : ∀ x ∈ C79_file.grains, ∀ l ∈ x.2.timelabels, l.rateNum.Coprime l.rateDen ∧ l.rateDen ≠ 0 := by decide +kernel
  refine ⟨by decide +kernel, ⟨by decide +kernel, by decide +kernel⟩, by decide +kernel, fun x hx => ⟨?_, hl x hx, fun h => absurd h (by decide)⟩⟩
  simp only [C79_file, List.mem_cons, List.mem_nil_iff, or_false] at hx
  rcases hx with rfl | rfl | rfl | rfl | rfl | rfl | rfl
  · exact ⟨by decide +kernel, by show 0x2805 ∈ Cog.FrameFormat.all ∧ 0 ∈ Cog.FrameLayout.all; decide, fun h => by cases h⟩
  · exact ⟨by decide +kernel, by show 10 ∈ Cog.AudioFormat.all; decide, fun h => by cases h⟩
  · exact ⟨by decide +kernel, trivial, fun h => by cases h⟩
  · exact ⟨by decide +kernel, by show 0x0200 ∈ Cog.FrameFormat.all ∧ 1 ∈ Cog.FrameLayout.all; decide, fun h => by cases h⟩
  · exact ⟨by decide +kernel, by show 0x0200 ∈ Cog.FrameFormat.all ∧ 1 ∈ Cog.FrameLayout.all; decide, fun h => by cases h⟩
  · exact ⟨by decide +kernel, by show 0x200 ∈ Cog.AudioFormat.all; decide, fun h => by cases h⟩
  · exact C79_event_objective

/-- The copy of one file, as the bytes that it has. -/
def C79_copied (streaming : Bool) (bs : Bytes) : Option Bytes := ((copyFile C64_lib 7 {} C79_out streaming bs).toOption).map OutFile.bytes

example : C79_copied true C79_file.bytes = some C79_file.bytes ∧
    C79_copied false C79_file.bytes = some (grouped C79_file).bytes ∧ (grouped C79_file).bytes ≠ C79_file.bytes := by decide +kernel

def C79_one (major : Nat) (lid : Nat) (g : Grain) : FileSpec := ⟨major, 0, { sampleHead with segments := [⟨1, u 10, 1, none, []⟩] }, [(lid, g)]⟩

/-- A time label whose rate is not in lowest terms is not written again as it was. -/
theorem C79_label_counterexample : ∃ f : FileSpec, f.Ok ∧ CountsRight f ∧
    ∃ bs, C79_copied true f.bytes = some bs ∧ bs ≠ f.bytes ∧ bs.length = f.bytes.length :=
  ⟨C79_one 9 1 { gEmpty with origin := 9, timelabels := [⟨hello, 1, 50, 2, false⟩] }, by decide +kernel, ⟨by decide +kernel, by decide +kernel⟩,
    (normalFile (C79_one 9 1 { gEmpty with origin := 9, timelabels := [⟨hello, 1, 50, 2, false⟩] })).bytes, by decide +kernel⟩

/-- In version 8 a coded picture that the writer did not say to be a key frame or not is a key frame in the copy. -/
theorem C79_key_counterexample : (C79_one 8 1 gCodedNone).Ok ∧
    C79_copied true (C79_one 8 1 gCodedNone).bytes = some (C79_one 8 1
      { gCodedNone with body := .codedVideo ⟨0x0200, 1, 1920, 1080, 1920, 1088, some true, none, none⟩ }).bytes ∧
    (C79_one 8 1 { gCodedNone with body := .codedVideo ⟨0x0200, 1, 1920, 1080, 1920, 1088, some true, none, none⟩ }).bytes ≠
      (C79_one 8 1 gCodedNone).bytes := by decide +kernel

/-- An event without data has a payload in the copy. -/
theorem C79_event_counterexample : (C79_one 9 1 { gEvent with length := 0, data := none }).Ok ∧
    (C79_copied true (C79_one 9 1 { gEvent with length := 0, data := none }).bytes).map List.length =
      some ((C79_one 9 1 { gEvent with length := 0, data := none }).bytes.length + 37) := by decide +kernel

/-- A file with a grain of a segment that its header does not have can be read, but not copied. -/
theorem C79_undeclared_counterexample : (C79_one 9 2 gCoded).Ok ∧
    (∃ r, decodeFile {} (C79_one 9 2 gCoded).bytes = .ok r ∧ r.ending = .eof ∧ (r.view (C79_one 9 2 gCoded).bytes).length = 1) ∧
    C79_copied true (C79_one 9 2 gCoded).bytes = none := by
  have hf : (C79_one 9 2 gCoded).Ok := by decide +kernel
  obtain ⟨r, h1, h2, -, h4⟩ := C01_round_trip_normal_form _ hf
  exact ⟨hf, ⟨r, h1, h2, by rw [h4]; rfl⟩, by decide +kernel⟩

end Verif.Props

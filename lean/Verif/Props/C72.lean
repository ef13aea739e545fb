import Verif.Numpy.Grains
import Verif.Props.C50
import Verif.Props.C64
import Verif.Props.C68

/-!
# C72: a converted grain keeps its place in the stream
-/

namespace Verif.Numpy

open Verif.Attrs
open Verif.Objects (Obj)
open Verif.New (IsId IsTime IsFrac IsNat IsMember Times)
open Verif.Props (WellFormed)

/-! ## Specification -/

/-- The attributes that a converted grain shares with the original. -/
def keeps : List String :=
  ["grain_type", "source_id", "src_id", "origin_timestamp", "sync_timestamp", "rate", "duration", "width", "height", "layout", "cog_frame_layout"]

/-- The attributes that it does not have from the original. -/
def loses : List (String × A) := [("extension", .int 0), ("source_aspect_ratio", .none), ("pixel_aspect_ratio", .none)]

/-- A video grain whose attributes have values of their types, and whose samples are of its format and size. -/
structure Sound (lib : Lib) (p : Pic) : Prop where
  cls : p.obj.cls = .video
  type : p.obj.attr lib "grain_type" = .ok (.str (New.lit "video"))
  source : ∃ u : Bytes, u.length = 16 ∧ p.obj.attr lib "source_id" = .ok (.uuid u)
  flow : ∃ u : Bytes, u.length = 16 ∧ p.obj.attr lib "flow_id" = .ok (.uuid u)
  origin : ∃ n : Int, 0 ≤ n ∧ p.obj.attr lib "origin_timestamp" = .ok (.ts n)
  sync : ∃ n : Int, 0 ≤ n ∧ p.obj.attr lib "sync_timestamp" = .ok (.ts n)
  rate : ∃ q, p.obj.attr lib "rate" = .ok (.frac q)
  duration : ∃ q, p.obj.attr lib "duration" = .ok (.frac q)
  format : p.obj.attr lib "cog_frame_format" = .ok (.enum p.frame.fmt)
  width : p.obj.attr lib "width" = .ok (.int p.frame.width)
  height : p.obj.attr lib "height" = .ok (.int p.frame.height)
  layout : ∃ n ∈ Cog.FrameLayout.all, p.obj.attr lib "cog_frame_layout" = .ok (.enum (n : Nat))
  samples : WellFormed p.frame

/-! ## Proofs -/

namespace C72

theorem supported_member {fmt : Nat} (h : Props.supported fmt = true) : fmt ∈ Cog.FrameFormat.all := by
  have hall : ∀ f ∈ Props.formats, f.1 ∈ Cog.FrameFormat.all := by decide +kernel
  unfold Props.supported at h
  obtain ⟨f, hf, he⟩ := List.any_eq_true.mp h
  rw [beq_iff_eq] at he
  exact he ▸ hall f hf

theorem similar_ok {lib : Lib} (hl : lib.Lawful) (ht : Times lib) {now : Int} (hn : 0 ≤ now) (u : Ids)
    (hu : ∀ f s, (u.v5 f s).length = 16) {p : Pic} (hp : Sound lib p) {fmt : Nat} (hf : fmt ∈ Cog.FrameFormat.all) :
    ∃ o, similar lib now u p.obj fmt = .ok o ∧ o.cls = .video ∧ o.labels = [] ∧
      (∀ name ∈ keeps, o.attr lib name = p.obj.attr lib name) ∧
      (∀ x ∈ loses, o.attr lib x.1 = .ok x.2) ∧
      o.attr lib "creation_timestamp" = .ok (.ts now) ∧
      o.attr lib "cog_frame_format" = .ok (.enum fmt) ∧ o.attr lib "format" = .ok (.enum fmt) ∧
      ∀ flow, p.obj.attr lib "flow_id" = .ok (.uuid flow) → o.attr lib "flow_id" = .ok (.uuid (flowFor u flow fmt)) := by
  obtain ⟨src, hsrc, esrc⟩ := hp.source
  obtain ⟨flow, hflow, eflow⟩ := hp.flow
  obtain ⟨org, horg, eorg⟩ := hp.origin
  obtain ⟨syn, hsyn, esyn⟩ := hp.sync
  obtain ⟨rate, erate⟩ := hp.rate
  obtain ⟨dur, edur⟩ := hp.duration
  obtain ⟨lay, hlay, elay⟩ := hp.layout
  have eflow2 : p.obj.uuid lib "flow_id" = .ok flow := by
    unfold Objects.Obj.uuid
    rw [eflow]
    rfl
  have hargs : similarArgs lib u p.obj fmt = .ok [("src_id", .uuid src), ("flow_id", .uuid (flowFor u flow fmt)),
      ("origin_timestamp", .ts org), ("sync_timestamp", .ts syn), ("cog_frame_format", .enum fmt),
      ("width", .int p.frame.width), ("height", .int p.frame.height), ("rate", .frac rate), ("duration", .frac dur),
      ("cog_frame_layout", .enum lay)] := by
    unfold similarArgs
    rw [esrc, eflow2, eorg, esyn, hp.width, hp.height, erate, edur, elay]
    rfl
  have hv : New.Valid .video [("src_id", .uuid src), ("flow_id", .uuid (flowFor u flow fmt)),
      ("origin_timestamp", .ts org), ("sync_timestamp", .ts syn), ("cog_frame_format", .enum fmt),
      ("width", .int p.frame.width), ("height", .int p.frame.height), ("rate", .frac rate), ("duration", .frac dur),
      ("cog_frame_layout", .enum lay)] := by
    constructor
    · simp only [List.forall_mem_cons]
      refine ⟨?_, ?_, ?_, ?_, ?_, ?_, ?_, ?_, ?_, ?_, by simp⟩ <;> (simp only [New.names]; decide)
    · have h : New.names .video = ["src_id", "flow_id", "origin_timestamp", "sync_timestamp", "creation_timestamp", "rate", "duration",
        "cog_frame_format", "width", "height", "cog_frame_layout"] := rfl
      rw [h]
      simp only [List.forall_mem_cons]
      exact ⟨⟨src, hsrc, rfl⟩, ⟨_, hu _ _, rfl⟩, .inr ⟨org, horg, rfl⟩, .inr ⟨syn, hsyn, rfl⟩, .inl rfl, ⟨rate, rfl⟩, ⟨dur, rfl⟩,
        ⟨fmt, hf, rfl⟩, ⟨_, rfl⟩, ⟨_, rfl⟩, ⟨lay, hlay, rfl⟩, by simp⟩
  obtain ⟨m, h1, h2, h3, h4⟩ := New.made lib hl ht hn .video hv none
  generalize hargsE : [("src_id", A.uuid src), ("flow_id", .uuid (flowFor u flow fmt)),
      ("origin_timestamp", .ts org), ("sync_timestamp", .ts syn), ("cog_frame_format", .enum fmt),
      ("width", .int p.frame.width), ("height", .int p.frame.height), ("rate", .frac rate), ("duration", .frac dur),
      ("cog_frame_layout", .enum lay)] = args at hargs hv h1 h2 h3 h4
  have hattr : ∀ name a, (attrs .video).find? (fun a => a.name = name) = some a →
      (Objects.ofMade .video args m).attr lib name = .ok (New.reads .video now args a.name) := by
    intro name a ha
    unfold Objects.Obj.attr
    show (match (attrs .video).find? _ with | some a => Attrs.get lib a m.grain | none => _) = _
    rw [ha]
    exact h4 a (List.mem_of_find?_eq_some ha)
  refine ⟨Objects.ofMade .video args m, ?_, rfl, rfl, ?_, ?_, ?_, ?_, ?_, ?_⟩
  · unfold similar
    rw [hargs]
    show (do let m ← New.make lib now .video args none; pure (Objects.ofMade .video args m)) = _
    rw [h1]
    rfl
  · have esrc2 : p.obj.attr lib "src_id" = .ok (.uuid src) := by
      rw [← esrc]; unfold Objects.Obj.attr; rw [hp.cls]; rfl
    have elay2 : p.obj.attr lib "layout" = .ok (.enum lay) := by
      rw [← elay]; unfold Objects.Obj.attr; rw [hp.cls]; rfl
    simp only [keeps, List.forall_mem_cons]
    refine ⟨?_, ?_, ?_, ?_, ?_, ?_, ?_, ?_, ?_, ?_, ?_, by simp⟩
    · rw [hattr _ _ rfl, hp.type]; subst hargsE; rfl
    · rw [hattr _ _ rfl, esrc]; subst hargsE; rfl
    · rw [hattr _ _ rfl, esrc2]; subst hargsE; rfl
    · rw [hattr _ _ rfl, eorg]; subst hargsE; rfl
    · rw [hattr _ _ rfl, esyn]; subst hargsE; rfl
    · rw [hattr _ _ rfl, erate]; subst hargsE; rfl
    · rw [hattr _ _ rfl, edur]; subst hargsE; rfl
    · rw [hattr _ _ rfl, hp.width]; subst hargsE; rfl
    · rw [hattr _ _ rfl, hp.height]; subst hargsE; rfl
    · rw [hattr _ _ rfl, elay2]; subst hargsE; rfl
    · rw [hattr _ _ rfl, elay]; subst hargsE; rfl
  · simp only [loses, List.forall_mem_cons]
    refine ⟨?_, ?_, ?_, by simp⟩
    · rw [hattr _ _ rfl]; subst hargsE; rfl
    · rw [hattr _ _ rfl]; subst hargsE; rfl
    · rw [hattr _ _ rfl]; subst hargsE; rfl
  · rw [hattr _ _ rfl]; subst hargsE; rfl
  · rw [hattr _ _ rfl]; subst hargsE; rfl
  · rw [hattr _ _ rfl]; subst hargsE; rfl
  · intro flow' hflow'
    rw [eflow] at hflow'
    cases hflow'
    rw [hattr _ _ rfl]; subst hargsE; rfl

end C72

end Verif.Numpy

namespace Verif.Numpy

open Verif.Attrs
open Verif.New (Times)
open Verif.Props (supported)

/-- The flow of a grain after conversions to the formats of a list: each that changes the format changes the flow. -/
def flowAfter (u : Ids) : Nat → Bytes → List Nat → Bytes
  | _, flow, [] => flow
  | cur, flow, f :: fs => if f = cur then flowAfter u cur flow fs else flowAfter u f (flowFor u flow f) fs

/-- Conversions one after the other, each at its own time. -/
def Pic.converts (lib : Lib) (u : Ids) (env : Env) (p : Pic) : List (Int × Nat) → Except PErr Pic
  | [] => .ok p
  | (now, f) :: fs => (p.convert lib now u env f).bind (fun q => q.converts lib u env fs)

namespace C72

theorem converted_of {lib : Lib} (hl : lib.Lawful) (ht : Times lib) {now : Int} (hn : 0 ≤ now) (u : Ids)
    (hu : ∀ f s, (u.v5 f s).length = 16) (env : Env) {p : Pic} (hp : Sound lib p) {fmt : Nat} (hf : supported fmt = true)
    (hne : p.frame.fmt ≠ fmt) {g : Frame} (g1 : convertFrame env 4 p.frame fmt = some g) (g2 : g.fmt = fmt) (g3 : g.width = p.frame.width)
    (g4 : g.height = p.frame.height) (g5 : Props.WellFormed g) :
    ∃ q, p.convert lib now u env fmt = .ok q ∧ Sound lib q ∧ convertFrame env 4 p.frame fmt = some q.frame ∧
      similar lib now u p.obj fmt = .ok q.obj ∧
      q.frame.fmt = fmt ∧ q.frame.width = p.frame.width ∧ q.frame.height = p.frame.height ∧
      (∀ name ∈ keeps, q.obj.attr lib name = p.obj.attr lib name) ∧
      ∀ flow, p.obj.attr lib "flow_id" = .ok (.uuid flow) → q.obj.attr lib "flow_id" = .ok (.uuid (flowFor u flow fmt)) := by
  obtain ⟨o, h1, h2, -, h4, -, -, h7, -, h9⟩ := similar_ok hl ht hn u hu hp (supported_member hf)
  refine ⟨⟨o, g⟩, ?_, ?_, g1, h1, g2, g3, g4, h4, h9⟩
  · unfold Pic.convert
    rw [hp.format]
    simp only
    rw [if_neg (by intro h; injection h with h; exact hne (by exact_mod_cast h)), h1]
    simp only [g1]
  · have k : ∀ name ∈ keeps, o.attr lib name = p.obj.attr lib name := h4
    exact {
      cls := h2
      type := by rw [k _ (by decide)]; exact hp.type
      source := by rw [k _ (by decide)]; exact hp.source
      flow := by
        obtain ⟨fl, -, e⟩ := hp.flow
        exact ⟨_, hu _ _, h9 fl e⟩
      origin := by rw [k _ (by decide)]; exact hp.origin
      sync := by rw [k _ (by decide)]; exact hp.sync
      rate := by rw [k _ (by decide)]; exact hp.rate
      duration := by rw [k _ (by decide)]; exact hp.duration
      format := by rw [g2]; exact h7
      width := by rw [k _ (by decide), g3]; exact hp.width
      height := by rw [k _ (by decide), g4]; exact hp.height
      layout := by rw [k _ (by decide)]; exact hp.layout
      samples := g5 }

theorem converted {lib : Lib} (hl : lib.Lawful) (ht : Times lib) {now : Int} (hn : 0 ≤ now) (u : Ids)
    (hu : ∀ f s, (u.v5 f s).length = 16) (env : Env) {p : Pic} (hp : Sound lib p) (hs : supported p.frame.fmt = true)
    (hw : p.frame.width % 2 = 0) (hh : p.frame.height % 2 = 0) {fmt : Nat} (hf : supported fmt = true) (hne : p.frame.fmt ≠ fmt) :
    ∃ q, p.convert lib now u env fmt = .ok q ∧ Sound lib q ∧ convertFrame env 4 p.frame fmt = some q.frame ∧
      similar lib now u p.obj fmt = .ok q.obj ∧
      q.frame.fmt = fmt ∧ q.frame.width = p.frame.width ∧ q.frame.height = p.frame.height ∧
      (∀ name ∈ keeps, q.obj.attr lib name = p.obj.attr lib name) ∧
      ∀ flow, p.obj.attr lib "flow_id" = .ok (.uuid flow) → q.obj.attr lib "flow_id" = .ok (.uuid (flowFor u flow fmt)) := by
  obtain ⟨g, g1, g2, g3, g4, g5⟩ := Props.C50_frame_partial env p.frame fmt 4 (Nat.le_refl 4) hs hf hw hh hp.samples
  exact converted_of hl ht hn u hu env hp hf hne g1 g2 g3 g4 g5

end C72

end Verif.Numpy

namespace Verif.Props

open Verif.Numpy Verif.Attrs
open Verif.New (Times)

/-- **C72.** Any grain of even width and height, in any of the formats, converted to any other: the new grain has the samples of C48 to
C50, the identifier of its source, its times, rate, size and layout are those of the original, its flow is the one derived from the flow
of the original and the format, and it is again a sound grain. Partial: odd sizes (see C49). -/
theorem C72_converted_partial (lib : Lib) (hl : lib.Lawful) (ht : Times lib) (now : Int) (hn : 0 ≤ now) (u : Ids)
    (hu : ∀ f s, (u.v5 f s).length = 16) (env : Env) (p : Pic) (hp : Sound lib p) (hs : supported p.frame.fmt = true)
    (hw : p.frame.width % 2 = 0) (hh : p.frame.height % 2 = 0) (fmt : Nat) (hf : supported fmt = true) (hne : p.frame.fmt ≠ fmt)
    (flow : Bytes) (hfl : p.obj.attr lib "flow_id" = .ok (.uuid flow)) :
    ∃ q, p.convert lib now u env fmt = .ok q ∧ Sound lib q ∧ convertFrame env 4 p.frame fmt = some q.frame ∧
      q.obj.attr lib "cog_frame_format" = .ok (.enum fmt) ∧ (∀ name ∈ keeps, q.obj.attr lib name = p.obj.attr lib name) ∧
      q.obj.attr lib "flow_id" = .ok (.uuid (flowFor u flow fmt)) := by
  obtain ⟨q, h1, h2, h3, -, h5, -, -, h8, h9⟩ := C72.converted hl ht hn u hu env hp hs hw hh hf hne
  refine ⟨q, h1, h2, h3, ?_, h8, h9 flow hfl⟩
  rw [← h5]
  exact h2.format

/-- **C72.** Conversion to the format the grain has gives a copy with the same attributes, lists and samples; `asformat` then returns
the grain itself, and otherwise what `convert` returns. -/
theorem C72_same (lib : Lib) (now : Int) (u : Ids) (env : Env) (p : Pic) (hp : Sound lib p) :
    p.convert lib now u env p.frame.fmt = .ok p ∧ p.asformat lib now u env p.frame.fmt = .ok .self ∧
      ∀ fmt, fmt ≠ p.frame.fmt → p.asformat lib now u env fmt = (p.convert lib now u env fmt).map .new := by
  refine ⟨?_, ?_, ?_⟩
  · unfold Pic.convert
    rw [hp.format]
    simp
  · unfold Pic.asformat
    rw [hp.format]
    simp
  · intro fmt hne
    unfold Pic.asformat
    rw [hp.format]
    simp only
    rw [if_neg (by intro h; injection h with h; exact hne (by exact_mod_cast h.symm))]

/-- **C72** for chains: through any list of conversions the attributes stay, and the flow depends on the first flow and the list of
formats only, so the grains of a flow that go through the same conversions are in one flow again. -/
theorem C72_chain_partial (lib : Lib) (hl : lib.Lawful) (ht : Times lib) (u : Ids) (hu : ∀ f s, (u.v5 f s).length = 16) (env : Env)
    (fs : List (Int × Nat)) (hf : ∀ x ∈ fs, 0 ≤ x.1 ∧ supported x.2 = true) (p : Pic) (hp : Sound lib p)
    (hs : supported p.frame.fmt = true) (hw : p.frame.width % 2 = 0) (hh : p.frame.height % 2 = 0) (flow : Bytes)
    (hfl : p.obj.attr lib "flow_id" = .ok (.uuid flow)) :
    ∃ q, p.converts lib u env fs = .ok q ∧ Sound lib q ∧ (∀ name ∈ keeps, q.obj.attr lib name = p.obj.attr lib name) ∧
      q.obj.attr lib "cog_frame_format" = .ok (.enum ((fs.map Prod.snd).getLast?.getD p.frame.fmt : Nat)) ∧
      q.obj.attr lib "flow_id" = .ok (.uuid (flowAfter u p.frame.fmt flow (fs.map Prod.snd))) := by
  induction fs generalizing p flow with
  | nil => exact ⟨p, rfl, hp, fun _ _ => rfl, hp.format, hfl⟩
  | cons x fs ih =>
    obtain ⟨now, f⟩ := x
    obtain ⟨hn, hff⟩ := hf (now, f) (by simp)
    have hrest : ∀ x ∈ fs, 0 ≤ x.1 ∧ supported x.2 = true := fun x hx => hf x (by simp [hx])
    by_cases hne : p.frame.fmt = f
    · obtain ⟨q, h1, h2, h3, h4, h5⟩ := ih hrest p hp hs hw hh flow hfl
      refine ⟨q, ?_, h2, h3, ?_, ?_⟩
      · subst hne
        simp only [Pic.converts, (C72_same lib now u env p hp).1]
        exact h1
      · rw [h4]
        simp only [List.map_cons, List.getLast?_cons, Option.getD_some, hne]
      · rw [h5]
        simp only [List.map_cons, flowAfter, hne, if_true]
    · obtain ⟨q, h1, h2, -, -, h5, h6, h7, h8, h9⟩ := C72.converted hl ht hn u hu env hp hs hw hh hff hne
      obtain ⟨r, r1, r2, r3, r4, r5⟩ := ih hrest q h2 (by rw [h5]; exact hff) (by rw [h6]; exact hw) (by rw [h7]; exact hh) _ (h9 flow hfl)
      refine ⟨r, ?_, r2, ?_, ?_, ?_⟩
      · simp only [Pic.converts, h1]
        exact r1
      · intro name hname
        rw [r3 name hname, h8 name hname]
      · rw [r4, h5]
        simp only [List.map_cons, List.getLast?_cons, Option.getD_some]
      · rw [r5, h5]
        simp only [List.map_cons, flowAfter, if_neg (Ne.symm hne)]

/-- The name from which the flow of a conversion to a format is derived. -/
def conversionName (u : Ids) (fmt : Nat) : Json.Str := New.lit "FORMAT_CONVERSION: " ++ u.repr fmt

/-- **C72.** Conversions to different formats put the grains of a flow in different flows: if the hashes of the names for these two
conversions do not collide and the two formats have different names. -/
theorem C72_flows_partial (lib : Lib) (hl : lib.Lawful) (ht : Times lib) (now now' : Int) (hn : 0 ≤ now) (hn' : 0 ≤ now') (u : Ids)
    (hu : ∀ f s, (u.v5 f s).length = 16) (env : Env) (p : Pic) (hp : Sound lib p) (hs : supported p.frame.fmt = true)
    (hw : p.frame.width % 2 = 0) (hh : p.frame.height % 2 = 0) (fmt fmt' : Nat) (hf : supported fmt = true) (hf' : supported fmt' = true)
    (hne : p.frame.fmt ≠ fmt) (hne' : p.frame.fmt ≠ fmt')
    (hc : ∀ flow, u.v5 flow (conversionName u fmt) = u.v5 flow (conversionName u fmt') → conversionName u fmt = conversionName u fmt')
    (hr : u.repr fmt ≠ u.repr fmt') :
    ∃ q q', p.convert lib now u env fmt = .ok q ∧ p.convert lib now' u env fmt' = .ok q' ∧
      ∃ x y, q.obj.attr lib "flow_id" = .ok (.uuid x) ∧ q'.obj.attr lib "flow_id" = .ok (.uuid y) ∧ x ≠ y := by
  obtain ⟨flow, -, hfl⟩ := hp.flow
  obtain ⟨q, h1, -, -, -, -, h2⟩ := C72_converted_partial lib hl ht now hn u hu env p hp hs hw hh fmt hf hne flow hfl
  obtain ⟨q', h3, -, -, -, -, h4⟩ := C72_converted_partial lib hl ht now' hn' u hu env p hp hs hw hh fmt' hf' hne' flow hfl
  refine ⟨q, q', h1, h3, _, _, h2, h4, fun h => hr ?_⟩
  exact List.append_cancel_left (hc flow h)

/-- **C72.** A format outside the table is refused. -/
theorem C72_refused (lib : Lib) (now : Int) (u : Ids) (env : Env) (p : Pic) (hp : Sound lib p) (fmt : Nat) (hne : p.frame.fmt ≠ fmt)
    (h : supported p.frame.fmt = false ∨ supported fmt = false) : ∀ q, p.convert lib now u env fmt ≠ .ok q := by
  intro q hq
  unfold Pic.convert at hq
  rw [hp.format] at hq
  simp only at hq
  rw [if_neg (by intro h; injection h with h; exact hne (by exact_mod_cast h))] at hq
  cases hsim : similar lib now u p.obj fmt with
  | error e => rw [hsim] at hq; cases hq
  | ok o =>
    rw [hsim] at hq
    simp only [C50_refused env 4 p.frame fmt hne h] at hq
    cases hq

/-- `_similar_grain` promises that all other parameters are identical, but extension, aspect ratios, time labels and the creation time
of the original are lost, whatever they were. -/
theorem C72_lost_counterexample (lib : Lib) (hl : lib.Lawful) (ht : Times lib) (now : Int) (hn : 0 ≤ now) (u : Ids)
    (hu : ∀ f s, (u.v5 f s).length = 16) (env : Env) (p : Pic) (hp : Sound lib p) (fmt : Nat) (hf : supported fmt = true)
    (hne : p.frame.fmt ≠ fmt) (q : Pic) (hq : p.convert lib now u env fmt = .ok q) :
    q.obj.labels = [] ∧ q.obj.attr lib "extension" = .ok (.int 0) ∧ q.obj.attr lib "source_aspect_ratio" = .ok .none ∧
      q.obj.attr lib "pixel_aspect_ratio" = .ok .none ∧ q.obj.attr lib "creation_timestamp" = .ok (.ts now) := by
  obtain ⟨o, h1, -, h3, -, h5, h6, -⟩ := C72.similar_ok hl ht hn u hu hp (C72.supported_member hf)
  unfold Pic.convert at hq
  rw [hp.format] at hq
  simp only at hq
  rw [if_neg (by intro h; injection h with h; exact hne (by exact_mod_cast h)), h1] at hq
  simp only at hq
  have ho : q.obj = o := by
    cases hc : convertFrame env 4 p.frame fmt with
    | none => rw [hc] at hq; cases hq
    | some f => rw [hc] at hq; cases hq; rfl
  rw [ho]
  exact ⟨h3, h5 ("extension", .int 0) (by simp [loses]), h5 ("source_aspect_ratio", .none) (by simp [loses]),
    h5 ("pixel_aspect_ratio", .none) (by simp [loses]), h6⟩

/-! ## The hypotheses are met -/

/-- A picture with an extension, an aspect ratio and a time label. -/
def C72_pic : Pic :=
  let args : New.Args := [("src_id", .uuid (List.replicate 16 1)), ("flow_id", .uuid (List.replicate 16 2)), ("origin_timestamp", .ts 5),
    ("sync_timestamp", .ts 6), ("cog_frame_format", .enum Cog.FrameFormat.U8_422), ("width", .int 4), ("height", .int 2)]
  match New.make C64_lib 7 .video args none with
  | .ok m =>
    let o := Objects.ofMade .video args m
    match (Attrs.set C64_lib ⟨"extension", "cog_frame", "extension", .plain⟩ (.int 3) o.d).bind
      (Attrs.set C64_lib ⟨"source_aspect_ratio", "cog_frame", "source_aspect_ratio", .optFrac⟩ (.frac (16 / 9))) with
    | .ok d => ⟨{ o with d := d, labels := [⟨['a'], 0, 25, 1, false⟩] }, frame422⟩
    | .error _ => ⟨o, frame422⟩
  | .error _ => ⟨Objects.ofMade .video [] ⟨fun _ => none, [], none⟩, frame422⟩

theorem C72_pic_sound : Sound C64_lib C72_pic := by
  have ok : ∀ {x : Except AErr A} {v : A}, x.toOption = some v → x = .ok v := by
    intro x v h
    cases x with
    | error e => cases h
    | ok w => cases h; rfl
  exact {
    cls := by decide +kernel
    type := ok (by decide +kernel)
    source := ⟨List.replicate 16 1, by decide, ok (by decide +kernel)⟩
    flow := ⟨List.replicate 16 2, by decide, ok (by decide +kernel)⟩
    origin := ⟨5, by decide, ok (by decide +kernel)⟩
    sync := ⟨6, by decide, ok (by decide +kernel)⟩
    rate := ⟨25, ok (by decide +kernel)⟩
    duration := ⟨1 / 25, ok (by decide +kernel)⟩
    format := ok (by decide +kernel)
    width := ok (by decide +kernel)
    height := ok (by decide +kernel)
    layout := ⟨Cog.FrameLayout.UNKNOWN, by decide +kernel, ok (by decide +kernel)⟩
    samples := by
      show WellFormed frame422
      unfold WellFormed
      rw [if_neg (by decide)]
      refine ⟨_, _, _, rfl, ?_, ?_, ?_⟩ <;> (constructor <;> decide) }

/-- It can be converted, and what gets lost was there. -/
example : supported C72_pic.frame.fmt = true ∧ C72_pic.frame.width % 2 = 0 ∧ C72_pic.frame.height % 2 = 0 ∧
    supported Cog.FrameFormat.S16_444_10BIT = true ∧ C72_pic.frame.fmt ≠ Cog.FrameFormat.S16_444_10BIT ∧ C72_pic.obj.labels.length = 1 ∧
    (C72_pic.obj.attr C64_lib "extension").toOption = some (.int 3) ∧
    (C72_pic.obj.attr C64_lib "source_aspect_ratio").toOption = some (.frac (16 / 9)) ∧
    (C72_pic.obj.attr C64_lib "creation_timestamp").toOption = some (.ts 7) := by
  decide +kernel

/-- Identifiers for which the hypotheses of `C72_flows_partial` hold: a name is cut to 16 bytes. -/
def C72_ids : Ids :=
  ⟨fun _ s => ((s.drop 19).map (fun n : Nat => UInt8.ofNat n) ++ List.replicate 16 0).take 16, fun f => [f % 256, f / 256]⟩

example : (∀ f s, (C72_ids.v5 f s).length = 16) ∧ C72_ids.repr Cog.FrameFormat.S16_444_10BIT ≠ C72_ids.repr Cog.FrameFormat.U8_444 ∧
    ∀ flow, C72_ids.v5 flow (conversionName C72_ids Cog.FrameFormat.S16_444_10BIT) ≠
      C72_ids.v5 flow (conversionName C72_ids Cog.FrameFormat.U8_444) := by
  refine ⟨fun f s => by simp [C72_ids], by decide +kernel, fun flow => ?_⟩
  exact (by decide +kernel : C72_ids.v5 [] (conversionName C72_ids Cog.FrameFormat.S16_444_10BIT) ≠
    C72_ids.v5 [] (conversionName C72_ids Cog.FrameFormat.U8_444))

end Verif.Props

import Verif.Wrap.Commands
import Verif.Props.C53
import Verif.Props.C68
import Verif.Props.C95

/-!
# C96: the wrapping tools from their arguments to the file
-/

namespace Verif.Props.Commands

open Verif Verif.Gsf Verif.Tools Verif.Props.H264Out
open Verif.Props.AdtsSplit (IsFrame HasHeader frequencies_small)
open Verif.Attrs (Lib AErr A attrs)
open Verif.Meta (GClass)
open Verif.Objects

/-! ## Specification -/

/-- Arguments for video of the documented types. -/
structure GoodVideo (a : VideoArgs) : Prop where
  flow : a.flowId.length = 16
  source : a.sourceId.length = 16
  start : 0 ≤ a.start
  format : a.format ∈ Cog.FrameFormat.all

/-- Number `x.2` of the uncompressed pictures, `x.1`; the first one is frame `n`. -/
def rawGrain (a : VideoArgs) (n : Int) (x : Bytes × Nat) : Grain where
  sourceId := a.sourceId
  flowId := a.flowId
  origin := frameStart a.rate (n + x.2)
  sync := a.start
  rate := a.rate
  duration := 1 / a.rate
  timelabels := []
  body := .video ⟨a.format, Cog.FrameLayout.UNKNOWN, a.width, a.height, 0, none, none,
    (Cog.componentsForFormat a.format a.width a.height).map Objects.ofCog⟩
  length := x.1.length
  data := some x.1

/-- The pieces of `n` bytes that are taken from the input: a shorter one at the end is only taken from a file. -/
def cuts (n : Nat) : Source → List Bytes
  | .file b _ => RawWrap.pieces n b
  | .stdin b _ => RawWrap.wholes n b

/-- The bytes in these pieces. -/
def taken (n : Nat) : Source → Bytes
  | .file b _ => b
  | .stdin b _ => b.take (b.length / n * n)

/-- A coded picture as the arguments describe it. -/
def codedTemplate (a : VideoArgs) : Grain where
  sourceId := a.sourceId
  flowId := a.flowId
  origin := a.start
  sync := a.start
  rate := a.rate
  duration := 1 / a.rate
  timelabels := []
  body := .codedVideo ⟨a.format, Cog.FrameLayout.UNKNOWN, a.width, a.height, 0, 0, none, none, none⟩
  length := 0
  data := some []

/-- Frame `n` is the first that does not start before `t`. -/
def FirstFrom (rate : Rat) (t : Int) (n : Int) : Prop := ∀ m, t ≤ frameStart rate m ↔ n ≤ m

/-- Arguments for AAC audio of the documented types, with `n` samples in each grain and the rate `r`. -/
structure AacArgs (a : AudioArgs) (n r : Nat) : Prop where
  flow : a.flowId.length = 16
  source : a.sourceId.length = 16
  start : 0 ≤ a.start
  format : a.format = Cog.AudioFormat.AAC
  samples : a.samples = some n
  sampleRate : a.sampleRate = some r
  positive : 0 < r

/-- The same with samples in a frame. -/
structure GoodAac (a : AudioArgs) (n r : Nat) : Prop extends AacArgs a n r where
  notEmpty : 0 < n

/-- Arguments for uncompressed audio of the documented types. -/
structure GoodRawAudio (a : AudioArgs) : Prop where
  flow : a.flowId.length = 16
  source : a.sourceId.length = 16
  start : 0 ≤ a.start
  format : a.format ∈ Cog.AudioFormat.all ∧ a.format ≠ Cog.AudioFormat.AAC
  sampleRate : a.sampleRate ≠ some 0

/-- Frame `x.2` of the stream, `x.1`, whose first frame says `i`; the first one is unit `c` at `n` samples in a unit. -/
def aacFrame (a : AudioArgs) (n : Nat) (i : Wrap.Adts.Info) (c : Int) (x : Bytes × Nat) : Grain where
  sourceId := a.sourceId
  flowId := a.flowId
  origin := frameStart (i.sampleRate / n) (c + x.2)
  sync := frameStart (i.sampleRate / n) (c + x.2)
  rate := i.sampleRate / n
  duration := n / i.sampleRate
  timelabels := []
  body := .codedAudio ⟨Cog.AudioFormat.AAC, i.channels, n, 0, 0, i.sampleRate⟩
  length := x.1.length
  data := some x.1

/-- Unit `c` is the first that does not start before the sample nearest to `t`. -/
def FromSample (i : Wrap.Adts.Info) (n : Nat) (t c : Int) : Prop :=
  ∃ k, Nearest i.sampleRate t k ∧ FirstFrom (i.sampleRate / n) (frameStart i.sampleRate k) c

/-! ## Templates -/

theorem attrs_made {lib : Lib} (hl : lib.Lawful) (hs : New.Times lib) {now : Int} (hn : 0 ≤ now) {c : GClass} {args : New.Args}
    (hv : New.Valid c args) :
    ∃ m, New.make lib now c args none = .ok m ∧ m.data = New.contents c args none ∧ m.components = New.planes c args ∧
      ∀ a ∈ attrs c, (ofMade c args m).attr lib a.name = .ok (New.reads c now args a.name) := by
  obtain ⟨m, k1, k2, k3, k4⟩ := New.made lib hl hs hn c hv none
  refine ⟨m, k1, k2, k3, ?_⟩
  intro a ha
  rw [C68.attr_own lib (ofMade c args m) a ha]
  exact k4 a ha

theorem raw_valid {a : VideoArgs} (h : GoodVideo a) (hc : a.isCoded = false) :
    a.call.1 = .video ∧ New.Valid .video a.call.2 := by
  unfold VideoArgs.call
  rw [hc]
  refine ⟨rfl, ?_, ?_⟩
  · intro p hp
    simp only [Bool.false_eq_true, if_false, List.mem_cons, List.not_mem_nil, or_false] at hp
    rcases hp with h | h | h | h | h | h | h | h <;> (rw [h]; simp only; decide)
  · have e : New.names .video = ["src_id", "flow_id", "origin_timestamp", "sync_timestamp", "creation_timestamp", "rate", "duration",
      "cog_frame_format", "width", "height", "cog_frame_layout"] := rfl
    rw [e]
    simp only [List.forall_mem_cons]
    exact ⟨⟨_, h.source, rfl⟩, ⟨_, h.flow, rfl⟩, .inr ⟨_, h.start, rfl⟩, .inl rfl, .inl rfl, ⟨_, rfl⟩, ⟨_, rfl⟩,
      ⟨_, h.format, rfl⟩, ⟨_, rfl⟩, ⟨_, rfl⟩, ⟨_, by decide +kernel, rfl⟩, by simp⟩

theorem coded_valid {a : VideoArgs} (h : GoodVideo a) (hc : a.isCoded = true) :
    a.call.1 = .codedVideo ∧ New.Valid .codedVideo a.call.2 := by
  unfold VideoArgs.call
  rw [hc]
  refine ⟨rfl, ?_, ?_⟩
  · intro p hp
    simp only [if_true, List.mem_cons, List.not_mem_nil, or_false] at hp
    rcases hp with h | h | h | h | h | h | h | h | h | h <;> (rw [h]; simp only; decide)
  · have e : New.names .codedVideo = ["src_id", "flow_id", "origin_timestamp", "sync_timestamp", "creation_timestamp", "rate", "duration",
      "cog_frame_format", "origin_width", "origin_height", "coded_width", "coded_height", "is_key_frame",
        "temporal_offset", "length", "cog_frame_layout", "unit_offsets"] := rfl
    rw [e]
    simp only [List.forall_mem_cons]
    exact ⟨⟨_, h.source, rfl⟩, ⟨_, h.flow, rfl⟩, .inr ⟨_, h.start, rfl⟩, .inl rfl, .inl rfl, ⟨_, rfl⟩, ⟨_, rfl⟩,
      ⟨_, h.format, rfl⟩, ⟨_, rfl⟩, ⟨_, rfl⟩, .inr ⟨0, rfl⟩, .inr ⟨0, rfl⟩, .inl rfl, .inl rfl, .inl rfl,
      ⟨_, by decide +kernel, rfl⟩, trivial, by simp⟩

/-- The values all grains have. -/
theorem write_made {lib : Lib} {c : GClass} {args : New.Args} {m : New.Made} {now : Int}
    (att : ∀ a ∈ attrs c, (ofMade c args m).attr lib a.name = .ok (New.reads c now args a.name)) {u w : Bytes} {x y : Int} {q r : Rat}
    {b : Body} (h1 : New.reads c now args "source_id" = .uuid u) (h2 : New.reads c now args "flow_id" = .uuid w)
    (h3 : New.reads c now args "origin_timestamp" = .ts x) (h4 : New.reads c now args "sync_timestamp" = .ts y)
    (h5 : New.reads c now args "rate" = .frac q) (h6 : New.reads c now args "duration" = .frac r) (h7 : Objects.body lib (ofMade c args m) = .ok b) :
    ∃ n, Objects.write lib (ofMade c args m) = .ok ⟨u, w, x, y, q, r, [], b, n, (ofMade c args m).content⟩ := by
  have mem : ∀ a ∈ Attrs.grainAttrs, a ∈ attrs c := by
    intro a ha
    cases c
    · exact ha
    all_goals exact List.mem_append_left _ ha
  refine C68.write_of ?_ ?_ ?_ ?_ ?_ ?_ h7
  · rw [← h1]; exact att ⟨"source_id", none, "source_id", .uuid⟩ (mem _ (by decide))
  · rw [← h2]; exact att ⟨"flow_id", none, "flow_id", .uuid⟩ (mem _ (by decide))
  · rw [← h3]; exact att ⟨"origin_timestamp", none, "origin_timestamp", .time⟩ (mem _ (by decide))
  · rw [← h4]; exact att ⟨"sync_timestamp", none, "sync_timestamp", .time⟩ (mem _ (by decide))
  · rw [← h5]; exact att ⟨"rate", none, "rate", .frac⟩ (mem _ (by decide))
  · rw [← h6]; exact att ⟨"duration", none, "duration", .frac⟩ (mem _ (by decide))

theorem type_made {lib : Lib} {c : GClass} {args : New.Args} {m : New.Made} {now : Int}
    (att : ∀ a ∈ attrs c, (ofMade c args m).attr lib a.name = .ok (New.reads c now args a.name)) :
    (ofMade c args m).attr lib "grain_type" = .ok (.str (New.lit (New.typeName c))) := by
  refine att ⟨"grain_type", none, "grain_type", .plain⟩ ?_
  cases c
  · decide
  all_goals exact List.mem_append_left _ (by decide)

theorem raw_template {lib : Lib} (hl : lib.Lawful) (hs : New.Times lib) {now : Int} (hn : 0 ≤ now) {a : VideoArgs} (h : GoodVideo a)
    (hc : a.isCoded = false) :
    ∃ n d, construct lib now a.call.1 a.call.2 = .ok (⟨a.sourceId, a.flowId, a.start, a.start, a.rate, 1 / a.rate, [],
      .video ⟨a.format, Cog.FrameLayout.UNKNOWN, a.width, a.height, 0, none, none,
        (Cog.componentsForFormat a.format a.width a.height).map Objects.ofCog⟩, n, d⟩, Cog.componentsForFormat a.format a.width a.height) := by
  obtain ⟨e, hv⟩ := raw_valid h hc
  rw [e]
  obtain ⟨m, k1, k2, k3, att⟩ := attrs_made hl hs hn hv
  have hargs : a.call.2 = [("flow_id", .uuid a.flowId), ("src_id", .uuid a.sourceId), ("origin_timestamp", .ts a.start), ("rate", .frac a.rate),
      ("duration", .frac (1 / a.rate)), ("width", .int a.width), ("height", .int a.height), ("cog_frame_format", .enum a.format)] := by
    unfold VideoArgs.call; rw [hc]; rfl
  generalize a.call.2 = args at *
  have k3' : m.components = Cog.componentsForFormat a.format a.width a.height := by rw [k3, hargs]; rfl
  have bf : (ofMade .video args m).nat lib "cog_frame_format" = .ok a.format := by
    refine C68.nat_enum ?_
    rw [att ⟨"cog_frame_format", "cog_frame", "format", .enum Cog.FrameFormat.all⟩ (by decide +kernel), hargs]; rfl
  have bl : (ofMade .video args m).nat lib "cog_frame_layout" = .ok Cog.FrameLayout.UNKNOWN := by
    refine C68.nat_enum ?_
    rw [att ⟨"cog_frame_layout", "cog_frame", "layout", .enum Cog.FrameLayout.all⟩ (by decide +kernel), hargs]; rfl
  have bw : (ofMade .video args m).attr lib "width" = .ok (.int a.width) := by
    rw [att ⟨"width", "cog_frame", "width", .plain⟩ (by decide +kernel), hargs]; rfl
  have bh : (ofMade .video args m).attr lib "height" = .ok (.int a.height) := by
    rw [att ⟨"height", "cog_frame", "height", .plain⟩ (by decide +kernel), hargs]; rfl
  have cz : (ofMade .video args m).attr lib "extension" = .ok (.int (0 : Nat)) :=
    att ⟨"extension", "cog_frame", "extension", .plain⟩ (by decide +kernel)
  have cp : (ofMade .video args m).attr lib "source_aspect_ratio" = .ok .none :=
    att ⟨"source_aspect_ratio", "cog_frame", "source_aspect_ratio", .optFrac⟩ (by decide +kernel)
  have cq : (ofMade .video args m).attr lib "pixel_aspect_ratio" = .ok .none :=
    att ⟨"pixel_aspect_ratio", "cog_frame", "pixel_aspect_ratio", .optFrac⟩ (by decide +kernel)
  have hh : videoHdr lib (ofMade .video args m) = .ok ⟨a.format, Cog.FrameLayout.UNKNOWN, a.width, a.height, 0, none, none,
      (ofMade .video args m).comps⟩ := by
    simp [videoHdr, bf, bl, C68.nat_int bw, C68.nat_int bh, C68.nat_int cz, Obj.optFrac, cp, cq, asOptFrac, bind, Except.bind, pure, Except.pure]
  have hcomps : (ofMade .video args m).comps = (Cog.componentsForFormat a.format a.width a.height).map Objects.ofCog := by
    show m.components.map _ = _
    rw [k3']
    rfl
  have hb : Objects.body lib (ofMade .video args m) = .ok (.video ⟨a.format, Cog.FrameLayout.UNKNOWN, a.width, a.height, 0, none, none,
      (Cog.componentsForFormat a.format a.width a.height).map Objects.ofCog⟩) := by
    unfold Objects.body
    rw [type_made att]
    simp only [bind, Except.bind, pure, Except.pure]
    rw [if_pos (by decide)]
    simp only [hh, hcomps]
  obtain ⟨n, hw⟩ := write_made att (u := a.sourceId) (w := a.flowId) (x := a.start) (y := a.start) (q := a.rate) (r := 1 / a.rate)
    (by rw [hargs]; rfl) (by rw [hargs]; rfl) (by rw [hargs]; rfl) (by rw [hargs]; rfl) (by rw [hargs]; rfl) (by rw [hargs]; rfl) hb
  refine ⟨n, (ofMade .video args m).content, ?_⟩
  unfold construct
  rw [k1]
  simp only [hw, k3']

theorem coded_template {lib : Lib} (hl : lib.Lawful) (hs : New.Times lib) {now : Int} (hn : 0 ≤ now) {a : VideoArgs} (h : GoodVideo a)
    (hc : a.isCoded = true) :
    ∃ n d, construct lib now a.call.1 a.call.2 = .ok ({ codedTemplate a with length := n, data := d }, []) := by
  obtain ⟨e, hv⟩ := coded_valid h hc
  rw [e]
  obtain ⟨m, k1, k2, k3, att⟩ := attrs_made hl hs hn hv
  have hargs : a.call.2 = [("flow_id", .uuid a.flowId), ("src_id", .uuid a.sourceId), ("origin_timestamp", .ts a.start), ("rate", .frac a.rate),
      ("duration", .frac (1 / a.rate)), ("origin_width", .int a.width), ("origin_height", .int a.height), ("coded_width", .int 0),
      ("coded_height", .int 0), ("cog_frame_format", .enum a.format)] := by
    unfold VideoArgs.call; rw [hc]; rfl
  generalize a.call.2 = args at *
  have k3' : m.components = [] := by rw [k3]; rfl
  have bf : (ofMade .codedVideo args m).nat lib "cog_frame_format" = .ok a.format := by
    refine C68.nat_enum ?_
    rw [att ⟨"cog_frame_format", "cog_coded_frame", "format", .enum Cog.FrameFormat.all⟩ (by decide +kernel), hargs]; rfl
  have bl : (ofMade .codedVideo args m).nat lib "cog_frame_layout" = .ok Cog.FrameLayout.UNKNOWN := by
    refine C68.nat_enum ?_
    rw [att ⟨"cog_frame_layout", "cog_coded_frame", "layout", .enum Cog.FrameLayout.all⟩ (by decide +kernel), hargs]; rfl
  have bw : (ofMade .codedVideo args m).attr lib "origin_width" = .ok (.int a.width) := by
    rw [att ⟨"origin_width", "cog_coded_frame", "origin_width", .plain⟩ (by decide +kernel), hargs]; rfl
  have bh : (ofMade .codedVideo args m).attr lib "origin_height" = .ok (.int a.height) := by
    rw [att ⟨"origin_height", "cog_coded_frame", "origin_height", .plain⟩ (by decide +kernel), hargs]; rfl
  have cw : (ofMade .codedVideo args m).attr lib "coded_width" = .ok (.int (0 : Nat)) := by
    rw [att ⟨"coded_width", "cog_coded_frame", "coded_width", .plain⟩ (by decide +kernel), hargs]; rfl
  have ch : (ofMade .codedVideo args m).attr lib "coded_height" = .ok (.int (0 : Nat)) := by
    rw [att ⟨"coded_height", "cog_coded_frame", "coded_height", .plain⟩ (by decide +kernel), hargs]; rfl
  have ck : (ofMade .codedVideo args m).attr lib "is_key_frame" = .ok .none := by
    rw [att ⟨"is_key_frame", "cog_coded_frame", "is_key_frame", .optBool⟩ (by decide +kernel), hargs]; rfl
  have ct : (ofMade .codedVideo args m).attr lib "temporal_offset" = .ok .none := by
    rw [att ⟨"temporal_offset", "cog_coded_frame", "temporal_offset", .optPlain⟩ (by decide +kernel), hargs]; rfl
  have hh : codedVideoHdr lib (ofMade .codedVideo args m) = .ok ⟨a.format, Cog.FrameLayout.UNKNOWN, a.width, a.height, 0, 0, none, none,
      none⟩ := by
    simp [codedVideoHdr, bf, bl, C68.nat_int bw, C68.nat_int bh, C68.nat_int cw, C68.nat_int ch, Obj.optBool, Obj.optInt, ck, ct, asOptBool,
      asOptInt, bind, Except.bind, pure, Except.pure]
    rfl
  have hb : Objects.body lib (ofMade .codedVideo args m) = .ok (.codedVideo ⟨a.format, Cog.FrameLayout.UNKNOWN, a.width, a.height, 0, 0, none,
      none, none⟩) := by
    unfold Objects.body
    rw [type_made att]
    simp only [bind, Except.bind, pure, Except.pure]
    rw [if_neg (by decide), if_pos (by decide)]
    simp only [hh]
  obtain ⟨n, hw⟩ := write_made att (u := a.sourceId) (w := a.flowId) (x := a.start) (y := a.start) (q := a.rate) (r := 1 / a.rate)
    (by rw [hargs]; rfl) (by rw [hargs]; rfl) (by rw [hargs]; rfl) (by rw [hargs]; rfl) (by rw [hargs]; rfl) (by rw [hargs]; rfl) hb
  refine ⟨n, (ofMade .codedVideo args m).content, ?_⟩
  unfold construct
  rw [k1]
  simp only [hw, k3', codedTemplate]

theorem aac_valid {a : AudioArgs} {n r : Nat} (h : AacArgs a n r) :
    ∃ args, a.call = .ok (.codedAudio, args) ∧ New.Valid .codedAudio args ∧
      args = [("flow_id", .uuid a.flowId), ("src_id", .uuid a.sourceId), ("origin_timestamp", .ts a.start),
          ("sample_rate", .int r), ("duration", .frac (mkRat n r)), ("channels", .int (a.channels.getD 0)), ("samples", .int n),
          ("cog_audio_format", .enum a.format), ("rate", .frac 0)] := by
  refine ⟨_, ?_, ?_, rfl⟩
  · unfold AudioArgs.call
    rw [if_pos h.format, h.samples, h.sampleRate]
    simp only
    rw [if_neg (by have := h.positive; omega)]
  · refine ⟨?_, ?_⟩
    · intro p hp
      simp only [List.mem_cons, List.not_mem_nil, or_false] at hp
      rcases hp with h | h | h | h | h | h | h | h | h <;> (rw [h]; simp only; decide)
    · have e : New.names .codedAudio = ["src_id", "flow_id", "origin_timestamp", "sync_timestamp", "creation_timestamp", "rate", "duration",
        "cog_audio_format", "samples", "channels", "priming", "remainder", "sample_rate", "length"] := rfl
      rw [e]
      simp only [List.forall_mem_cons]
      exact ⟨⟨_, h.source, rfl⟩, ⟨_, h.flow, rfl⟩, .inr ⟨_, h.start, rfl⟩, .inl rfl, .inl rfl, ⟨_, rfl⟩, ⟨_, rfl⟩,
        ⟨_, by rw [h.format]; decide +kernel, rfl⟩, ⟨_, rfl⟩, ⟨_, rfl⟩, ⟨0, rfl⟩, ⟨0, rfl⟩, ⟨_, rfl⟩, .inl rfl, by simp⟩

theorem aac_template {lib : Lib} (hl : lib.Lawful) (hs : New.Times lib) {now : Int} (hn : 0 ≤ now) {a : AudioArgs} {n r : Nat}
    (h : AacArgs a n r) {args : New.Args} (hv : New.Valid .codedAudio args)
    (hargs : args = [("flow_id", .uuid a.flowId), ("src_id", .uuid a.sourceId), ("origin_timestamp", .ts a.start),
      ("sample_rate", .int r), ("duration", .frac (mkRat n r)), ("channels", .int (a.channels.getD 0)), ("samples", .int n),
      ("cog_audio_format", .enum a.format), ("rate", .frac 0)]) :
    ∃ l d, construct lib now .codedAudio args = .ok (⟨a.sourceId, a.flowId, a.start, a.start, 0, mkRat n r, [],
      .codedAudio ⟨Cog.AudioFormat.AAC, a.channels.getD 0, n, 0, 0, r⟩, l, d⟩, []) := by
  obtain ⟨m, k1, k2, k3, att⟩ := attrs_made hl hs hn hv
  have k3' : m.components = [] := by rw [k3]; rfl
  have bf : (ofMade .codedAudio args m).nat lib "cog_audio_format" = .ok Cog.AudioFormat.AAC := by
    refine C68.nat_enum ?_
    rw [att ⟨"cog_audio_format", "cog_coded_audio", "format", .enum Cog.AudioFormat.all⟩ (by decide +kernel), hargs, ← h.format]; rfl
  have bc : (ofMade .codedAudio args m).attr lib "channels" = .ok (.int (a.channels.getD 0 : Nat)) := by
    rw [att ⟨"channels", "cog_coded_audio", "channels", .plain⟩ (by decide +kernel), hargs]; rfl
  have bs : (ofMade .codedAudio args m).attr lib "samples" = .ok (.int (n : Nat)) := by
    rw [att ⟨"samples", "cog_coded_audio", "samples", .plain⟩ (by decide +kernel), hargs]; rfl
  have bp : (ofMade .codedAudio args m).attr lib "priming" = .ok (.int (0 : Nat)) := by
    rw [att ⟨"priming", "cog_coded_audio", "priming", .plain⟩ (by decide +kernel), hargs]; rfl
  have br : (ofMade .codedAudio args m).attr lib "remainder" = .ok (.int (0 : Nat)) := by
    rw [att ⟨"remainder", "cog_coded_audio", "remainder", .plain⟩ (by decide +kernel), hargs]; rfl
  have bq : (ofMade .codedAudio args m).attr lib "sample_rate" = .ok (.int (r : Nat)) := by
    rw [att ⟨"sample_rate", "cog_coded_audio", "sample_rate", .plain⟩ (by decide +kernel), hargs]; rfl
  have hh : codedAudioHdr lib (ofMade .codedAudio args m) = .ok ⟨Cog.AudioFormat.AAC, a.channels.getD 0, n, 0, 0, r⟩ := by
    simp only [codedAudioHdr, bf, C68.nat_int bc, C68.nat_int bs, C68.nat_int bp, C68.nat_int br, C68.nat_int bq, bind, Except.bind, pure,
      Except.pure]
  have hb : Objects.body lib (ofMade .codedAudio args m) = .ok (.codedAudio ⟨Cog.AudioFormat.AAC, a.channels.getD 0, n, 0, 0, r⟩) := by
    unfold Objects.body
    rw [type_made att]
    simp only [bind, Except.bind, pure, Except.pure]
    rw [if_neg (by decide), if_neg (by decide), if_neg (by decide), if_pos (by decide)]
    simp only [hh]
  obtain ⟨l, hw⟩ := write_made att (u := a.sourceId) (w := a.flowId) (x := a.start) (y := a.start) (q := 0) (r := mkRat n r)
    (by rw [hargs]; rfl) (by rw [hargs]; rfl) (by rw [hargs]; rfl) (by rw [hargs]; rfl) (by rw [hargs]; rfl) (by rw [hargs]; rfl) hb
  refine ⟨l, (ofMade .codedAudio args m).content, ?_⟩
  unfold construct
  rw [k1]
  simp only [hw, k3']

theorem audio_template {lib : Lib} (hl : lib.Lawful) (hs : New.Times lib) {now : Int} (hn : 0 ≤ now) {a : AudioArgs}
    (h : GoodRawAudio a) :
    ∃ c v l d, a.call = .ok c ∧ construct lib now c.1 c.2 =
      .ok (⟨a.sourceId, a.flowId, a.start, a.start, 0, mkRat (a.samples.getD 1920) (a.sampleRate.getD 48000), [], .audio v, l, d⟩, []) := by
  obtain ⟨args, hcall, hargs⟩ : ∃ args, a.call = .ok (.audio, args) ∧ args = [("flow_id", .uuid a.flowId), ("src_id", .uuid a.sourceId),
      ("origin_timestamp", .ts a.start), ("sample_rate", .int (a.sampleRate.getD 48000 : Nat)),
      ("duration", .frac (mkRat (a.samples.getD 1920) (a.sampleRate.getD 48000))),
      ("channels", .int (a.channels.getD 2 : Nat)), ("samples", .int (a.samples.getD 1920 : Nat)),
      ("cog_audio_format", .enum a.format), ("rate", .frac 0)] := by
    refine ⟨_, ?_, rfl⟩
    have hz : ¬a.sampleRate.getD 48000 = 0 := by
      have := h.sampleRate
      cases e : a.sampleRate with
      | none => simp
      | some r => rw [e] at this; intro h0; exact this (congrArg some h0)
    unfold AudioArgs.call
    rw [if_neg h.format.2]
    simp only
    rw [if_neg hz]
  have hv : New.Valid .audio args := by
    rw [hargs]
    refine ⟨?_, ?_⟩
    · intro p hp
      simp only [List.mem_cons, List.not_mem_nil, or_false] at hp
      rcases hp with h | h | h | h | h | h | h | h | h <;> (rw [h]; simp only; decide)
    · have e : New.names .audio = ["src_id", "flow_id", "origin_timestamp", "sync_timestamp", "creation_timestamp", "rate", "duration",
        "cog_audio_format", "samples", "channels", "sample_rate"] := rfl
      rw [e]
      simp only [List.forall_mem_cons]
      exact ⟨⟨_, h.source, rfl⟩, ⟨_, h.flow, rfl⟩, .inr ⟨_, h.start, rfl⟩, .inl rfl, .inl rfl, ⟨_, rfl⟩, ⟨_, rfl⟩,
        ⟨_, h.format.1, rfl⟩, ⟨_, rfl⟩, ⟨_, rfl⟩, ⟨_, rfl⟩, by simp⟩
  obtain ⟨m, k1, k2, k3, att⟩ := attrs_made hl hs hn hv
  have k3' : m.components = [] := by rw [k3]; rfl
  have bf : (ofMade .audio args m).nat lib "cog_audio_format" = .ok a.format := by
    refine C68.nat_enum ?_
    rw [att ⟨"cog_audio_format", "cog_audio", "format", .enum Cog.AudioFormat.all⟩ (by decide +kernel), hargs]; rfl
  have bc : (ofMade .audio args m).attr lib "channels" = .ok (.int (a.channels.getD 2 : Nat)) := by
    rw [att ⟨"channels", "cog_audio", "channels", .int⟩ (by decide +kernel), hargs]; rfl
  have bs : (ofMade .audio args m).attr lib "samples" = .ok (.int (a.samples.getD 1920 : Nat)) := by
    rw [att ⟨"samples", "cog_audio", "samples", .int⟩ (by decide +kernel), hargs]; rfl
  have bq : (ofMade .audio args m).attr lib "sample_rate" = .ok (.int (a.sampleRate.getD 48000 : Nat)) := by
    rw [att ⟨"sample_rate", "cog_audio", "sample_rate", .int⟩ (by decide +kernel), hargs]; rfl
  have hb : Objects.body lib (ofMade .audio args m) = .ok (.audio ⟨a.format, a.channels.getD 2, a.samples.getD 1920,
      a.sampleRate.getD 48000⟩) := by
    unfold Objects.body
    rw [type_made att]
    simp only [bind, Except.bind, pure, Except.pure]
    rw [if_neg (by decide), if_neg (by decide), if_pos (by decide)]
    simp only [audioHdr, bf, C68.nat_int bc, C68.nat_int bs, C68.nat_int bq, bind, Except.bind, pure, Except.pure]
  obtain ⟨l, hw⟩ := write_made att (u := a.sourceId) (w := a.flowId) (x := a.start) (y := a.start) (q := 0)
    (r := mkRat (a.samples.getD 1920) (a.sampleRate.getD 48000))
    (by rw [hargs]; rfl) (by rw [hargs]; rfl) (by rw [hargs]; rfl) (by rw [hargs]; rfl) (by rw [hargs]; rfl) (by rw [hargs]; rfl) hb
  refine ⟨_, ⟨a.format, a.channels.getD 2, a.samples.getD 1920, a.sampleRate.getD 48000⟩, l, (ofMade .audio args m).content, hcall, ?_⟩
  unfold construct
  rw [k1]
  simp only [hw, k3']

/-! ## Time -/

theorem from_start {num den : Nat} (h0 : 0 < num) (hd : 0 < den) (c : Int) :
    Wrap.fromCount num den c = frameStart ((num : Rat) / den) c := by
  have hb := RawWrap.fromCount_bounds (den := den) h0 c
  unfold frameStart
  generalize Wrap.fromCount num den c = t at hb ⊢
  obtain ⟨b1, b2⟩ := hb
  have h2 : (0 : Rat) < num := by exact_mod_cast h0
  have h3 : (0 : Rat) < den := by exact_mod_cast hd
  have e : (c * 1000000000 : Rat) / ((num : Rat) / den) = (c * 1000000000 * den : Rat) / num := by
    field_simp
  rw [e]
  have c1 : (t : Rat) * num ≤ c * 1000000000 * den := by exact_mod_cast b1
  have c2 : (c : Rat) * 1000000000 * den < (t + 1) * num := by exact_mod_cast b2
  refine Int.le_antisymm (Rat.le_floor_iff.2 ((le_div_iff₀ h2).2 c1)) ?_
  refine Int.lt_add_one_iff.1 (Rat.floor_lt_iff.2 ?_)
  rw [div_lt_iff₀ h2]
  push_cast
  exact c2

theorem first_from {num den : Nat} (h0 : 0 < num) (hd : 0 < den) (t : Int) :
    FirstFrom ((num : Rat) / den) t (Wrap.firstCount num den t) := by
  intro m
  rw [← from_start h0 hd]
  exact (C38_timestamps num den h0 hd t).2.2.1 m

theorem samples_start {sr n : Nat} (h0 : 0 < sr) (hn : 0 < n) (c : Int) :
    Wrap.fromCount sr 1 (c * n) = frameStart ((sr : Rat) / n) c := by
  rw [from_start h0 Nat.one_pos]
  unfold frameStart
  congr 1
  have h2 : (0 : Rat) < sr := by exact_mod_cast h0
  have h3 : (0 : Rat) < n := by exact_mod_cast hn
  push_cast
  field_simp

theorem aac_grains {n : Nat} (hn : 0 < n) (a : AudioArgs) (d : Rat) (ch r l : Nat) (dd : Option Bytes) (b : Bytes) (i : Wrap.Adts.Info)
    (hb : HasHeader b i) (fs : List (Bytes × Wrap.Adts.Info)) (en : Wrap.Adts.Ending) :
    aacGrains ⟨a.sourceId, a.flowId, a.start, a.start, 0, d, [], .codedAudio ⟨Cog.AudioFormat.AAC, ch, n, 0, 0, r⟩, l, dd⟩
      ⟨Cog.AudioFormat.AAC, ch, n, 0, 0, r⟩ ((b, i) :: fs, en) =
      ((b :: fs.map (fun x => x.1)).zipIdx.map
        (aacFrame a n i (Wrap.firstCount i.sampleRate n (Wrap.Adts.normalise i.sampleRate 1 a.start))), decide (en = .done)) := by
  have hsr : 0 < i.sampleRate := (frequencies_small hb.2.2.2.1).1
  unfold aacGrains
  rw [if_neg (by simp; omega)]
  refine Prod.ext ?_ rfl
  have hg := C39_grains a.start (some n) fs b i hb
  obtain ⟨h1, h2⟩ := hg
  have hs : ∀ o ∈ Wrap.Adts.grains a.start (some n) ((b, i) :: fs), o.samples = n := by
    intro o ho
    unfold Wrap.Adts.grains at ho
    simp only [List.mem_map] at ho
    obtain ⟨x, -, rfl⟩ := ho
    rfl
  show List.map _ (Wrap.Adts.grains a.start (some n) ((b, i) :: fs)) = _
  generalize Wrap.Adts.grains a.start (some n) ((b, i) :: fs) = gs at *
  rw [List.map_cons] at h1
  rw [← h1]
  apply List.ext_getElem?
  intro k
  simp only [List.getElem?_map, List.getElem?_zipIdx]
  cases hk : gs[k]? with
  | none => rfl
  | some o =>
    obtain ⟨e1, e2, e3, e4, e5⟩ := h2 k o hk
    have e6 := hs o (List.mem_of_getElem? hk)
    simp only [Option.map_some, Option.some.injEq, Nat.zero_add]
    simp only [Option.getD_some] at e4 e5
    rw [samples_start hsr hn] at e5
    have q : mkRat i.sampleRate n = (i.sampleRate : Rat) / n := by rw [Rat.mkRat_eq_div]; simp
    have q2 : (1 : Rat) / ((i.sampleRate : Rat) / n) = n / i.sampleRate := by rw [one_div_div]
    simp only [aacGrain, aacFrame, e1, e2, e3, e4, e5, e6, q, q2]

theorem coded_prefix (t : Grain) (ms : List Wrap.H264.Made) (done : Bool) :
    ((codedGrains t ms done).2 = true → done = true) ∧
      (codedGrains t ms done).1.map (fun g => g.data.getD []) <+: ms.map (fun m => m.data) := by
  induction ms with
  | nil => exact ⟨id, List.prefix_refl _⟩
  | cons m ms ih =>
    unfold codedGrains
    cases hg : codedGrain t m with
    | none => exact ⟨(by intro h; cases h), List.nil_prefix⟩
    | some g =>
      refine ⟨ih.1, ?_⟩
      have hd : g.data = some m.data := by
        unfold codedGrain at hg
        split at hg
        · split at hg
          · cases hg
          · injection hg with hg; rw [← hg]
        · cases hg
      simp only [List.map_cons, hd, Option.getD_some]
      exact (List.cons_prefix_cons).2 ⟨rfl, ih.2⟩

/-- The data of the grains is that of the first frames. -/
theorem h264_prefix (t : Grain) (fr : List Wrap.H264.Frame × Wrap.H264.Ending) :
    ((Tools.h264Grains t fr).2 = true → fr.2 = .done) ∧
      (Tools.h264Grains t fr).1.map (fun g => g.data.getD []) <+: fr.1.map (fun f => f.data) := by
  unfold Tools.h264Grains
  cases lookOf t with
  | none => exact ⟨(by intro h; cases h), List.nil_prefix⟩
  | some l =>
    simp only
    obtain ⟨p1, p2⟩ := coded_prefix t (Wrap.H264.grains t.origin l fr).1 (Wrap.H264.grains t.origin l fr).2
    have q : ((Wrap.H264.grains t.origin l fr).2 = true → fr.2 = .done) ∧
        (Wrap.H264.grains t.origin l fr).1.map (fun m => m.data) <+: fr.1.map (fun f => f.data) := by
      obtain ⟨fs, e⟩ := fr
      cases fs with
      | nil => exact ⟨by intro h; simpa [Wrap.H264.grains] using h, List.prefix_refl _⟩
      | cons f fs =>
        unfold Wrap.H264.grains
        simp only
        split
        · exact ⟨(by intro h; cases h), List.nil_prefix⟩
        · refine ⟨by intro h; simpa using h, ?_⟩
          rw [List.map_map]
          have : ((fun m : Wrap.H264.Made => m.data) ∘ Wrap.H264.grainOf t.origin (l.learn f.info)) =
              (fun f : Wrap.H264.Frame => f.data) ∘ Prod.fst := rfl
          rw [this, ← List.map_map, List.zipIdx_map_fst]
    exact ⟨fun h => q.1 (p1 h), p2.trans q.2⟩

/-- The frames of an input for AAC. -/
def aacFrames : Source → List (Bytes × Wrap.Adts.Info) × Wrap.Adts.Ending
  | .file b _ => Wrap.Adts.framesOfFile b
  | .stdin b limits => Wrap.Adts.framesOfStdin b limits

/-! ## Uncompressed video -/

theorem pieces_ne {n : Nat} (hn : 0 < n) (b : Bytes) : ∀ x ∈ RawWrap.pieces n b, x ≠ [] := by
  intro x hx
  unfold RawWrap.pieces at hx
  rcases List.mem_append.1 hx with h | h
  · have := RawWrap.wholes_length h
    intro e; rw [e] at this; simp at this; omega
  · split at h
    · cases h
    · rename_i hm
      simp only [List.mem_singleton] at h
      rw [h]
      intro e
      have := congrArg List.length e
      rw [List.length_drop, List.length_nil] at this
      have h2 := Nat.div_add_mod b.length n
      rw [Nat.mul_comm] at h2
      omega

theorem raw_grains {a : VideoArgs} (hr : 0 < a.rate) (hc : a.isCoded = false) (n : Nat) (d : Option Bytes) (src : Source)
    (hs : 0 < Cog.sizeForFormat a.format a.width a.height) :
    videoGrains a ⟨a.sourceId, a.flowId, a.start, a.start, a.rate, 1 / a.rate, [],
      .video ⟨a.format, Cog.FrameLayout.UNKNOWN, a.width, a.height, 0, none, none,
        (Cog.componentsForFormat a.format a.width a.height).map Objects.ofCog⟩, n, d⟩ (Cog.componentsForFormat a.format a.width a.height) src =
      ((cuts (Cog.sizeForFormat a.format a.width a.height) src).zipIdx.map
        (rawGrain a (Wrap.firstCount a.rate.toNat 1 a.start)), true) := by
  have h0 : ¬a.rate.toNat = 0 := by omega
  cases src <;> unfold videoGrains rawGrains <;>
    simp only [hc, Bool.false_eq_true, if_false, C31_expected_length, Rat.num_intCast, Rat.den_intCast, h0] <;>
    first
    | rw [RawWrap.wrapDisk_eq _ rfl hs, List.map_map]
    | rw [RawWrap.wrapPipe_eq _ hs, List.map_map]
  all_goals
    refine Prod.ext (List.map_congr_left ?_) rfl
    intro x _
    have hnum : 0 < a.rate.toNat := by omega
    have hq : ((a.rate.toNat : Rat) / ((1 : Nat) : Rat)) = a.rate := by
      rw [Nat.cast_one, div_one, ← Int.cast_natCast, Int.toNat_of_nonneg hr.le]
    simp only [Function.comp, Tools.made, rawGrain, Wrap.atRate, from_start hnum Nat.one_pos, hq]

theorem cuts_ne {n : Nat} (hn : 0 < n) (src : Source) : ∀ x ∈ cuts n src, x ≠ [] := by
  cases src with
  | file b ls => exact pieces_ne hn b
  | stdin b ls =>
    intro x hx e
    have := RawWrap.wholes_length hx
    rw [e] at this
    simp at this
    omega

theorem cuts_taken {n : Nat} (hn : 0 < n) (src : Source) : (cuts n src).flatten = taken n src := by
  cases src with
  | file b ls => exact RawWrap.flatten_pieces hn b
  | stdin b ls => exact RawWrap.flatten_wholes hn b

end Verif.Props.Commands

namespace Verif.Props

open Verif Verif.Gsf Verif.Tools Verif.Props.H264Out Verif.Props.Commands
open Verif.Props.AdtsSplit (IsFrame HasHeader frequencies_small)
open Verif.Attrs (Lib AErr A)

/-- **C96**, uncompressed video: the file has one grain for each piece of the input that is as long as a picture of the format, with the
identifiers, the format, the size and the rate of the arguments. The first origin timestamp is the first start of a frame from the start
time on, the others follow one frame apart. Extracting gives the input; of standard input, without a rest
that is shorter than a picture. Missing: such a rest of a file that is shorter than a picture makes a
grain too (`C38_counterexample`), and the sync timestamp is the start time in every grain. -/
theorem C96_raw_partial (lib : Lib) (hl : lib.Lawful) (hs : New.Times lib) (now : Int) (hn : 0 ≤ now) (encId : Bytes) (created : DateTime)
    (a : VideoArgs) (h : GoodVideo a) (hc : a.format ≠ Cog.FrameFormat.H264 ∧ a.format ≠ Cog.FrameFormat.AVCI) (hr : 0 < a.rate)
    (hz : 0 < Cog.sizeForFormat a.format a.width a.height) (src : Source) (out : OutFile) (ho : out.seekable = true)
    (hf : ∀ n, FirstFrom a.rate a.start n → (wrapped encId created a.flowId
      (cuts (Cog.sizeForFormat a.format a.width a.height) src).length
      ((cuts (Cog.sizeForFormat a.format a.width a.height) src).zipIdx.map (rawGrain a n))).Ok) :
    ∃ e r n, wrapVideo lib now encId created a (some src) out = .ok e ∧ FirstFrom a.rate a.start n ∧
      decodeFile {} e.file.bytes = .ok r ∧ r.ending = .eof ∧
      r.view e.file.bytes = (cuts (Cog.sizeForFormat a.format a.width a.height) src).zipIdx.map
        (fun x => (metaOf (rawGrain a n x), some x.1, 1)) ∧
      extractFile none e.file.bytes = (taken (Cog.sizeForFormat a.format a.width a.height) src, true) := by
  have hc' : a.isCoded = false := by unfold VideoArgs.isCoded; simp [hc]
  obtain ⟨l, d, ht⟩ := raw_template hl hs hn h hc'
  have hff : FirstFrom a.rate a.start (Wrap.firstCount a.rate.toNat 1 a.start) := by
    have := first_from (num := a.rate.toNat) (den := 1) (by omega) Nat.one_pos a.start
    rw [Nat.cast_one, div_one, ← Int.cast_natCast, Int.toNat_of_nonneg hr.le] at this
    exact this
  have hg := raw_grains hr hc' l d src hz
  have hok := hf _ hff
  have hr0 : ¬a.rate = 0 := by omega
  unfold wrapVideo
  simp only [if_neg hr0, ht, hg]
  generalize Wrap.firstCount a.rate.toNat 1 a.start = n at *
  have hlen : ((cuts (Cog.sizeForFormat a.format a.width a.height) src).zipIdx.map (rawGrain a n)).length =
      (cuts (Cog.sizeForFormat a.format a.width a.height) src).length := by simp
  rw [← hlen] at hok
  obtain ⟨r, e1, e2, -, e4⟩ := C52_read_back out ho encId created a.flowId _ hok (by
    intro g hg
    obtain ⟨x, hx, rfl⟩ := List.mem_map.1 hg
    refine ⟨(by intro h; cases h), (by intro l hl; cases hl), ⟨(by intro h; cases h), (by intro h; cases h), ?_⟩, ?_⟩
    · exact Objects.C68.packed_tiles _ _ _ (C31_tiles _ _ _)
    · intro e
      injection e with e
      exact cuts_ne hz src _ (List.fst_mem_of_mem_zipIdx hx) e)
  refine ⟨_, r, n, rfl, hff, e1, e2, ?_, ?_⟩
  · rw [e4, List.map_map]
    rfl
  · rw [(C53_wrapped out ho encId created a.flowId _ hok (by
      intro g hg
      obtain ⟨x, hx, rfl⟩ := List.mem_map.1 hg
      trivial)).1, List.flatMap_map]
    refine Prod.ext ?_ rfl
    show (cuts _ src).zipIdx.flatMap (fun x => x.1) = _
    rw [← cuts_taken hz src, List.flatMap_def, List.zipIdx_map_fst]

/-- **C96**, H.264 and AVC-Intra: the file has the grains of C95, for the template that the arguments describe. -/
theorem C96_h264_partial (lib : Lib) (hl : lib.Lawful) (hs : New.Times lib) (now : Int) (hn : 0 ≤ now) (encId : Bytes) (created : DateTime)
    (a : VideoArgs) (h : GoodVideo a) (hc : a.format = Cog.FrameFormat.H264 ∨ a.format = Cog.FrameFormat.AVCI) (hr : a.rate ≠ 0)
    (p : H264Stream.Picture) (ps : List H264Stream.Picture) (hst : H264Stream.Stream H264Stream.Active.none (p :: ps)) (hcr : Cropped p)
    (hss : ∀ q ∈ ps, SameSize p q) (h0 : 0 < rateOf a.rate p) (h1 : rateOf a.rate p ≤ 500000000) (limits : List Nat) (out : OutFile)
    (ho : out.seekable = true)
    (hf : ∀ n, Nearest (rateOf a.rate p) a.start n → (wrapped encId created a.flowId (ps.length + 1)
      ((p :: ps).zipIdx.map (pictureGrain (codedTemplate a) ⟨a.format, Cog.FrameLayout.UNKNOWN, a.width, a.height, 0, 0, none, none, none⟩
        (rateOf a.rate p) n))).Ok) :
    ∃ e r n, wrapVideo lib now encId created a (some (.file ((p :: ps).flatMap H264Stream.Picture.bytes) limits)) out = .ok e ∧
      Nearest (rateOf a.rate p) a.start n ∧ decodeFile {} e.file.bytes = .ok r ∧ r.ending = .eof ∧
      r.view e.file.bytes = (p :: ps).zipIdx.map (fun x => (metaOf (pictureGrain (codedTemplate a)
        ⟨a.format, Cog.FrameLayout.UNKNOWN, a.width, a.height, 0, 0, none, none, none⟩ (rateOf a.rate p) n x), some x.1.bytes, 1)) := by
  have hc' : a.isCoded = true := by
    unfold VideoArgs.isCoded
    rcases hc with e | e <;> simp [e]
  obtain ⟨l, d, ht⟩ := coded_template hl hs hn h hc'
  have := C95_file_partial out ho encId created a.flowId { codedTemplate a with length := l, data := d } _ rfl rfl p ps hst hcr hss h0 h1
    limits hf
  unfold wrapVideo
  simp only [if_neg hr, ht, videoGrains, hc', if_true]
  obtain ⟨n, r, e0, e1, e2, e3⟩ := this
  exact ⟨_, r, n, rfl, e0, e1, e2, e3⟩

/-- What the tool does with a stream of frames. -/
theorem Commands.aac_run (lib : Lib) (hl : lib.Lawful) (hs : New.Times lib) (now : Int) (hn : 0 ≤ now) (encId : Bytes) (created : DateTime)
    (a : AudioArgs) (n r : Nat) (h : GoodAac a n r) (b : Bytes) (i : Wrap.Adts.Info) (fs : List (Bytes × Wrap.Adts.Info))
    (hfs : ∀ x ∈ (b, i) :: fs, IsFrame x.1 x.2) (src : Source) (en : Wrap.Adts.Ending)
    (hfr : aacFrames src = ((b, i) :: fs, en)) (out : OutFile) :
    ∃ c, FromSample i n a.start c ∧ wrapAudio lib now encId created a (some src) out =
      .ok (wrapToGsf out encId created a.flowId ((b :: fs.map (fun x => x.1)).zipIdx.map (aacFrame a n i c)) (decide (en = .done))) ∧
      ∀ g ∈ (b :: fs.map (fun x => x.1)).zipIdx.map (aacFrame a n i c), Plain 9 g := by
  obtain ⟨args, e1, hv, hargs⟩ := aac_valid h.toAacArgs
  obtain ⟨l, d, ht⟩ := aac_template hl hs hn h.toAacArgs hv hargs
  have hb : HasHeader b i := (hfs (b, i) List.mem_cons_self).1
  have hsr : 0 < i.sampleRate := (frequencies_small hb.2.2.2.1).1
  have hc : FromSample i n a.start (Wrap.firstCount i.sampleRate n (Wrap.Adts.normalise i.sampleRate 1 a.start)) := by
    have hp : (0 : Rat) < (i.sampleRate : Rat) := by exact_mod_cast hsr
    refine ⟨_, nearest hp a.start, ?_⟩
    have e : ((i.sampleRate : Rat)).num.toNat = i.sampleRate ∧ ((i.sampleRate : Rat)).den = 1 := by simp
    rw [e.1, e.2]
    have := first_from hsr h.notEmpty (Wrap.Adts.normalise i.sampleRate 1 a.start)
    unfold Wrap.Adts.normalise at this ⊢
    rw [from_start hsr Nat.one_pos, Nat.cast_one, div_one] at this
    rw [from_start hsr Nat.one_pos, Nat.cast_one, div_one]
    exact this
  refine ⟨_, hc, ?_, ?_⟩
  · unfold wrapAudio
    cases src <;> simp only [aacFrames] at hfr <;>
      simp only [e1, ht, audioGrains, hfr, aac_grains h.notEmpty a _ _ _ _ _ b i hb fs]
  · intro g hg
    obtain ⟨x, hx, rfl⟩ := List.mem_map.1 hg
    refine ⟨(by intro h; cases h), (by intro l hl; cases hl), ?_, ?_⟩
    · trivial
    · intro e
      injection e with e
      have hx1 := List.fst_mem_of_mem_zipIdx hx
      have : ∃ y ∈ (b, i) :: fs, y.1 = x.1 := by
        rcases List.mem_cons.1 hx1 with h | h
        · exact ⟨(b, i), List.mem_cons_self, h.symm⟩
        · obtain ⟨y, hy, hy'⟩ := List.mem_map.1 h
          exact ⟨y, List.mem_cons_of_mem _ hy, hy'⟩
      obtain ⟨y, hy, hy'⟩ := this
      have := (hfs y hy).1.1
      rw [hy', e] at this
      simp at this

/-- **C96**, AAC: the file has one grain for each frame of the stream, with the identifiers of the arguments and what the first frame says
of the sound. The rate is the number of frames in a second for the number of samples in the arguments; the first origin timestamp is the
first start of a frame from the sample nearest to the start time on, the others follow one frame apart, sync timestamps are equal to them.
Missing: streams that end inside a frame (C39). The sample rate of the arguments has no effect. -/
theorem C96_aac_partial (lib : Lib) (hl : lib.Lawful) (hs : New.Times lib) (now : Int) (hn : 0 ≤ now) (encId : Bytes) (created : DateTime)
    (a : AudioArgs) (n r : Nat) (h : GoodAac a n r) (b : Bytes) (i : Wrap.Adts.Info) (fs : List (Bytes × Wrap.Adts.Info))
    (hfs : ∀ x ∈ (b, i) :: fs, IsFrame x.1 x.2) (limits : List Nat) (out : OutFile) (ho : out.seekable = true)
    (hf : ∀ c, FromSample i n a.start c → (wrapped encId created a.flowId (fs.length + 1)
      ((b :: fs.map (fun x => x.1)).zipIdx.map (aacFrame a n i c))).Ok) :
    ∃ e r c, wrapAudio lib now encId created a (some (.file (((b, i) :: fs).flatMap (fun x => x.1)) limits)) out = .ok e ∧ FromSample i n a.start c ∧
      decodeFile {} e.file.bytes = .ok r ∧ r.ending = .eof ∧
      r.view e.file.bytes = (b :: fs.map (fun x => x.1)).zipIdx.map (fun x => (metaOf (aacFrame a n i c x), some x.1, 1)) := by
  have hfr := (C39_split ((b, i) :: fs) hfs [] (by rintro j ⟨hj, -⟩; simp at hj)).1
  rw [List.append_nil, if_pos rfl] at hfr
  obtain ⟨c, hc, e1, hpl⟩ := aac_run lib hl hs now hn encId created a n r h b i fs hfs (.file _ limits) .done hfr out
  rw [decide_eq_true rfl] at e1
  have hlen : (((b :: fs.map (fun x => x.1)).zipIdx.map (aacFrame a n i c)).length : Int) = fs.length + 1 := by simp
  have hok := hf c hc
  rw [← hlen] at hok
  obtain ⟨r, k1, k2, -, k4⟩ := C52_read_back out ho encId created a.flowId _ hok hpl
  refine ⟨_, r, c, e1, hc, k1, k2, ?_⟩
  rw [k4, List.map_map]
  rfl

/-- **C96**, AAC followed by bytes that are no frame: the tool ends with an exception. The file has the grains of the frames before them and
can be read, but the number of grains is not in it and neither is its last block. -/
theorem C96_aac_stopped (lib : Lib) (hl : lib.Lawful) (hs : New.Times lib) (now : Int) (hn : 0 ≤ now) (encId : Bytes) (created : DateTime)
    (a : AudioArgs) (n r : Nat) (h : GoodAac a n r) (b : Bytes) (i : Wrap.Adts.Info) (fs : List (Bytes × Wrap.Adts.Info))
    (hfs : ∀ x ∈ (b, i) :: fs, IsFrame x.1 x.2) (limits : List Nat) (rest : Bytes) (hrest : ∀ j, ¬HasHeader rest j) (hne : rest ≠ []) (out : OutFile)
    (ho : out.seekable = true)
    (hf : ∀ c, FromSample i n a.start c → (wrapped encId created a.flowId (-1)
      ((b :: fs.map (fun x => x.1)).zipIdx.map (aacFrame a n i c))).Ok) :
    ∃ e r c, wrapAudio lib now encId created a (some (.file (((b, i) :: fs).flatMap (fun x => x.1) ++ rest) limits)) out = .ok e ∧
      FromSample i n a.start c ∧
      e.file.bytes = unterminated (wrapped encId created a.flowId (-1) ((b :: fs.map (fun x => x.1)).zipIdx.map (aacFrame a n i c))) ∧
      decodeFile {} e.file.bytes = .ok r ∧ r.ending = .eof ∧
      r.view e.file.bytes = (b :: fs.map (fun x => x.1)).zipIdx.map (fun x => (metaOf (aacFrame a n i c x), some x.1, 1)) := by
  have hfr := (C39_split ((b, i) :: fs) hfs rest hrest).1
  rw [if_neg hne] at hfr
  obtain ⟨c, hc, e1, hpl⟩ := aac_run lib hl hs now hn encId created a n r h b i fs hfs (.file _ limits) _ hfr out
  rw [decide_eq_false (by intro h; cases h)] at e1
  obtain ⟨r, k1, k2, k4⟩ := C52_stopped_read_back out ho encId created a.flowId _ (hf c hc) hpl
  refine ⟨_, r, c, e1, hc, ?_, k1, k2, ?_⟩
  · rw [C52_stopped, if_pos ho, List.nil_append]
  · rw [k4, List.map_map]
    rfl

/-- **C96 fails** for AAC from standard input: all grains are in the file, but the tool always ends with an exception and the last block is
missing. -/
theorem C96_aac_stdin_counterexample (lib : Lib) (hl : lib.Lawful) (hs : New.Times lib) (now : Int) (hn : 0 ≤ now) (encId : Bytes)
    (created : DateTime) (a : AudioArgs) (n r : Nat) (h : GoodAac a n r) (b : Bytes) (i : Wrap.Adts.Info)
    (fs : List (Bytes × Wrap.Adts.Info)) (hfs : ∀ x ∈ (b, i) :: fs, IsFrame x.1 x.2) (limits : List Nat) (out : OutFile)
    (ho : out.seekable = true)
    (hf : ∀ c, FromSample i n a.start c → (wrapped encId created a.flowId (-1)
      ((b :: fs.map (fun x => x.1)).zipIdx.map (aacFrame a n i c))).Ok) :
    ∃ e r c, wrapAudio lib now encId created a (some (.stdin (((b, i) :: fs).flatMap (fun x => x.1)) limits)) out = .ok e ∧
      FromSample i n a.start c ∧
      e.file.bytes = unterminated (wrapped encId created a.flowId (-1) ((b :: fs.map (fun x => x.1)).zipIdx.map (aacFrame a n i c))) ∧
      decodeFile {} e.file.bytes = .ok r ∧ r.ending = .eof ∧
      r.view e.file.bytes = (b :: fs.map (fun x => x.1)).zipIdx.map (fun x => (metaOf (aacFrame a n i c x), some x.1, 1)) := by
  have hfr := C39_stdin ((b, i) :: fs) hfs limits
  obtain ⟨c, hc, e1, hpl⟩ := aac_run lib hl hs now hn encId created a n r h b i fs hfs (.stdin _ limits) _ hfr out
  rw [decide_eq_false (by intro h; cases h)] at e1
  obtain ⟨r, k1, k2, k4⟩ := C52_stopped_read_back out ho encId created a.flowId _ (hf c hc) hpl
  refine ⟨_, r, c, e1, hc, ?_, k1, k2, ?_⟩
  · rw [C52_stopped, if_pos ho, List.nil_append]
  · rw [k4, List.map_map]
    rfl

/-- **C96 fails** for H.264 from standard input: whatever the input, the tool ends with an exception and the last block is missing; what is
in the file is the beginning of the input. It can be nothing at all (`C40_stdin_counterexample`). -/
theorem C96_h264_stdin_counterexample (lib : Lib) (hl : lib.Lawful) (hs : New.Times lib) (now : Int) (hn : 0 ≤ now) (encId : Bytes)
    (created : DateTime) (a : VideoArgs) (h : GoodVideo a) (hc : a.format = Cog.FrameFormat.H264 ∨ a.format = Cog.FrameFormat.AVCI)
    (hr : a.rate ≠ 0) (input : Bytes) (limits : List Nat) (out : OutFile) (ho : out.seekable = true) :
    ∃ e gs rest, wrapVideo lib now encId created a (some (.stdin input limits)) out = .ok e ∧
      e.file.bytes = unterminated (wrapped encId created a.flowId (-1) gs) ∧ gs.flatMap (fun g => g.data.getD []) ++ rest = input := by
  have hc' : a.isCoded = true := by
    unfold VideoArgs.isCoded
    rcases hc with e | e <;> simp [e]
  obtain ⟨l, d, ht⟩ := coded_template hl hs hn h hc'
  obtain ⟨k1, ⟨rest, k2⟩, -⟩ := C40_stdin input limits
  unfold wrapVideo
  simp only [if_neg hr, ht, videoGrains, hc', if_true]
  obtain ⟨p1, p2⟩ := h264_prefix { codedTemplate a with length := l, data := d } (Wrap.H264.framesOfStdin input limits)
  rw [k1] at p1
  have hfalse : (Tools.h264Grains { codedTemplate a with length := l, data := d } (Wrap.H264.framesOfStdin input limits)).2 = false := by
    cases hx : (Tools.h264Grains { codedTemplate a with length := l, data := d } (Wrap.H264.framesOfStdin input limits)).2 with
    | false => rfl
    | true => cases p1 hx
  obtain ⟨more, p2⟩ := p2
  refine ⟨_, (Tools.h264Grains { codedTemplate a with length := l, data := d } (Wrap.H264.framesOfStdin input limits)).1,
    more.flatten ++ rest, rfl, ?_, ?_⟩
  · rw [hfalse, C52_stopped, if_pos ho, List.nil_append]
    rfl
  · refine Eq.trans ?_ k2
    rw [← List.append_assoc, List.flatMap_def, List.flatMap_def, ← p2, List.flatten_append]

/-- Uncompressed audio: **whatever the input, the tool ends with an exception** and leaves a file without grains and without its last block. -/
theorem C96_audio_counterexample (lib : Lib) (hl : lib.Lawful) (hs : New.Times lib) (now : Int) (hn : 0 ≤ now) (encId : Bytes)
    (created : DateTime) (a : AudioArgs) (h : GoodRawAudio a) (src : Source) (out : OutFile) (ho : out.seekable = true) :
    ∃ e, wrapAudio lib now encId created a (some src) out = .ok e ∧
      e.file.bytes = unterminated (wrapped encId created a.flowId (-1) []) := by
  obtain ⟨c, v, l, d, e1, ht⟩ := audio_template hl hs hn h
  unfold wrapAudio
  simp only [e1, ht, audioGrains]
  refine ⟨_, rfl, ?_⟩
  cases src <;> exact (C52_audio_counterexample out ho encId created a.flowId _ rfl _ _).2

/-- AAC with frames of zero samples: the tool divides by zero at the first frame, and leaves a file without grains and without its last block. -/
theorem C96_aac_zero (lib : Lib) (hl : lib.Lawful) (hs : New.Times lib) (now : Int) (hn : 0 ≤ now) (encId : Bytes) (created : DateTime)
    (a : AudioArgs) (r : Nat) (h : AacArgs a 0 r) (b : Bytes) (i : Wrap.Adts.Info) (fs : List (Bytes × Wrap.Adts.Info))
    (hfs : ∀ x ∈ (b, i) :: fs, IsFrame x.1 x.2) (limits : List Nat) (src : Source)
    (hsrc : src = .file (((b, i) :: fs).flatMap (fun x => x.1)) limits ∨ src = .stdin (((b, i) :: fs).flatMap (fun x => x.1)) limits)
    (out : OutFile) (ho : out.seekable = true) :
    ∃ e, wrapAudio lib now encId created a (some src) out = .ok e ∧
      e.file.bytes = unterminated (wrapped encId created a.flowId (-1) []) := by
  obtain ⟨args, e1, hv, hargs⟩ := aac_valid h
  obtain ⟨l, d, ht⟩ := aac_template hl hs hn h hv hargs
  have hfr : ∃ en, aacFrames src = ((b, i) :: fs, en) := by
    rcases hsrc with rfl | rfl
    · have hfr := (C39_split ((b, i) :: fs) hfs [] (by rintro j ⟨hj, -⟩; simp at hj)).1
      rw [List.append_nil] at hfr
      exact ⟨_, hfr⟩
    · exact ⟨_, C39_stdin ((b, i) :: fs) hfs limits⟩
  obtain ⟨en, hfr⟩ := hfr
  unfold wrapAudio
  have hg : ∀ (t : Grain) (x : CodedAudioHdr), t.body = .codedAudio x → x.samples = 0 → audioGrains t src = ([], false) := by
    intro t x hx h0
    unfold audioGrains aacGrains
    cases src <;> simp only [aacFrames] at hfr <;> simp [hx, hfr, h0]
  simp only [e1, ht]
  refine ⟨_, rfl, ?_⟩
  rw [hg _ _ rfl rfl, C52_stopped, ho]
  rfl

/-- AAC without the number of samples or the sample rate: the tool ends before it opens the output, so that the 1024 samples which the
wrapper would assume are never assumed. -/
theorem C96_aac_counterexample (lib : Lib) (now : Int) (encId : Bytes) (created : DateTime) (a : AudioArgs)
    (ha : a.format = Cog.AudioFormat.AAC) (h : a.samples = none ∨ a.sampleRate = none) (input : Option Source) (out : OutFile) :
    wrapAudio lib now encId created a input out = .error (.raised .type) := by
  have : a.call = .error .type := by
    unfold AudioArgs.call
    rw [if_pos ha]
    rcases h with h | h
    · rw [h]
    · rw [h]; cases a.samples <;> rfl
  unfold wrapAudio
  rw [this]

/-- **C96**, what is not opened is not destroyed: with a rate of zero, or without an input, the tool ends before it opens the output. -/
theorem C96_untouched (lib : Lib) (now : Int) (encId : Bytes) (created : DateTime) (a : VideoArgs) (input : Option Source)
    (out : OutFile) (h : a.rate = 0 ∨ input = none) : ∃ e, wrapVideo lib now encId created a input out = .error e ∧
      (a.rate = 0 → e = .raised .zero) := by
  unfold wrapVideo
  by_cases h0 : a.rate = 0
  · exact ⟨_, if_pos h0, fun _ => rfl⟩
  · rw [if_neg h0]
    have : input = none := h.resolve_left h0
    subst this
    cases construct lib now a.call.1 a.call.2 with
    | error e => exact ⟨e, rfl, fun h => absurd h h0⟩
    | ok t => exact ⟨_, rfl, fun h => absurd h h0⟩

/-- The same for audio, with a sample rate of zero. -/
theorem C96_untouched_audio (lib : Lib) (now : Int) (encId : Bytes) (created : DateTime) (a : AudioArgs) (input : Option Source)
    (out : OutFile) (h : a.sampleRate = some 0 ∨ input = none) : ∃ e, wrapAudio lib now encId created a input out = .error e := by
  unfold wrapAudio
  cases hc : a.call with
  | error e => exact ⟨_, rfl⟩
  | ok c =>
    rcases h with h | h
    · exfalso
      unfold AudioArgs.call at hc
      rw [h] at hc
      split at hc
      · cases hs : a.samples with
        | none => rw [hs] at hc; simp at hc
        | some n => rw [hs] at hc; simp at hc
      · simp at hc
    · subst h
      simp only
      cases construct lib now c.1 c.2 with
      | error e => exact ⟨e, rfl⟩
      | ok t => exact ⟨_, rfl⟩

/-- **C96**, standard output: there is the same as in a file, except that the number of grains is left open. -/
theorem C96_stdout (lib : Lib) (now : Int) (encId : Bytes) (created : DateTime) (a : VideoArgs) (input : Option Source)
    (out out' : OutFile) (ho : out.seekable = true) (ho' : out'.seekable = false) (e : Enc)
    (h : wrapVideo lib now encId created a input out = .ok e) :
    ∃ e' flowId gs, wrapVideo lib now encId created a input out' = .ok e' ∧
      ((e.file.bytes = (wrapped encId created flowId gs.length gs).bytes ∧
        e'.file.bytes = out'.bytes ++ (wrapped encId created flowId (-1) gs).bytes) ∨
      (e.file.bytes = unterminated (wrapped encId created flowId (-1) gs) ∧
        e'.file.bytes = out'.bytes ++ unterminated (wrapped encId created flowId (-1) gs))) := by
  unfold wrapVideo at h ⊢
  split at h
  · cases h
  · rename_i h0
    rw [if_neg h0]
    cases hc : construct lib now a.call.1 a.call.2 with
    | error x => rw [hc] at h; cases h
    | ok t =>
      rw [hc] at h
      cases input with
      | none => cases h
      | some src =>
        simp only at h ⊢
        injection h with h
        refine ⟨_, t.1.flowId, (videoGrains a t.1 t.2 src).1, rfl, ?_⟩
        rw [← h]
        cases (videoGrains a t.1 t.2 src).2 with
        | true => exact .inl ⟨C52_file out ho _ _ _ _, C52_stdout out' ho' _ _ _ _⟩
        | false =>
          refine .inr ⟨?_, ?_⟩
          · rw [C52_stopped, if_pos ho, List.nil_append]
          · rw [C52_stopped, if_neg (by rw [ho']; decide)]

/-- Compressed formats other than these two are taken for uncompressed ones: **the stream is cut into pieces as long as an uncompressed
picture of the same shape**, whatever it holds, and the grains say that they are uncompressed and have components. -/
theorem C96_compressed_counterexample (lib : Lib) (hl : lib.Lawful) (hs : New.Times lib) (now : Int) (hn : 0 ≤ now) (encId : Bytes)
    (created : DateTime) (a : VideoArgs) (h : GoodVideo a) (hc : a.format ≠ Cog.FrameFormat.H264 ∧ a.format ≠ Cog.FrameFormat.AVCI)
    (hcc : a.format ≠ Cog.FrameFormat.UNKNOWN ∧ a.format ≠ Cog.FrameFormat.INVALID) (hcomp : Cog.isCompressed a.format = true)
    (hw : 0 < a.width) (hh : 0 < a.height) (hr : 0 < a.rate) (src : Source) (out : OutFile) (ho : out.seekable = true)
    (hf : ∀ n, FirstFrom a.rate a.start n → (wrapped encId created a.flowId
      (cuts (Cog.sizeForFormat a.format a.width a.height) src).length
      ((cuts (Cog.sizeForFormat a.format a.width a.height) src).zipIdx.map (rawGrain a n))).Ok) :
    ∃ e r n, wrapVideo lib now encId created a (some src) out = .ok e ∧ decodeFile {} e.file.bytes = .ok r ∧
      a.width * a.height ≤ Cog.sizeForFormat a.format a.width a.height ∧
      (Cog.componentsForFormat a.format a.width a.height).length = 3 ∧
      r.view e.file.bytes = (cuts (Cog.sizeForFormat a.format a.width a.height) src).zipIdx.map
        (fun x => (metaOf (rawGrain a n x), some x.1, 1)) := by
  have hk : ∀ f ∈ Cog.FrameFormat.all, Cog.isCompressed f = true → f ≠ Cog.FrameFormat.UNKNOWN ∧ f ≠ Cog.FrameFormat.INVALID →
      (f >>> 8) &&& 0x1 = 0 ∧ 0 < Cog.bytesPerValue f := by decide +kernel
  obtain ⟨k1, k2⟩ := hk a.format h.format hcomp hcc
  have hsz : a.width * a.height ≤ Cog.sizeForFormat a.format a.width a.height := by
    unfold Cog.sizeForFormat
    rw [if_pos k1]
    exact Nat.le_trans (Nat.le_add_right _ _) (Nat.le_mul_of_pos_right _ k2)
  obtain ⟨e, r, n, h1, -, h3, -, h4, -⟩ := C96_raw_partial lib hl hs now hn encId created a h hc hr
    (Nat.lt_of_lt_of_le (Nat.mul_pos hw hh) hsz) src out ho hf
  refine ⟨e, r, n, h1, h3, hsz, ?_, h4⟩
  unfold Cog.componentsForFormat
  rw [if_pos k1]
  rfl

/-- The formats without a picture size, and pictures without pixels: **whatever the input, the tool makes a file without grains and does
not complain.** -/
theorem C96_no_size_counterexample (lib : Lib) (hl : lib.Lawful) (hs : New.Times lib) (now : Int) (hn : 0 ≤ now) (encId : Bytes)
    (created : DateTime) (a : VideoArgs) (h : GoodVideo a) (hc : a.format ≠ Cog.FrameFormat.H264 ∧ a.format ≠ Cog.FrameFormat.AVCI)
    (hr : 0 < a.rate) (hz : Cog.sizeForFormat a.format a.width a.height = 0) (src : Source) (out : OutFile)
    (ho : out.seekable = true) :
    ∃ e, wrapVideo lib now encId created a (some src) out = .ok e ∧
      e.file.bytes = (wrapped encId created a.flowId 0 []).bytes := by
  have hc' : a.isCoded = false := by unfold VideoArgs.isCoded; simp [hc]
  obtain ⟨l, d, ht⟩ := raw_template hl hs hn h hc'
  have hr0 : ¬a.rate = 0 := by omega
  unfold wrapVideo
  simp only [if_neg hr0, ht]
  refine ⟨_, rfl, ?_⟩
  have e : ∀ (w : Wrap.Template) b, w.size = some 0 → Wrap.wrapDisk w b = [] := by
    intro w b hw
    unfold Wrap.wrapDisk
    rw [hw, Wrap.rounds]
    rfl
  have e' : ∀ (w : Wrap.Template) b ls, Wrap.wrapPipe w 0 b ls = [] := by
    intro w b ls
    unfold Wrap.wrapPipe
    rw [Wrap.rounds]
    rfl
  have h0 : ¬a.rate.toNat = 0 := by omega
  have hg : ∀ t : Grain, t.rate = a.rate → videoGrains a t (Cog.componentsForFormat a.format a.width a.height) src = ([], true) := by
    intro t ht
    cases src <;> unfold videoGrains rawGrains <;>
      simp only [ht, hc', Bool.false_eq_true, if_false, C31_expected_length, Rat.num_intCast, Rat.den_intCast, hz, h0, e, e', List.map_nil]
  rw [hg _ rfl]
  exact C52_file out ho encId created a.flowId []

/-! ## Instances -/

/-- Pictures of two by two pixels, 25 in a second, from a time between two frames on. -/
def rawArgs : VideoArgs := ⟨u 5, u 6, 1020000001, 2, 2, Cog.FrameFormat.U8_444, 25⟩

theorem rawArgs_good : GoodVideo rawArgs := ⟨rfl, rfl, by decide, by decide +kernel⟩

theorem rawArgs_first {n : Int} (h : FirstFrom (rawArgs.rate) rawArgs.start n) : n = 26 := by
  have h1 := (h 26).1 (by decide +kernel)
  have h2 : ¬n ≤ 25 := fun e => absurd ((h 25).2 e) (by decide +kernel)
  omega

/-- Two pictures and a half: three grains, at frames 26, 27 and 28. -/
example (out : OutFile) (ho : out.seekable = true) (input : Bytes) (hi : input = (List.range 30).map UInt8.ofNat) :
    ∃ e r, wrapVideo C64_lib 7 (u 9) ⟨2024, 2, 29, 23, 59, 59⟩ rawArgs (some (.file input [])) out = .ok e ∧
      decodeFile {} e.file.bytes = .ok r ∧ (r.view e.file.bytes).map (fun x => (x.1.origin, x.2.1.map List.length)) =
        [(1040000000, some 12), (1080000000, some 12), (1120000000, some 6)] ∧
      extractFile none e.file.bytes = (input, true) := by
  subst hi
  obtain ⟨e, r, n, h1, h2, h3, -, h4, h5⟩ := C96_raw_partial C64_lib C64_lib_lawful C64_lib_times 7 (by decide) (u 9)
    ⟨2024, 2, 29, 23, 59, 59⟩ rawArgs rawArgs_good (by decide) (by decide) (by decide +kernel) (.file ((List.range 30).map UInt8.ofNat) []) out ho
    (by
      intro n hn
      rw [rawArgs_first hn]
      decide +kernel)
  refine ⟨e, r, h1, h3, ?_, h5⟩
  rw [h4, rawArgs_first h2]
  decide +kernel

/-- The same from standard input, in pieces of seven bytes: the half picture is left out. -/
example (out : OutFile) (ho : out.seekable = true) :
    ∃ e r, wrapVideo C64_lib 7 (u 9) ⟨2024, 2, 29, 23, 59, 59⟩ rawArgs
        (some (.stdin ((List.range 30).map UInt8.ofNat) (List.replicate 9 7))) out = .ok e ∧
      decodeFile {} e.file.bytes = .ok r ∧ (r.view e.file.bytes).map (fun x => (x.1.origin, x.2.1.map List.length)) =
        [(1040000000, some 12), (1080000000, some 12)] ∧
      extractFile none e.file.bytes = (((List.range 30).map UInt8.ofNat).take 24, true) := by
  obtain ⟨e, r, n, h1, h2, h3, -, h4, h5⟩ := C96_raw_partial C64_lib C64_lib_lawful C64_lib_times 7 (by decide) (u 9)
    ⟨2024, 2, 29, 23, 59, 59⟩ rawArgs rawArgs_good (by decide) (by decide) (by decide +kernel)
    (.stdin ((List.range 30).map UInt8.ofNat) (List.replicate 9 7)) out ho
    (by
      intro n hn
      rw [rawArgs_first hn]
      decide +kernel)
  refine ⟨e, r, h1, h3, ?_, h5⟩
  rw [h4, rawArgs_first h2]
  decide +kernel

/-- The pictures of C95 with the arguments for them. -/
def codedArgs : VideoArgs := ⟨u 5, u 6, 1020000001, 16, 16, Cog.FrameFormat.H264, 25⟩

theorem codedArgs_good : GoodVideo codedArgs := ⟨rfl, rfl, by decide, by decide +kernel⟩

theorem codedArgs_rate : rateOf (codedArgs.rate : Rat) (h264Pictures.head (by decide)) = 50 := by decide +kernel

theorem codedArgs_near {n : Int} (h : Nearest (rateOf (codedArgs.rate : Rat) (h264Pictures.head (by decide))) 1020000001 n) : n = 51 := by
  rw [codedArgs_rate] at h
  obtain ⟨h1, h2⟩ := h
  have a1 : (n : Rat) < 52 := by push_cast at h1 h2; linarith
  have a2 : (50 : Rat) < n := by push_cast at h1 h2; linarith
  have b1 : n < 52 := by exact_mod_cast a1
  have b2 : 50 < n := by exact_mod_cast a2
  omega

example (limits : List Nat) (out : OutFile) (ho : out.seekable = true) :
    ∃ e r, wrapVideo C64_lib 7 (u 9) ⟨2024, 2, 29, 23, 59, 59⟩ codedArgs (some (.file (h264Pictures.flatMap H264Stream.Picture.bytes) limits)) out =
        .ok e ∧ decodeFile {} e.file.bytes = .ok r ∧
      (r.view e.file.bytes).map (fun x => (x.1.origin, x.2.1)) =
        [1020000000, 1040000000, 1060000000].zip (h264Pictures.map (fun p => some p.bytes)) := by
  obtain ⟨e, r, n, h1, hn, h3, -, h4⟩ := C96_h264_partial C64_lib C64_lib_lawful C64_lib_times 7 (by decide) (u 9)
    ⟨2024, 2, 29, 23, 59, 59⟩ codedArgs codedArgs_good (.inl rfl) (by decide) _ _ h264Pictures_stream (by decide +kernel)
    (by
      intro q hq
      simp only [List.mem_cons, List.not_mem_nil, or_false] at hq
      rcases hq with rfl | rfl <;> exact ⟨rfl, rfl, rfl, rfl⟩)
    (by decide +kernel) (by decide +kernel) limits out ho
    (by
      intro n hn
      rw [codedArgs_near hn]
      decide +kernel)
  refine ⟨e, r, h1, h3, ?_⟩
  rw [h4, codedArgs_near hn]
  decide +kernel

/-- Two frames of AAC, of 1024 samples. -/
def aacArgs : AudioArgs := ⟨u 5, u 6, 21333334, none, some 1024, Cog.AudioFormat.AAC, some 44100⟩

theorem aacArgs_good : GoodAac aacArgs 1024 44100 := ⟨⟨rfl, rfl, by decide, rfl, rfl, rfl, by decide⟩, by decide⟩

theorem aacArgs_from {c : Int} (h : FromSample ⟨9, 1, 48000, 2⟩ 1024 aacArgs.start c) : c = 1 := by
  obtain ⟨k, ⟨h1, h2⟩, h3⟩ := h
  have e : aacArgs.start = 21333334 := rfl
  rw [e] at h1 h2
  have a1 : (k : Rat) < 1025 := by push_cast at h1 h2; linarith
  have a2 : (1023 : Rat) < k := by push_cast at h1 h2; linarith
  have b1 : k < 1025 := by exact_mod_cast a1
  have b2 : 1023 < k := by exact_mod_cast a2
  obtain rfl : k = 1024 := by omega
  have c1 := (h3 1).1 (by decide +kernel)
  have c2 : ¬c ≤ 0 := fun e => absurd ((h3 0).2 e) (by decide +kernel)
  omega

example (out : OutFile) (ho : out.seekable = true) :
    ∃ e r, wrapAudio C64_lib 7 (u 9) ⟨2024, 2, 29, 23, 59, 59⟩ aacArgs (some (.file (frame9 ++ frame7) [])) out = .ok e ∧
      decodeFile {} e.file.bytes = .ok r ∧
      (r.view e.file.bytes).map (fun x => (x.1.origin, x.2.1)) = [(21333333, some frame9), (42666666, some frame7)] := by
  obtain ⟨e, r, c, h1, hc, h3, -, h4⟩ := C96_aac_partial C64_lib C64_lib_lawful C64_lib_times 7 (by decide) (u 9)
    ⟨2024, 2, 29, 23, 59, 59⟩ aacArgs 1024 44100 aacArgs_good frame9 ⟨9, 1, 48000, 2⟩ [(frame7, ⟨7, 1, 48000, 2⟩)]
    (by
      intro x hx
      simp only [List.mem_cons, List.not_mem_nil, or_false] at hx
      rcases hx with rfl | rfl
      · exact ⟨(AdtsSplit.parse_iff _ _).1 (by decide +kernel), by decide⟩
      · exact ⟨(AdtsSplit.parse_iff _ _).1 (by decide +kernel), by decide⟩)
    [] out ho
    (by
      intro c hc
      rw [aacArgs_from hc]
      decide +kernel)
  refine ⟨e, r, h1, h3, ?_⟩
  rw [h4, aacArgs_from hc]
  decide +kernel

/-- The same with two bytes more. -/
example (out : OutFile) (ho : out.seekable = true) :
    ∃ e r, wrapAudio C64_lib 7 (u 9) ⟨2024, 2, 29, 23, 59, 59⟩ aacArgs (some (.file ([frame9, frame7].flatten ++ [1, 2]) [])) out = .ok e ∧
      decodeFile {} e.file.bytes = .ok r ∧
      (r.view e.file.bytes).map (fun x => (x.1.origin, x.2.1)) = [(21333333, some frame9), (42666666, some frame7)] := by
  obtain ⟨e, r, c, h1, hc, -, h3, -, h4⟩ := C96_aac_stopped C64_lib C64_lib_lawful C64_lib_times 7 (by decide) (u 9)
    ⟨2024, 2, 29, 23, 59, 59⟩ aacArgs 1024 44100 aacArgs_good frame9 ⟨9, 1, 48000, 2⟩ [(frame7, ⟨7, 1, 48000, 2⟩)]
    (by
      intro x hx
      simp only [List.mem_cons, List.not_mem_nil, or_false] at hx
      rcases hx with rfl | rfl
      · exact ⟨(AdtsSplit.parse_iff _ _).1 (by decide +kernel), by decide⟩
      · exact ⟨(AdtsSplit.parse_iff _ _).1 (by decide +kernel), by decide⟩)
    [] [1, 2] (by rintro j ⟨hj, -⟩; simp at hj) (by decide) out ho
    (by
      intro c hc
      rw [aacArgs_from hc]
      decide +kernel)
  refine ⟨e, r, h1, h3, ?_⟩
  rw [h4, aacArgs_from hc]
  decide +kernel

/-- Frames of no samples. -/
example (out : OutFile) (ho : out.seekable = true) :
    ∃ e, wrapAudio C64_lib 7 (u 9) ⟨2024, 2, 29, 23, 59, 59⟩ { aacArgs with samples := some 0 } (some (.stdin [frame9].flatten [3])) out = .ok e ∧
      e.file.bytes = unterminated (wrapped (u 9) ⟨2024, 2, 29, 23, 59, 59⟩ (u 5) (-1) []) :=
  C96_aac_zero C64_lib C64_lib_lawful C64_lib_times 7 (by decide) (u 9) ⟨2024, 2, 29, 23, 59, 59⟩ _ 44100
    ⟨rfl, rfl, by decide, rfl, rfl, rfl, by decide⟩ frame9 ⟨9, 1, 48000, 2⟩ []
    (by
      intro x hx
      rw [List.mem_singleton] at hx
      subst hx
      exact ⟨(AdtsSplit.parse_iff _ _).1 (by decide +kernel), by decide⟩)
    [3] _ (.inr rfl) out ho

/-- Non-vacuity of the counterexamples. -/
example : GoodVideo { rawArgs with format := Cog.FrameFormat.UNKNOWN } ∧
    Cog.sizeForFormat Cog.FrameFormat.UNKNOWN rawArgs.width rawArgs.height = 0 :=
  ⟨⟨rfl, rfl, by decide, by decide +kernel⟩, by decide +kernel⟩

example : Cog.isCompressed Cog.FrameFormat.VC2 = true ∧ Cog.FrameFormat.VC2 ∈ Cog.FrameFormat.all := by decide +kernel

example : GoodRawAudio ⟨u 5, u 6, 0, none, none, Cog.AudioFormat.S16_PLANES, none⟩ :=
  ⟨rfl, rfl, by decide, ⟨by decide +kernel, by decide⟩, by decide⟩

end Verif.Props

import Verif.Wrap.H264Grains
import Verif.Gsf.Objects

/-!
# The wrapping tools from their arguments on

Models `wrap_video_in_gsf` and `wrap_audio_in_gsf` (`mediagrains/tools/wrap_in_gsf.py` 60-185) after the command line has been parsed. The
constructors are those of `Grain/New`, what is written of a grain is that of `Gsf/Objects`. Not modelled: the parser of the command line,
the text of the size, identifiers that are made up, numbers below zero other than the rate.
-/

namespace Verif.Tools

open Verif Verif.Gsf
open Verif.Attrs (Lib AErr A)
open Verif.Meta (GClass)

/-- Why a tool ends before the output is opened. -/
inductive Halt where
  /-- An exception when the template is made. -/
  | raised (e : AErr)
  /-- The input cannot be opened. -/
  | noInput
deriving DecidableEq, Repr

/-- What line 103 or 163 constructs, as the encoder will write it, with the components. Writing does not fail if the constructor does not,
so that it makes no difference that it is tried here already. -/
def construct (lib : Lib) (now : Int) (c : GClass) (args : New.Args) : Except Halt (Grain × List Cog.Component) :=
  match New.make lib now c args none with
  | .error e => .error (.raised e)
  | .ok m =>
    match Objects.write lib (Objects.ofMade c args m) with
    | .error e => .error (.raised e)
    | .ok g => .ok (g, m.components)

/-- The arguments of `wrap_video_in_gsf`, lines 68-89. -/
structure VideoArgs where
  flowId : Bytes
  sourceId : Bytes
  start : Int
  width : Nat
  height : Nat
  format : Nat
  rate : Int
deriving DecidableEq, Repr

/-- Line 102. -/
def VideoArgs.isCoded (a : VideoArgs) : Bool := a.format = Cog.FrameFormat.H264 || a.format = Cog.FrameFormat.AVCI

/-- Lines 99-100, 103-107 and 110-113. -/
def VideoArgs.call (a : VideoArgs) : GClass × New.Args :=
  if a.isCoded then
    (.codedVideo, [("flow_id", .uuid a.flowId), ("src_id", .uuid a.sourceId), ("origin_timestamp", .ts a.start), ("rate", .frac a.rate),
      ("duration", .frac (1 / a.rate)), ("origin_width", .int a.width), ("origin_height", .int a.height), ("coded_width", .int 0),
      ("coded_height", .int 0), ("cog_frame_format", .enum a.format)])
  else
    (.video, [("flow_id", .uuid a.flowId), ("src_id", .uuid a.sourceId), ("origin_timestamp", .ts a.start), ("rate", .frac a.rate),
      ("duration", .frac (1 / a.rate)), ("width", .int a.width), ("height", .int a.height), ("cog_frame_format", .enum a.format)])

/-- What `file_or_pipe` (`_file_or_pipe.py` 60-75) opens: a file or, for `-`, standard input. The second part is how reads come in pieces;
reads of a file that deliver less are only considered for H.264. -/
inductive Source where
  | file (bytes : Bytes) (limits : List Nat)
  | stdin (bytes : Bytes) (limits : List Nat)
deriving DecidableEq, Repr

/-- The grains of a wrapper with the template `t`: lines 108 and 114 choose the wrapper. `at_rate` refuses rates below zero as it refuses
zero. -/
def videoGrains (a : VideoArgs) (t : Grain) (cs : List Cog.Component) : Source → List Grain × Bool
  | .file b limits =>
    if a.isCoded then h264Grains t (Wrap.H264.frames b limits)
    else
      let w : Wrap.Template := ⟨t.origin, t.rate.num.toNat, t.rate.den, some (Cog.expectedLength cs)⟩
      rawGrains w t (Wrap.wrapDisk w b)
  | .stdin b limits =>
    if a.isCoded then h264Grains t (Wrap.H264.framesOfStdin b limits)
    else
      let w : Wrap.Template := ⟨t.origin, t.rate.num.toNat, t.rate.den, some (Cog.expectedLength cs)⟩
      rawGrains w t (Wrap.wrapPipe w (Cog.expectedLength cs) b limits)

/-- `wrap_video_in_gsf`, lines 91-118, with its input, if it can be opened: `1/rate_fraction` divides by zero, then the template is
made, then the input is opened, then the output (line 46). -/
def wrapVideo (lib : Lib) (now : Int) (encId : Bytes) (created : DateTime) (a : VideoArgs) (input : Option Source)
    (out : OutFile) : Except Halt Enc :=
  if a.rate = 0 then .error (.raised .zero)
  else
    match construct lib now a.call.1 a.call.2 with
    | .error e => .error e
    | .ok (t, cs) =>
      match input with
      | none => .error .noInput
      | some b =>
        .ok (wrapToGsf out encId created t.flowId (videoGrains a t cs b).1 (videoGrains a t cs b).2)

/-- The arguments of `wrap_audio_in_gsf`, lines 128-146. -/
structure AudioArgs where
  flowId : Bytes
  sourceId : Bytes
  start : Int
  channels : Option Nat
  samples : Option Nat
  format : Nat
  sampleRate : Option Nat
deriving DecidableEq, Repr

/-- Lines 154-182; `Fraction(None, …)` is a `TypeError` and `Fraction(n, 0)` a `ZeroDivisionError`. For AAC without a number of channels
the constructor stores `None`; the wrapper replaces it by the number of the first frame before anything reads it, so that 0 stands for it
here. -/
def AudioArgs.call (a : AudioArgs) : Except AErr (GClass × New.Args) :=
  if a.format = Cog.AudioFormat.AAC then
    match a.samples, a.sampleRate with
    | some n, some r =>
      if r = 0 then .error .zero
      else
        .ok (.codedAudio, [("flow_id", .uuid a.flowId), ("src_id", .uuid a.sourceId), ("origin_timestamp", .ts a.start),
          ("sample_rate", .int r), ("duration", .frac (mkRat n r)), ("channels", .int (a.channels.getD 0)), ("samples", .int n),
          ("cog_audio_format", .enum a.format), ("rate", .frac 0)])
    | _, _ => .error .type
  else
    let n := a.samples.getD 1920
    let r := a.sampleRate.getD 48000
    if r = 0 then .error .zero
    else
      .ok (.audio, [("flow_id", .uuid a.flowId), ("src_id", .uuid a.sourceId), ("origin_timestamp", .ts a.start),
        ("sample_rate", .int r), ("duration", .frac (mkRat n r)), ("channels", .int (a.channels.getD 2)), ("samples", .int n),
        ("cog_audio_format", .enum a.format), ("rate", .frac 0)])

/-- A grain of `ADTSAACGrainWrapper`, `utils/adts_aac_grain_wrapper.py` 77-87 and 102-105: the template with other values; `duration` is
`1/rate`. -/
def aacGrain (t : Grain) (h : CodedAudioHdr) (o : Wrap.Adts.Out) : Grain :=
  { t with
    origin := o.origin, sync := o.sync, rate := mkRat o.rate.1 o.rate.2, duration := 1 / mkRat o.rate.1 o.rate.2
    body := .codedAudio { h with channels := o.channels, sampleRate := o.sampleRate, samples := o.samples }
    length := o.data.length, data := some o.data }

/-- The grains of that wrapper and whether it ends without an exception; with zero samples line 86 divides by zero if there is a frame. -/
def aacGrains (t : Grain) (h : CodedAudioHdr) (fs : List (Bytes × Wrap.Adts.Info) × Wrap.Adts.Ending) : List Grain × Bool :=
  if h.samples = 0 ∧ fs.1 ≠ [] then ([], false)
  else ((Wrap.Adts.grains t.origin (some h.samples) fs.1).map (aacGrain t h), decide (fs.2 = .done))

/-- Lines 163 and 181: the wrapper for the template. -/
def audioGrains (t : Grain) (input : Source) : List Grain × Bool :=
  match t.body with
  | .codedAudio h =>
    match input with
    | .file b _ => aacGrains t h (Wrap.Adts.framesOfFile b)
    | .stdin b limits => aacGrains t h (Wrap.Adts.framesOfStdin b limits)
  | .audio h =>
    let n := Cog.sizeForAudioFormat h.format h.channels h.samples
    let w : Wrap.Template := ⟨t.origin, t.rate.num.toNat, t.rate.den, some n⟩
    match input with
    | .file b _ => rawGrains w t (Wrap.wrapDisk w b)
    | .stdin b limits => rawGrains w t (Wrap.wrapPipe w n b limits)
  | _ => ([], false)

/-- `wrap_audio_in_gsf`, lines 148-185. -/
def wrapAudio (lib : Lib) (now : Int) (encId : Bytes) (created : DateTime) (a : AudioArgs) (input : Option Source) (out : OutFile) :
    Except Halt Enc :=
  match a.call with
  | .error e => .error (.raised e)
  | .ok c =>
    match construct lib now c.1 c.2 with
    | .error e => .error e
    | .ok (t, _) =>
      match input with
      | none => .error .noInput
      | some b => .ok (wrapToGsf out encId created t.flowId (audioGrains t b).1 (audioGrains t b).2)

end Verif.Tools

import Verif.Gsf.Whole
import Verif.Grain.New
import Verif.Grain.Event

/-!
# Grain objects on their way into and out of files

`Gsf/Encode` starts from the values that the encoder reads from a grain, `Gsf/Decode` ends with the dictionary that the decoder
builds. This module has the two steps between these and the grain objects of a program: reading the attributes
(`gsf.py` 2262-2448), and making a grain of the decoded dictionary and data (`gsf.py` 909-1030, `grains/Grain.py` 58-122 and
272-339, and the constructors of the classes).

Simplifications: the lists among the metadata (time labels, components, unit offsets) and the payload of events are kept beside
the dictionary, a missing list is an empty one, which is how the attributes show it; grains whose data is not loaded are left out
(`Grain/Lazy`); which of several exceptions comes first is left open; a key frame flag is a bool or missing.
-/

namespace Verif.Objects

open Verif.Attrs
open Verif.Meta (Dict put dflt GClass SubSpec W)
open Verif.New (dictOf)
open Verif.Json (Str)
open Verif.Gsf (TimeLabel Component VideoHdr CodedVideoHdr AudioHdr CodedAudioHdr GType Body)

/-- A grain: its class, the dictionary under `grain`, and what is kept beside it here. -/
structure Obj where
  cls : GClass
  d : Dict T
  labels : List TimeLabel
  comps : List Component
  offsets : List Nat
  payload : Event.Payload
  data : Option Bytes

/-- `x = grain.name`, for the attributes that the class has. -/
def Obj.attr (lib : Lib) (o : Obj) (name : String) : Except AErr A :=
  match (attrs o.cls).find? (fun a => a.name = name) with
  | some a => Attrs.get lib a o.d
  | none => .error .attr

/-- `grain.data`: events write their payload (`EventGrain.py` 181-185). -/
def Obj.content (o : Obj) : Option Bytes :=
  if o.cls = .event then some (Event.getData o.payload) else o.data

/-- A new grain that `Grain/New` has made of arguments, none of which is `unit_offsets`. -/
def ofMade (c : GClass) (args : New.Args) (m : New.Made) : Obj :=
  let text := fun k => match New.val c args k with | .str s => Json.J.str s | _ => .null
  { cls := c, d := m.grain, labels := [], comps := m.components.map (fun c => ⟨c.width, c.height, c.stride, c.length, c.offset⟩)
    offsets := [], payload := ⟨text "event_type", text "topic", []⟩, data := m.data }

/-! ## Reading the attributes -/

/-- `_encode_uuid(x)` asks for the bytes of an identifier. -/
def asUuid : A → Except AErr Bytes
  | .uuid u => .ok u
  | _ => .error .attr

/-- `_encode_ts(x)` asks for seconds and nanoseconds. -/
def asTime : A → Except AErr Int
  | .ts n => .ok n
  | _ => .error .attr

/-- `_encode_rational(x)` asks for numerator and denominator. -/
def asFrac : A → Except AErr Rat
  | .frac q => .ok q
  | _ => .error .attr

/-- Lines 2358-2365: `None` is written as zero. -/
def asOptFrac : A → Except AErr (Option Rat)
  | .none => .ok none
  | .frac q => .ok (some q)
  | _ => .error .attr

/-- `_encode_uint(int(x), …)`; a negative number has no such bytes. -/
def asNat (lib : Lib) (a : A) : Except AErr Nat := do
  let n ← toInt lib a
  if n < 0 then throw .value
  return n.toNat

/-- Line 2418. -/
def asOptBool : A → Except AErr (Option Bool)
  | .none => .ok none
  | .bool b => .ok (some b)
  | _ => .error .type

/-- Line 2419. -/
def asOptInt (lib : Lib) : A → Except AErr (Option Int)
  | .none => .ok none
  | a => (toInt lib a).map some

def Obj.uuid (lib : Lib) (o : Obj) (name : String) : Except AErr Bytes := (o.attr lib name).bind asUuid
def Obj.time (lib : Lib) (o : Obj) (name : String) : Except AErr Int := (o.attr lib name).bind asTime
def Obj.frac (lib : Lib) (o : Obj) (name : String) : Except AErr Rat := (o.attr lib name).bind asFrac
def Obj.optFrac (lib : Lib) (o : Obj) (name : String) : Except AErr (Option Rat) := (o.attr lib name).bind asOptFrac
def Obj.nat (lib : Lib) (o : Obj) (name : String) : Except AErr Nat := (o.attr lib name).bind (asNat lib)
def Obj.optBool (lib : Lib) (o : Obj) (name : String) : Except AErr (Option Bool) := (o.attr lib name).bind asOptBool
def Obj.optInt (lib : Lib) (o : Obj) (name : String) : Except AErr (Option Int) := (o.attr lib name).bind (asOptInt lib)

/-- `_encode_vghd_for_grain`, lines 2348-2385. -/
def videoHdr (lib : Lib) (o : Obj) : Except AErr VideoHdr := do
  let format ← o.nat lib "cog_frame_format"
  let layout ← o.nat lib "cog_frame_layout"
  let width ← o.nat lib "width"
  let height ← o.nat lib "height"
  let extension ← o.nat lib "extension"
  let src ← o.optFrac lib "source_aspect_ratio"
  let pix ← o.optFrac lib "pixel_aspect_ratio"
  return ⟨format, layout, width, height, extension, src, pix, o.comps⟩

/-- `_encode_cghd_for_grain`, lines 2407-2434. -/
def codedVideoHdr (lib : Lib) (o : Obj) : Except AErr CodedVideoHdr := do
  let format ← o.nat lib "cog_frame_format"
  let layout ← o.nat lib "cog_frame_layout"
  let ow ← o.nat lib "origin_width"
  let oh ← o.nat lib "origin_height"
  let cw ← o.nat lib "coded_width"
  let ch ← o.nat lib "coded_height"
  let key ← o.optBool lib "is_key_frame"
  let off ← o.optInt lib "temporal_offset"
  return ⟨format, layout, ow, oh, cw, ch, key, off, if o.offsets = [] then none else some o.offsets⟩

/-- `_encode_aghd_for_grain`, lines 2395-2405. -/
def audioHdr (lib : Lib) (o : Obj) : Except AErr AudioHdr := do
  let format ← o.nat lib "cog_audio_format"
  let channels ← o.nat lib "channels"
  let samples ← o.nat lib "samples"
  let rate ← o.nat lib "sample_rate"
  return ⟨format, channels, samples, rate⟩

/-- `_encode_cahd_for_grain`, lines 2436-2448. -/
def codedAudioHdr (lib : Lib) (o : Obj) : Except AErr CodedAudioHdr := do
  let format ← o.nat lib "cog_audio_format"
  let channels ← o.nat lib "channels"
  let samples ← o.nat lib "samples"
  let priming ← o.nat lib "priming"
  let remainder ← o.nat lib "remainder"
  let rate ← o.nat lib "sample_rate"
  return ⟨format, channels, samples, priming, remainder, rate⟩

/-- The choice by the attribute `grain_type`, lines 2304-2315. -/
def body (lib : Lib) (o : Obj) : Except AErr Body := do
  let t ← o.attr lib "grain_type"
  if t = .str (New.lit "video") then return .video (← videoHdr lib o)
  else if t = .str (New.lit "coded_video") then return .codedVideo (← codedVideoHdr lib o)
  else if t = .str (New.lit "audio") then return .audio (← audioHdr lib o)
  else if t = .str (New.lit "coded_audio") then return .codedAudio (← codedAudioHdr lib o)
  else if t = .str (New.lit "event") then return .event
  else if t = .str (New.lit "empty") then return .empty
  else throw .value

/-- What `encode_grain` (lines 2262-2325) reads of a grain. -/
def write (lib : Lib) (o : Obj) : Except AErr Gsf.Grain := do
  let src ← o.uuid lib "source_id"
  let flow ← o.uuid lib "flow_id"
  let origin ← o.time lib "origin_timestamp"
  let sync ← o.time lib "sync_timestamp"
  let rate ← o.frac lib "rate"
  let duration ← o.frac lib "duration"
  let b ← body lib o
  return { sourceId := src, flowId := flow, origin := origin, sync := sync, rate := rate, duration := duration,
           timelabels := o.labels, body := b, length := (o.content.getD []).length, data := o.content }

/-! ## The dictionary of the decoder -/

/-- Lines 934-1028. -/
def typeText : GType → String
  | .video => "video"
  | .codedVideo => "coded_video"
  | .audio => "audio"
  | .codedAudio => "coded_audio"
  | .event => "event"

def num (n : Nat) : T := .leaf (.int n)

/-- An entry that is only there for some values. -/
def entry {α : Type} (k : String) (f : α → T) : Option α → List (String × T)
  | none => []
  | some x => [(k, f x)]

/-- Lines 937-962. -/
def videoDict (v : VideoHdr) : T :=
  .dict (dictOf ([("format", num v.format), ("layout", num v.layout), ("width", num v.width), ("height", num v.height),
    ("extension", num v.extension)] ++ entry "source_aspect_ratio" fracDict v.srcAspect ++
    entry "pixel_aspect_ratio" fracDict v.pixAspect ++ [("components", .leaf (.other 0))]))

/-- Lines 981-998. -/
def codedVideoDict (c : CodedVideoHdr) : T :=
  .dict (dictOf ([("format", num c.format), ("layout", num c.layout), ("origin_width", num c.originWidth),
    ("origin_height", num c.originHeight), ("coded_width", num c.codedWidth), ("coded_height", num c.codedHeight)] ++
    entry "is_key_frame" (fun b => .leaf (.bool b)) c.isKeyFrame ++
    entry "temporal_offset" (fun n => .leaf (.int n)) c.temporalOffset))

/-- Lines 1011-1015. -/
def audioDict (a : AudioHdr) : T :=
  .dict (dictOf [("format", num a.format), ("channels", num a.channels), ("samples", num a.samples),
    ("sample_rate", num a.sampleRate)])

/-- Lines 1019-1025. -/
def codedAudioDict (a : CodedAudioHdr) : T :=
  .dict (dictOf [("format", num a.format), ("channels", num a.channels), ("samples", num a.samples), ("priming", num a.priming),
    ("remainder", num a.remainder), ("sample_rate", num a.sampleRate)])

/-- `_sync_decode_gbhd`, lines 916-1030: the dictionary under `grain`, but for the lists. -/
def metaDict (m : Gsf.Meta) : Dict T :=
  dictOf ([("source_id", .leaf (.uuid m.sourceId)), ("flow_id", .leaf (.uuid m.flowId)), ("origin_timestamp", .leaf (.ts m.origin)),
    ("sync_timestamp", .leaf (.ts m.sync)), ("rate", .leaf (.frac m.rate)), ("duration", .leaf (.frac m.duration))] ++
    entry "grain_type" (fun t => .leaf (.str (New.lit (typeText t)))) m.grainType ++
    entry "cog_frame" videoDict m.cogFrame ++ entry "cog_coded_frame" codedVideoDict m.cogCodedFrame ++
    entry "cog_audio" audioDict m.cogAudio ++ entry "cog_coded_audio" codedAudioDict m.cogCodedAudio)

/-! ## Making the grain -/

/-- The choice of the class in `GrainFactory`, `grains/Grain.py` 111-122. -/
def dispatch (d : Dict T) : GClass :=
  match d "grain_type" with
  | some (.leaf (.str t)) =>
    if t = New.lit "video" then .video
    else if t = New.lit "audio" then .audio
    else if t = New.lit "coded_video" then .codedVideo
    else if t = New.lit "coded_audio" then .codedAudio
    else if t = New.lit "event" ∨ t = New.lit "data" then .event
    else .grain
  | _ => .grain

/-- `d[k]` for a key that is there. -/
def at' (d : Dict T) (k : String) : T := (d k).getD (.leaf .none)

/-- `Grain.__init__`, `grains/Grain.py` 294-316: missing keys. -/
def fill (lib : Lib) (now : Int) (d : Dict T) : Dict T :=
  let d := dflt d "grain_type" (.leaf (.str (New.lit "empty")))
  let d := dflt d "creation_timestamp" (.leaf (.str (lib.text (.ts now))))
  let d := dflt d "origin_timestamp" (at' d "creation_timestamp")
  let d := dflt d "sync_timestamp" (at' d "origin_timestamp")
  let d := dflt d "rate" (fracDict 0)
  let d := dflt d "duration" (fracDict 0)
  let d := dflt d "source_id" (.leaf (.str (New.lit Meta.zeroUuid)))
  dflt d "flow_id" (.leaf (.str (New.lit Meta.zeroUuid)))

/-- Lines 318-321. -/
def convUuid (lib : Lib) : T → Except AErr T
  | .leaf (.uuid u) => .ok (.leaf (.str (lib.text (.uuid u))))
  | t => .ok t

/-- Lines 322-330. -/
def convTime (lib : Lib) : T → Except AErr T
  | .leaf a => (timeText lib a).map (fun s => .leaf (.str s))
  | .dict _ => .error .value

/-- Lines 331-337. -/
def convFrac : T → Except AErr T
  | .leaf (.frac q) => .ok (fracDict q)
  | t => .ok t

/-- One entry converted in place. -/
def convAt (k : String) (f : T → Except AErr T) (d : Dict T) : Except AErr (Dict T) :=
  match d k with
  | none => .error .key
  | some t => (f t).map (put d k)

/-- `Grain.__init__`, `grains/Grain.py` 272-339. -/
def grainInit (lib : Lib) (now : Int) (d : Dict T) : Except AErr (Dict T) := do
  let d := fill lib now d
  let d ← convAt "source_id" (convUuid lib) d
  let d ← convAt "flow_id" (convUuid lib) d
  let d ← convAt "origin_timestamp" (convTime lib) d
  let d ← convAt "sync_timestamp" (convTime lib) d
  let d ← convAt "creation_timestamp" (convTime lib) d
  let d ← convAt "rate" convFrac d
  convAt "duration" convFrac d

/-- The default values of `Meta.SubSpec`. -/
def ofW : W → T
  | .int n => .leaf (.int n)
  | .enum n => .leaf (.enum n)
  | .str s => .leaf (.str (New.lit s))
  | .list _ => .leaf (.other 0)
  | .other n => .leaf (.other n)

def dflts (l : List (String × W)) (d : Dict T) : Dict T := l.foldl (fun d p => dflt d p.1 (ofW p.2)) d

/-- The constructors of the classes after `super().__init__` (see `Meta.subInit`). -/
def subInit (lib : Lib) (s : SubSpec) (d : Dict T) : Except AErr (Dict T) :=
  let d := put d "grain_type" (.leaf (.str (New.lit s.name)))
  let d := dflt d s.key (.dict (dflts s.fresh (fun _ => none)))
  match d s.key with
  | some (.dict w) => do
    let w ← s.ints.foldlM (fun d k => New.intAt lib k d) (dflts s.missing w)
    return put d s.key (.dict w)
  | _ => .error .type

/-- The metadata of the new grain. -/
def init (lib : Lib) (now : Int) (c : GClass) (d : Dict T) : Except AErr (Dict T) := do
  let d ← grainInit lib now d
  match Meta.specOf c with
  | none => return d
  | some s => subInit lib s d

/-- The payload of an event without data, `EventGrain.py` 156-160. -/
def blank : Event.Payload := ⟨.str [], .str [], []⟩

/-- The exceptions of the setter of `data` of events, as those of grains. -/
def ofEErr : Event.EErr → AErr
  | .value => .value
  | .key => .key
  | .type => .type

/-- `EventGrain.py` 161-168. -/
def initPayload (c : GClass) (data : Option Bytes) : Except AErr Event.Payload :=
  match c, data with
  | .event, some b =>
    match Event.setData blank (.bytes b) with
    | (p, .ok ()) => .ok p
    | (_, .error x) => .error (ofEErr x)
  | _, _ => .ok blank

/-- The data of the new grain: without data the constructors make some, of the size that their default arguments give
(`VideoGrain.py` 335-337, `AudioGrain.py` 152-154, `CodedVideoGrain.py` 173-174, `CodedAudioGrain.py` 156-157). -/
def initData (c : GClass) (data : Option Bytes) : Except AErr (Option Bytes) :=
  match c with
  | .grain => .ok data
  | c => New.newData c [] data

def ofCog (c : Cog.Component) : Component := ⟨c.width, c.height, c.stride, c.length, c.offset⟩

/-- `VideoGrain.py` 426-429: no components are replaced by those of the constructor's default arguments. -/
def initComps (cs : List Component) : List Component :=
  if cs = [] then (Cog.componentsForFormat Cog.FrameFormat.UNKNOWN 1920 1080).map ofCog else cs

/-- The grain that is made of what the decoder found (`gsf.py` 1206, 1337: `self.Grain(meta, data)`, which is `GrainFactory`). -/
def read (lib : Lib) (now : Int) (m : Gsf.Meta) (data : Option Bytes) : Except AErr Obj := do
  let c := dispatch (metaDict m)
  let d ← init lib now c (metaDict m)
  let p ← initPayload c data
  let b ← initData c data
  return { cls := c, d := d, labels := m.timelabels.getD []
           comps := match m.cogFrame with | some v => initComps v.components | none => []
           offsets := match m.cogCodedFrame with | some v => v.unitOffsets.getD [] | none => []
           payload := p, data := b }

end Verif.Objects

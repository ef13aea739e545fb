import Verif.Compare.Model
import Verif.Gsf.Objects

/-!
# What the comparison reads of grain objects

`Compare/Model` compares values. Here is how `GrainComparisonResult.compare` (`comparison/_internal.py` 812-876) and the methods for the
types of grains (616-810) get them from the objects of `Gsf/Objects`: by their attributes, with `getattr`.

Simplifications: an attribute that is not of its documented type is an error here; names of keys and of grain types are texts without
surrogates.
-/

namespace Verif.Compare

open Verif.Attrs (Lib A AErr)
open Verif.Objects (Obj)

/-- The values in the dictionaries of time labels and of event items. -/
inductive Val where
  | text (s : List Char)
  | label (frames rateNum rateDen : Nat) (drop : Bool)
  | json (j : Json.J)

/-- `dict(label)`, `grains/Grain.py` 547-592. -/
def labelDict (l : Gsf.TimeLabel) : Dict Val :=
  [("tag", .text l.tag), ("timelabel", .label l.frames l.rateNum l.rateDen l.drop)]

def keyText (s : Json.Str) : String := String.ofList (s.map Char.ofNat)

/-- `dict(datum)`, `grains/EventGrain.py` 186-234. -/
def itemDict (d : Event.Datum) : Dict Val := d.map (fun x => (keyText x.1, .json x.2))

/-- A text. -/
def textOf : Json.J → Except AErr (List Nat)
  | .str s => .ok s
  | _ => .error .type

/-- Lines 616-633. -/
def eventBody (o : Obj) : Except AErr (Body Val) := do
  return .event (← textOf o.payload.type) (← textOf o.payload.topic) (o.payload.data.map itemDict)

/-- Lines 635-699. -/
def audioBody (lib : Lib) (o : Obj) : Except AErr (Body Val) := do
  return .audio (← o.nat lib "cog_audio_format") (← o.nat lib "samples") (← o.nat lib "channels") (← o.nat lib "sample_rate")

/-- Lines 701-724. -/
def codedAudioBody (lib : Lib) (o : Obj) : Except AErr (Body Val) := do
  return .codedAudio (← o.nat lib "cog_audio_format") (← o.nat lib "samples") (← o.nat lib "channels") (← o.nat lib "sample_rate")
    (← o.nat lib "priming") (← o.nat lib "remainder")

/-- Lines 726-775. -/
def videoBody (lib : Lib) (o : Obj) : Except AErr (Body Val) := do
  return .video (← o.nat lib "cog_frame_format") (← o.nat lib "width") (← o.nat lib "height") (← o.nat lib "cog_frame_layout")

/-- Lines 777-810. -/
def codedVideoBody (lib : Lib) (o : Obj) : Except AErr (Body Val) := do
  return .codedVideo (← o.nat lib "cog_frame_format") (← o.nat lib "coded_width") (← o.nat lib "coded_height")
    (← o.nat lib "origin_width") (← o.nat lib "origin_height") (← o.optBool lib "is_key_frame") (← o.optInt lib "temporal_offset")
    (← o.nat lib "cog_frame_layout") (o.offsets.map Int.ofNat)

/-- The choice by `grain_type`, lines 844-871. -/
def bodyOf (lib : Lib) (o : Obj) : Except AErr (Body Val) := do
  let t ← o.attr lib "grain_type"
  if t = .str (New.lit "event") then eventBody o
  else if t = .str (New.lit "audio") then audioBody lib o
  else if t = .str (New.lit "coded_audio") then codedAudioBody lib o
  else if t = .str (New.lit "video") then videoBody lib o
  else if t = .str (New.lit "coded_video") then codedVideoBody lib o
  else
    match t with
    | .str s => return .plain (keyText s)
    | _ => throw .type

/-- What is compared of an object, lines 812-871. -/
def compared (lib : Lib) (o : Obj) : Except AErr (Grain Val) := do
  let src ← o.uuid lib "source_id"
  let flow ← o.uuid lib "flow_id"
  let rate ← o.frac lib "rate"
  let duration ← o.frac lib "duration"
  let origin ← o.time lib "origin_timestamp"
  let sync ← o.time lib "sync_timestamp"
  let creation ← o.time lib "creation_timestamp"
  let body ← bodyOf lib o
  return { src := uintOf src, flow := uintOf flow, rate := rate, duration := duration, length := (o.content.getD []).length
           origin := origin, sync := sync, creation := creation, timelabels := o.labels.map labelDict, data := o.content, body := body }

/-- `compare_grain(a, b, *options)` on objects: an exception of a getter, an exception of the comparison (`none`), or the result. -/
def compareObjs (lib : Lib) {P : Type} (env : Env P Val) (opts : List (Opt P)) (a b : Obj) : Except AErr (Option (Res P)) := do
  return compareGrain env opts (← compared lib a) (← compared lib b)

/-- `compare_grains_pairwise(as, bs, *options)` on objects, for iterators that end. All attributes are read first here; the code stops at the
first difference. -/
def compareAll (lib : Lib) {P : Type} (env : Env P Val) (opts : List (Opt P)) (as bs : List Obj) :
    Except AErr (Option (IterRes P)) := do
  return compareGrains env opts false (← as.mapM (compared lib)) (← bs.mapM (compared lib))

end Verif.Compare

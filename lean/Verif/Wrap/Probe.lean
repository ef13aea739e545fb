import Verif.Wrap.Tools
import Verif.Grain.Times

/-!
# The tool that reports on a file

Model of `gsf_probe`, `mediagrains/tools/extract_from_gsf.py` 51-97. Not modelled: parsing of the command line, the creation times
(the constructor makes them up, `Grain/Meta`), the JSON text that is printed.
-/

namespace Verif.Tools

open Verif Verif.Gsf Verif.Times

/-- What the times of a decoded grain depend on: its class, origin, rate and for audio the samples. -/
def timesOf (m : Meta) : TGrain :=
  ⟨m.origin, m.rate,
    match m.grainType with
    | some .audio => match m.cogAudio with
      | some a => .audio a.samples a.sampleRate
      | none => .plain
    | some .codedAudio => match m.cogCodedAudio with
      | some a => .audio a.samples a.sampleRate
      | none => .plain
    | some .video => .video
    | some .codedVideo => .codedVideo (m.cogCodedFrame.bind (fun c => c.temporalOffset))
    | _ => .plain⟩

/-- `extend_to_encompass_timerange` of the library `mediatimestamp`: an empty range adds nothing, otherwise the range from the earlier
start to the later end. -/
def hull (a b : Range) : Range :=
  if a.stop < a.start then b else if b.stop < b.start then a else ⟨min a.start b.start, max a.stop b.stop⟩

/-- The options `--all-timestamps` and `--all-grains`. -/
structure POpts where
  allTimestamps : Bool
  allGrains : Bool
deriving DecidableEq, Repr

/-- The dictionary for a segment in the report. `first` and `all` are `grain_data` without and with `--all-grains`; `stamps` are origin and sync
timestamps. -/
structure Report where
  segm : Segm
  timerange : Option Range
  first : Option Meta
  all : List Meta
  stamps : List (Int × Int)
deriving DecidableEq, Repr

/-- The dictionary of segments: no entry, or a report. -/
abbrev Reports := Nat → Option Report

/-- `{segment["local_id"]: segment for segment in file_data["segments"]}`, line 69: of two segments with one id the later one stays. -/
def Reports.start (segs : List Segm) : Reports :=
  segs.foldl (fun d s => fun i => if i = s.localId then some ⟨s, none, none, [], []⟩ else d i) (fun _ => none)

/-- Making the grain: only event grains look at their data. -/
def makes (type : Option GType) (data : Option Bytes) : Bool :=
  match type with
  | some .event => (grainData (some .event) data).isSome
  | _ => true

/-- One round of the loop, lines 72-95. `none`: an exception (`KeyError` for an id that is not in the head). -/
def probeStep (L : TimeLib) (o : POpts) (d : Reports) (x : Meta × Option Bytes × Nat) : Option Reports :=
  if makes x.1.grainType x.2.1 = false then none else
  match d x.2.2 with
  | none => none
  | some rep =>
    match originRange L (timesOf x.1) with
    | none => none
    | some r =>
      let rep1 := if o.allGrains then { rep with all := rep.all ++ [x.1] } else rep
      let rep2 := match rep1.timerange with
        | some t => { rep1 with timerange := some (hull t r) }
        | none => { rep1 with timerange := some r, first := if o.allGrains then none else some x.1 }
      let rep3 := if o.allTimestamps then { rep2 with stamps := rep2.stamps ++ [(x.1.origin, x.1.sync)] } else rep2
      some (fun i => if i = x.2.2 then some rep3 else d i)

def probeLoop (L : TimeLib) (o : POpts) : Reports → List (Meta × Option Bytes × Nat) → Option Reports
  | d, [] => some d
  | d, x :: xs => (probeStep L o d x).bind (fun d' => probeLoop L o d' xs)

/-- The options the tool decodes with: `load_lazily=True`. -/
def probeOpts : Opts := { localIds := none, mode := .alwaysLoadDeferIfPossible }

/-- `gsf_probe` on a file: what is printed, `none` if it ends with an exception. -/
def probeFile (L : TimeLib) (o : POpts) (file : Bytes) : Option Reports :=
  match decodeFileHeaders false ⟨0, file⟩ 0 with
  | .error _ => none
  | .ok (h, p) =>
    let r := grains probeOpts file h p
    if r.ending.quiet then probeLoop L o (Reports.start h.head.segments) (r.view file) else none

/-- `gsf_probe` on standard input. -/
def probeStdin (L : TimeLib) (o : POpts) (file : Bytes) : Option Reports :=
  match decodeFileHeadersD .pipe false ⟨0, file⟩ 0 with
  | .error _ => none
  | .ok (h, p) =>
    let r := grainsLoopD .pipe { probeOpts with seekable := false } ⟨0, file⟩ (file.length + 1) h false p
    if r.ending.quiet then probeLoop L o (Reports.start h.head.segments) (r.view file) else none

end Verif.Tools

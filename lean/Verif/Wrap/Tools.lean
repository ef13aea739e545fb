import Verif.Gsf.Encoder
import Verif.Gsf.Pipe
import Verif.Gsf.Whole
import Verif.Grain.Event
import Verif.Wrap.Raw

/-!
# The command line tools

Models of `mediagrains/tools/wrap_in_gsf.py` 35-57 (`wrap_to_gsf`) and `mediagrains/tools/extract_from_gsf.py` 27-48
(`extract_gsf_essence`), built on the models of the encoder, the decoder, the wrappers and event grains. Not modelled:
parsing of the command line, what is printed to standard error, making up missing ids.
-/

namespace Verif.Tools

open Verif Verif.Gsf

/-- `wrap_to_gsf`, lines 46-57: `GSFEncoder(output_data)` (version 9.0, `gsf.py` 1917-1918, not streaming), `add_segment(id=...)`,
`start_dump()`, `add_grains([grain])` on the segment for every grain the wrapper yields, `end_dump()`. `finished` says
whether the wrapper came to its end; if it raises, the exception leaves the function and `end_dump` is not called. The
state of the encoder in the end is the result. -/
def wrapToGsf (file : OutFile) (encId : Bytes) (created : DateTime) (flowId : Bytes) (grains : List Grain)
    (finished : Bool) : Enc :=
  match (Enc.new file 9 0 encId created false).addSegment (some flowId) none [] flowId with
  | (e, .error _) => e
  | (e, .ok l) =>
    e.runs (.startDump false :: (grains.map (fun g => .sAddGrains l [g]) ++ (if finished then [.endDump] else [])))

/-- A grain of the raw wrapper, `utils/grain_wrapper.py` 55-65: a copy of the template with another origin timestamp and
data. -/
def made (template : Grain) (o : Wrap.Out) : Grain :=
  { template with origin := o.origin, data := some o.data, length := o.data.length }

/-- The raw wrapper as a tool: the grains, and whether it came to its end. `at_rate` of the library `mediatimestamp`
refuses a rate that is not positive when the first timestamp is asked for (line 54). -/
def rawGrains (t : Wrap.Template) (template : Grain) (outs : List Wrap.Out) : List Grain × Bool :=
  if t.rateNum = 0 then ([], false) else (outs.map (made template), true)

/-- The payload of an event grain made from metadata without one, `grains/EventGrain.py` 159-163. -/
def emptyPayload : Event.Payload := ⟨.str [], .str [], []⟩

/-- `grain.data` of a decoded grain of the given type, made by `GrainFactory` from metadata and data
(`grains/Grain.py` 58-150); `none`: `write` gets `None` and raises, or the grain could not be made.
A plain grain has the data it was given. Video and audio grains without data make some of the size their arguments say,
which is none at all when they are made from metadata (`VideoGrain.py` 335-337, `AudioGrain.py` 155-157,
`CodedVideoGrain.py` 182-183, `CodedAudioGrain.py` 157-158). Event grains parse their data and write it out again
(`EventGrain.py` 164-185). -/
def grainData (type : Option GType) (data : Option Bytes) : Option Bytes :=
  match type with
  | none => data
  | some .event =>
    match data with
    | none => some (Event.getData emptyPayload)
    | some b =>
      match Event.setData emptyPayload (.bytes b) with
      | (p, .ok ()) => some (Event.getData p)
      | (_, .error _) => none
  | some _ => some (data.getD [])

/-- The loop of `extract_gsf_essence`, lines 45-48: what is written, and whether no exception ended it. -/
def writeAll : List (Meta × Option Bytes × Nat) → Bytes × Bool
  | [] => ([], true)
  | x :: xs =>
    match grainData x.1.grainType x.2.1 with
    | none => ([], false)
    | some b => (b ++ (writeAll xs).1, (writeAll xs).2)

/-- The grains end without an exception. -/
def _root_.Verif.Gsf.End.quiet : End → Bool
  | .err _ => false
  | _ => true

/-- `extract_gsf_essence` on what the decoder makes of the input. -/
def extractRun (file : Bytes) : Except Err Run → Bytes × Bool
  | .error _ => ([], false)
  | .ok r => ((writeAll (r.view file)).1, (writeAll (r.view file)).2 && r.ending.quiet)

/-- The options the tool decodes with: `decoder.grains(local_ids=args.only_id)`, which loads the data at once
(`gsf.py` 1470-1477). -/
def extractOpts (ids : Option (List Nat)) : Opts := { localIds := ids, mode := .loadImmediately }

/-- `extract_gsf_essence` from a file. -/
def extractFile (ids : Option (List Nat)) (file : Bytes) : Bytes × Bool := extractRun file (decodeFile (extractOpts ids) file)

/-- `extract_gsf_essence` from standard input. -/
def extractStdin (ids : Option (List Nat)) (file : Bytes) : Bytes × Bool := extractRun file (decodePipe (extractOpts ids) file)

end Verif.Tools

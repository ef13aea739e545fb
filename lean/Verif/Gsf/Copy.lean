import Verif.Gsf.Easy

/-!
# Copying a file

A program over the interface of `mediagrains/gsf.py`: it opens a file with `GSFDecoder`, makes a `GSFEncoder` with what
`file_headers` says, adds the flows to the segments, and hands every grain that the decoder yields to the encoder:

    with GSFDecoder(file_data=f) as dec:
        h = dec.file_headers
        enc = GSFEncoder(out, major=…, minor=…, id=h['id'], created=h['created'], tags=h['tags'],
                         segments=[{'id': s['id'], 'local_id': s['local_id'], 'tags': s['tags']} for s in h['segments']],
                         streaming=…)
        for s in h['segments']:
            if 'flow' in s: enc.segments[s['local_id']].add_flow(*s['flow'].values())
        with enc:
            for (grain, local_id) in dec.grains(…): enc.add_grain(grain, segment_local_id=local_id)

The parts are those of the model (`decodeFile`, `Objects.read`, `Objects.write`, `construct` and `Op.run`). Simplifications: the decoder is
run to its end before the first grain is written (reading and writing are different files, so this only matters when one of them
raises), and all grains are made at the same time `now`.
-/

namespace Verif.Easy

open Verif Verif.Gsf
open Verif.Attrs (Lib AErr)
open Verif.Objects (Obj)

/-- What the program can raise. -/
inductive CopyErr where
  | decoder (e : Err)
  | grain (e : AErr)
  | encoder (e : EncErr)
  deriving DecidableEq, Repr

/-- The arguments of the encoder (lines 1915-1923), from the headers that the decoder found (lines 833-898). -/
def copyArgs (h : Hdr) (streaming : Bool) : EncArgs where
  major := h.major
  minor := h.minor
  id := h.head.id
  created := h.head.created
  tags := h.head.tags
  segments := h.head.segments.map (fun s => ⟨some s.id, some s.localId, s.tags, []⟩)
  streaming := streaming

/-- `add_flow` with text, lines 2456-2468. -/
def flowOps (h : Hdr) : List Op :=
  h.head.segments.flatMap (fun s =>
    s.flow.toList.map (fun f => .sAddFlow s.localId ⟨f.sourceId, f.flowId, f.format, encodeUtf8 f.data⟩))

/-- A grain that the decoder yields is made (line 1337), and read again by the encoder (lines 2262-2325). -/
def rewrite (lib : Lib) (now : Int) (v : Meta × Option Bytes × Nat) : Except AErr (Nat × Grain) :=
  match Objects.read lib now v.1 v.2.1 with
  | .error e => .error e
  | .ok o =>
    match Objects.write lib o with
    | .error e => .error e
    | .ok g => .ok (v.2.2, g)

/-- The calls inside the `with` block of the encoder. -/
def copyOps (gs : List (Nat × Grain)) : List Op :=
  .enter :: (gs.map (fun x => .addGrains [x.2] none (some x.1) []) ++ [.exit])

/-- The program: the new file, or what it raises. -/
def copyFile (lib : Lib) (now : Int) (o : Opts) (out : OutFile) (streaming : Bool) (file : Bytes) : Except CopyErr OutFile :=
  match decodeFile o file with
  | .error e => .error (.decoder e)
  | .ok r =>
    match r.ending with
    | .err e => .error (.decoder e)
    | _ =>
      match construct out (copyArgs r.hdr streaming) with
      | .error e => .error (.encoder e)
      | .ok e0 =>
        match tryAll e0 (flowOps r.hdr) with
        | .error e => .error (.encoder e)
        | .ok e1 =>
          match (r.view file).mapM (rewrite lib now) with
          | .error e => .error (.grain e)
          | .ok gs =>
            match tryAll e1 (copyOps gs) with
            | .error e => .error (.encoder e)
            | .ok e2 => .ok e2.file

end Verif.Easy

import Verif.Gsf.Objects
import Verif.Numpy.Samples

/-!
# Numpy grains that are converted

Models `mediagrains/numpy/numpy_grains/VideoGrain.py` lines 303-311 and 359-399: the grains around the samples of `Numpy/Samples`.
-/

namespace Verif.Numpy

open Verif.Attrs (A Lib AErr)
open Verif.Objects (Obj)
open Verif.Json (Str)

/-- `uuid5`, and `repr` of a member of `CogFrameFormat`. -/
structure Ids where
  v5 : Bytes → Str → Bytes
  repr : Nat → Str

/-- A numpy grain: what it has from its base class, and the samples in its arrays. -/
structure Pic where
  obj : Obj
  frame : Frame

/-- What a conversion raises: an exception of an attribute or the constructor, or of the conversion (not implemented, or arrays of
different sizes). -/
inductive PErr where
  | attr (e : AErr)
  | convert
  deriving DecidableEq, Repr

/-- `flow_id_for_converted_flow`, lines 359-360. -/
def flowFor (u : Ids) (flow : Bytes) (fmt : Nat) : Bytes := u.v5 flow (New.lit "FORMAT_CONVERSION: " ++ u.repr fmt)

/-- The arguments of line 364, of the attributes of the grain. -/
def similarArgs (lib : Lib) (u : Ids) (o : Obj) (fmt : Nat) : Except AErr New.Args := do
  return [("src_id", ← o.attr lib "source_id"),
    ("flow_id", .uuid (flowFor u (← o.uuid lib "flow_id") fmt)),
    ("origin_timestamp", ← o.attr lib "origin_timestamp"),
    ("sync_timestamp", ← o.attr lib "sync_timestamp"),
    ("cog_frame_format", .enum fmt),
    ("width", ← o.attr lib "width"),
    ("height", ← o.attr lib "height"),
    ("rate", ← o.attr lib "rate"),
    ("duration", ← o.attr lib "duration"),
    ("cog_frame_layout", ← o.attr lib "cog_frame_layout")]

/-- `_similar_grain`, lines 362-373. -/
def similar (lib : Lib) (now : Int) (u : Ids) (o : Obj) (fmt : Nat) : Except AErr Obj := do
  let args ← similarArgs lib u o fmt
  return Objects.ofMade .video args (← New.make lib now .video args none)

/-- `convert`, lines 375-387. The samples are those of `convertFrame`; the bytes beside them in `obj` are not kept in step. A deep copy
(line 307) has the same attributes, lists and samples (C56). The grains between two steps (lines 34-43 of `convert.py`) are not seen by
anyone and left out; `C64_attributes_partial` says that they can be made. -/
def Pic.convert (lib : Lib) (now : Int) (u : Ids) (env : Env) (p : Pic) (fmt : Nat) : Except PErr Pic :=
  match p.obj.attr lib "cog_frame_format" with
  | .error e => .error (.attr e)
  | .ok v =>
    if v = .enum fmt then .ok p
    else
      match similar lib now u p.obj fmt with
      | .error e => .error (.attr e)
      | .ok o =>
        match convertFrame env 4 p.frame fmt with
        | none => .error .convert
        | some f => .ok ⟨o, f⟩

/-- The grain that `asformat` returns. -/
inductive Answer where
  /-- the object itself -/
  | self
  | new (p : Pic)

/-- `asformat`, lines 389-399. -/
def Pic.asformat (lib : Lib) (now : Int) (u : Ids) (env : Env) (p : Pic) (fmt : Nat) : Except PErr Answer :=
  match p.obj.attr lib "cog_frame_format" with
  | .error e => .error (.attr e)
  | .ok v => if v = .enum fmt then .ok .self else (p.convert lib now u env fmt).map .new

end Verif.Numpy

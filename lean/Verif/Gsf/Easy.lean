import Verif.Gsf.Encoder
import Verif.Gsf.Group
import Verif.Gsf.GroupAsync
import Verif.Gsf.Objects

/-!
# `dump`, `dumps`, `load` and `loads`

Models `mediagrains/gsf.py` lines 86-187, for grain objects as in `Gsf/Objects`.
-/

namespace Verif.Easy

open Verif Verif.Gsf
open Verif.Attrs (Lib AErr)
open Verif.Objects (Obj)

/-! ## Writing -/

/-- One element of the encoder's `segments` argument; `fresh` is the identifier that `uuid1` would make. -/
structure SegArg where
  id : Option Bytes
  localId : Option Nat
  tags : List Tag
  fresh : Bytes
  deriving DecidableEq, Repr

/-- The arguments of `GSFEncoder` other than the file (lines 1915-1923), defaults filled in. -/
structure EncArgs where
  major : Nat := 9
  minor : Nat := 0
  id : Bytes
  created : DateTime
  tags : List Tag := []
  segments : List SegArg := []
  streaming : Bool := false
  deriving DecidableEq, Repr

/-- Calls one after the other until one raises. -/
def tryAll (e : Enc) : List Op → Except EncErr Enc
  | [] => .ok e
  | o :: os =>
    match o.run e with
    | (_, .error x) => .error x
    | (e1, .ok _) => tryAll e1 os

/-- `GSFEncoder.__init__`, lines 1915-1957. Segments and tags that have the wrong shape are not modelled. -/
def construct (file : OutFile) (a : EncArgs) : Except EncErr Enc :=
  tryAll (Enc.new file a.major a.minor a.id a.created a.streaming)
    (a.segments.map (fun s => .addSegment s.id s.localId s.tags s.fresh) ++ a.tags.map .addTag)

/-- The iterable of grains that `dump` is given: the grains it yields, and whether it then raises. -/
structure Source where
  objs : List Obj
  raises : Bool := false

/-- What `dump` can raise: an exception of the encoder, one from reading the attributes of a grain, one from the iterable. -/
inductive DumpErr where
  | encoder (e : EncErr)
  | grain (e : AErr)
  | source
  deriving DecidableEq, Repr

/-- `dump`, lines 147-170: what is in the file afterwards, and the exception if there is one. The grains are kept as they are and encoded
when the block is left; `_start_dump` (1754-1767) has cut the file by then. With `streaming` the dump is active inside the block, and
`add_segment` raises. `fresh` is the identifier of the new segment. -/
def dump (lib : Lib) (file : OutFile) (a : EncArgs) (segTags : List Tag) (fresh : Bytes) (src : Source) : OutFile × Option DumpErr :=
  match construct file a with
  | .error x => (file, some (.encoder x))
  | .ok e =>
    match e.enter.hAddSegment 0 none none segTags fresh with
    | (e1, .error x) => (e1.exit.file, some (.encoder x))
    | (e1, .ok l) =>
      match src.objs.mapM (Objects.write lib) with
      | .error x => (e1.file.clear, some (.grain x))
      | .ok gs => ((e1.sAddGrains l gs).1.exit.file, if src.raises then some .source else none)

/-- `dumps`, lines 173-187. -/
def dumps (lib : Lib) (a : EncArgs) (segTags : List Tag) (fresh : Bytes) (src : Source) : Except DumpErr Bytes :=
  match dump lib ⟨true, [], 0⟩ a segTags fresh src with
  | (_, some x) => .error x
  | (f, none) => .ok f.bytes

/-! ## Reading -/

/-- What `load` can raise: an exception of the decoder, or one from making a grain. -/
inductive LoadErr where
  | decoder (e : Err)
  | grain (e : AErr)
  deriving DecidableEq, Repr

/-- One list of the dictionary, as objects. -/
def objects (lib : Lib) (now : Int) (s : Bytes) (e : Nat × List Item) : Except AErr (Nat × List Obj) :=
  (e.2.mapM (fun it => Objects.read lib now it.info (it.data.load s))).map (fun os => (e.1, os))

/-- `load` on a synchronous file (lines 126-144), with the keyword argument `support_concatenation` if it is given. Simplifications: the
grains are made after all were read, and all at the time `now`. -/
def load (lib : Lib) (now : Int) (s : Bytes) (concat : Option Bool) : Except LoadErr (Hdr × List (Nat × List Obj)) :=
  match decodeAll (concat.getD true) s with
  | .error e => .error (.decoder e)
  | .ok (h, m) =>
    match m.mapM (objects lib now s) with
    | .error e => .error (.grain e)
    | .ok os => .ok (h, os)

/-- `load` on an asynchronous file (lines 141-142), awaited; `strict` for an `AsyncBytesIO`. Simplifications as for `load`. -/
def loadA (strict : Bool) (lib : Lib) (now : Int) (s : Bytes) (concat : Option Bool) : Except LoadErr (Hdr × List (Nat × List Obj)) :=
  match decodeAllA strict (concat.getD true) s with
  | .error e => .error (.decoder e)
  | .ok (h, m) =>
    match m.mapM (objects lib now s) with
    | .error e => .error (.grain e)
    | .ok os => .ok (h, os)

/-- `loads`, lines 86-106. Line 106 does not hand on the keyword arguments. -/
def loads (lib : Lib) (now : Int) (s : Bytes) (_concat : Option Bool) : Except LoadErr (Hdr × List (Nat × List Obj)) :=
  load lib now s none

end Verif.Easy

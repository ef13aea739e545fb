import Verif.Gsf.Async
import Verif.Gsf.Group

/-!
# `load` of an asynchronous file: `GSFDecoder._asynchronously_decode`

Models `mediagrains/gsf.py` lines 1477-1488.
-/

namespace Verif.Gsf

/-- The `async for` of lines 1480-1483: resume the generator until it ends.  In the mode used here no data is deferred, so line 1208
refuses no grain.  The first number bounds the turns; `decodeAllA` gives more than there can be. -/
def collectA (strict : Bool) (o : Opts) (s : Stream) : Nat → Nat → Hdr → Bool → Nat → Run
  | 0, _, h, _, _ => ⟨[], h, .err .fuel⟩
  | n + 1, f, h, hc, p =>
    match pull strict o s f h hc p with
    | .done h' e => ⟨[], h', e⟩
    | .item it f' h' p' =>
      let r := collectA strict o s n f' h' false p'
      { r with items := it :: r.items }

/-- `_asynchronously_decode`, lines 1477-1488; `strict` for an `AsyncBytesIO`.  Leaving the block has no grain to load (C88 says which
files are closed then). -/
def decodeAllA (strict : Bool) (concat : Bool) (file : Bytes) : Except Err (Hdr × Groups) :=
  match openA strict file with
  | .error e => .error e
  | .ok st =>
    match st.gen with
    | none => .error .fuel
    | some (f, h, hc) =>
      let r := collectA strict { mode := .loadImmediately, concat := concat } ⟨0, file⟩ (file.length + 2) f h hc st.pos
      match r.ending with
      | .err e => .error e
      | _ => .ok (r.hdr, groupItems r.items)

end Verif.Gsf

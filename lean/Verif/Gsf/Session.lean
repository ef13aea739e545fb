import Verif.Gsf.Whole
import Verif.IO.IOBytes

/-!
# Decoder sessions that are read in parts

Models `GSFDecoder` as a context manager and the generators of `GSFSyncDecoderSession`
(`mediagrains/gsf.py:1218-1511`): a generator can be left and continued, several generators can be open on one
session, and the decoder can be entered again.  All of them share the position of one file.
-/

namespace Verif.Session

open Verif Verif.Gsf

/-- What one `next(generator)` gives: a grain, `StopIteration`, or an exception. -/
inductive Pulled where
  | item (it : Item) | stop | raised (e : Err)
  deriving DecidableEq, Repr

/-- The position of the file after an `EOFError` in a turn that began at `p` (`gsf.py:1289-1341`).  While the tag and size of a block
or the version of a concatenated file are read, all bytes there are have been read.  Inside a block `__exit__` seeks to the end of the
block, also if the file does not reach that far (`gsf.py:527-538`); when the file cannot be sought the position is not modelled. -/
def eofPos (o : Opts) (s : Stream) (hc : Bool) (p : Nat) : Option Nat :=
  if hc then some (max p s.fin)
  else
    match enter none false s p with
    | .error _ => some (max p s.fin)
    | .ok (b, _) => if o.seekable then some b.endPos else none

/-- The position after another exception: the blocks that were entered are left, and `__exit__` seeks to their end.  If the exception
came from reading the tag of a block or the headers of a concatenated file the position is not modelled. -/
def raisedPos (o : Opts) (s : Stream) (hc : Bool) (p : Nat) : Option Nat :=
  if hc then none
  else
    match enter none false s p with
    | .error _ => none
    | .ok (b, _) => if o.seekable then some b.endPos else none

/-- The generator body from where it was left to the next `yield` or its end (`gsf.py:1287-1341`).  At a `yield` the block was
left, so that the file is at the end of the block; `have_concatenation` is false there.  The third component is the position of the
file afterwards.  `none`: the position is not modelled.  The fuel is supplied by `pull`
and proved sufficient. -/
def pullLoop (o : Opts) (s : Stream) : Nat → Hdr → Bool → Nat → Pulled × Hdr × Option Nat
  | 0, h, _, _ => (.raised .fuel, h, none)
  | fuel + 1, h, hc, p =>
    match grainsStep o h hc s p with
    | .error .eof => (.stop, h, eofPos o s hc p)
    | .error e => (.raised e, h, raisedPos o s hc p)
    | .ok (.stop, q) => (.stop, h, some q)
    | .ok (.next h' hc', q) => pullLoop o s fuel h' hc' q
    | .ok (.yield it, q) => (.item it, h, some q)

/-- `next(generator)` with the file at position `p`. -/
def pull (o : Opts) (file : Bytes) (h : Hdr) (hc : Bool) (p : Nat) : Pulled × Hdr × Option Nat :=
  pullLoop o ⟨0, file⟩ (file.length - p + 1) h hc p

/-- A generator object: the arguments of `grains()` (`gsf.py:1269-1272`), the session it belongs to, and whether it can still
run. -/
structure Gen where
  ids : Option (List Nat)
  mode : Mode
  visit : Nat
  live : Bool
  deriving DecidableEq, Repr

/-- The loading mode that the deprecated `GSFDecoder.grains(local_ids, skip_data, load_lazily)` asks for (`gsf.py:1467-1472`). -/
def oldMode (skipData loadLazily : Bool) : Mode :=
  if loadLazily then .alwaysLoadDeferIfPossible
  else if skipData then .loadNever
  else .loadImmediately

/-- A decoder on one file (`gsf.py:1357-1396`): the file's position, the headers of each session that was made (`_open_session` is the
last), the generators, and the grains that were delivered. -/
structure Dec where
  pos : Option Nat
  sessions : List Hdr
  gens : List Gen
  got : List Item
  deriving DecidableEq, Repr

/-- A decoder made for a file at its start. -/
def Dec.start : Dec := ⟨some 0, [], [], []⟩

/-- What a program does. -/
inductive Op where
  /-- `__enter__` or `decode_file_headers()` (`gsf.py:1398-1406`, `1434-1446`). -/
  | enter
  /-- `grains(local_ids, loading_mode)` on the last session. -/
  | grains (ids : Option (List Nat)) (mode : Mode)
  /-- `next()` on the `k`-th generator. -/
  | next (k : Nat)
  /-- `close()` on the `k`-th generator, or dropping it. -/
  | close (k : Nat)
  /-- Taking the data of the `k`-th grain that was delivered. -/
  | load (k : Nat)
  /-- `file_headers` of the last session. -/
  | headers
  deriving DecidableEq, Repr

/-- What the program sees. -/
inductive Out where
  | entered (h : Hdr)
  | made (k : Nat)
  | grain (info : Meta) (localId : Nat)
  | stop
  | closed
  | data (d : Option Bytes)
  | headers (h : Hdr)
  | raised (e : Err)
  /-- There is no such generator or grain, or no session ("Cannot access grains when no headers have been decoded"). -/
  | missing
  /-- The file's position is not modelled any more. -/
  | unmodelled
  deriving DecidableEq, Repr

/-- The data of a delivered grain, and the file's position afterwards: an `IOBytes` seeks to its range, reads and seeks back
(`utils/iobytes.py:138-145`); data that was read is there. -/
def fetch (file : Bytes) (p : Option Nat) : Data → Option Bytes × Option Nat
  | .none => (none, p)
  | .bytes bs => (some bs, p)
  | .deferred start length =>
    let r := (IO.IOB.mk start length none 0).loadbytes ⟨file, p.getD 0⟩
    (some r.1, p.map (fun _ => r.2.pos))

/-- One operation.  `concat` and `seekable` are fixed for the decoder and its file.  The session keeps its headers when entering
fails, but the exception leaves the program without it: no session is recorded then. -/
def step (concat seekable : Bool) (file : Bytes) (d : Dec) : Op → Dec × Out
  | .enter =>
    match d.pos with
    | none => (d, .unmodelled)
    | some p =>
      match decodeFileHeaders false ⟨0, file⟩ p with
      | .error e => ({ d with pos := none }, .raised e)
      | .ok (h, q) => ({ d with pos := some q, sessions := d.sessions ++ [h] }, .entered h)
  | .grains ids mode =>
    if d.sessions = [] then (d, .missing)
    else ({ d with gens := d.gens ++ [⟨ids, mode, d.sessions.length - 1, true⟩] }, .made d.gens.length)
  | .next k =>
    match d.gens[k]? with
    | none => (d, .missing)
    | some g =>
      if g.live = false then (d, .stop)
      else
        match d.pos, d.sessions[g.visit]? with
        | some p, some h =>
          let r := pull ⟨g.ids, g.mode, concat, seekable⟩ file h false p
          let d' := { d with pos := r.2.2, sessions := d.sessions.set g.visit r.2.1 }
          match r.1 with
          | .item it => ({ d' with got := d.got ++ [it] }, .grain it.info it.localId)
          | .stop => ({ d' with gens := d.gens.set k { g with live := false } }, .stop)
          | .raised e => ({ d' with gens := d.gens.set k { g with live := false } }, .raised e)
        | _, _ => (d, .unmodelled)
  | .close k =>
    match d.gens[k]? with
    | none => (d, .missing)
    | some g => ({ d with gens := d.gens.set k { g with live := false } }, .closed)
  | .load k =>
    match d.got[k]? with
    | none => (d, .missing)
    | some it =>
      let r := fetch file d.pos it.data
      ({ d with pos := r.2 }, .data r.1)
  | .headers =>
    match d.sessions.getLast? with
    | none => (d, .missing)
    | some h => (d, .headers h)

/-- A program: the outputs of its operations. -/
def outputs (concat seekable : Bool) (file : Bytes) : Dec → List Op → List Out
  | _, [] => []
  | d, op :: ops => (step concat seekable file d op).2 :: outputs concat seekable file (step concat seekable file d op).1 ops

/-! ## Unfolding without a bound -/

theorem pullLoop_fuel (o : Opts) (s : Stream) : ∀ (f1 f2 : Nat) (h : Hdr) (hc : Bool) (p : Nat),
    s.base ≤ p → s.fin - p < f1 → s.fin - p < f2 → pullLoop o s f1 h hc p = pullLoop o s f2 h hc p := by
  intro f1
  induction f1 with
  | zero => intro f2 h hc p _ h1; omega
  | succ f1 ih =>
    intro f2 h hc p hb h1 h2
    cases f2 with
    | zero => omega
    | succ f2 =>
      simp only [pullLoop]
      cases hs : grainsStep o h hc s p with
      | error e => cases e <;> rfl
      | ok v =>
        obtain ⟨st, q⟩ := v
        have := grainsStep_progress hb hs
        cases st with
        | stop => rfl
        | next h' hc' => exact ih _ _ _ _ (by omega) (by omega) (by omega)
        | yield it => rfl

theorem pull_eq (o : Opts) (file : Bytes) (h : Hdr) (hc : Bool) (p : Nat) :
    pull o file h hc p =
      match grainsStep o h hc ⟨0, file⟩ p with
      | .error .eof => (.stop, h, eofPos o ⟨0, file⟩ hc p)
      | .error e => (.raised e, h, raisedPos o ⟨0, file⟩ hc p)
      | .ok (.stop, q) => (.stop, h, some q)
      | .ok (.next h' hc', q) => pull o file h' hc' q
      | .ok (.yield it, q) => (.item it, h, some q) := by
  have hfin : (⟨0, file⟩ : Stream).fin = file.length := by simp [Stream.fin]
  conv => lhs; unfold pull pullLoop
  cases hs : grainsStep o h hc ⟨0, file⟩ p with
  | error e => cases e <;> rfl
  | ok v =>
    obtain ⟨st, q⟩ := v
    have := grainsStep_progress (Nat.zero_le _) hs
    rw [hfin] at this
    cases st with
    | stop => rfl
    | next h' hc' =>
      exact pullLoop_fuel _ _ _ _ _ _ _ (Nat.zero_le _) (by rw [hfin]; omega) (by rw [hfin]; omega)
    | yield it => rfl

end Verif.Session

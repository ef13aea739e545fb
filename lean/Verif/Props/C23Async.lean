import Verif.Gsf.GroupAsync
import Verif.Props.C23
import Verif.Props.C24Bytes

/-!
# C23: the dictionary of the grains of an asynchronous file

What `load` gives for an asynchronous file is what it gives for the same bytes in a synchronous one.
-/

namespace Verif.Props

open Verif Verif.Gsf

namespace C23A

theorem pull_fuel {strict : Bool} {o : Opts} {s : Stream} : ∀ (f : Nat) (h : Hdr) (hc : Bool) (p : Nat) {it f' h' p'},
    pull strict o s f h hc p = .item it f' h' p' → f' < f := by
  intro f
  induction f with
  | zero => intro h hc p it f' h' p' e; cases e
  | succ f ih =>
    intro h hc p it f' h' p' e
    rw [pull] at e
    split at e
    · cases e
    · cases e
    · cases e
    · exact Nat.lt_succ_of_lt (ih _ _ _ e)
    · cases e; exact Nat.lt_succ_self f

theorem collect_file {o : Opts} {s : Stream} : ∀ (n f : Nat) (h : Hdr) (hc : Bool) (p : Nat), f < n →
    collectA false o s n f h hc p = grainsLoop o s f h hc p := by
  intro n
  induction n with
  | zero => intro f h hc p hn; omega
  | succ n ih =>
    intro f h hc p hn
    rw [collectA, grainsLoop_pull]
    cases hp : pull false o s f h hc p with
    | done h' e => rfl
    | item it f' h' p' =>
      have := pull_fuel _ _ _ _ hp
      simp only
      rw [ih f' h' false p' (by omega)]

theorem collect_bytes {o : Opts} {s : Stream} : ∀ (n f : Nat) (h : Hdr) (hc : Bool) (p : Nat), f < n →
    collectA true o s n f h hc p = grainsLoopD .asyncBytesIO o s f h hc p := by
  intro n
  induction n with
  | zero => intro f h hc p hn; omega
  | succ n ih =>
    intro f h hc p hn
    rw [collectA, AsyncBytes.grainsLoopD_pull]
    cases hp : pull true o s f h hc p with
    | done h' e => rfl
    | item it f' h' p' =>
      have := pull_fuel _ _ _ _ hp
      simp only
      rw [ih f' h' false p' (by omega)]

/-- What is done with the outcome of decoding. -/
def gather : Except Err Run → Except Err (Hdr × Groups)
  | .error e => .error e
  | .ok r =>
    match r.ending with
    | .err e => .error e
    | _ => .ok (r.hdr, groupItems r.items)

theorem all_bytes (concat : Bool) (file : Bytes) :
    decodeAllA true concat file = gather (decodeD .asyncBytesIO { mode := .loadImmediately, concat := concat } file) := by
  unfold decodeAllA openA decodeD
  rw [Dev.asyncBytesIO, decodeFileHeadersD_strict]
  cases decodeFileHeadersA true false ⟨0, file⟩ 0 with
  | error e => rfl
  | ok v =>
    simp only [gather]
    rw [collect_bytes _ _ _ _ _ (by omega), Dev.asyncBytesIO]
    rfl

theorem all_sync (concat : Bool) (file : Bytes) :
    decodeAll concat file = gather (decodeD .file { mode := .loadImmediately, concat := concat } file) := by
  rw [decodeD_file]
  unfold decodeAll
  cases decodeFile { mode := .loadImmediately, concat := concat } file <;> rfl

end C23A

/-- **C23** for an asynchronous file of any kind but `AsyncBytesIO`: for all bytes the same headers and the same dictionary, or the same
exception, as for a synchronous file. -/
theorem C23_async (concat : Bool) (file : Bytes) : decodeAllA false concat file = decodeAll concat file := by
  unfold decodeAllA openA decodeAll decodeFile
  rw [decodeFileHeadersA_false]
  cases decodeFileHeaders false ⟨0, file⟩ 0 with
  | error e => rfl
  | ok v =>
    simp only
    rw [C23A.collect_file _ _ _ _ _ (by omega)]
    rfl

/-- **C23** for an `AsyncBytesIO` that holds files written whole, one after the other, with unknown blocks. -/
theorem C23_bytesio (f : FileSpec) (bs : Bytes) (hf : f.Ok) (hd : DecoFile f bs) (fs : List (FileSpec × Bytes))
    (hfs : ∀ x ∈ fs, x.1.Ok ∧ DecoFile x.1 x.2) :
    decodeAllA true true (bs ++ fs.flatMap Prod.snd) = decodeAll true (bs ++ fs.flatMap Prod.snd) := by
  obtain ⟨r, h1, -⟩ := decodeD_concat (o := { mode := .loadImmediately }) rfl hf hd hfs
  rw [C23A.all_bytes, C23A.all_sync, h1, h1]

/-- The same without concatenation support: one file written whole, followed by anything. -/
theorem C23_bytesio_single (f : FileSpec) (bs : Bytes) (hf : f.Ok) (hd : DecoFile f bs) (rest : Bytes) :
    decodeAllA true false (bs ++ rest) = decodeAll false (bs ++ rest) := by
  obtain ⟨r, h1, -⟩ := decodeD_single (o := { mode := .loadImmediately, concat := false }) rfl hf hd rest
  rw [C23A.all_bytes, C23A.all_sync, h1, h1]

/-- How many grains there are for each local id. -/
def C23_counts (r : Except Err (Hdr × Groups)) : Option (List (Nat × Nat)) :=
  r.toOption.map (fun x => x.2.map (fun e => (e.1, e.2.length)))

/-- A file cut inside its last grain loses this grain in an `AsyncBytesIO`, and keeps it, shortened, in any other file. -/
theorem C23_bytesio_counterexample :
    C23_counts (decodeAllA true true (asyncSample.bytes.take 915)) = some [(1, 2), (300, 1)] ∧
      C23_counts (decodeAllA false true (asyncSample.bytes.take 915)) = some [(1, 3), (300, 1)] := by
  constructor <;> decide +kernel

/-- A case: two local ids in a file that is read asynchronously. -/
example : C23_counts (decodeAllA false true sample.bytes) = C23_counts (decodeAll true sample.bytes) ∧
    C23_counts (decodeAllA true true sample.bytes) = C23_counts (decodeAll true sample.bytes) ∧
    ((C23_counts (decodeAll true sample.bytes)).map List.length) = some 2 := by
  refine ⟨by rw [C23_async], ?_, ?_⟩ <;> decide +kernel

end Verif.Props

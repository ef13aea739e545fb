import Verif.Gsf.Pipe
import Verif.Props.C09

/-!
# C51: decoding from standard input
-/

namespace Verif.Props

open Verif Verif.Gsf

/-! ## The wrapper around the pipe -/

namespace PipeLemmas

theorem readLoop_ok (d : Delivery) (hd : d.Ok) : ∀ (fuel : Nat) (rest out : Bytes) (s : Nat), s ≤ fuel → s ≤ rest.length →
    Pipe.readLoop d fuel rest out s = (.ok (out ++ rest.take s), rest.drop s) := by
  intro fuel
  induction fuel with
  | zero =>
    intro rest out s h _
    obtain rfl : s = 0 := by omega
    simp [Pipe.readLoop]
  | succ fuel ih =>
    intro rest out s h hl
    simp only [Pipe.readLoop]
    by_cases h0 : s = 0
    · rw [if_pos h0, h0]; simp
    · rw [if_neg h0]
      obtain ⟨h1, h2, h3⟩ := hd s rest.length
      have h3 := h3 (by omega) (by omega)
      rw [if_neg (by omega), ih _ _ _ (by omega) (by simp only [List.length_drop]; omega)]
      generalize d s rest.length = k at *
      have e : s = k + (s - k) := by omega
      conv => rhs; rw [e, List.take_add, ← List.append_assoc, ← List.drop_drop]

theorem readLoop_eof (d : Delivery) (hd : d.Ok) : ∀ (fuel : Nat) (rest out : Bytes) (s : Nat), s ≤ fuel → rest.length < s →
    Pipe.readLoop d fuel rest out s = (.error .eof, []) := by
  intro fuel
  induction fuel with
  | zero => intro rest out s h h'; omega
  | succ fuel ih =>
    intro rest out s h hl
    simp only [Pipe.readLoop]
    rw [if_neg (by omega)]
    obtain ⟨h1, h2, h3⟩ := hd s rest.length
    by_cases hr : rest = []
    · subst hr
      simp only [List.length_nil] at h2 ⊢
      rw [if_pos (by omega)]
    · have hp : 0 < rest.length := List.length_pos_iff.2 hr
      have h3 := h3 (by omega) hp
      rw [if_neg (by omega), ih _ _ _ (by omega) (by simp only [List.length_drop]; omega)]

end PipeLemmas

/-- **C51**, reading.  However the pipe cuts up what it delivers, a read gives exactly the next `n` bytes
and moves on by `n`; if fewer are left it raises `EOFError`. -/
theorem C51_read (d : Delivery) (hd : d.Ok) (file : Bytes) (p n : Nat) :
    Pipe.read d ⟨file.drop p, p⟩ n =
      if n ≤ (file.drop p).length then (.ok ((file.drop p).take n), ⟨file.drop (p + n), p + n⟩)
      else (.error .eof, ⟨[], p⟩) := by
  unfold Pipe.read
  by_cases h : n ≤ (file.drop p).length
  · rw [if_pos h, PipeLemmas.readLoop_ok d hd n _ _ _ (Nat.le_refl _) h]
    simp only [List.nil_append, List.length_take, List.drop_drop]
    rw [Nat.min_eq_left h]
  · rw [if_neg h, PipeLemmas.readLoop_eof d hd n _ _ _ (Nat.le_refl _) (Nat.lt_of_not_le h)]

/-- **C51**, seeking.  Over `sys.stdin.buffer`, seeking forwards puts the stream where a file would be;
seeking backwards raises and moves nothing. -/
theorem C51_seek (file : Bytes) (p q : Nat) :
    Pipe.seek .full ⟨file.drop p, p⟩ q =
      if p ≤ q then (.ok (), ⟨file.drop q, q⟩) else (.error .notImplemented, ⟨file.drop p, p⟩) := by
  unfold Pipe.seek
  by_cases h : p ≤ q
  · rw [if_pos h, if_neg (by simp only; omega)]
    simp only
    by_cases h0 : q - p = 0
    · obtain rfl : q = p := by omega
      rw [if_pos h0]
    · rw [if_neg h0]
      congr 2
      rw [Delivery.full, List.drop_drop, List.length_drop]
      by_cases hl : q ≤ file.length
      · rw [Nat.min_eq_left (by omega)]; congr 1; omega
      · rw [List.drop_eq_nil_of_le (by omega), List.drop_eq_nil_of_le (by omega)]
  · rw [if_neg h, if_pos (by simp only; omega)]

/-- Seeking does not cope with a pipe that delivers less than was asked for: the stream is then not where
it says it is. -/
theorem C51_seek_short_counterexample :
    ∃ d : Delivery, d.Ok ∧ (Pipe.seek d ⟨[1, 2, 3, 4], 0⟩ 3).2 = ⟨[2, 3, 4], 3⟩ := by
  refine ⟨fun n left => min 1 (min n left), fun n left => ?_, by decide⟩
  simp only
  omega

example : Delivery.full.Ok := fun n left => by unfold Delivery.full; omega

/-- The reader that `decodePipe` uses does what the wrapper does: a read of the decoder is a read of the
wrapper. -/
theorem C51_reader_read (d : Delivery) (hd : d.Ok) (file : Bytes) (p n : Nat) :
    readRawA Dev.pipe.strict n ⟨0, file⟩ p =
      match Pipe.read d ⟨file.drop p, p⟩ n with
      | (.ok bs, st) => .ok (bs, st.pos)
      | (.error _, _) => .error .eof := by
  rw [C51_read d hd]
  simp only [readRawA, Dev.pipe, Bool.true_and, decide_eq_true_eq, Nat.sub_zero]
  by_cases h : n ≤ (file.drop p).length
  · rw [if_pos h]
    simp only [List.length_take]
    rw [Nat.min_eq_left h, if_neg (by omega)]
  · rw [if_neg h]
    simp only [List.length_take]
    rw [Nat.min_eq_right (by omega), if_pos (by omega)]

/-- And leaving a block is a seek of the wrapper whose exception is swallowed. -/
theorem C51_reader_exit (file : Bytes) (p : Nat) (b : Block) :
    ∃ q, b.exitD .pipe ⟨0, file⟩ p = .ok ((), q) ∧ Pipe.exit .full ⟨file.drop p, p⟩ b = ⟨file.drop q, q⟩ := by
  refine ⟨max p b.endPos, rfl, ?_⟩
  unfold Pipe.exit
  rw [C51_seek]
  split
  · rw [Nat.max_eq_right ‹_›]
  · rw [Nat.max_eq_left (by omega)]

/-! ## Decoding -/

namespace PipeLemmas

theorem viewOf_pipe (o : Opts) : Opts.viewOf { o with seekable := false } = o.viewOf := by
  funext major x
  unfold Opts.viewOf
  congr 2
  have : ((Opts.defers { o with seekable := false } = false ∧ o.mode = .loadNever) ↔
      (o.defers = false ∧ o.mode = .loadNever)) := by
    constructor
    · rintro ⟨_, h⟩
      exact ⟨by simp [Opts.defers, h], h⟩
    · rintro ⟨_, h⟩
      exact ⟨by simp [Opts.defers], h⟩
  by_cases h : o.defers = false ∧ o.mode = .loadNever
  · rw [if_pos h, if_pos (this.2 h)]
  · rw [if_neg h, if_neg (fun h' => h (this.1 h'))]

end PipeLemmas

/-- **C51.** Decoding any sequence of written files (with unknown blocks anywhere) from standard input
gives the same grains with the same data, the same headers and the same end as decoding the same bytes from
a file, for every choice of local ids and every loading mode. -/
theorem C51_stdin_same (o : Opts) (hc : o.concat = true) (f : FileSpec) (bs : Bytes) (hf : f.Ok) (hd : DecoFile f bs)
    (fs : List (FileSpec × Bytes)) (hfs : ∀ x ∈ fs, x.1.Ok ∧ DecoFile x.1 x.2) :
    ∃ r r', decodePipe o (bs ++ fs.flatMap Prod.snd) = .ok r ∧ decodeFile o (bs ++ fs.flatMap Prod.snd) = .ok r' ∧
      r.view (bs ++ fs.flatMap Prod.snd) = r'.view (bs ++ fs.flatMap Prod.snd) ∧
      r.hdr = r'.hdr ∧ r.ending = r'.ending := by
  obtain ⟨r, h1, h2, h3, h4, -⟩ := decodeD_concat (o := { o with seekable := false }) hc hf hd hfs
  obtain ⟨r', h1', h2', h3', h4'⟩ := decodeFile_concat hc hf hd hfs
  refine ⟨r, r', h1 _, h1', ?_, by rw [h3, h3'], by rw [h4, h4']⟩
  rw [h2, h2', PipeLemmas.viewOf_pipe]
  rfl

/-- **C51** without concatenation support: one written file, followed by anything. -/
theorem C51_stdin_single (o : Opts) (hc : o.concat = false) (f : FileSpec) (bs : Bytes) (hf : f.Ok)
    (hd : DecoFile f bs) (rest : Bytes) :
    ∃ r r', decodePipe o (bs ++ rest) = .ok r ∧ decodeFile o (bs ++ rest) = .ok r' ∧
      r.view (bs ++ rest) = r'.view (bs ++ rest) ∧ r.hdr = r'.hdr ∧ r.ending = r'.ending := by
  obtain ⟨r, h1, h2, h3, h4, -⟩ := decodeD_single (o := { o with seekable := false }) hc hf hd rest
  obtain ⟨r', h1', h2', h3', h4'⟩ := decodeFile_single hc hf hd rest
  refine ⟨r, r', h1 _, h1', ?_, by rw [h3, h3'], by rw [h4, h4']⟩
  rw [h2, h2', PipeLemmas.viewOf_pipe]
  rfl

/-- **C51**, contents: what comes from standard input is exactly what was written. -/
theorem C51_stdin_contents (f : FileSpec) (hf : f.Ok) (hp : PlainFile f) (o : Opts) (hc : o.concat = true)
    (hl : o.localIds = none) (hm : o.mode ≠ .loadNever) :
    ∃ r, decodePipe o f.bytes = .ok r ∧ r.view f.bytes = contents f ∧ r.hdr = hdrOf f ∧ r.ending = .eof := by
  obtain ⟨r, h1, h2, h3, h4, -⟩ := decodeD_concat (o := { o with seekable := false }) hc hf (decoFile_self hf)
    (fs := []) (by simp)
  simp only [List.flatMap_nil, List.append_nil, List.foldl_nil, List.flatMap_cons] at h1 h2 h3
  refine ⟨r, h1 _, ?_, h3, h4⟩
  rw [h2, PipeLemmas.viewOf_pipe]
  exact viewOf_plain hf hp hl hm

/-- Nothing is ever deferred on a pipe: all data handed out is bytes. -/
theorem C51_never_deferred (o : Opts) (grai : Block) (s : Stream) (p q a n : Nat) :
    readGrdtD .pipe { o with seekable := false } grai s p ≠ .ok (.deferred a n, q) := by
  intro h
  unfold readGrdtD at h
  simp only [Bool.false_and, Bool.false_eq_true, if_false] at h
  obtain ⟨c, q1, -, h⟩ := Rd.bind_ok h
  rw [Rd.ite_apply] at h
  split at h
  · obtain ⟨b, q2, -, h⟩ := Rd.bind_ok h
    obtain ⟨r, q3, -, h⟩ := Rd.bind_ok h
    rw [Rd.ite_apply] at h
    split at h
    · rw [Rd.ite_apply] at h
      split at h
      · obtain ⟨_, q4, -, h⟩ := Rd.bind_ok h
        obtain ⟨_, q5, -, h⟩ := Rd.bind_ok h
        simp at h
      · obtain ⟨_, q4, -, h⟩ := Rd.bind_ok h
        obtain ⟨_, q5, -, h⟩ := Rd.bind_ok h
        simp at h
    · obtain ⟨_, q4, -, h⟩ := Rd.bind_ok h
      simp at h
  · simp at h

/-! ## Files that were not written whole -/

/-- **C51 fails** for a file cut inside the data of its last grain: from a file the grain comes with the
bytes that are there, from standard input it does not come at all. -/
theorem C51_truncated_counterexample :
    (decodeFile { mode := .loadImmediately } (sample.bytes.take (sample.bytes.length - 9))).toOption.map
      (fun r => (r.items.length, r.ending)) = some (7, .eof) ∧
    (decodePipe { mode := .loadImmediately } (sample.bytes.take (sample.bytes.length - 9))).toOption.map
      (fun r => (r.items.length, r.ending)) = some (6, .eof) := by
  constructor <;> decide +kernel

/-- A file whose only grain has a data block that claims to reach past the end of the grain, into the
next. -/
def overrun : Bytes :=
  encodeFileHeader 9 0 ++ (encodeHead sampleHead ++
    (tagBytes tGrai ++ encodeUint (10 + gbhdSize 9 gEmpty + 8) 4 ++ encodeUint 1 2 ++ (gbhdBlk 9 gEmpty).bytes ++
      tagBytes tGrdt ++ encodeUint (8 + 4) 4) ++
    (encodeGrain 9 1 gVideo ++ terminator))

/-- **C51 fails** for such a file: leaving the grain would mean seeking back, which a pipe can not do and
which is silently skipped, so that from standard input the next grain is lost. -/
theorem C51_overrun_counterexample :
    (decodeFile {} overrun).toOption.map (fun r => (r.items.length, r.ending)) = some (2, .eof) ∧
    (decodePipe {} overrun).toOption.map (fun r => (r.items.length, r.ending)) = some (1, .eof) := by
  constructor <;> decide +kernel

/-! ## Witnesses -/

/-- The hypotheses are met by two different files, the second with unknown blocks. -/
example : sample.Ok ∧ DecoFile sample sample.bytes ∧ sample7.Ok ∧ DecoFile sample7 sample7.bytes :=
  ⟨sample_ok, decoFile_self sample_ok, sample7_ok, decoFile_self sample7_ok⟩

example : (decodePipe {} sample.bytes).toOption.map (fun r => (r.items.length, r.ending)) = some (7, .eof) := by
  decide +kernel

end Verif.Props

import Verif.Props.C82

/-!
# C83: joining files whose writers did not finish
-/

namespace Verif.Props

open Verif Verif.Gsf

/-! ## Specification -/

/-- One of the files that are joined: what is in it, and whether its writer got as far as the terminator. -/
structure Piece where
  spec : FileSpec
  finished : Bool
  deriving DecidableEq

/-- Its bytes: those of the file, without the terminator if its writer did not finish. -/
def Piece.bytes (x : Piece) : Bytes :=
  encodeFileHeader x.spec.major x.spec.minor ++ (encodeHead x.spec.head ++
    (x.spec.grains.flatMap (fun y => encodeGrain x.spec.major y.1 y.2) ++ (if x.finished then terminator else [])))

/-- The grains of it that are asked for, as a program is to see them. -/
def Piece.seen (o : Opts) (x : Piece) : List (Meta × Option Bytes × Nat) :=
  (x.spec.grains.filter (fun y => !o.drops y.1)).map (o.viewOf x.spec.major)

/-! ## Proofs -/

namespace C83

theorem turns {o : Opts} (hc : o.concat = true) {x : Piece} (hx : x.spec.Ok) (p : Nat) :
    ∃ items, Turns o p x.spec.hdr false (x.spec.grains.flatMap (fun y => encodeGrain x.spec.major y.1 y.2) ++
        (if x.finished then terminator else [])) items x.spec.hdr false ∧
      ∀ file, At ⟨0, file⟩ p (x.spec.grains.flatMap (fun y => encodeGrain x.spec.major y.1 y.2) ++ (if x.finished then terminator else [])) →
        items.map (Item.view file) = x.seen o := by
  have hg := decoGrains_self x.spec.grains hx.grains
  cases hf : x.finished with
  | true =>
    obtain ⟨items, h1, h2⟩ := file_turns (post := []) hc x.spec hg (fun _ h => by simp at h) p
    refine ⟨items, ?_, fun file hat => h2 file ?_⟩
    · simpa [blksBytes] using h1
    · simpa [blksBytes] using hat
  | false =>
    obtain ⟨items, h1, h2⟩ := DecoGrains.turns o x.spec.hdr hg p
    refine ⟨items, ?_, fun file hat => h2 file ?_⟩
    · simpa using h1
    · simpa using hat

theorem next_turns {o : Opts} (hc : o.concat = true) {x : Piece} (hx : x.spec.Ok) (h : Hdr) (p : Nat) :
    ∃ items, Turns o p h false x.bytes items x.spec.hdr false ∧ ∀ file, At ⟨0, file⟩ p x.bytes → items.map (Item.view file) = x.seen o := by
  have e : x.bytes = signature ++ (((encodeUint x.spec.major 2 ++ encodeUint x.spec.minor 2) ++ (blksBytes [] ++ (headBlk x.spec.head).bytes)) ++
      (x.spec.grains.flatMap (fun y => encodeGrain x.spec.major y.1 y.2) ++ (if x.finished then terminator else []))) := by
    unfold Piece.bytes
    rw [encodeHead_eq _ hx.head.wf]
    simp [encodeFileHeader, signature, blksBytes]
  rw [e]
  obtain ⟨items, h1, h2⟩ := turns hc hx (p + signature.length +
    ((encodeUint x.spec.major 2 ++ encodeUint x.spec.minor 2) ++ (blksBytes [] ++ (headBlk x.spec.head).bytes)).length)
  refine ⟨items, ?_, fun file hat => h2 file hat.right.right⟩
  refine .next (h1 := h) (hc1 := true) ?_ (.next (h1 := x.spec.hdr) (hc1 := false) ?_ h1)
  · intro s hat
    rw [signature_step o _ _ s hat, hc, if_pos rfl]
    rfl
  · intro s hat
    unfold grainsStep
    rw [if_pos rfl]
    rw [Rd.bind_of_ok (headers_read hx.major hx.minor hx.head (decoHead_self hx.head) (fun _ h => by simp at h) s _ hat)]
    rfl

theorem all_turns {o : Opts} (hc : o.concat = true) {xs : List Piece} (hx : ∀ x ∈ xs, x.spec.Ok) (h : Hdr) (p : Nat) :
    ∃ items, Turns o p h false (xs.flatMap Piece.bytes) items (xs.foldl (fun _ x => x.spec.hdr) h) false ∧
      ∀ file, At ⟨0, file⟩ p (xs.flatMap Piece.bytes) → items.map (Item.view file) = xs.flatMap (Piece.seen o) := by
  induction xs generalizing h p with
  | nil => exact ⟨[], .nil, fun _ _ => rfl⟩
  | cons x xs ih =>
    obtain ⟨i1, t1, v1⟩ := next_turns hc (hx x (by simp)) h p
    obtain ⟨i2, t2, v2⟩ := ih (fun y hy => hx y (by simp [hy])) x.spec.hdr (p + x.bytes.length)
    refine ⟨i1 ++ i2, t1.append t2, fun file hat => ?_⟩
    rw [List.flatMap_cons] at hat
    rw [List.map_append, v1 file hat.left, v2 file hat.right, List.flatMap_cons]

/-- The bytes of the headers. -/
def headBytes (f : FileSpec) : Bytes := encodeFileHeader f.major f.minor ++ encodeHead f.head

theorem open_at {f : FileSpec} (hf : f.Ok) {file : Bytes} (hat : At ⟨0, file⟩ 0 (headBytes f)) :
    decodeFileHeaders false ⟨0, file⟩ 0 = .ok (f.hdr, (headBytes f).length) := by
  have := fileHeaders_read hf.major hf.minor hf.head (decoHead_self hf.head) (pre := []) (fun _ h => by simp at h) ⟨0, file⟩ 0
  rw [← encodeHead_eq _ hf.head.wf] at this
  have h2 := this hat
  rw [h2]
  simp [headBytes, blksBytes, FileSpec.hdr]

/-- The bytes of a grain before its data do not depend on the data. -/
theorem swap_data (major lid : Nat) (g : Grain) (d : Bytes) : ∃ front, encodeGrain major lid g = front ++ g.data.getD [] ∧
    encodeGrain major lid { g with data := some d } = front ++ d :=
  ⟨tagBytes tGrai ++ encodeUint (graiSize major g) 4 ++ encodeUint lid 2 ++ encodeGbhd major g ++ (tagBytes tGrdt ++ encodeUint (8 + g.length : Nat) 4),
    by simp only [encodeGrain, encodeGrdt, List.append_assoc], by
      show tagBytes tGrai ++ encodeUint (graiSize major g) 4 ++ encodeUint lid 2 ++ encodeGbhd major g ++ encodeGrdt { g with data := some d } = _
      simp only [encodeGrdt, List.append_assoc, Option.getD_some]⟩

theorem swap_ok {major : Nat} {g : Grain} (hg : g.Ok major) {d : Bytes} (hd : d.length = (g.data.getD []).length) :
    ({ g with data := some d } : Grain).Ok major :=
  ⟨⟨hg.wf.1, hg.wf.2.1, by simp only [Option.getD_some]; rw [hd]; exact hg.wf.2.2⟩, hg.origin, hg.sync, hg.rate, hg.duration, hg.tils, hg.til, hg.body,
    hg.size⟩

/-- A file that begins with some grains. -/
theorem begins (o : Opts) {f : FileSpec} (hf : f.Ok) (rest : Bytes) :
    ∃ r tail, decodeFile o (headBytes f ++ (f.grains.flatMap (fun y => encodeGrain f.major y.1 y.2) ++ rest)) = .ok r ∧
      r.view (headBytes f ++ (f.grains.flatMap (fun y => encodeGrain f.major y.1 y.2) ++ rest)) =
        (f.grains.filter (fun y => !o.drops y.1)).map (o.viewOf f.major) ++ tail := by
  generalize hfile : headBytes f ++ (f.grains.flatMap (fun y => encodeGrain f.major y.1 y.2) ++ rest) = file
  have hat : At ⟨0, file⟩ 0 (headBytes f ++ (f.grains.flatMap (fun y => encodeGrain f.major y.1 y.2) ++ rest)) := by
    rw [hfile]; exact at_self _ _
  have hh := open_at hf hat.left
  obtain ⟨i1, t1, v1⟩ := DecoGrains.turns o f.hdr (decoGrains_self f.grains hf.grains) (0 + (headBytes f).length)
  have r1 := t1.run (s := ⟨0, file⟩) (Nat.zero_le _) hat.right.left
  rw [Nat.zero_add] at r1
  refine ⟨grains o file f.hdr (headBytes f).length, (run o ⟨0, file⟩ f.hdr false ((headBytes f).length +
    (f.grains.flatMap (fun y => encodeGrain f.major y.1 y.2)).length)).view file, ?_, ?_⟩
  · unfold decodeFile; rw [hh]
  · rw [grains_eq_run, r1]
    simp only [Run.view, Run.prepend, List.map_append]
    rw [v1 file hat.right.left]
    rfl

end C83

/-! ## Theorems -/

/-- **C83.**  Files are joined; the writers of some of them did not finish, but each file ends after a whole grain or its head.  With support for
concatenation a program sees all grains of all files, in order, and no error. -/
theorem C83_joined {o : Opts} (hc : o.concat = true) {x : Piece} {xs : List Piece} (hx : ∀ y ∈ x :: xs, y.spec.Ok) :
    ∃ r, decodeFile o ((x :: xs).flatMap Piece.bytes) = .ok r ∧
      r.view ((x :: xs).flatMap Piece.bytes) = (x :: xs).flatMap (Piece.seen o) ∧
      r.hdr = (xs.foldl (fun _ y => y.spec.hdr) x.spec.hdr) ∧ r.ending = .eof := by
  generalize hfile : (x :: xs).flatMap Piece.bytes = file
  have hat : At ⟨0, file⟩ 0 (x.bytes ++ xs.flatMap Piece.bytes) := by
    rw [← List.flatMap_cons, hfile]; exact at_self _ _
  have hok := hx x (by simp)
  have hat1 := hat.left
  have e : x.bytes = C83.headBytes x.spec ++ (x.spec.grains.flatMap (fun y => encodeGrain x.spec.major y.1 y.2) ++
      (if x.finished then terminator else [])) := by simp [Piece.bytes, C83.headBytes]
  rw [e] at hat1
  have hh := C83.open_at hok hat1.left
  obtain ⟨i1, t1, v1⟩ := C83.turns hc hok (0 + (C83.headBytes x.spec).length)
  obtain ⟨i2, t2, v2⟩ := C83.all_turns hc (fun y hy => hx y (by simp [hy])) x.spec.hdr (0 + x.bytes.length) (xs := xs)
  have r1 := t1.run (s := ⟨0, file⟩) (Nat.zero_le _) hat1.right
  have r2 := t2.run (s := ⟨0, file⟩) (Nat.zero_le _) hat.right
  have r3 := run_end o (xs.foldl (fun _ x => x.spec.hdr) x.spec.hdr) (s := ⟨0, file⟩)
    (p := 0 + x.bytes.length + (xs.flatMap Piece.bytes).length) (Nat.zero_le _) (by
    unfold Stream.fin; simp only [← hfile, List.flatMap_cons, List.length_append]; omega)
  have hlen : 0 + (C83.headBytes x.spec).length + (x.spec.grains.flatMap (fun y => encodeGrain x.spec.major y.1 y.2) ++
      (if x.finished then terminator else [])).length = 0 + x.bytes.length := by
    rw [e, List.length_append (as := C83.headBytes x.spec)]; omega
  rw [hlen, r2, r3, Nat.zero_add] at r1
  refine ⟨grains o file x.spec.hdr (C83.headBytes x.spec).length, ?_, ?_, ?_, ?_⟩
  · unfold decodeFile; rw [hh]
  · rw [grains_eq_run, r1]
    simp only [Run.view, Run.prepend, List.append_nil, List.map_append]
    rw [v1 file hat1.right, v2 file hat.right, List.flatMap_cons]
  · rw [grains_eq_run, r1]; rfl
  · rw [grains_eq_run, r1]; rfl

/-- Without support for concatenation a program sees the grains of the first file only, whatever was joined to it, and no error. -/
theorem C83_first {o : Opts} (hc : o.concat = false) {x : Piece} {xs : List Piece} (hx : x.spec.Ok) :
    ∃ r, decodeFile o ((x :: xs).flatMap Piece.bytes) = .ok r ∧ r.view ((x :: xs).flatMap Piece.bytes) = x.seen o ∧
      r.hdr = x.spec.hdr ∧ r.ending = (if x.finished = false ∧ xs = [] then .eof else .break_) := by
  generalize hfile : (x :: xs).flatMap Piece.bytes = file
  have e : file = C83.headBytes x.spec ++ (x.spec.grains.flatMap (fun y => encodeGrain x.spec.major y.1 y.2) ++
      ((if x.finished then terminator else []) ++ xs.flatMap Piece.bytes)) := by
    rw [← hfile, List.flatMap_cons]; simp [Piece.bytes, C83.headBytes]
  have hat : At ⟨0, file⟩ 0 (C83.headBytes x.spec ++ (x.spec.grains.flatMap (fun y => encodeGrain x.spec.major y.1 y.2) ++
      ((if x.finished then terminator else []) ++ xs.flatMap Piece.bytes))) := by rw [e]; exact at_self _ _
  have hh := C83.open_at hx hat.left
  obtain ⟨i1, t1, v1⟩ := DecoGrains.turns o x.spec.hdr (decoGrains_self x.spec.grains hx.grains) (0 + (C83.headBytes x.spec).length)
  have r1 := t1.run (s := ⟨0, file⟩) (Nat.zero_le _) hat.right.left
  have hr := hat.right.right
  rw [Nat.zero_add, show x.spec.hdr.major = x.spec.major from rfl] at r1
  rw [Nat.zero_add] at hr
  generalize hq : (C83.headBytes x.spec).length + (x.spec.grains.flatMap (fun y => encodeGrain x.spec.major y.1 y.2)).length = q at r1 hr
  have hlen : file.length = q + ((if x.finished then terminator else []) ++ xs.flatMap Piece.bytes).length := by
    rw [e, List.length_append, List.length_append]; omega
  have r2 : run o ⟨0, file⟩ x.spec.hdr false q = ⟨[], x.spec.hdr, if x.finished = false ∧ xs = [] then .eof else .break_⟩ := by
    cases hf : x.finished with
    | true =>
      rw [hf, if_pos rfl] at hr
      rw [run_eq _ _ _ _ _ (Nat.zero_le _), terminator_step o _ _ _ hr.left, hc]
      rfl
    | false =>
      cases xs with
      | nil =>
        rw [run_end o _ (Nat.zero_le _) (by unfold Stream.fin; rw [hf] at hlen; simp at hlen ⊢; omega)]
        rfl
      | cons y ys =>
        have h1 : ((if x.finished = true then terminator else []) ++ (y :: ys).flatMap Piece.bytes) =
            signature ++ (encodeUint y.spec.major 2 ++ encodeUint y.spec.minor 2 ++ (encodeHead y.spec.head ++
              (y.spec.grains.flatMap (fun z => encodeGrain y.spec.major z.1 z.2) ++ (if y.finished then terminator else []))) ++
              ys.flatMap Piece.bytes) := by
          rw [hf, if_neg (by simp), List.flatMap_cons]
          simp [Piece.bytes, encodeFileHeader, signature]
        rw [h1] at hr
        rw [run_eq _ _ _ _ _ (Nat.zero_le _), signature_step o _ _ _ hr.left, hc]
        rfl
  rw [r2] at r1
  refine ⟨grains o file x.spec.hdr (C83.headBytes x.spec).length, ?_, ?_, ?_, ?_⟩
  · unfold decodeFile; rw [hh]
  · rw [grains_eq_run, r1]
    simp only [Run.view, Run.prepend, List.append_nil]
    rw [v1 file hat.right.left]
    rfl
  · rw [grains_eq_run, r1]; rfl
  · rw [grains_eq_run, r1]; rfl

/-- If the last grain of a file is cut in its data and something is joined to it, then the grain is delivered, with the first bytes of what was joined as the
rest of its data, and nothing tells the program that it is not what was written. -/
theorem C83_mixed (o : Opts) {f : FileSpec} (hf : f.Ok) {gs : List (Nat × Grain)} {lid : Nat} {g : Grain} (hgs : f.grains = gs ++ [(lid, g)]) {d lost : Bytes}
    (hd : g.data.getD [] = d ++ lost) {cut : Bytes}
    (hcut : encodeFileHeader f.major f.minor ++ (encodeHead f.head ++ f.grains.flatMap (fun y => encodeGrain f.major y.1 y.2)) = cut ++ lost)
    (other : Bytes) (hlen : lost.length ≤ other.length) :
    ∃ r tail, decodeFile o (cut ++ other) = .ok r ∧
      r.view (cut ++ other) = ((gs ++ [(lid, { g with data := some (d ++ other.take lost.length) })]).filter (fun y : Nat × Grain => !o.drops y.1)).map
        (o.viewOf f.major) ++ tail := by
  have hg := hf.grains (lid, g) (by rw [hgs]; simp)
  obtain ⟨front, h1, h2⟩ := C83.swap_data f.major lid g (d ++ other.take lost.length)
  have hok : ({ f with grains := gs ++ [(lid, { g with data := some (d ++ other.take lost.length) })] } : FileSpec).Ok := by
    refine ⟨hf.major, hf.minor, hf.head, ?_⟩
    intro x hx
    rcases List.mem_append.1 hx with hx | hx
    · exact hf.grains x (by rw [hgs]; simp [hx])
    · simp only [List.mem_singleton] at hx
      subst hx
      refine ⟨hg.1, C83.swap_ok hg.2 ?_⟩
      rw [hd]
      simp only [List.length_append, List.length_take]
      omega
  obtain ⟨r, tail, k1, k2⟩ := C83.begins o hok (other.drop lost.length)
  have hcut2 : cut = encodeFileHeader f.major f.minor ++ (encodeHead f.head ++ (gs.flatMap (fun y => encodeGrain f.major y.1 y.2) ++ (front ++ d))) := by
    have : cut ++ lost = (encodeFileHeader f.major f.minor ++ (encodeHead f.head ++
        (gs.flatMap (fun y => encodeGrain f.major y.1 y.2) ++ (front ++ d)))) ++ lost := by
      rw [← hcut, hgs]
      simp [h1, hd]
    exact List.append_cancel_right this
  have hfile : C83.headBytes { f with grains := gs ++ [(lid, { g with data := some (d ++ other.take lost.length) })] } ++
      ((gs ++ [(lid, { g with data := some (d ++ other.take lost.length) })] : List (Nat × Grain)).flatMap (fun y : Nat × Grain => encodeGrain f.major y.1 y.2) ++ other.drop lost.length) =
      cut ++ other := by
    rw [hcut2]
    simp only [C83.headBytes, List.flatMap_append, List.flatMap_cons, List.flatMap_nil, h2, List.append_assoc, List.nil_append,
      List.take_append_drop]
  rw [hfile] at k1 k2
  exact ⟨r, tail, k1, k2⟩

/-! ## Counterexample and examples -/

/-- A file with the first grain of the sample, whose data is 1, 2, 3, 4, 5, and no terminator. -/
def onePiece : Piece := ⟨{ sample with grains := [(1, gVideo)] }, false⟩

/-- Its last two bytes are lost, and another file is joined to it. -/
def badJoin : Bytes := onePiece.bytes.take (onePiece.bytes.length - 2) ++ sample7.bytes

/-- The grain that was cut gets two bytes of the signature of the second file, no grain of the second file is found, and there is no error. -/
theorem C83_mixed_counterexample :
    (decodeFile { concat := true } badJoin).toOption.map (fun r => ((r.view badJoin).map (fun v => (v.2.1, v.2.2)), r.ending)) =
      some ([(some [1, 2, 3, 83, 83], 1)], .eof) ∧ sample7.grains.length = 2 := by
  decide +kernel

/-- The hypotheses of `C83_joined` and `C83_first`. -/
example : (∀ y ∈ [onePiece, ⟨sample7, true⟩, ⟨{ sample with grains := [] }, false⟩, ⟨sample, false⟩], y.spec.Ok) ∧
    ([onePiece, ⟨sample7, true⟩, ⟨{ sample with grains := [] }, false⟩, ⟨sample, false⟩].flatMap (Piece.seen { concat := true })).map (fun v => v.2.2) =
      [1, 1, 300, 1, 300, 1, 1, 1, 300, 300] := by
  decide +kernel

/-- The hypotheses of `C83_mixed`. -/
example : onePiece.spec.Ok ∧ onePiece.spec.grains = [] ++ [(1, gVideo)] ∧ gVideo.data.getD [] = [1, 2, 3] ++ [4, 5] ∧
    encodeFileHeader 9 0 ++ (encodeHead sampleHead ++ onePiece.spec.grains.flatMap (fun y => encodeGrain 9 y.1 y.2)) =
      onePiece.bytes.take (onePiece.bytes.length - 2) ++ [4, 5] ∧ 2 ≤ sample7.bytes.length := by
  decide +kernel

end Verif.Props

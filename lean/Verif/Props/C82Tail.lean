import Verif.Props.C83
import Verif.Props.C05

/-!
# C82, damage of any kind
-/

namespace Verif.Props

open Verif Verif.Gsf Verif.Session

namespace C82Tail

/-- The bytes of a file up to the end of its first `k` grains. -/
theorem first_bytes (f : FileSpec) (k : Nat) :
    f.bytes.take (grainsEnd f k) = C83.headBytes f ++ (f.grains.take k).flatMap (fun y => encodeGrain f.major y.1 y.2) := by
  have hb : f.bytes = (C83.headBytes f ++ (f.grains.take k).flatMap (fun y => encodeGrain f.major y.1 y.2)) ++
      ((f.grains.drop k).flatMap (fun y => encodeGrain f.major y.1 y.2) ++ terminator) := by
    conv => lhs; unfold FileSpec.bytes; rw [← List.take_append_drop k f.grains, List.flatMap_append]
    simp only [C83.headBytes, List.append_assoc]
  rw [hb]
  exact List.take_left' (by rw [List.length_append]; rfl)

/-- A file that begins with some grains: what follows decides the rest. -/
theorem begins (o : Opts) {f : FileSpec} (hf : f.Ok) (k : Nat) {file : Bytes} (h : f.bytes.take (grainsEnd f k) <+: file) :
    ∃ r, decodeFile o file = .ok r ∧
      r.view file = ((f.grains.take k).filter (fun y => !o.drops y.1)).map (o.viewOf f.major) ++
        (run o ⟨0, file⟩ f.hdr false (grainsEnd f k)).view file ∧
      r.ending = (run o ⟨0, file⟩ f.hdr false (grainsEnd f k)).ending := by
  obtain ⟨rest, hfile⟩ := h
  have hat : At ⟨0, file⟩ 0 (C83.headBytes f ++ ((f.grains.take k).flatMap (fun y => encodeGrain f.major y.1 y.2) ++ rest)) := by
    rw [← hfile, first_bytes, List.append_assoc]; exact at_self _ _
  have hh := C83.open_at hf hat.left
  obtain ⟨i1, t1, v1⟩ := DecoGrains.turns o f.hdr (decoGrains_self (f.grains.take k) (fun x hx => hf.grains x (List.mem_of_mem_take hx)))
    (0 + (C83.headBytes f).length)
  have r1 := t1.run (s := ⟨0, file⟩) (Nat.zero_le _) hat.right.left
  rw [Nat.zero_add] at r1
  have he : (C83.headBytes f).length + ((f.grains.take k).flatMap (fun x => encodeGrain f.hdr.major x.1 x.2)).length = grainsEnd f k := rfl
  rw [he] at r1
  refine ⟨grains o file f.hdr (C83.headBytes f).length, ?_, ?_, ?_⟩
  · unfold decodeFile; rw [hh]
  · rw [grains_eq_run, r1]
    simp only [Run.view, Run.prepend, List.map_append]
    rw [v1 file hat.right.left]
    rfl
  · rw [grains_eq_run, r1]; rfl

end C82Tail

/-- **C82**: whatever has become of a file after its first `k` grains (bytes changed, tags and sizes among them, removed or added), it can be opened, and a loop
gets these grains, as they were, before anything else. -/
theorem C82_tail (o : Opts) {f : FileSpec} (hf : f.Ok) (k : Nat) {file : Bytes} (h : f.bytes.take (grainsEnd f k) <+: file) :
    ∃ r, decodeFile o file = .ok r ∧
      ((f.grains.take k).filter (fun y => !o.drops y.1)).map (o.viewOf f.major) <+: r.view file := by
  obtain ⟨r, h1, h2, -⟩ := C82Tail.begins o hf k h
  exact ⟨r, h1, _, h2.symm⟩

/-- **C82**: a tag that is not text any more is reported.  The loop gets the grains before it, and ends with `GSFDecodeError`, whatever follows. -/
theorem C82_tag (o : Opts) {f : FileSpec} (hf : f.Ok) (k : Nat) {tag rest : Bytes} (hl : tag.length = 4) (ht : decodeUtf8 tag = none) :
    ∃ r, decodeFile o (f.bytes.take (grainsEnd f k) ++ (tag ++ rest)) = .ok r ∧ r.ending = .err .decode ∧
      r.view (f.bytes.take (grainsEnd f k) ++ (tag ++ rest)) =
        ((f.grains.take k).filter (fun y => !o.drops y.1)).map (o.viewOf f.major) := by
  obtain ⟨r, h1, h2, h3⟩ := C82Tail.begins o hf k (List.prefix_append (f.bytes.take (grainsEnd f k)) (tag ++ rest))
  have hlen : (f.bytes.take (grainsEnd f k)).length = grainsEnd f k := by
    rw [C82Tail.first_bytes, List.length_append]; rfl
  generalize hfile : f.bytes.take (grainsEnd f k) ++ (tag ++ rest) = file at h1 h2 h3 ⊢
  have hx : readExact 4 ⟨0, file⟩ (grainsEnd f k) = .ok (tag, grainsEnd f k + 4) := by
    have : (file.drop (grainsEnd f k - 0)).take 4 = tag := by
      rw [Nat.sub_zero, ← hfile, List.drop_left' hlen, List.take_left' hl]
    rw [readExact_eq]
    simp only [this, hl, if_true]
  have hs : readString 4 ⟨0, file⟩ (grainsEnd f k) = .error .decode := by
    unfold readString
    rw [Rd.bind_of_ok hx]
    simp [Rd.bind_apply, ht]
  have hr : readHeader ⟨0, file⟩ (grainsEnd f k) = .error .decode := by
    unfold readHeader
    rw [Rd.bind_apply, hs]
  have hg : grainsStep o f.hdr false ⟨0, file⟩ (grainsEnd f k) = .error .decode := by
    unfold grainsStep
    rw [if_neg (by simp), Rd.bind_apply, enter_eq _ _ _ _ (Nat.zero_le _), hr]
  have hrun : run o ⟨0, file⟩ f.hdr false (grainsEnd f k) = ⟨[], f.hdr, .err .decode⟩ := by
    rw [run_eq _ _ _ _ _ (Nat.zero_le _), hg]
  rw [hrun] at h2 h3
  exact ⟨r, h1, h3, by rw [h2]; simp [Run.view]⟩

namespace C82Tail

theorem header_length (major minor : Nat) : (encodeFileHeader major minor).length = 12 := by
  simp only [encodeFileHeader, List.length_append, encodeUint_length]
  rfl

/-- If no head is found, the file is refused. -/
theorem refused {major minor : Nat} (hm : major = 7 ∨ major = 8 ∨ major = 9) (hn : minor < 2 ^ 16) (o : Opts) {rest : Bytes}
    (h : ∃ e, enter (some tHead) false ⟨0, encodeFileHeader major minor ++ rest⟩ 12 = .error e ∧ (e = .eof ∨ e = .decode)) :
    decodeFile o (encodeFileHeader major minor ++ rest) = .error .decode := by
  obtain ⟨e, h, he⟩ := h
  have h1 : decodeSsb false ⟨0, encodeFileHeader major minor ++ rest⟩ 0 = .ok ((major, minor), 12) := by
    have : Reads (decodeSsb false) (encodeFileHeader major minor) (major, minor) := by
      have e : encodeFileHeader major minor = padString (tSSBB ++ tGrsg) 8 ++ (encodeUint major 2 ++ encodeUint minor 2) := by
        have : padString (tSSBB ++ tGrsg) 8 = tagBytes tSSBB ++ tagBytes tGrsg := by decide
        rw [this]; simp only [encodeFileHeader, List.append_assoc]
      rw [e]
      unfold decodeSsb
      simp only [Bool.not_false, if_true]
      apply Reads.bind (reads_padString (by decide) (by decide))
      rw [if_neg (by simp)]
      apply Reads.bind (reads_uint (by omega))
      exact (reads_uint (n := 2) (by omega)).bind_pure
    rw [this _ _ (at_self_append 0 _ rest), header_length]
  have h2 : Rd.eofToDecode decodeHeadBlock ⟨0, encodeFileHeader major minor ++ rest⟩ 12 = .error .decode := by
    have : decodeHeadBlock ⟨0, encodeFileHeader major minor ++ rest⟩ 12 = .error e := by
      unfold decodeHeadBlock
      rw [Rd.bind_of_error h]
    unfold Rd.eofToDecode
    rw [this]
    rcases he with rfl | rfl <;> rfl
  have h3 : decodeFileHeaders false ⟨0, encodeFileHeader major minor ++ rest⟩ 0 = .error .decode := by
    unfold decodeFileHeaders
    rw [Rd.bind_of_ok h1]
    simp only
    rw [if_pos hm, Rd.bind_of_error h2]
  unfold decodeFile
  rw [h3]

end C82Tail

/-- **C82**: a damaged tag of the head is reported.  Whatever four bytes are in its place, if they do not read as `head` or as the beginning of a signature, the
file cannot be opened: `GSFDecodeError`. -/
theorem C82_head_tag (o : Opts) {f : FileSpec} (hf : f.Ok) {tag : Bytes} (hl : tag.length = 4)
    (hh : (decodeUtf8 tag).map cleanString ≠ some tHead) (hs : (decodeUtf8 tag).map cleanString ≠ some tSSBB) :
    decodeFile o (f.bytes.take 12 ++ (tag ++ f.bytes.drop 16)) = .error .decode := by
  have hb : f.bytes = encodeFileHeader f.major f.minor ++ ((headBlk f.head).tb ++ (encodeUint (headBlk f.head).size 4 ++ ((headBlk f.head).body ++
      (f.grains.flatMap (fun x => encodeGrain f.major x.1 x.2) ++ terminator)))) := by
    unfold FileSpec.bytes
    rw [encodeHead_eq _ hf.head.wf]
    simp only [Blk.bytes, List.append_assoc]
  have hok := (decoHead_self hf.head).ok
  have h12 : f.bytes.take 12 = encodeFileHeader f.major f.minor := by
    rw [hb]; exact List.take_left' (C82Tail.header_length _ _)
  have h16 : f.bytes.drop 16 = encodeUint (headBlk f.head).size 4 ++ ((headBlk f.head).body ++
      (f.grains.flatMap (fun x => encodeGrain f.major x.1 x.2) ++ terminator)) := by
    rw [hb, ← List.append_assoc]
    exact List.drop_left' (by rw [List.length_append, C82Tail.header_length, hok.tbLen])
  rw [h12, h16]
  apply C82Tail.refused hf.major hf.minor o
  cases ht : decodeUtf8 tag with
  | none =>
    generalize hfile : encodeFileHeader f.major f.minor ++ (tag ++ (encodeUint (headBlk f.head).size 4 ++ ((headBlk f.head).body ++
      (f.grains.flatMap (fun x => encodeGrain f.major x.1 x.2) ++ terminator)))) = file
    have hx : readExact 4 ⟨0, file⟩ 12 = .ok (tag, 12 + 4) := by
      have : (file.drop (12 - 0)).take 4 = tag := by
        rw [Nat.sub_zero, ← hfile, List.drop_left' (C82Tail.header_length _ _), List.take_left' hl]
      rw [readExact_eq]
      simp only [this, hl, if_true]
    have hs : readString 4 ⟨0, file⟩ 12 = .error .decode := by
      unfold readString
      rw [Rd.bind_of_ok hx]
      simp [Rd.bind_apply, ht]
    have hr : readHeader ⟨0, file⟩ 12 = .error .decode := by
      unfold readHeader
      rw [Rd.bind_apply, hs]
    exact ⟨.decode, by rw [enter_eq _ _ _ _ (Nat.zero_le _), hr], .inr rfl⟩
  | some t =>
    rw [ht] at hh hs
    have hlast : (⟨tagBytes tGrai, 0, []⟩ : Blk).Ok tGrai := ⟨by decide, by decide, by decide, by decide, by decide⟩
    have hl : Others [tHead] (⟨tag, (headBlk f.head).size, (headBlk f.head).body⟩ ::
        (f.grains.map (fun x => graiBlk f.major x.1 x.2) ++ [⟨tagBytes tGrai, 0, []⟩])) := by
      intro b hb
      rw [List.mem_cons, List.mem_append, List.mem_map, List.mem_singleton] at hb
      rcases hb with rfl | ⟨x, hx, rfl⟩ | rfl
      · refine ⟨cleanString t, ⟨hl, by rw [ht]; rfl, fun h => hs (by rw [← h]; rfl), hok.sizeLt, hok.bodyLen⟩, ?_⟩
        rw [List.mem_singleton]
        exact fun h => hh (by rw [← h]; rfl)
      · exact ⟨tGrai, (decoGrai_self (hf.grains x hx).2).ok, by decide⟩
      · exact ⟨tGrai, hlast, by decide⟩
    have hbytes : tag ++ (encodeUint (headBlk f.head).size 4 ++ ((headBlk f.head).body ++
        (f.grains.flatMap (fun x => encodeGrain f.major x.1 x.2) ++ terminator))) =
        blksBytes (⟨tag, (headBlk f.head).size, (headBlk f.head).body⟩ ::
        (f.grains.map (fun x => graiBlk f.major x.1 x.2) ++ [⟨tagBytes tGrai, 0, []⟩])) := by
      have : f.grains.flatMap (fun x => encodeGrain f.major x.1 x.2) = blksBytes (f.grains.map (fun x => graiBlk f.major x.1 x.2)) := by
        have hg := hf.grains
        generalize f.grains = gs at hg
        induction gs with
        | nil => rfl
        | cons x gs ih =>
          rw [List.flatMap_cons, List.map_cons, blksBytes_cons, ih (fun y hy => hg y (by simp [hy])), encodeGrain_eq _ _ _ (hg x (by simp)).2.wf]
      rw [this]
      simp [blksBytes, Blk.bytes, terminator]
    rw [hbytes]
    refine ⟨.eof, ?_, .inl rfl⟩
    have hat : At ⟨0, encodeFileHeader f.major f.minor ++ blksBytes (⟨tag, (headBlk f.head).size, (headBlk f.head).body⟩ ::
        (f.grains.map (fun x => graiBlk f.major x.1 x.2) ++ [⟨tagBytes tGrai, 0, []⟩]))⟩ 12 (blksBytes (⟨tag, (headBlk f.head).size, (headBlk f.head).body⟩ ::
        (f.grains.map (fun x => graiBlk f.major x.1 x.2) ++ [⟨tagBytes tGrai, 0, []⟩])) ++ []) := by
      have := (at_self 0 (encodeFileHeader f.major f.minor ++ blksBytes (⟨tag, (headBlk f.head).size, (headBlk f.head).body⟩ ::
        (f.grains.map (fun x => graiBlk f.major x.1 x.2) ++ [⟨tagBytes tGrai, 0, []⟩])))).right
      rw [C82Tail.header_length, Nat.zero_add] at this
      rw [List.append_nil]
      exact this
    rw [enter_past hl hat]
    refine enter_eof (Nat.zero_le _) ?_
    simp only [Stream.fin, List.length_append, C82Tail.header_length]
    omega

/-! ## Counterexample and examples -/

/-- The sample file with byte `j` of its grain number `i` set to `v`. -/
def struckFile (i j : Nat) (v : UInt8) : Bytes :=
  encodeFileHeader 9 0 ++ (encodeHead sampleHead ++ ((sample.grains.mapIdx (fun n x =>
    if n = i then (encodeGrain 9 x.1 x.2).set j v else encodeGrain 9 x.1 x.2)).flatten ++ terminator))

/-- **C82 is violated by damage to a size**: one wrong byte in the size of the second grain, and the five undamaged grains after it are lost, for a program that
goes on asking too.  Nothing is reported: the second grain is given as it was, and then the file ends. -/
theorem C82_size_counterexample :
    (decodeFile {} (struckFile 1 7 1)).toOption.map (fun r => (r.items.map (fun it => it.localId), r.ending)) = some ([1, 300], .eof) ∧
    (watch (struckFile 1 7 1) (List.replicate 5 ({}, struckFile 1 7 1))).toOption.map
      (fun r => r.2.map (fun a => (Pulled.reply (struckFile 1 7 1) a).brief)) = some [some (some 1), some (some 300), none, none, none] ∧
    sample.grains.length = 7 := by
  decide +kernel

/-- The sample file with a head that claims to be longer by as much as the first grain. -/
def swallowed : Bytes :=
  encodeFileHeader 9 0 ++ (((encodeHead sampleHead).set 4 18).set 5 2 ++ (sample.grains.flatMap (fun x => encodeGrain 9 x.1 x.2) ++ terminator))

/-- **C82 is violated by damage to the size of the head**: two wrong bytes in it, and the file opens, with the same headers, but without its first grain, and
nothing is reported. -/
theorem C82_head_size_counterexample :
    (decodeFile {} swallowed).toOption.map (fun r => (r.hdr, r.items.map (fun it => it.localId), r.ending)) =
      some (sample.hdr, [300, 1, 1, 1, 300, 300], .eof) ∧
    sample.grains.map Prod.fst = [1, 300, 1, 1, 1, 300, 300] ∧
    swallowed.length = sample.bytes.length ∧ (swallowed.zip sample.bytes).countP (fun x => x.1 != x.2) = 2 := by
  decide +kernel

/-- The hypotheses of `C82_head_tag` are met by a tag that is text, and by one that is not. -/
example : sample.Ok ∧
    (∀ tag ∈ [[120, 101, 97, 100], [104, 101, 97, 255]], List.length (α := UInt8) tag = 4 ∧ (decodeUtf8 tag).map cleanString ≠ some tHead ∧
      (decodeUtf8 tag).map cleanString ≠ some tSSBB) ∧
    decodeUtf8 [120, 101, 97, 100] ≠ none ∧ decodeUtf8 [104, 101, 97, 255] = none ∧ sample.bytes.take 16 = sample.bytes.take 12 ++ tagBytes tHead := by
  decide +kernel

/-- A changed tag that is text: the grain is left out, the others are as they were. -/
example : Damaged sample (encodeHead sample.head) (sample.grains.mapIdx (fun n x =>
      (x, if n = 1 then (encodeGrain 9 x.1 x.2).set 0 120 else encodeGrain 9 x.1 x.2))) (struckFile 1 0 120) ∧
    (decodeFile {} (struckFile 1 0 120)).toOption.map (fun r => (r.items.map (fun it => it.localId), r.ending)) =
      some ([1, 1, 1, 1, 300, 300], .eof) :=
  ⟨⟨⟨rfl, rfl⟩, by decide +kernel, by decide +kernel, by decide +kernel⟩, by decide +kernel⟩

/-- The hypotheses are met by a file with a wrong size, and by one with a wrong tag. -/
example : sample.Ok ∧ sample.bytes.take (grainsEnd sample 1) <+: struckFile 1 7 1 ∧
    ∃ tag rest, tag.length = 4 ∧ decodeUtf8 tag = none ∧ struckFile 1 0 255 = sample.bytes.take (grainsEnd sample 1) ++ (tag ++ rest) :=
  ⟨by decide +kernel, by decide +kernel, (struckFile 1 0 255).drop (grainsEnd sample 1) |>.take 4,
    (struckFile 1 0 255).drop (grainsEnd sample 1) |>.drop 4, by decide +kernel, by decide +kernel, by decide +kernel⟩

end Verif.Props

import Verif.Wrap.Tools
import Verif.Props.C12
import Verif.Props.C05

/-!
# C52: what the wrapping tools write
-/

namespace Verif.Props

open Verif Verif.Gsf Verif.Tools

/-- The file a wrapping tool is meant to write: version 9.0, one segment with local id 1 and the id of the flow, without
tags, and the grains in order. -/
def wrapped (encId : Bytes) (created : DateTime) (flowId : Bytes) (count : Int) (grains : List Grain) : FileSpec :=
  ⟨9, 0, ⟨encId, created, [⟨1, flowId, count, none, []⟩], []⟩, grains.map (fun g => (1, g))⟩

/-- A file without the block of zero length at its end. -/
def unterminated (f : FileSpec) : Bytes := f.bytes.take (f.bytes.length - terminator.length)

end Verif.Props

namespace Verif.Props.WrapTool

open Verif Verif.Gsf Verif.Tools

/-- The encoder before the dump. -/
def ready (file : OutFile) (encId : Bytes) (created : DateTime) (flowId : Bytes) : Enc :=
  ⟨9, 0, encId, created, false, [], [Seg.new flowId 1 [] none], 2, none, none, [], file⟩

theorem setup_eq (file : OutFile) (encId : Bytes) (created : DateTime) (flowId : Bytes) :
    (Enc.new file 9 0 encId created false).addSegment (some flowId) none [] flowId =
      (ready file encId created flowId, .ok 1) := rfl

theorem add_all {e0 e : Enc} {w : List (Nat × Grain)} {held : Nat → List Grain} (h : Live e0 0 w held e)
    (h1 : 1 ∈ e0.lids) (hd : ∀ s ∈ e0.segs, s.activeDump = true) (hp : ∀ s ∈ e0.segs, ∀ j, s.parent = some j → j = 0) (gs : List Grain) :
    ∃ held', Live e0 0 (w ++ gs.map (fun g => (1, g))) held' (e.runs (gs.map (fun g => .sAddGrains 1 [g]))) := by
  induction gs generalizing w held e with
  | nil => exact ⟨held, by rw [List.map_nil, List.append_nil]; exact h⟩
  | cons g gs ih =>
    obtain ⟨held', ⟨hl, _⟩ | ⟨_, s, hs, j, hj, hne⟩⟩ := h.step hd (.sAddGrains 1 [g]) rfl (fun j hj => by cases hj)
    · have ht : (Op.sAddGrains 1 [g]).takes e = [(1, g)] := by
        have hok : (e.sAddGrains 1 [g]).2 = .ok 1 := sAddGrains_ok (by rw [h.lids]; exact h1) [g]
        unfold Op.takes
        show (match (e.sAddGrains 1 [g]).2.map some with | .ok (some l) => _ | _ => _) = _
        rw [hok]
        rfl
      rw [ht] at hl
      obtain ⟨held'', h2⟩ := ih hl
      refine ⟨held'', ?_⟩
      rw [List.append_assoc] at h2
      exact h2
    · exact absurd (hp s hs j hj) hne

theorem live (file : OutFile) (encId : Bytes) (created : DateTime) (flowId : Bytes) (gs : List Grain) :
    ∃ held, Live ((opened (ready file encId created flowId)).start 0 false) 0 (gs.map (fun g => (1, g))) held
      ((ready file encId created flowId).runs (.startDump false :: gs.map (fun g => .sAddGrains 1 [g]))) := by
  have h := opened_live (ready file encId created flowId) false
  have hp : ∀ s ∈ ((opened (ready file encId created flowId)).start 0 false).segs, ∀ j, s.parent = some j → j = 0 :=
    start_parents (e := opened (ready file encId created flowId)) (by
      intro s hs
      rw [opened_segs] at hs
      simp only [ready, List.mem_singleton] at hs
      rw [hs]; rfl)
  have h1 : 1 ∈ ((opened (ready file encId created flowId)).start 0 false).lids := by
    have : ((opened (ready file encId created flowId)).start 0 false).lids = [1] := by
      show ((opened (ready file encId created flowId)).start 0 false).segs.map Seg.localId = _
      rw [start_eq]
      exact startSegs_lids _ _
    rw [this]; exact List.mem_singleton.2 rfl
  obtain ⟨held, h2⟩ := add_all (e0 := (opened (ready file encId created flowId)).start 0 false) h h1 start_dumped hp gs
  rw [List.nil_append] at h2
  exact ⟨held, h2⟩

theorem ofSeg_all (gs : List Grain) : (ofSeg 1 (gs.map (fun g => (1, g)))).length = gs.length := by
  rw [ofSeg_map_self]

theorem run_finished (file : OutFile) (encId : Bytes) (created : DateTime) (flowId : Bytes) (gs : List Grain) :
    wrapToGsf file encId created flowId gs true = ((ready file encId created flowId).runs
      (.startDump false :: gs.map (fun g => .sAddGrains 1 [g]))).runs [.endDump] := by
  rw [← runs_append]; rfl

theorem run_stopped (file : OutFile) (encId : Bytes) (created : DateTime) (flowId : Bytes) (gs : List Grain) :
    wrapToGsf file encId created flowId gs false =
      (ready file encId created flowId).runs (.startDump false :: gs.map (fun g => .sAddGrains 1 [g])) := by
  unfold wrapToGsf
  rw [setup_eq]
  simp only [Bool.false_eq_true, if_false, List.append_nil]

theorem unterminated_eq (f : FileSpec) : unterminated f =
    encodeFileHeader f.major f.minor ++ (encodeHead f.head ++ f.grains.flatMap (fun x => encodeGrain f.major x.1 x.2)) := by
  have e : f.bytes = (encodeFileHeader f.major f.minor ++ (encodeHead f.head ++
      f.grains.flatMap (fun x => encodeGrain f.major x.1 x.2))) ++ terminator := by
    unfold FileSpec.bytes; simp only [List.append_assoc]
  unfold unterminated
  rw [e, List.length_append, Nat.add_sub_cancel]
  exact List.take_left

end Verif.Props.WrapTool

namespace Verif.Props

open Verif Verif.Gsf Verif.Tools Verif.Props.WrapTool

/-- **C52**, the file: a wrapping tool that comes to its end has written, over whatever was there, exactly the file it is
meant to write, with the number of grains in its head. -/
theorem C52_file (file : OutFile) (hs : file.seekable = true) (encId : Bytes) (created : DateTime) (flowId : Bytes)
    (grains : List Grain) :
    (wrapToGsf file encId created flowId grains true).file.bytes =
      (wrapped encId created flowId grains.length grains).bytes := by
  obtain ⟨held, h⟩ := live file encId created flowId grains
  rw [run_finished]
  show ((Op.endDump.run _).1).file.bytes = _
  rw [stop_file h (.inl rfl), stream_file h hs]
  unfold streamSpec wrapped opened ready Enc.pending Seg.new
  simp only [List.map_cons, List.map_nil, List.flatMap_cons, List.flatMap_nil, List.length_nil, List.append_nil,
    Nat.zero_add, List.nil_append, ofSeg_all]

/-- **C52**, standard output, which cannot be sought in: the same, after what was written before, with -1 for the number of
grains. -/
theorem C52_stdout (file : OutFile) (hs : file.seekable = false) (encId : Bytes) (created : DateTime) (flowId : Bytes)
    (grains : List Grain) :
    (wrapToGsf file encId created flowId grains true).file.bytes =
      file.bytes ++ (wrapped encId created flowId (-1) grains).bytes := by
  obtain ⟨held, h⟩ := live file encId created flowId grains
  rw [run_finished]
  show ((Op.endDump.run _).1).file.bytes = _
  rw [stop_file h (.inl rfl), plain_file h (.inl hs)]
  rw [show (opened (ready file encId created flowId)).file = file from rfl, if_neg (by simp [hs])]
  rfl

/-- **C52**, a wrapper that raises after some grains: those grains are in the file, with -1 for their number, and only the
block at the end is missing. -/
theorem C52_stopped (file : OutFile) (encId : Bytes) (created : DateTime) (flowId : Bytes) (grains : List Grain) :
    (wrapToGsf file encId created flowId grains false).file.bytes =
      (if file.seekable then [] else file.bytes) ++ unterminated (wrapped encId created flowId (-1) grains) := by
  obtain ⟨held, h⟩ := live file encId created flowId grains
  rw [run_stopped, h.bytes, start_eq, unterminated_eq]
  simp only [OutFile.write_bytes (OutFile.clear_atEnd _), OutFile.clear_bytes, Enc.pendingBytes_eq]
  rw [show (opened (ready file encId created flowId)).file = file from rfl, List.append_assoc]
  congr 1
  simp only [wrapped, opened, ready, Enc.headIn, Enc.pending, Seg.new, List.flatMap_cons, List.flatMap_nil, List.map_nil, List.append_nil, List.append_assoc,
    List.map_cons]
  rfl

/-- The grains come out of the finished file again. -/
theorem C52_read_back (file : OutFile) (hs : file.seekable = true) (encId : Bytes) (created : DateTime) (flowId : Bytes)
    (grains : List Grain) (hf : (wrapped encId created flowId grains.length grains).Ok) (hg : ∀ g ∈ grains, Plain 9 g) :
    ∃ r, decodeFile {} (wrapToGsf file encId created flowId grains true).file.bytes = .ok r ∧ r.ending = .eof ∧
      r.hdr.head.segments.map (fun s => (s.localId, s.id, s.count)) = [(1, flowId, (grains.length : Int))] ∧
      r.view (wrapToGsf file encId created flowId grains true).file.bytes = grains.map (fun g => (metaOf g, g.data, 1)) := by
  rw [C52_file file hs]
  obtain ⟨r, h1, h2, h3, h4⟩ := C01_round_trip _ hf (by
    intro x hx
    obtain ⟨g, hg', rfl⟩ := List.mem_map.1 hx
    exact hg g hg')
  refine ⟨r, h1, h2, ?_, ?_⟩
  · rw [h3]; rfl
  · rw [h4]; simp only [wrapped, List.map_map]; rfl

/-- And out of a file whose writing was stopped. -/
theorem C52_stopped_read_back (file : OutFile) (hs : file.seekable = true) (encId : Bytes) (created : DateTime)
    (flowId : Bytes) (grains : List Grain) (hf : (wrapped encId created flowId (-1) grains).Ok) (hg : ∀ g ∈ grains, Plain 9 g) :
    ∃ r, decodeFile {} (wrapToGsf file encId created flowId grains false).file.bytes = .ok r ∧ r.ending = .eof ∧
      r.view (wrapToGsf file encId created flowId grains false).file.bytes = grains.map (fun g => (metaOf g, g.data, 1)) := by
  rw [C52_stopped, hs, if_pos rfl, List.nil_append]
  generalize hw : wrapped encId created flowId (-1) grains = f at hf ⊢
  have hlen : f.grains.length = grains.length := by rw [← hw]; simp [wrapped]
  have hp : PlainFile f := by
    rw [← hw]
    intro x hx
    obtain ⟨g, hg', rfl⟩ := List.mem_map.1 hx
    exact hg g hg'
  have hend : f.bytes.length - terminator.length = grainsEnd f f.grains.length := by
    unfold grainsEnd FileSpec.bytes
    rw [List.take_length]
    simp only [List.length_append]
    omega
  obtain ⟨r, k, tail, h1, _, h3, h4, h5, h6, h7⟩ := C05_truncated_plain f hf hp (f.bytes.length - terminator.length) (by
    rw [hend]; unfold grainsEnd; simp)
  have hmono : k < f.grains.length → grainsEnd f (k + 1) ≤ grainsEnd f f.grains.length := by
    intro hk
    unfold grainsEnd
    have : f.grains.take (k + 1) <+: f.grains.take f.grains.length := by
      rw [List.take_length]; exact List.take_prefix _ _
    obtain ⟨t, ht⟩ := this
    rw [← ht, List.flatMap_append]
    simp only [List.length_append]
    omega
  have hk : ¬ k < f.grains.length := by
    intro hk
    have a := h5 hk
    have b := hmono hk
    rw [hend] at a
    omega
  have hk' : (contents f)[k]? = none := by
    rw [List.getElem?_eq_none_iff]; unfold contents; rw [List.length_map]; omega
  have ht : tail = [] := by
    rcases h7 with h7 | ⟨m, d, d', l, h8, _⟩
    · exact h7
    · rw [hk'] at h8; cases h8
  refine ⟨r, h1, h3, ?_⟩
  unfold unterminated
  rw [h6, ht, List.append_nil, List.take_of_length_le (by unfold contents; rw [List.length_map]; omega)]
  rw [← hw]
  simp only [contents, wrapped, List.map_map]
  rfl

/-- **C52 fails** for `wrap_audio_in_gsf`, whose templates have rate 0: whatever the input, the tool ends with an exception and
leaves a file without grains and without its last block. -/
theorem C52_audio_counterexample (file : OutFile) (hs : file.seekable = true) (encId : Bytes) (created : DateTime)
    (flowId : Bytes) (t : Wrap.Template) (ht : t.rateNum = 0) (template : Grain) (outs : List Wrap.Out) :
    (rawGrains t template outs).2 = false ∧
    (wrapToGsf file encId created flowId (rawGrains t template outs).1 (rawGrains t template outs).2).file.bytes =
      unterminated (wrapped encId created flowId (-1) []) := by
  have h : rawGrains t template outs = ([], false) := by unfold rawGrains; rw [if_pos ht]
  rw [h]
  refine ⟨rfl, ?_⟩
  rw [C52_stopped, hs]
  rfl

/-- What the file made of raw essence says of each piece: its timestamp and its data, and everything else as in the template; the sync
timestamp too, which does not move with the origin timestamp. -/
theorem C52_raw (file : OutFile) (hs : file.seekable = true) (encId : Bytes) (created : DateTime) (flowId : Bytes)
    (t : Wrap.Template) (ht : t.rateNum ≠ 0) (template : Grain) (outs : List Wrap.Out)
    (hf : (wrapped encId created flowId outs.length (outs.map (made template))).Ok)
    (hg : ∀ g ∈ outs.map (made template), Plain 9 g) :
    let made := rawGrains t template outs
    ∃ r, decodeFile {} (wrapToGsf file encId created flowId made.1 made.2).file.bytes = .ok r ∧ r.ending = .eof ∧
      r.view (wrapToGsf file encId created flowId made.1 made.2).file.bytes =
        outs.map (fun o => ({ metaOf template with origin := o.origin }, some o.data, 1)) := by
  have h : rawGrains t template outs = (outs.map (made template), true) := by unfold rawGrains; rw [if_neg ht]
  simp only [h]
  have hl : (outs.map (made template)).length = outs.length := List.length_map _
  obtain ⟨r, h1, h2, -, h4⟩ := C52_read_back file hs encId created flowId (outs.map (made template)) (by rw [hl]; exact hf) hg
  refine ⟨r, h1, h2, ?_⟩
  rw [h4, List.map_map]
  rfl

/-- Non-vacuity: three bytes in two pieces. -/
example : (wrapped (u 9) ⟨2024, 2, 29, 23, 59, 59⟩ (u 5) (Wrap.wrapDisk ⟨0, 25, 1, some 2⟩ [1, 2, 3]).length
      ((Wrap.wrapDisk ⟨0, 25, 1, some 2⟩ [1, 2, 3]).map (made gVideo))).Ok ∧
    (∀ g ∈ (Wrap.wrapDisk ⟨0, 25, 1, some 2⟩ [1, 2, 3]).map (made gVideo), Plain 9 g) ∧
    (Wrap.wrapDisk ⟨0, 25, 1, some 2⟩ [1, 2, 3]) = [⟨0, [1, 2]⟩, ⟨40000000, [3]⟩] := by decide +kernel

/-- A file with seven grains, and one stopped after two of them. -/
def wrapDemo : List Grain := sample.grains.map Prod.snd

example : (wrapped (u 9) ⟨2024, 2, 29, 23, 59, 59⟩ (u 5) wrapDemo.length wrapDemo).Ok ∧ wrapDemo.length = 7 := by decide +kernel

example : (decodeFile {} (wrapToGsf ⟨true, [1, 2, 3], 1⟩ (u 9) ⟨2024, 2, 29, 23, 59, 59⟩ (u 5) (wrapDemo.take 2) false).file.bytes).toOption.map
    (fun r => (r.items.length, r.hdr.head.segments.map (fun s => s.count))) = some (2, [-1]) := by decide +kernel

end Verif.Props

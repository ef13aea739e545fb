import Verif.Gsf.EncoderSync
import Verif.Props.C12

/-!
# C14, C15 (the header is frozen during a dump), C16 (local ids), C17 (choice of segment)
-/

namespace Verif.Props

open Verif Verif.Gsf

/-! ## C14 -/

/-- A call that would change what the header declares: adding a tag or a segment through the encoder or through
the handle `k`, adding a tag or a flow to one of the encoder's segments. -/
def HeaderCall (e : Enc) (k : Nat) : Op → Prop
  | .addTag _ => True
  | .addSegment .. => True
  | .hAddTag j _ => j = k
  | .hAddSegment j .. => j = k
  | .sAddTag l _ => l ∈ e.lids
  | .sAddFlow l _ => l ∈ e.lids
  | _ => False

/-- A dump is active on the open synchronous handle `k`. -/
def DumpActive (e : Enc) (k : Nat) : Prop := e.syncOpen = some k ∧ (e.handles[k]?).map Handle.active = some true

instance (e k) : Decidable (DumpActive e k) := inferInstanceAs (Decidable (_ ∧ _))

theorem DumpActive.handle {e : Enc} {k : Nat} (h : DumpActive e k) : ∃ hd, e.handles[k]? = some hd ∧ hd.active = true := by
  have := h.2
  cases hh : e.handles[k]? with
  | none => rw [hh] at this; cases this
  | some hd => rw [hh] at this; exact ⟨hd, rfl, by simpa using this⟩

/-- C14, first half: in every state a synchronous program can reach while a dump is active, a call that would
change the header raises `GSFEncodeAddToActiveDump` or `GSFEncodeError` and leaves the output, the tags and the
segments (with their tags, flows and grains) as they were. -/
theorem C14_header_frozen_partial (file : OutFile) (major minor : Nat) (id : Bytes) (created : DateTime) (streaming : Bool)
    (history : List Op) (hh : SyncHistory (Enc.new file major minor id created streaming) history) (k : Nat) (o : Op) :
    let e := (Enc.new file major minor id created streaming).runs history
    DumpActive e k → HeaderCall e k o →
      ((o.run e).2 = .error .activeDump ∨ (o.run e).2 = .error .encode) ∧
      (o.run e).1.file = e.file ∧ (o.run e).1.tags = e.tags ∧ (o.run e).1.segs = e.segs := by
  intro e ha ho
  have hi : SyncInv e := syncInv_history (syncInv_new ..) history hh
  obtain ⟨hd, hk, hact⟩ := ha.handle
  have hdm := (hi.dumped hd (List.mem_of_getElem? hk) hact).2.1
  cases o with
  | addTag t => simp [Op.run, Enc.addTag, ha.1, Except.map]
  | addSegment id lid tags fresh => simp [Op.run, Enc.addSegment, ha.1, Except.map]
  | hAddTag j t =>
    obtain rfl : j = k := ho
    simp [Op.run, Enc.hAddTag, hk, hact, Except.map]
  | hAddSegment j id lid tags fresh =>
    obtain rfl : j = k := ho
    simp only [Op.run, Enc.hAddSegment, hk, hact, if_true]
    split
    · exact ⟨.inr rfl, rfl, rfl, rfl⟩
    · exact ⟨.inl rfl, rfl, rfl, rfl⟩
  | sAddTag l t =>
    obtain ⟨s, hs⟩ := Enc.seg_of_mem ho
    simp [Op.run, Enc.sAddTag, hs, hdm s (Enc.seg_some hs).1, Except.map]
  | sAddFlow l f =>
    obtain ⟨s, hs⟩ := Enc.seg_of_mem ho
    simp [Op.run, Enc.sAddFlow, hs, hdm s (Enc.seg_some hs).1, Except.map]
  | _ => exact ho.elim

/-- C14, second half: in every such state the output consists of (what was there before the dump and) a header
that declares exactly the encoder's segments and tags, followed by grains that all belong to declared
segments. -/
theorem C14_only_declared_grains_partial (file : OutFile) (major minor : Nat) (id : Bytes) (created : DateTime)
    (streaming : Bool) (history : List Op)
    (hh : SyncHistory (Enc.new file major minor id created streaming) history) (k : Nat) :
    let e := (Enc.new file major minor id created streaming).runs history
    DumpActive e k → ∃ (pre : Bytes) (h : HeadIn) (w : List (Nat × Grain)),
      e.file.bytes = pre ++ (encodeFileHeader e.major e.minor ++ (encodeHead h ++
        w.flatMap (fun x => encodeGrain e.major x.1 x.2))) ∧
      h.id = e.id ∧ h.tags = e.tags ∧
      h.segments.map (fun s => (s.localId, s.id, s.flow, s.tags)) =
        e.segs.map (fun s => (s.localId, s.id, s.flow, s.tags)) ∧
      ∀ x ∈ w, x.1 ∈ h.segments.map SegmIn.localId := by
  intro e ha
  have hi : SyncInv e := syncInv_history (syncInv_new ..) history hh
  obtain ⟨hd, hk, hact⟩ := ha.handle
  obtain ⟨pre, h, w, h1, h2, h3, h4, h5⟩ := (hi.dumped hd (List.mem_of_getElem? hk) hact).2.2
  refine ⟨pre, h, w, h1, h2, h3, h4, ?_⟩
  have h6 := congrArg (List.map Prod.fst) h4
  rw [List.map_map, List.map_map] at h6
  have h7 : h.segments.map SegmIn.localId = e.lids := h6
  rw [h7]; exact h5

def frozenHistory : List Op :=
  demoSetup ++ [.startDump false, .addGrains [gVideo] none none (u 77), .endDump, .sAddGrains 3 [gAudio],
    .addSegment none none [] (u 78), .startDump true, .hAddGrains 1 [gEmpty] none (some 4) (u 79)]

/-- The hypotheses are met by a program with a finished dump and an active one, and there are calls of every kind
to refuse. -/
example :
    let e0 := Enc.new ⟨true, [], 0⟩ 9 0 (u 9) ⟨2024, 2, 29, 23, 59, 59⟩ true
    SyncHistory e0 frozenHistory ∧ DumpActive (e0.runs frozenHistory) 1 ∧ (e0.runs frozenHistory).lids = [3, 4, 5] ∧
      HeaderCall (e0.runs frozenHistory) 1 (.sAddTag 3 (hello, hello)) := by
  refine ⟨by decide +kernel, by decide +kernel, by decide +kernel, ?_⟩
  show 3 ∈ (Enc.runs _ _).lids
  decide +kernel

/-- A program that keeps a handle after its `with` block has ended and uses it during a later dump. -/
def staleHistory : List Op :=
  [.addSegment (some (u 3)) none [] (u 70), .enter, .exit, .startDump false,
    .hAddSegment 0 (some (u 4)) none [] (u 71), .hAddGrains 1 [gAudio] none (some 2) (u 72), .endDump]

/-- C14 fails for programs that use a handle that is not open any more: while a dump is active, a segment is
accepted through the old handle, and a grain of that segment is then written although the header does not
declare it. -/
theorem C14_stale_handle_counterexample :
    let e0 := Enc.new ⟨true, [], 0⟩ 9 0 (u 9) ⟨2024, 2, 29, 23, 59, 59⟩ false
    let e := e0.runs staleHistory
    DumpActive (e0.runs (staleHistory.take 4)) 1 ∧
      ((Op.run (e0.runs (staleHistory.take 4)) (.hAddSegment 0 (some (u 4)) none [] (u 71))).2.toOption = some (some 2)) ∧
      ∃ r, decodeFile {} e.file.bytes = .ok r ∧ r.hdr.head.segments.map Segm.localId = [1] ∧
        (r.view e.file.bytes).map (fun x => x.2.2) = [2] := by
  refine ⟨by decide +kernel, by decide +kernel, ?_⟩
  have h : (decodeFile {} ((Enc.new ⟨true, [], 0⟩ 9 0 (u 9) ⟨2024, 2, 29, 23, 59, 59⟩ false).runs staleHistory).file.bytes).toOption.map
      (fun r => (r.hdr.head.segments.map Segm.localId,
        (r.view ((Enc.new ⟨true, [], 0⟩ 9 0 (u 9) ⟨2024, 2, 29, 23, 59, 59⟩ false).runs staleHistory).file.bytes).map (fun x => x.2.2))) =
      some ([1], [2]) := by decide +kernel
  cases hd : decodeFile {} ((Enc.new ⟨true, [], 0⟩ 9 0 (u 9) ⟨2024, 2, 29, 23, 59, 59⟩ false).runs staleHistory).file.bytes with
  | error x => rw [hd] at h; cases h
  | ok r =>
    rw [hd] at h
    simp only [Except.toOption, Option.map_some, Option.some.injEq, Prod.mk.injEq] at h
    exact ⟨r, rfl, h.1, h.2⟩

/-! ## C15 -/

theorem patchCounts_congr (f : OutFile) (a b : List Seg)
    (h : a.map (fun s => (s.countPos, s.writeCount)) = b.map (fun s => (s.countPos, s.writeCount))) :
    patchCounts f a = patchCounts f b := by
  induction a generalizing f b with
  | nil =>
    cases b with
    | nil => rfl
    | cons => cases h
  | cons s ss ih =>
    cases b with
    | nil => cases h
    | cons t ts =>
      simp only [List.map_cons, List.cons.injEq, Prod.mk.injEq] at h
      obtain ⟨⟨h1, h2⟩, h3⟩ := h
      rw [patchCounts, patchCounts, h1, h2]
      cases t.countPos with
      | none => exact ih _ _ h3
      | some p =>
        simp only
        split
        · exact ih _ _ h3
        · exact ih _ _ h3

/-- C15 is violated by the code, in every state with only an asynchronous streaming dump open: grains handed to a
segment made by the encoder or by the asynchronous handle are accepted, and the file that results at the
end of the `async with` block is the one that would have resulted without them. -/
theorem C15_segment_grains_lost (e : Enc) (hs : e.streaming = true) (hn : e.syncOpen = none) (l : Nat) (s : Seg)
    (hl : e.seg l = some s) (hp : ∀ k h, s.parent = some k → e.handles[k]? = some h → h.isAsync = true)
    (gs : List Grain) :
    ((Op.sAddGrains l gs).run e).2 = .ok (some l) ∧
      (e.runs [.sAddGrains l gs, .aexit]).file = (e.runs [.aexit]).file := by
  have hpar : ((e.parentHandle s).map Handle.active).getD false = false := by
    unfold Enc.parentHandle
    cases hpp : s.parent with
    | none => simp [hn]
    | some k =>
      simp only
      cases hk : e.handles[k]? with
      | none => rfl
      | some h => simp [Option.filter, hp k h hpp hk]
  have hrun : e.sAddGrains l gs = (e.updSeg l (fun s => { s with grains := s.grains ++ gs }), .ok l) := by
    unfold Enc.sAddGrains
    rw [hl]
    simp only [hpar, Bool.false_eq_true, if_false]
  refine ⟨by simp only [Op.run, hrun]; rfl, ?_⟩
  show (Enc.aexit (e.sAddGrains l gs).1).file = e.aexit.file
  rw [hrun]
  unfold Enc.aexit
  simp only [Enc.updSeg, hs, if_true]
  cases e.asyncOpen with
  | none => rfl
  | some k =>
    simp only [Enc.finish]
    rw [patchCounts_congr e.file (e.segs.map (fun s => if s.localId = l then { s with grains := s.grains ++ gs } else s)) e.segs]
    · split <;> rfl
    · rw [List.map_map]
      apply List.map_congr_left
      intro t _
      simp only [Function.comp]
      split <;> rfl

/-- A program that uses an asynchronous streaming dump. -/
def asyncStart : List Op := [.addSegment (some (u 3)) none [] (u 70), .aenter]

example :
    let e := (Enc.new ⟨true, [], 0⟩ 9 0 (u 9) ⟨2024, 2, 29, 23, 59, 59⟩ true).runs asyncStart
    e.streaming = true ∧ e.syncOpen = none ∧ e.asyncOpen = some 0 ∧ (e.handles[0]?).map Handle.active = some true ∧
      (e.seg 1).map Seg.parent = some none := by decide +kernel

/-- C15 is violated in a second way: during an asynchronous streaming dump the encoder accepts a new segment, and
then a grain of that segment is written although the header does not declare it. -/
theorem C15_segment_added_counterexample :
    let e0 := (Enc.new ⟨true, [], 0⟩ 9 0 (u 9) ⟨2024, 2, 29, 23, 59, 59⟩ true).runs asyncStart
    let e := e0.runs [.addSegment (some (u 4)) none [] (u 71), .hAddGrains 0 [gAudio] none (some 2) (u 72), .aexit]
    ((Op.run e0 (.addSegment (some (u 4)) none [] (u 71))).2.toOption = some (some 2)) ∧
      ∃ r, decodeFile {} e.file.bytes = .ok r ∧ r.hdr.head.segments.map Segm.localId = [1] ∧
        (r.view e.file.bytes).map (fun x => x.2.2) = [2] := by
  intro e0 e
  refine ⟨by decide +kernel, ?_⟩
  have h : (decodeFile {} e.file.bytes).toOption.map
      (fun r => (r.hdr.head.segments.map Segm.localId, (r.view e.file.bytes).map (fun x => x.2.2))) =
      some ([1], [2]) := by decide +kernel
  cases hd : decodeFile {} e.file.bytes with
  | error x => rw [hd] at h; cases h
  | ok r =>
    rw [hd] at h
    simp only [Except.toOption, Option.map_some, Option.some.injEq, Prod.mk.injEq] at h
    exact ⟨r, rfl, h.1, h.2⟩

/-- C15, what does hold: calls through the asynchronous handle itself.  While its dump is active, adding tags and
segments is refused and changes neither output nor segments; grains are refused without effect, or they
are appended to the output at once for an existing segment and no segment is added. -/
theorem C15_handle_partial (e : Enc) (k n : Nat) (hk : e.handles[k]? = some ⟨true, n, true⟩) (hf : e.file.AtEnd) :
    (∀ t, e.hAddTag k t = (e, .error .activeDump)) ∧
    (∀ id lid tags fresh,
      ((e.hAddSegment k id lid tags fresh).2 = .error .activeDump ∨ (e.hAddSegment k id lid tags fresh).2 = .error .encode) ∧
      (e.hAddSegment k id lid tags fresh).1.file = e.file ∧ (e.hAddSegment k id lid tags fresh).1.segs = e.segs ∧
      (e.hAddSegment k id lid tags fresh).1.tags = e.tags) ∧
    (∀ gs sid lid fresh, e.hAddGrains k gs sid lid fresh = (e, .error .encode) ∨
      ∃ l ∈ e.lids, (e.hAddGrains k gs sid lid fresh).2 = .ok l ∧
        (e.hAddGrains k gs sid lid fresh).1.file.bytes = e.file.bytes ++ gs.flatMap (encodeGrain e.major l) ∧
        (e.hAddGrains k gs sid lid fresh).1.segs.map (fun s => (s.localId, s.id, s.flow, s.tags, s.grains)) =
          e.segs.map (fun s => (s.localId, s.id, s.flow, s.tags, s.grains))) := by
  refine ⟨?_, ?_, ?_⟩
  · intro t; simp [Enc.hAddTag, hk]
  · intro id lid tags fresh
    simp only [Enc.hAddSegment, hk, if_true]
    split
    · exact ⟨.inr rfl, rfl, rfl, rfl⟩
    · exact ⟨.inl rfl, rfl, rfl, rfl⟩
  · intro gs sid lid fresh
    unfold Enc.hAddGrains
    simp only [hk, if_true]
    split
    · rename_i l hc
      right
      rw [Option.filter_eq_some_iff] at hc
      obtain ⟨h1, -, -, h4⟩ := writeGrains_eq hf l gs
      refine ⟨l, (e.hasSeg_iff l).mp hc.2, rfl, h1, ?_⟩
      rw [h4]
      simp only [List.map_map]
      apply List.map_congr_left
      intro s _
      simp only [Function.comp]
      split <;> rfl
    · exact .inl rfl

/-! ## C16 -/

/-- C16: in every state a synchronous program can reach, and for `add_segment` of the encoder (when nothing is
open) or of the open handle (when no dump is active): the local ids are pairwise distinct; an automatic id is
accepted and larger than every one accepted before; an explicit id that is not in use is accepted, one that
is in use is refused and the segments stay as they are. -/
theorem C16_local_ids_partial (file : OutFile) (major minor : Nat) (id : Bytes) (created : DateTime) (streaming : Bool)
    (history : List Op) (hh : SyncHistory (Enc.new file major minor id created streaming) history) :
    let e := (Enc.new file major minor id created streaming).runs history
    e.lids.Nodup ∧
    (e.syncOpen = none → ∀ sid tags fresh,
      (∃ l, (e.addSegment sid none tags fresh).2 = .ok l ∧ (∀ l' ∈ e.lids, l' < l) ∧
        (e.addSegment sid none tags fresh).1.lids = e.lids ++ [l]) ∧
      (∀ l, l ∉ e.lids → (e.addSegment sid (some l) tags fresh).2 = .ok l ∧
        (e.addSegment sid (some l) tags fresh).1.lids = e.lids ++ [l]) ∧
      (∀ l ∈ e.lids, (e.addSegment sid (some l) tags fresh).2 = .error .encode ∧
        (e.addSegment sid (some l) tags fresh).1.segs = e.segs)) ∧
    (∀ k, e.syncOpen = some k → (e.handles[k]?).map Handle.active = some false → ∀ sid tags fresh,
      (∃ l, (e.hAddSegment k sid none tags fresh).2 = .ok l ∧ (∀ l' ∈ e.lids, l' < l) ∧
        (e.hAddSegment k sid none tags fresh).1.lids = e.lids ++ [l]) ∧
      (∀ l, l ∉ e.lids → (e.hAddSegment k sid (some l) tags fresh).2 = .ok l ∧
        (e.hAddSegment k sid (some l) tags fresh).1.lids = e.lids ++ [l]) ∧
      (∀ l ∈ e.lids, (e.hAddSegment k sid (some l) tags fresh).2 = .error .encode ∧
        (e.hAddSegment k sid (some l) tags fresh).1.segs = e.segs)) := by
  intro e
  have hi : SyncInv e := syncInv_history (syncInv_new ..) history hh
  refine ⟨hi.nodup, ?_, ?_⟩
  · intro ho sid tags fresh
    have hb : ∀ l ∈ e.lids, l < e.nextLocal := by
      intro l hl; have := hi.below l hl; simpa only [Enc.next, ho] using this
    have key : ∀ lid, lid.getD e.nextLocal ∉ e.lids →
        (e.addSegment sid lid tags fresh).2 = .ok (lid.getD e.nextLocal) ∧
        (e.addSegment sid lid tags fresh).1.lids = e.lids ++ [lid.getD e.nextLocal] := by
      intro lid hl
      unfold Enc.addSegment
      rw [if_neg (by simp [ho])]
      simp only
      have hns : Enc.hasSeg { e with nextLocal := bumpLocal e.nextLocal (lid.getD e.nextLocal) } (lid.getD e.nextLocal) = false :=
        (e.hasSeg_false _).mpr hl
      rw [if_neg (by rw [hns]; simp)]
      exact ⟨rfl, by simp [Enc.lids, Seg.new]⟩
    refine ⟨⟨e.nextLocal, ?_⟩, fun l hl => key (some l) hl, ?_⟩
    · have := key none (fun h => Nat.lt_irrefl _ (hb _ h))
      exact ⟨this.1, hb, this.2⟩
    · intro l hl
      unfold Enc.addSegment
      rw [if_neg (by simp [ho])]
      simp only [Option.getD_some]
      have hns : Enc.hasSeg { e with nextLocal := bumpLocal e.nextLocal l } l = true := (e.hasSeg_iff _).mpr hl
      rw [if_pos hns]
      exact ⟨rfl, rfl⟩
  · intro k ho ha sid tags fresh
    obtain ⟨h, hk, hact⟩ : ∃ h, e.handles[k]? = some h ∧ h.active = false := by
      cases hh : e.handles[k]? with
      | none => rw [hh] at ha; cases ha
      | some h => rw [hh] at ha; exact ⟨h, rfl, by simpa using ha⟩
    have hb : ∀ l ∈ e.lids, l < h.nextLocal := by
      intro l hl; have := hi.below l hl; simpa only [Enc.next, ho, hk, Option.map_some, Option.getD_some] using this
    have key : ∀ lid, lid.getD h.nextLocal ∉ e.lids →
        (e.hAddSegment k sid lid tags fresh).2 = .ok (lid.getD h.nextLocal) ∧
        (e.hAddSegment k sid lid tags fresh).1.lids = e.lids ++ [lid.getD h.nextLocal] := by
      intro lid hl
      unfold Enc.hAddSegment
      rw [hk]
      simp only
      have hns : Enc.hasSeg (e.updHandle k (fun h' => { h' with nextLocal := bumpLocal h'.nextLocal (lid.getD h.nextLocal) }))
          (lid.getD h.nextLocal) = false := (e.hasSeg_false _).mpr hl
      rw [if_neg (by rw [hns]; simp), if_neg (by simp [hact])]
      exact ⟨rfl, by simp [Enc.lids, Enc.updHandle, Seg.new]⟩
    refine ⟨⟨h.nextLocal, ?_⟩, fun l hl => key (some l) hl, ?_⟩
    · have := key none (fun h' => Nat.lt_irrefl _ (hb _ h'))
      exact ⟨this.1, hb, this.2⟩
    · intro l hl
      unfold Enc.hAddSegment
      rw [hk]
      simp only [Option.getD_some]
      have hns : Enc.hasSeg (e.updHandle k (fun h' => { h' with nextLocal := bumpLocal h'.nextLocal l })) l = true :=
        (e.hasSeg_iff _).mpr hl
      rw [if_pos hns]
      exact ⟨rfl, rfl⟩

/-- Explicit ids out of order, a refused duplicate, an automatic id in between, segments made by a handle. -/
def idHistory : List Op :=
  [.addSegment none (some 7) [] (u 1), .addSegment none (some 2) [] (u 2), .addSegment none (some 7) [] (u 3),
    .addSegment none none [] (u 4), .enter, .hAddSegment 0 none none [] (u 5)]

example :
    let e0 := Enc.new ⟨true, [], 0⟩ 9 0 (u 9) ⟨2024, 2, 29, 23, 59, 59⟩ false
    SyncHistory e0 idHistory ∧ (e0.runs idHistory).lids = [7, 2, 8, 9] ∧ (e0.runs idHistory).syncOpen = some 0 ∧
      ((e0.runs idHistory).handles[0]?).map Handle.active = some false := by decide +kernel

/-- With the asynchronous interface the encoder and its open handle count separately, and an automatic id is
refused. -/
theorem C16_async_counterexample :
    let e0 := Enc.new ⟨true, [], 0⟩ 9 0 (u 9) ⟨2024, 2, 29, 23, 59, 59⟩ false
    let e := e0.runs [.aenter, .hAddSegment 0 none none [] (u 1)]
    (e.addSegment none none [] (u 2)).2 = .error .encode := by
  intro e0 e
  have h : (match (e.addSegment none none [] (u 2)).2 with | .error x => x == .encode | .ok _ => false) = true := by
    decide +kernel
  cases hr : (e.addSegment none none [] (u 2)).2 with
  | error x => rw [hr] at h; simp only [beq_iff_eq] at h; rw [h]
  | ok l => rw [hr] at h; cases h

/-! ## C17 -/

theorem mem_insertId (a x : Nat) (l : List Nat) : x ∈ insertId a l ↔ x = a ∨ x ∈ l := by
  induction l with
  | nil => simp [insertId]
  | cons b bs ih =>
    unfold insertId
    split
    · simp
    · simp only [List.mem_cons, ih]
      constructor
      · rintro (h | h | h) <;> simp [h]
      · rintro (h | h | h) <;> simp [h]

theorem mem_sortIds (x : Nat) (l : List Nat) : x ∈ sortIds l ↔ x ∈ l := by
  induction l with
  | nil => simp [sortIds]
  | cons a as ih => rw [sortIds, mem_insertId, ih, List.mem_cons]

theorem insertId_sorted (a : Nat) (l : List Nat) (h : l.Pairwise (· ≤ ·)) : (insertId a l).Pairwise (· ≤ ·) := by
  induction l with
  | nil => simp [insertId]
  | cons b bs ih =>
    rw [List.pairwise_cons] at h
    unfold insertId
    split
    · rename_i hab
      refine List.pairwise_cons.mpr ⟨?_, List.pairwise_cons.mpr h⟩
      intro x hx
      rcases List.mem_cons.mp hx with rfl | hx
      · exact hab
      · exact Nat.le_trans hab (h.1 x hx)
    · rename_i hab
      refine List.pairwise_cons.mpr ⟨?_, ih h.2⟩
      intro x hx
      rw [mem_insertId] at hx
      rcases hx with rfl | hx
      · omega
      · exact h.1 x hx

theorem sortIds_sorted (l : List Nat) : (sortIds l).Pairwise (· ≤ ·) := by
  induction l with
  | nil => exact .nil
  | cons a as ih => exact insertId_sorted a _ ih

/-- `l` is the segment the arguments of `add_grain(s)` ask for: the given local id, or the lowest local id among
the segments with the given id, or the lowest one at all. -/
def Asked (e : Enc) (sid : Option Bytes) (lid : Option Nat) (l : Nat) : Prop :=
  match lid, sid with
  | some l', _ => l = l' ∧ ∃ s ∈ e.segs, s.localId = l'
  | none, some i => (∃ s ∈ e.segs, s.id = i ∧ s.localId = l) ∧ ∀ s ∈ e.segs, s.id = i → l ≤ s.localId
  | none, none => (∃ s ∈ e.segs, s.localId = l) ∧ ∀ s ∈ e.segs, l ≤ s.localId

theorem choose_none_iff (e : Enc) (sid : Option Bytes) (l : Nat) :
    e.choose sid none = some l ↔ (∃ s ∈ e.segs, (sid.isNone || some s.id == sid) = true ∧ s.localId = l) ∧
      ∀ s ∈ e.segs, (sid.isNone || some s.id == sid) = true → l ≤ s.localId := by
  unfold Enc.choose
  simp only
  generalize hm : (e.segs.filter (fun s => sid.isNone || some s.id == sid)).map Seg.localId = m
  have hmem : ∀ x, x ∈ m ↔ ∃ s ∈ e.segs, (sid.isNone || some s.id == sid) = true ∧ s.localId = x := by
    intro x
    rw [← hm, List.mem_map]
    constructor
    · rintro ⟨s, hs, rfl⟩
      have := List.mem_filter.mp hs
      exact ⟨s, this.1, this.2, rfl⟩
    · rintro ⟨s, hs, h1, rfl⟩
      exact ⟨s, List.mem_filter.mpr ⟨hs, h1⟩, rfl⟩
  have hs := sortIds_sorted m
  constructor
  · intro h
    have hl : l ∈ sortIds m := List.mem_of_head? h
    refine ⟨(hmem l).mp ((mem_sortIds l m).mp hl), fun s hs' hc => ?_⟩
    have hx : s.localId ∈ sortIds m := (mem_sortIds _ m).mpr ((hmem _).mpr ⟨s, hs', hc, rfl⟩)
    cases hso : sortIds m with
    | nil => rw [hso] at hx; cases hx
    | cons a as =>
      rw [hso] at h hx hs
      cases h
      rcases List.mem_cons.mp hx with hx | hx
      · omega
      · exact (List.pairwise_cons.mp hs).1 _ hx
  · rintro ⟨h1, h2⟩
    have hl : l ∈ sortIds m := (mem_sortIds l m).mpr ((hmem l).mpr h1)
    cases hso : sortIds m with
    | nil => rw [hso] at hl; cases hl
    | cons a as =>
      rw [hso] at hl hs
      obtain ⟨s, hs1, hs2, hs3⟩ := (hmem a).mp ((mem_sortIds a m).mp (by rw [hso]; simp))
      have := h2 s hs1 hs2
      rcases List.mem_cons.mp hl with hl | hl
      · rw [hl]; rfl
      · have := (List.pairwise_cons.mp hs).1 _ hl
        have : a = l := by omega
        rw [this]; rfl

theorem asked_iff (e : Enc) (sid lid l) : (e.choose sid lid).filter e.hasSeg = some l ↔ Asked e sid lid l := by
  rw [Option.filter_eq_some_iff, e.hasSeg_iff]
  cases lid with
  | some l' =>
    simp only [Enc.choose, Option.some.injEq, Asked]
    constructor
    · rintro ⟨rfl, h⟩; exact ⟨rfl, by simpa [Enc.lids] using h⟩
    · rintro ⟨rfl, h⟩; exact ⟨rfl, by simpa [Enc.lids] using h⟩
  | none =>
    rw [choose_none_iff]
    have hl : (∃ s ∈ e.segs, (sid.isNone || some s.id == sid) = true ∧ s.localId = l) → l ∈ e.lids := by
      rintro ⟨s, hs, -, rfl⟩; exact List.mem_map.mpr ⟨s, hs, rfl⟩
    cases sid with
    | none =>
      simp only [Option.isNone_none, Bool.true_or, true_and, Asked] at hl ⊢
      constructor
      · rintro ⟨⟨h1, h2⟩, -⟩; exact ⟨h1, fun s hs => h2 s hs trivial⟩
      · rintro ⟨h1, h2⟩; exact ⟨⟨h1, fun s hs _ => h2 s hs⟩, hl h1⟩
    | some i =>
      simp only [Option.isNone_some, Bool.false_or, beq_iff_eq, Option.some.injEq, Asked] at hl ⊢
      constructor
      · rintro ⟨h1, -⟩; exact h1
      · rintro h; exact ⟨h, hl h.1⟩

/-- The grains went to segment `l`: onto its list when no dump is active, into the output otherwise; nothing
else about the segments changed. -/
def GaveTo (e : Enc) (l : Nat) (gs : List Grain) (e' : Enc) : Prop :=
  (e'.segs = e.segs.map (fun s => if s.localId = l then { s with grains := s.grains ++ gs } else s) ∧ e'.file = e.file) ∨
  (e'.segs = e.segs.map (fun s => if s.localId = l then { s with writeCount := s.writeCount + gs.length } else s) ∧
    e'.file.bytes = e.file.bytes ++ gs.flatMap (encodeGrain e.major l))

theorem sAddGrains_gave {e : Enc} (hf : (∃ h ∈ e.handles, h.active = true) → e.file.AtEnd) {l : Nat} (hl : l ∈ e.lids) (gs : List Grain) :
    (e.sAddGrains l gs).2 = .ok l ∧ GaveTo e l gs (e.sAddGrains l gs).1 := by
  refine ⟨sAddGrains_ok hl gs, ?_⟩
  obtain ⟨s, hs⟩ := Enc.seg_of_mem hl
  unfold Enc.sAddGrains
  rw [hs]
  simp only
  split
  · rename_i hact
    have : ∃ h ∈ e.handles, h.active = true := by
      unfold Enc.parentHandle at hact
      cases hp : s.parent with
      | none =>
        rw [hp] at hact
        simp only at hact
        cases ho : e.syncOpen with
        | none => rw [ho] at hact; cases hact
        | some k =>
          rw [ho] at hact
          simp only [Option.bind_some] at hact
          cases hk : e.handles[k]? with
          | none => rw [hk] at hact; cases hact
          | some h => rw [hk] at hact; exact ⟨h, List.mem_of_getElem? hk, by simpa using hact⟩
      | some k =>
        rw [hp] at hact
        simp only at hact
        cases hk : e.handles[k]? with
        | none => rw [hk] at hact; cases hact
        | some h =>
          rw [hk] at hact
          refine ⟨h, List.mem_of_getElem? hk, ?_⟩
          cases hb : h.isAsync <;> simp [Option.filter, hb] at hact
          exact hact
    obtain ⟨h1, -, -, h4⟩ := writeGrains_eq (hf this) l gs
    exact .inr ⟨by rw [h4], h1⟩
  · exact .inl ⟨rfl, rfl⟩

/-- C17, an existing segment: whenever the arguments ask for a segment that exists, `add_grain(s)` of the encoder
and of any of its handles gives the grains to that segment, in every state (the only assumption is that the
file stands at its end while a dump is active, which holds in every state of the synchronous encoder). -/
theorem C17_existing (e : Enc) (hf : (∃ h ∈ e.handles, h.active = true) → e.file.AtEnd)
    (sid : Option Bytes) (lid : Option Nat) (l : Nat) (ha : Asked e sid lid l) (gs : List Grain) (fresh : Bytes) :
    (∀ k h, e.handles[k]? = some h →
      (e.hAddGrains k gs sid lid fresh).2 = .ok l ∧ GaveTo e l gs (e.hAddGrains k gs sid lid fresh).1) ∧
    ((∀ k, e.syncOpen = some k → k < e.handles.length) →
      (e.addGrains gs sid lid fresh).2 = .ok l ∧ GaveTo e l gs (e.addGrains gs sid lid fresh).1) := by
  have hc := (asked_iff e sid lid l).mpr ha
  have hl : l ∈ e.lids := by
    rw [← e.hasSeg_iff]; exact ((Option.filter_eq_some_iff).mp hc).2
  have key : ∀ k h, e.handles[k]? = some h →
      (e.hAddGrains k gs sid lid fresh).2 = .ok l ∧ GaveTo e l gs (e.hAddGrains k gs sid lid fresh).1 := by
    intro k h hk
    rw [hAddGrains_of hk hc]
    split
    · rename_i hact
      obtain ⟨h1, -, -, h4⟩ := writeGrains_eq (hf ⟨h, List.mem_of_getElem? hk, hact⟩) l gs
      exact ⟨rfl, .inr ⟨by rw [h4], h1⟩⟩
    · exact sAddGrains_gave hf hl gs
  refine ⟨key, fun hx => ?_⟩
  unfold Enc.addGrains
  cases ho : e.syncOpen with
  | some k => exact key k _ (List.getElem?_eq_getElem (hx k ho))
  | none =>
    simp only [hc]
    exact sAddGrains_gave hf hl gs

/-- The state in which a new segment was added and received the grains. -/
def NewSegment (e : Enc) (sid : Option Bytes) (lid : Option Nat) (fresh : Bytes) (gs : List Grain) (l : Nat) (e' : Enc) : Prop :=
  l ∉ e.lids ∧ (∀ l', lid = some l' → l = l') ∧ e'.file = e.file ∧
    ∃ s : Seg, e'.segs = e.segs ++ [s] ∧ s.localId = l ∧ s.id = sid.getD fresh ∧ s.grains = gs ∧ s.tags = [] ∧ s.flow = none

theorem new_gave {e e1 : Enc} {l : Nat} {gs : List Grain} {s : Seg} (hl : l ∉ e.lids) (hs : e1.segs = e.segs ++ [s])
    (hsl : s.localId = l) (hg : s.grains = []) (hp : ((e1.parentHandle s).map Handle.active).getD false = false) :
    (e1.sAddGrains l gs).2 = .ok l ∧ (e1.sAddGrains l gs).1.file = e1.file ∧
      (e1.sAddGrains l gs).1.segs = e.segs ++ [{ s with grains := gs }] := by
  have hseg : e1.seg l = some s := by
    unfold Enc.seg
    rw [hs, List.find?_append]
    have : List.find? (fun s => s.localId == l) e.segs = none := by
      rw [List.find?_eq_none]
      intro t ht h
      exact hl (List.mem_map.mpr ⟨t, ht, by simpa using h⟩)
    rw [this]
    simp [hsl]
  unfold Enc.sAddGrains
  rw [hseg]
  simp only [hp, Bool.false_eq_true, if_false, true_and]
  refine ⟨rfl, ?_⟩
  simp only [Enc.updSeg, hs, List.map_append, List.map_cons, List.map_nil, hsl, if_true, hg, List.nil_append]
  congr 1
  conv => rhs; rw [← List.map_id e.segs]
  apply List.map_congr_left
  intro t ht
  rw [if_neg]
  · rfl
  · intro h; exact hl (List.mem_map.mpr ⟨t, ht, h⟩)

/-- C17, no such segment: in every state, if the arguments ask for no existing segment then `add_grain(s)` of the
encoder (no synchronous handle open) or of a handle either raises and changes neither segments nor output, or
makes one new segment with the given ids and gives it the grains. -/
theorem C17_new_segment (e : Enc) (sid : Option Bytes) (lid : Option Nat) (gs : List Grain) (fresh : Bytes)
    (hna : ∀ l, ¬ Asked e sid lid l) :
    (e.syncOpen = none →
      ((∃ x, (e.addGrains gs sid lid fresh).2 = .error x) ∧ (e.addGrains gs sid lid fresh).1.segs = e.segs ∧
        (e.addGrains gs sid lid fresh).1.file = e.file) ∨
      ∃ l, (e.addGrains gs sid lid fresh).2 = .ok l ∧ NewSegment e sid lid fresh gs l (e.addGrains gs sid lid fresh).1) ∧
    (∀ k, ((∃ x, (e.hAddGrains k gs sid lid fresh).2 = .error x) ∧ (e.hAddGrains k gs sid lid fresh).1.segs = e.segs ∧
        (e.hAddGrains k gs sid lid fresh).1.file = e.file) ∨
      ∃ l, (e.hAddGrains k gs sid lid fresh).2 = .ok l ∧
        NewSegment e sid lid fresh gs l (e.hAddGrains k gs sid lid fresh).1) := by
  have hnone : (e.choose sid lid).filter e.hasSeg = none := by
    cases hc : (e.choose sid lid).filter e.hasSeg with
    | none => rfl
    | some l => exact absurd ((asked_iff e sid lid l).mp hc) (hna l)
  have hch : e.choose sid lid = lid := by
    cases lid with
    | some l => rfl
    | none =>
      cases hc : e.choose sid none with
      | none => rfl
      | some l =>
        exfalso
        have := (choose_none_iff e sid l).mp hc
        obtain ⟨s, hs, -, rfl⟩ := this.1
        rw [hc, Option.filter_some, if_pos ((e.hasSeg_iff _).mpr (List.mem_map.mpr ⟨s, hs, rfl⟩))] at hnone
        cases hnone
  rw [hch] at hnone
  refine ⟨?_, ?_⟩
  · intro ho
    by_cases hl : lid.getD e.nextLocal ∈ e.lids
    · left
      have hadd : e.addSegment sid lid [] fresh =
          ({ e with nextLocal := bumpLocal e.nextLocal (lid.getD e.nextLocal) }, .error .encode) := by
        unfold Enc.addSegment
        rw [if_neg (by simp [ho])]
        simp only
        have hns : Enc.hasSeg { e with nextLocal := bumpLocal e.nextLocal (lid.getD e.nextLocal) } (lid.getD e.nextLocal) = true :=
          (e.hasSeg_iff _).mpr hl
        rw [if_pos hns]
      unfold Enc.addGrains
      rw [ho]
      simp only [hch, hnone, hadd]
      exact ⟨⟨_, rfl⟩, trivial, trivial⟩
    · right
      have hadd : (e.addSegment sid lid [] fresh) =
          ({ e with
            nextLocal := bumpLocal e.nextLocal (lid.getD e.nextLocal)
            segs := e.segs ++ [Seg.new (sid.getD fresh) (lid.getD e.nextLocal) [] none] }, .ok (lid.getD e.nextLocal)) := by
        unfold Enc.addSegment
        rw [if_neg (by simp [ho])]
        simp only
        have hns : Enc.hasSeg { e with nextLocal := bumpLocal e.nextLocal (lid.getD e.nextLocal) } (lid.getD e.nextLocal) = false :=
          (e.hasSeg_false _).mpr hl
        rw [if_neg (by rw [hns]; simp)]
      unfold Enc.addGrains
      rw [ho]
      simp only [hch, hnone, hadd]
      obtain ⟨h1, h2, h3⟩ := new_gave (e := e)
        (e1 := { e with
            nextLocal := bumpLocal e.nextLocal (lid.getD e.nextLocal)
            segs := e.segs ++ [Seg.new (sid.getD fresh) (lid.getD e.nextLocal) [] none] })
        (gs := gs) hl rfl (s := Seg.new (sid.getD fresh) (lid.getD e.nextLocal) [] none) rfl rfl
        (by simp [Enc.parentHandle, Seg.new, ho])
      exact ⟨_, h1, hl, (by rintro l' rfl; rfl), h2, _, h3, rfl, rfl, rfl, rfl, rfl⟩
  · intro k
    cases hk : e.handles[k]? with
    | none =>
      left
      unfold Enc.hAddGrains
      rw [hk]
      exact ⟨⟨_, rfl⟩, rfl, rfl⟩
    | some h =>
      by_cases hact : h.active = true
      · left
        unfold Enc.hAddGrains
        rw [hk]
        simp only [hch, hnone, hact, if_true]
        exact ⟨⟨_, rfl⟩, trivial, trivial⟩
      · have hact : h.active = false := by simpa using hact
        by_cases hl : lid.getD h.nextLocal ∈ e.lids
        · left
          have hadd : e.hAddSegment k sid lid [] fresh =
              (e.updHandle k (fun h' => { h' with nextLocal := bumpLocal h'.nextLocal (lid.getD h.nextLocal) }), .error .encode) := by
            unfold Enc.hAddSegment
            rw [hk]
            simp only
            have hns : Enc.hasSeg (e.updHandle k (fun h' => { h' with nextLocal := bumpLocal h'.nextLocal (lid.getD h.nextLocal) }))
                (lid.getD h.nextLocal) = true := (e.hasSeg_iff _).mpr hl
            rw [if_pos hns]
          unfold Enc.hAddGrains
          rw [hk]
          simp only [hch, hnone, hact, Bool.false_eq_true, if_false, hadd]
          exact ⟨⟨_, rfl⟩, rfl, rfl⟩
        · right
          have hadd : (e.hAddSegment k sid lid [] fresh) =
              ({ e with
                  handles := e.handles.modify k (fun h' => { h' with nextLocal := bumpLocal h'.nextLocal (lid.getD h.nextLocal) })
                  segs := e.segs ++ [Seg.new (sid.getD fresh) (lid.getD h.nextLocal) [] (some k)] }, .ok (lid.getD h.nextLocal)) := by
            unfold Enc.hAddSegment
            rw [hk]
            simp only
            have hns : Enc.hasSeg (e.updHandle k (fun h' => { h' with nextLocal := bumpLocal h'.nextLocal (lid.getD h.nextLocal) }))
                (lid.getD h.nextLocal) = false := (e.hasSeg_false _).mpr hl
            rw [if_neg (by rw [hns]; simp), if_neg (by simp [hact])]
            rfl
          unfold Enc.hAddGrains
          rw [hk]
          simp only [hch, hnone, hact, Bool.false_eq_true, if_false, hadd]
          obtain ⟨h1, h2, h3⟩ := new_gave (e := e)
            (e1 := { e with
                  handles := e.handles.modify k (fun h' => { h' with nextLocal := bumpLocal h'.nextLocal (lid.getD h.nextLocal) })
                  segs := e.segs ++ [Seg.new (sid.getD fresh) (lid.getD h.nextLocal) [] (some k)] })
            (gs := gs) hl rfl (s := Seg.new (sid.getD fresh) (lid.getD h.nextLocal) [] (some k)) rfl rfl
            (by
              simp only [Enc.parentHandle, Seg.new, List.getElem?_modify, if_true, hk, Option.map_eq_map, Option.map_some, Option.filter]
              split <;> simp [hact])
          exact ⟨_, h1, hl, (by rintro l' rfl; rfl), h2, _, h3, rfl, rfl, rfl, rfl, rfl⟩

/-- C17, no such segment: in every state a synchronous program can reach, if the arguments ask for no existing
segment then `add_grain(s)` of the encoder (nothing open) or of the open handle (no dump active) makes
one new segment with the given ids and gives it the grains; while a dump is active it is refused without
effect. -/
theorem C17_new_segment_sync (file : OutFile) (major minor : Nat) (id : Bytes) (created : DateTime) (streaming : Bool)
    (history : List Op) (hh : SyncHistory (Enc.new file major minor id created streaming) history)
    (sid : Option Bytes) (lid : Option Nat) (gs : List Grain) (fresh : Bytes) :
    let e := (Enc.new file major minor id created streaming).runs history
    (∀ l, ¬ Asked e sid lid l) →
    (e.syncOpen = none → ∃ l, (e.addGrains gs sid lid fresh).2 = .ok l ∧
      NewSegment e sid lid fresh gs l (e.addGrains gs sid lid fresh).1) ∧
    (∀ k, e.syncOpen = some k → e.addGrains gs sid lid fresh = e.hAddGrains k gs sid lid fresh ∧
      ((e.handles[k]?).map Handle.active = some false → ∃ l, (e.hAddGrains k gs sid lid fresh).2 = .ok l ∧
        NewSegment e sid lid fresh gs l (e.hAddGrains k gs sid lid fresh).1) ∧
      ((e.handles[k]?).map Handle.active = some true → e.hAddGrains k gs sid lid fresh = (e, .error .encode))) := by
  intro e hna
  have hi : SyncInv e := syncInv_history (syncInv_new ..) history hh
  have hnone : (e.choose sid lid).filter e.hasSeg = none := by
    cases hc : (e.choose sid lid).filter e.hasSeg with
    | none => rfl
    | some l => exact absurd ((asked_iff e sid lid l).mp hc) (hna l)
  -- the id the new segment gets
  have hch : e.choose sid lid = lid := by
    cases lid with
    | some l => rfl
    | none =>
      cases hc : e.choose sid none with
      | none => rfl
      | some l =>
        exfalso
        have := (choose_none_iff e sid l).mp hc
        obtain ⟨s, hs, -, rfl⟩ := this.1
        rw [hc, Option.filter_some, if_pos ((e.hasSeg_iff _).mpr (List.mem_map.mpr ⟨s, hs, rfl⟩))] at hnone
        cases hnone
  rw [hch] at hnone
  have hlid : ∀ l', lid = some l' → l' ∉ e.lids := by
    rintro l' rfl hl
    exact hna l' ⟨rfl, by simpa [Enc.lids] using hl⟩
  refine ⟨?_, ?_⟩
  · intro ho
    have hadd : ∃ l, (e.addSegment sid lid [] fresh) =
        ({ e with nextLocal := bumpLocal e.nextLocal l, segs := e.segs ++ [Seg.new (sid.getD fresh) l [] none] }, .ok l) ∧
        l ∉ e.lids ∧ ∀ l', lid = some l' → l = l' := by
      have hb : ∀ l ∈ e.lids, l < e.nextLocal := by
        intro l hl; have := hi.below l hl; simpa only [Enc.next, ho] using this
      have hl : lid.getD e.nextLocal ∉ e.lids := by
        cases lid with
        | none => exact fun h => Nat.lt_irrefl _ (hb _ h)
        | some l' => exact hlid l' rfl
      refine ⟨lid.getD e.nextLocal, ?_, hl, by rintro l' rfl; rfl⟩
      unfold Enc.addSegment
      rw [if_neg (by simp [ho])]
      simp only
      have hns : Enc.hasSeg { e with nextLocal := bumpLocal e.nextLocal (lid.getD e.nextLocal) } (lid.getD e.nextLocal) = false :=
        (e.hasSeg_false _).mpr hl
      rw [if_neg (by rw [hns]; simp)]
    obtain ⟨l, hadd, hl, hl'⟩ := hadd
    unfold Enc.addGrains
    rw [ho]
    simp only [hch, hnone, hadd]
    obtain ⟨h1, h2, h3⟩ := new_gave (e := e)
      (e1 := { e with nextLocal := bumpLocal e.nextLocal l, segs := e.segs ++ [Seg.new (sid.getD fresh) l [] none] })
      (gs := gs) hl rfl (s := Seg.new (sid.getD fresh) l [] none) rfl rfl
      (by simp [Enc.parentHandle, Seg.new, ho])
    exact ⟨l, h1, hl, hl', h2, _, h3, rfl, rfl, rfl, rfl, rfl⟩
  · intro k ho
    refine ⟨by unfold Enc.addGrains; rw [ho], ?_, ?_⟩
    · intro ha
      obtain ⟨h, hk, hact⟩ : ∃ h, e.handles[k]? = some h ∧ h.active = false := by
        cases hh : e.handles[k]? with
        | none => rw [hh] at ha; cases ha
        | some h => rw [hh] at ha; exact ⟨h, rfl, by simpa using ha⟩
      have hadd : ∃ l, (e.hAddSegment k sid lid [] fresh) =
          ({ e with
              handles := e.handles.modify k (fun h' => { h' with nextLocal := bumpLocal h'.nextLocal l })
              segs := e.segs ++ [Seg.new (sid.getD fresh) l [] (some k)] }, .ok l) ∧
          l ∉ e.lids ∧ ∀ l', lid = some l' → l = l' := by
        have hb : ∀ l ∈ e.lids, l < h.nextLocal := by
          intro l hl; have := hi.below l hl; simpa only [Enc.next, ho, hk, Option.map_some, Option.getD_some] using this
        have hl : lid.getD h.nextLocal ∉ e.lids := by
          cases lid with
          | none => exact fun h' => Nat.lt_irrefl _ (hb _ h')
          | some l' => exact hlid l' rfl
        refine ⟨lid.getD h.nextLocal, ?_, hl, by rintro l' rfl; rfl⟩
        unfold Enc.hAddSegment
        rw [hk]
        simp only
        have hns : Enc.hasSeg (e.updHandle k (fun h' => { h' with nextLocal := bumpLocal h'.nextLocal (lid.getD h.nextLocal) }))
            (lid.getD h.nextLocal) = false := (e.hasSeg_false _).mpr hl
        rw [if_neg (by rw [hns]; simp), if_neg (by simp [hact])]
        rfl
      obtain ⟨l, hadd, hl, hl'⟩ := hadd
      unfold Enc.hAddGrains
      rw [hk]
      simp only [hch, hnone, hact, Bool.false_eq_true, if_false, hadd]
      obtain ⟨h1, h2, h3⟩ := new_gave (e := e)
        (e1 := { e with
              handles := e.handles.modify k (fun h' => { h' with nextLocal := bumpLocal h'.nextLocal l })
              segs := e.segs ++ [Seg.new (sid.getD fresh) l [] (some k)] })
        (gs := gs) hl rfl (s := Seg.new (sid.getD fresh) l [] (some k)) rfl rfl
        (by
          simp only [Enc.parentHandle, Seg.new, List.getElem?_modify, if_true, hk, Option.map_eq_map, Option.map_some, Option.filter]
          split <;> simp [hact])
      exact ⟨l, h1, hl, hl', h2, _, h3, rfl, rfl, rfl, rfl, rfl⟩
    · intro ha
      obtain ⟨h, hk, hact⟩ : ∃ h, e.handles[k]? = some h ∧ h.active = true := by
        cases hh : e.handles[k]? with
        | none => rw [hh] at ha; cases ha
        | some h => rw [hh] at ha; exact ⟨h, rfl, by simpa using ha⟩
      unfold Enc.hAddGrains
      rw [hk]
      simp only [hch, hnone, hact, if_true]

/-- Two segments share an id, and the lower local id was added later. -/
def sameIdHistory : List Op :=
  [.addSegment (some (u 1)) (some 7) [] (u 70), .addSegment (some (u 2)) (some 1) [] (u 70),
    .addSegment (some (u 1)) (some 5) [] (u 70)]

example :
    let e := (Enc.new ⟨true, [], 0⟩ 9 0 (u 9) ⟨2024, 2, 29, 23, 59, 59⟩ false).runs sameIdHistory
    Asked e (some (u 1)) none 5 ∧ Asked e none none 1 ∧ Asked e (some (u 1)) (some 7) 7 ∧
      ∀ l, ¬ Asked e (some (u 3)) none l := by
  refine ⟨(asked_iff ..).mp (by decide +kernel), (asked_iff ..).mp (by decide +kernel),
    (asked_iff ..).mp (by decide +kernel), ?_⟩
  intro l hl
  have h1 := (asked_iff ..).mpr hl
  have h2 : (Enc.choose ((Enc.new ⟨true, [], 0⟩ 9 0 (u 9) ⟨2024, 2, 29, 23, 59, 59⟩ false).runs sameIdHistory) (some (u 3)) none).filter
    (Enc.hasSeg ((Enc.new ⟨true, [], 0⟩ 9 0 (u 9) ⟨2024, 2, 29, 23, 59, 59⟩ false).runs sameIdHistory)) = none := by decide +kernel
  rw [h2] at h1; cases h1

end Verif.Props

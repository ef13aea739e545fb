import Verif.Gsf.EncoderLive

/-!
# Histories of the synchronous encoder
-/

namespace Verif.Gsf

/-! ## Local ids stay below the next automatic one -/

/-- The next automatic local id: of the open synchronous handle if there is one, else of the encoder. -/
def Enc.next (e : Enc) : Nat :=
  match e.syncOpen with
  | none => e.nextLocal
  | some k => ((e.handles[k]?).map Handle.nextLocal).getD e.nextLocal

/-- Local ids only grow, and new ones are below the next automatic one. -/
structure Grows (e e' : Enc) : Prop where
  next : e.next ≤ e'.next
  lids : ∀ l ∈ e'.lids, l ∈ e.lids ∨ l < e'.next

theorem Grows.refl (e : Enc) : Grows e e := ⟨Nat.le_refl _, fun _ h => .inl h⟩

theorem Grows.trans {a b c : Enc} (h : Grows a b) (k : Grows b c) : Grows a c :=
  ⟨Nat.le_trans h.next k.next, fun l hl => by
    rcases k.lids l hl with h1 | h1
    · rcases h.lids l h1 with h2 | h2
      · exact .inl h2
      · exact .inr (Nat.lt_of_lt_of_le h2 k.next)
    · exact .inr h1⟩

theorem Grows.of_eq {e e' : Enc} (h1 : e'.next = e.next) (h2 : e'.lids = e.lids) : Grows e e' :=
  ⟨Nat.le_of_eq h1.symm, fun l hl => .inl (h2 ▸ hl)⟩

theorem next_congr {e e' : Enc} (h1 : e'.syncOpen = e.syncOpen) (h2 : e'.handles = e.handles)
    (h3 : e'.nextLocal = e.nextLocal) : e'.next = e.next := by
  unfold Enc.next; rw [h1, h2, h3]

theorem bumpLocal_le (n l : Nat) : n ≤ bumpLocal n l ∧ l < bumpLocal n l := by
  unfold bumpLocal; split <;> omega

theorem grows_upd (e : Enc) (l : Nat) (f : Seg → Seg) (hf : ∀ s, (f s).localId = s.localId) : Grows e (e.updSeg l f) :=
  .of_eq (next_congr rfl rfl rfl) (e.updSeg_lids l f hf)

theorem grows_writeGrains (e : Enc) (l : Nat) (gs : List Grain) : Grows e (e.writeGrains l gs) := by
  induction gs generalizing e with
  | nil => exact .refl e
  | cons g gs ih =>
    have h1 : Grows e (e.writeGrain l g) :=
      .of_eq (next_congr rfl rfl rfl) (e.updSeg_lids l (fun s => { s with writeCount := s.writeCount + 1 }) (fun _ => rfl))
    exact h1.trans (ih _)

theorem grows_sAddGrains (e : Enc) (l : Nat) (gs : List Grain) : Grows e (e.sAddGrains l gs).1 := by
  unfold Enc.sAddGrains
  split
  · exact .refl e
  · split
    · exact grows_writeGrains e l gs
    · exact grows_upd e l (fun s => { s with grains := s.grains ++ gs }) (fun _ => rfl)

theorem grows_addSegment (e : Enc) (id lid tags fresh) : Grows e (e.addSegment id lid tags fresh).1 := by
  unfold Enc.addSegment
  by_cases ho : e.syncOpen.isSome = true
  · rw [if_pos ho]; exact .refl e
  · rw [if_neg ho]
    have ho : e.syncOpen = none := by simpa using ho
    have hb := bumpLocal_le e.nextLocal (lid.getD e.nextLocal)
    simp only
    split
    · refine ⟨?_, fun l hl => .inl hl⟩
      simp only [Enc.next, ho]; exact hb.1
    · refine ⟨?_, fun l hl => ?_⟩
      · simp only [Enc.next, ho]; exact hb.1
      · simp only [Enc.lids, List.map_append, List.map_cons, List.map_nil, List.mem_append, List.mem_singleton] at hl
        rcases hl with hl | rfl
        · exact .inl hl
        · right; simp only [Enc.next, ho]; exact hb.2

theorem next_updHandle {e : Enc} {k : Nat} {h : Handle} (ho : e.syncOpen = some k) (hk : e.handles[k]? = some h)
    (f : Handle → Handle) : (e.updHandle k f).next = (f h).nextLocal := by
  simp only [Enc.next, Enc.updHandle, ho, List.getElem?_modify, if_true, hk]
  rfl

theorem grows_hAddSegment (e : Enc) (k id lid tags fresh) (ho : e.syncOpen = some k) :
    Grows e (e.hAddSegment k id lid tags fresh).1 := by
  unfold Enc.hAddSegment
  cases hk : e.handles[k]? with
  | none => exact .refl e
  | some h =>
    simp only
    have hb := bumpLocal_le h.nextLocal (lid.getD h.nextLocal)
    have hn := next_updHandle ho hk (fun h' => { h' with nextLocal := bumpLocal h'.nextLocal (lid.getD h.nextLocal) })
    have hn0 : e.next = h.nextLocal := by simp only [Enc.next, ho, hk]; rfl
    have hle : e.next ≤ (e.updHandle k (fun h' => { h' with nextLocal := bumpLocal h'.nextLocal (lid.getD h.nextLocal) })).next := by
      rw [hn, hn0]; exact hb.1
    split
    · exact ⟨hle, fun l hl => .inl hl⟩
    · split
      · exact ⟨hle, fun l hl => .inl hl⟩
      · refine ⟨hle, fun l hl => ?_⟩
        simp only [Enc.lids, List.map_append, List.map_cons, List.map_nil, List.mem_append, List.mem_singleton] at hl
        rcases hl with hl | rfl
        · exact .inl hl
        · right
          refine Nat.lt_of_lt_of_eq hb.2 ?_
          rw [show bumpLocal h.nextLocal (lid.getD h.nextLocal) = _ from hn.symm]; rfl

theorem grows_hAddGrains (e : Enc) (k gs sid lid fresh) (ho : e.syncOpen = some k) :
    Grows e (e.hAddGrains k gs sid lid fresh).1 := by
  unfold Enc.hAddGrains
  split
  · exact .refl e
  · split
    · split
      · exact grows_writeGrains _ _ _
      · exact grows_sAddGrains _ _ _
    · split
      · exact .refl e
      · have h1 := grows_hAddSegment e k sid (e.choose sid lid) [] fresh ho
        split
        · rename_i hx; rw [hx] at h1; exact h1
        · rename_i hx; rw [hx] at h1; exact h1.trans (grows_sAddGrains _ _ _)

theorem grows_addGrains (e : Enc) (gs sid lid fresh) : Grows e (e.addGrains gs sid lid fresh).1 := by
  unfold Enc.addGrains
  split
  · rename_i k ho; exact grows_hAddGrains e k gs sid lid fresh ho
  · split
    · exact grows_sAddGrains _ _ _
    · have h1 := grows_addSegment e sid (e.choose sid lid) [] fresh
      split
      · rename_i hx; rw [hx] at h1; exact h1
      · rename_i hx; rw [hx] at h1; exact h1.trans (grows_sAddGrains _ _ _)

/-! ## Histories -/

/-- The step follows the intended use of the synchronous interface: handles are used only while they are the
open one, and a dump is opened only when none is open. -/
def SyncStep (e : Enc) : Op → Prop
  | .hAddTag k _ => e.syncOpen = some k
  | .hAddSegment k .. => e.syncOpen = some k
  | .hAddGrains k .. => e.syncOpen = some k
  | .enter => e.syncOpen = none
  | .startDump _ => e.syncOpen = none
  | .aenter => False
  | .aexit => False
  | _ => True

instance (e o) : Decidable (SyncStep e o) := by cases o <;> unfold SyncStep <;> infer_instance

/-- A history of such steps. -/
def SyncHistory (e : Enc) : List Op → Prop
  | [] => True
  | o :: os => SyncStep e o ∧ SyncHistory (o.run e).1 os

instance : ∀ e os, Decidable (SyncHistory e os)
  | _, [] => inferInstanceAs (Decidable True)
  | e, o :: os =>
    have := instDecidableSyncHistory (o.run e).1 os
    inferInstanceAs (Decidable (SyncStep e o ∧ SyncHistory (o.run e).1 os))

/-- What a header declares about a segment, without the count. -/
def SegmIn.declared (s : SegmIn) : Nat × Bytes × Option FlowIn × List Tag := (s.localId, s.id, s.flow, s.tags)

/-- What a header would declare about a segment. -/
def Seg.declared (s : Seg) : Nat × Bytes × Option FlowIn × List Tag := (s.localId, s.id, s.flow, s.tags)

/-- The file ends with a header that declares exactly the encoder's segments and tags, followed by grains of
these segments only. -/
def Written (e : Enc) : Prop :=
  ∃ (pre : Bytes) (h : HeadIn) (w : List (Nat × Grain)),
    e.file.bytes = pre ++ (encodeFileHeader e.major e.minor ++ (encodeHead h ++
      w.flatMap (fun x => encodeGrain e.major x.1 x.2))) ∧
    h.id = e.id ∧ h.tags = e.tags ∧ h.segments.map SegmIn.declared = e.segs.map Seg.declared ∧
    ∀ x ∈ w, x.1 ∈ e.lids

theorem Live.written {e0 k w held e} (h : Live e0 k w held e) (hw : Written e0) : Written e := by
  obtain ⟨pre, hd, w0, h1, h2, h3, h4, h5⟩ := hw
  refine ⟨pre, hd, w0 ++ w, ?_, h2.trans h.frame.id.symm, h3.trans h.tags.symm, ?_, ?_⟩
  · rw [h.bytes, h1, h.frame.major, h.frame.minor]
    simp only [List.flatMap_append, List.append_assoc]
  · rw [h4, h.segs, List.map_map]; rfl
  · intro x hx
    rw [h.lids]
    rcases List.mem_append.mp hx with hx | hx
    · exact h5 x hx
    · exact h.declared x hx

theorem pending_lids {e : Enc} {x : Nat × Grain} (hx : x ∈ e.pending) : x.1 ∈ e.lids := by
  unfold Enc.pending at hx
  obtain ⟨s, hs, hx⟩ := List.mem_flatMap.mp hx
  obtain ⟨g, _, rfl⟩ := List.mem_map.mp hx
  exact List.mem_map.mpr ⟨s, hs, rfl⟩

theorem start_written (e : Enc) (k : Nat) (all : Bool) : Written (e.start k all) := by
  rw [start_eq]
  refine ⟨e.file.clear.bytes, e.headIn all, e.pending, ?_, rfl, rfl, ?_, ?_⟩
  · simp only [OutFile.write_bytes e.file.clear_atEnd, Enc.pendingBytes_eq, List.append_assoc]
  · simp only [Enc.headIn, List.map_map, startSegs]
    have h1 : ∀ segs : List Seg, segs.map (Seg.declared ∘ Seg.dumped) = (segs.map (Seg.header all)).map SegmIn.declared := by
      intro segs; rw [List.map_map]; rfl
    rw [h1]
    split
    · rw [setPositions_header, List.map_map]
    · rw [List.map_map]
  · intro x hx
    show x.1 ∈ (startSegs e all).map Seg.localId
    rw [startSegs_lids]; exact pending_lids hx

/-- What holds throughout such a history. -/
structure SyncInv (e : Enc) : Prop where
  nodup : e.lids.Nodup
  sync : ∀ h ∈ e.handles, h.isAsync = false
  active : ∀ (j : Nat) (h : Handle), e.handles[j]? = some h → h.active = true → e.syncOpen = some j
  exist : ∀ k, e.syncOpen = some k → k < e.handles.length
  dumped : ∀ h ∈ e.handles, h.active = true →
    e.file.AtEnd ∧ (∀ s ∈ e.segs, s.activeDump = true) ∧ Written e
  below : ∀ l ∈ e.lids, l < e.next

theorem SyncInv.live {e : Enc} (hi : SyncInv e) {k : Nat} {h : Handle} (hk : e.handles[k]? = some h)
    (ha : h.active = true) : Live e k [] (fun _ => []) e := by
  have hm := List.mem_of_getElem? hk
  refine ⟨.refl e, rfl, ?_, rfl, by simp, (hi.dumped h hm ha).1, hi.active k h hk ha, ⟨h.nextLocal, ?_⟩,
    fun _ _ => rfl, by simp⟩
  · conv => lhs; rw [← List.map_id e.segs]
    apply List.map_congr_left
    intro s _
    simp [Seg.during, ofSeg]
  · rw [hk]
    congr 1
    cases h
    simp only at ha
    have := hi.sync _ hm
    simp only at this
    rw [ha, this]

/-- Either a dump is active on the open handle, or none is. -/
theorem SyncInv.cases {e : Enc} (hi : SyncInv e) :
    Idle e ∨ ∃ (k : Nat) (h : Handle), e.handles[k]? = some h ∧ h.active = true ∧ e.syncOpen = some k := by
  by_cases hall : ∀ h ∈ e.handles, h.active = false
  · exact .inl ⟨hi.nodup, hall⟩
  · right
    have : ∃ h ∈ e.handles, h.active = true := by
      apply Classical.byContradiction
      intro hn
      exact hall (fun h hh => by
        cases hb : h.active with
        | false => rfl
        | true => exact absurd ⟨h, hh, hb⟩ hn)
    obtain ⟨h, hh, ha⟩ := this
    obtain ⟨k, hk⟩ := List.getElem?_of_mem hh
    exact ⟨k, h, hk, ha, hi.active k h hk ha⟩

theorem Live.handle_eq {e0 k w held e} (h : Live e0 k w held e) {hd : Handle} (hm : hd ∈ e.handles)
    (hi : SyncInv e0) (ha : hd.active = true) : ∃ n, hd = ⟨false, n, true⟩ := by
  obtain ⟨j, hj⟩ := List.getElem?_of_mem hm
  by_cases hjk : j = k
  · subst hjk
    obtain ⟨n, hn⟩ := h.handle
    rw [hn] at hj
    exact ⟨n, by cases hj; rfl⟩
  · have h1 := h.others j hjk
    rw [hj] at h1
    have := hi.active j hd h1.symm ha
    have h2 := h.opened
    rw [h.frame.syncOpen, this] at h2
    cases h2
    exact absurd rfl hjk

theorem grows_op {e : Enc} (o : Op) (ho : o.isDump = false) (hs : SyncStep e o) : Grows e (o.run e).1 := by
  cases o with
  | addTag t =>
    simp only [Op.run, Enc.addTag]
    split
    · exact .refl e
    · exact .of_eq (next_congr rfl rfl rfl) rfl
  | addSegment id lid tags fresh => exact grows_addSegment e id lid tags fresh
  | addGrains gs sid lid fresh => exact grows_addGrains e gs sid lid fresh
  | hAddTag k t =>
    simp only [Op.run, Enc.hAddTag]
    split
    · exact .refl e
    · split
      · exact .refl e
      · exact .of_eq (next_congr rfl rfl rfl) rfl
  | hAddSegment k id lid tags fresh => exact grows_hAddSegment e k id lid tags fresh hs
  | hAddGrains k gs sid lid fresh => exact grows_hAddGrains e k gs sid lid fresh hs
  | sAddTag l t =>
    simp only [Op.run, Enc.sAddTag]
    split
    · exact .refl e
    · split
      · exact .refl e
      · exact grows_upd e l (fun s => { s with tags := s.tags ++ [t] }) (fun _ => rfl)
  | sAddFlow l f =>
    simp only [Op.run, Enc.sAddFlow]
    split
    · exact .refl e
    · split
      · exact .refl e
      · exact grows_upd e l (fun s => { s with flow := some f }) (fun _ => rfl)
  | sAddGrains l gs => exact grows_sAddGrains e l gs
  | enter => cases ho
  | exit => cases ho
  | aenter => cases ho
  | aexit => cases ho
  | startDump => cases ho
  | endDump => cases ho

theorem syncInv_edit {e : Enc} (hi : SyncInv e) (o : Op) (ho : o.isDump = false) (hs : SyncStep e o) :
    SyncInv (o.run e).1 := by
  have hg := grows_op o ho hs
  have hbelow : ∀ l ∈ (o.run e).1.lids, l < (o.run e).1.next := by
    intro l hl
    rcases hg.lids l hl with h | h
    · exact Nat.lt_of_lt_of_le (hi.below l h) hg.next
    · exact h
  rcases hi.cases with hid | ⟨k, h, hk, ha, hop⟩
  · have h1 := edit_step hid o ho
    refine ⟨h1.idle.nodup, ?_, ?_, ?_, ?_, hbelow⟩
    · have hkd := h1.frame.kinds
      intro h hh
      have : h.isAsync ∈ e.handles.map Handle.isAsync := by
        rw [← hkd]; exact List.mem_map.mpr ⟨h, hh, rfl⟩
      obtain ⟨h', hh', he⟩ := List.mem_map.mp this
      rw [← he]; exact hi.sync h' hh'
    · intro j h hj ha
      have := h1.idle.inactive h (List.mem_of_getElem? hj)
      rw [this] at ha; cases ha
    · intro k hk
      rw [h1.frame.handles]; rw [h1.frame.syncOpen] at hk; exact hi.exist k hk
    · intro h hh ha
      have := h1.idle.inactive h hh
      rw [this] at ha; cases ha
  · have hl := hi.live hk ha
    have hhd : ∀ j, o.handle? = some j → j = k := by
      intro j hj
      cases o <;> simp only [Op.handle?, Option.some.injEq, reduceCtorEq] at hj <;> subst hj <;>
        (simp only [SyncStep] at hs; rw [hop] at hs; exact (Option.some.inj hs).symm)
    have hdm := (hi.dumped h (List.mem_of_getElem? hk) ha).2.1
    have key : ∃ w' held', Live e k w' held' (o.run e).1 := by
      obtain ⟨held', h1 | ⟨h1, -⟩⟩ := hl.step hdm o ho hhd
      · exact ⟨_, _, h1.1⟩
      · exact ⟨_, _, h1⟩
    obtain ⟨w', held', h1⟩ := key
    refine ⟨by rw [h1.lids]; exact hi.nodup, ?_, ?_, ?_, ?_, hbelow⟩
    · have hkd := h1.frame.kinds
      intro h hh
      have : h.isAsync ∈ e.handles.map Handle.isAsync := by
        rw [← hkd]; exact List.mem_map.mpr ⟨h, hh, rfl⟩
      obtain ⟨h', hh', he⟩ := List.mem_map.mp this
      rw [← he]; exact hi.sync h' hh'
    · intro j hd hj hda
      by_cases hjk : j = k
      · subst hjk; exact h1.opened
      · rw [h1.others j hjk] at hj
        rw [h1.frame.syncOpen]; exact hi.active j hd hj hda
    · intro k' hk'
      rw [h1.frame.handles]; rw [h1.frame.syncOpen] at hk'; exact hi.exist k' hk'
    · intro hd _ _
      refine ⟨h1.atEnd, ?_, h1.written (hi.dumped h (List.mem_of_getElem? hk) ha).2.2⟩
      rw [h1.segs]
      intro s hs
      obtain ⟨t, ht, rfl⟩ := List.mem_map.mp hs
      exact hdm t ht

/-! ### Opening and closing -/

theorem syncInv_start {e : Enc} {k : Nat} {n : Nat} {a : Bool} (hi : SyncInv e) (all : Bool) (ho : e.syncOpen = some k)
    (hk : e.handles[k]? = some ⟨false, n, a⟩) : SyncInv (e.start k all) := by
  have hl := start_live all ho hk
  rw [start_eq] at hl ⊢
  refine ⟨?_, ?_, ?_, ?_, ?_, ?_⟩
  · show ((startSegs e all).map Seg.localId).Nodup
    rw [startSegs_lids]; exact hi.nodup
  · intro h hh
    rcases mem_modify _ _ _ hh with hh | ⟨y, hy, rfl⟩
    · exact hi.sync h hh
    · exact hi.sync y hy
  · intro j h hj ha
    simp only [List.getElem?_modify] at hj
    by_cases hjk : k = j
    · subst hjk; exact ho
    · rw [Option.map_eq_map] at hj
      simp only [hjk, if_false, Option.map_id'] at hj
      exact hi.active j h hj ha
  · intro j hj
    simp only [List.length_modify]
    exact hi.exist j hj
  · intro h _ _
    refine ⟨hl.atEnd, ?_, start_eq e k all ▸ start_written e k all⟩
    intro s hs
    obtain ⟨t, _, p, rfl, _⟩ := startSegs_mem hs
    rfl
  · intro l hl'
    have h1 : l ∈ e.lids := by rw [← startSegs_lids e all]; exact hl'
    have := hi.below l h1
    have h2 : Enc.next { e with
        handles := e.handles.modify k (fun h => { h with active := true })
        segs := startSegs e all
        file := e.file.clear.write (encodeFileHeader e.major e.minor ++ encodeHead (e.headIn all) ++ e.pendingBytes) } =
        e.next := by
      simp only [Enc.next, ho, List.getElem?_modify, if_true, hk]; rfl
    rw [h2]; exact this

theorem finish_handles (e : Enc) (k : Nat) (h : Handle) (hk : e.handles[k]? = some h) :
    (e.finish k).handles = e.handles.modify k (fun h => { h with active := false }) := by
  unfold Enc.finish
  simp only [hk, Option.map_some, Option.getD_some]
  by_cases ha : h.active = true
  · rw [if_pos ha]
  · rw [if_neg ha]
    have ha : h.active = false := by simpa using ha
    apply List.ext_getElem?
    intro j
    simp only [List.getElem?_modify]
    by_cases hjk : k = j
    · subst hjk
      simp only [if_true, hk]
      cases h; simp only at ha; subst ha; rfl
    · simp only [hjk, if_false]; simp

theorem syncInv_close {e : Enc} {k : Nat} (hi : SyncInv e) (ho : e.syncOpen = some k) : SyncInv (e.close k) := by
  have hlt := hi.exist k ho
  obtain ⟨h, hk⟩ : ∃ h, e.handles[k]? = some h := ⟨_, List.getElem?_eq_getElem hlt⟩
  have hsegs : (e.close k).segs = e.segs := by
    unfold Enc.close Enc.finish
    simp only
    split <;> rfl
  have hhd : (e.close k).handles = e.handles.modify k (fun h => { h with active := false }) := finish_handles e k h hk
  have hinact : ∀ h ∈ (e.close k).handles, h.active = false := by
    rw [hhd]
    intro h' hh
    obtain ⟨j, hj⟩ := List.getElem?_of_mem hh
    simp only [List.getElem?_modify] at hj
    by_cases hjk : k = j
    · subst hjk
      simp only [if_true, hk] at hj
      cases hj; rfl
    · simp only [hjk, if_false] at hj
      simp only [Option.map_eq_map, Option.map_id'] at hj
      cases hb : h'.active with
      | false => rfl
      | true =>
        have := hi.active j h' hj hb
        rw [ho] at this; cases this; exact absurd rfl hjk
  refine ⟨?_, ?_, ?_, ?_, ?_, ?_⟩
  · unfold Enc.lids; rw [hsegs]; exact hi.nodup
  · rw [hhd]
    intro h hh
    rcases mem_modify _ _ _ hh with hh | ⟨y, hy, rfl⟩
    · exact hi.sync h hh
    · exact hi.sync y hy
  · intro j h hj ha
    rw [hinact h (List.mem_of_getElem? hj)] at ha; cases ha
  · intro j hj; cases hj
  · intro h hh ha
    rw [hinact h hh] at ha; cases ha
  · intro l hl
    have h1 : l ∈ e.lids := by unfold Enc.lids at hl ⊢; rw [hsegs] at hl; exact hl
    have h2 := hi.below l h1
    have h3 : (e.close k).next = e.next := by
      have hx : (e.finish k).handles[k]? = some { h with active := false } := by
        rw [finish_handles e k h hk]
        simp only [List.getElem?_modify, if_true, hk]; rfl
      simp only [Enc.next, ho, hk]
      show ((((e.finish k).handles[k]?).map Handle.nextLocal).getD _) = _
      rw [hx]; rfl
    rw [h3]; exact h2

/-- The state in which the `GSFEncoder` has made a new handle and it is the open one. -/
def Enc.opened (e : Enc) : Enc :=
  { e with handles := e.handles ++ [⟨false, e.nextLocal, false⟩], syncOpen := some e.handles.length }

theorem syncInv_opened {e : Enc} (hi : SyncInv e) (ho : e.syncOpen = none) : SyncInv e.opened := by
  have hinact : ∀ h ∈ e.handles, h.active = false := by
    intro h hh
    cases hb : h.active with
    | false => rfl
    | true =>
      obtain ⟨j, hj⟩ := List.getElem?_of_mem hh
      have := hi.active j h hj hb
      rw [ho] at this; cases this
  have hinact' : ∀ h ∈ e.opened.handles, h.active = false := by
    intro h hh
    rcases List.mem_append.mp hh with hh | hh
    · exact hinact h hh
    · rw [List.mem_singleton] at hh; subst hh; rfl
  refine ⟨hi.nodup, ?_, ?_, ?_, ?_, ?_⟩
  · intro h hh
    rcases List.mem_append.mp hh with hh | hh
    · exact hi.sync h hh
    · rw [List.mem_singleton] at hh; subst hh; rfl
  · intro j h hj ha
    rw [hinact' h (List.mem_of_getElem? hj)] at ha; cases ha
  · intro k hk
    cases hk
    simp [Enc.opened]
  · intro h hh ha
    rw [hinact' h hh] at ha; cases ha
  · intro l hl
    have := hi.below l hl
    simp only [Enc.next, ho] at this
    simp only [Enc.next, Enc.opened]
    simpa using this

theorem opened_get (e : Enc) : e.opened.handles[e.handles.length]? = some ⟨false, e.nextLocal, false⟩ := by
  simp [Enc.opened]

theorem syncInv_step {e : Enc} (hi : SyncInv e) (o : Op) (hs : SyncStep e o) : SyncInv (o.run e).1 := by
  have hget : ∀ k, e.syncOpen = some k → ∃ n a, e.handles[k]? = some ⟨false, n, a⟩ := by
    intro k hk
    have hlt := hi.exist k hk
    have hm := hi.sync (e.handles[k]) (List.getElem_mem hlt)
    refine ⟨(e.handles[k]).nextLocal, (e.handles[k]).active, ?_⟩
    rw [List.getElem?_eq_getElem hlt]
    congr 1
    rw [← hm]
  cases hd : o.isDump with
  | false => exact syncInv_edit hi o hd hs
  | true =>
    cases o with
    | enter =>
      have h1 := syncInv_opened hi hs
      show SyncInv (if e.opened.streaming then e.opened.start e.handles.length false else e.opened)
      split
      · exact syncInv_start h1 false rfl (opened_get e)
      · exact h1
    | startDump all =>
      exact syncInv_start (syncInv_opened hi hs) all rfl (opened_get e)
    | exit =>
      show SyncInv e.exit
      unfold Enc.exit
      cases ho : e.syncOpen with
      | none => exact hi
      | some k =>
        simp only
        split
        · exact syncInv_close hi ho
        · obtain ⟨n, a, hk⟩ := hget k ho
          refine syncInv_close (syncInv_start hi true ho hk) ?_
          rw [start_eq]; exact ho
    | endDump =>
      show SyncInv e.endDump
      unfold Enc.endDump
      cases ho : e.syncOpen with
      | none => exact hi
      | some k => exact syncInv_close hi ho
    | aenter => exact hs.elim
    | aexit => exact hs.elim
    | _ => cases hd

theorem syncInv_history {e : Enc} (hi : SyncInv e) (os : List Op) (hs : SyncHistory e os) : SyncInv (e.runs os) := by
  induction os generalizing e with
  | nil => exact hi
  | cons o os ih => exact ih (syncInv_step hi o hs.1) hs.2

theorem syncInv_new (file major minor id created streaming) : SyncInv (Enc.new file major minor id created streaming) :=
  ⟨List.nodup_nil, fun _ h => (nomatch h), fun j h hj => (by simp [Enc.new] at hj),
    fun k hk => (by cases hk), fun _ h => (nomatch h), fun _ h => (nomatch h)⟩

end Verif.Gsf

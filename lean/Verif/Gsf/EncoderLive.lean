import Verif.Gsf.EncoderLemmas

/-!
# The encoder while a dump is active
-/

namespace Verif.Gsf

/-! ## The file -/

/-- The position is at the end of the file. -/
def OutFile.AtEnd (f : OutFile) : Prop := f.seekable = true → f.pos = f.bytes.length

theorem OutFile.write_bytes {f : OutFile} (h : f.AtEnd) (d : Bytes) : (f.write d).bytes = f.bytes ++ d := by
  unfold OutFile.write
  by_cases hs : f.seekable = true
  · rw [if_pos hs]
    simp only [h hs, List.take_length, Nat.sub_self, List.replicate_zero, List.append_nil]
    rw [List.drop_eq_nil_of_le (by omega), List.append_nil]
  · rw [if_neg hs]

theorem OutFile.write_seekable (f : OutFile) (d : Bytes) : (f.write d).seekable = f.seekable := by
  unfold OutFile.write; split <;> rfl

theorem OutFile.write_atEnd {f : OutFile} (h : f.AtEnd) (d : Bytes) : (f.write d).AtEnd := by
  intro hs
  rw [OutFile.write_seekable] at hs
  rw [OutFile.write_bytes h, List.length_append, ← h hs]
  unfold OutFile.write
  rw [if_pos hs]

theorem OutFile.clear_atEnd (f : OutFile) : f.clear.AtEnd := by
  intro hs
  unfold OutFile.clear at hs ⊢
  by_cases h : f.seekable = true
  · rw [if_pos h]; simp [OutFile.seek, OutFile.truncate]
  · rw [if_neg h] at hs; exact absurd hs h

theorem OutFile.clear_seekable (f : OutFile) : f.clear.seekable = f.seekable := by
  unfold OutFile.clear; split <;> rfl

theorem OutFile.clear_bytes (f : OutFile) : f.clear.bytes = if f.seekable then [] else f.bytes := by
  unfold OutFile.clear; split
  · simp [OutFile.seek, OutFile.truncate]
  · rfl

/-- Overwriting bytes in the middle of a seekable file and going back. -/
theorem OutFile.patch {f : OutFile} (hs : f.seekable = true) {x old y d : Bytes} (hb : f.bytes = x ++ (old ++ y))
    (hl : old.length = d.length) :
    ((f.seek x.length).write d).seek f.pos = { f with bytes := x ++ (d ++ y) } := by
  unfold OutFile.write OutFile.seek
  simp only [hs, if_true, hb]
  congr 1
  rw [List.take_left']
  · have : x.length - (x ++ (old ++ y)).length = 0 := by simp
    rw [this, List.replicate_zero, List.append_nil, List.append_assoc]
    congr 2
    rw [← List.append_assoc, List.drop_left']
    simp [hl]
  · rfl

/-! ## Segment counts -/

/-- The counts of these segments are written inside these headers, the first of which starts at `pos`. -/
def Positioned : Nat → List Seg → List SegmIn → Prop
  | _, [], [] => True
  | pos, s :: ss, h :: hs =>
    s.countPos = some (pos + (encodeSegmPre h).length) ∧ Positioned (pos + (encodeSegm h).length) ss hs
  | _, _, _ => False

/-- The headers with the counts of the segments. -/
def counted : List Seg → List SegmIn → List SegmIn
  | s :: ss, h :: hs => { h with count := s.writeCount } :: counted ss hs
  | _, _ => []

theorem encodeSegm_count_length (h : SegmIn) (c : Int) :
    (encodeSegm { h with count := c }).length = (encodeSegm h).length := by
  unfold encodeSegm
  simp [encodeSegmPre, encodeSegmPost, segmBlockSize]

theorem patchCounts_eq {f : OutFile} (hs : f.seekable = true) (segs : List Seg) (heads : List SegmIn) (a b : Bytes)
    (hp : Positioned a.length segs heads) (hb : f.bytes = a ++ (heads.flatMap encodeSegm ++ b)) :
    patchCounts f segs = { f with bytes := a ++ ((counted segs heads).flatMap encodeSegm ++ b) } := by
  induction segs generalizing f heads a with
  | nil =>
    cases heads with
    | nil => simp only [patchCounts, counted]; rw [← hb]
    | cons => exact hp.elim
  | cons s ss ih =>
    cases heads with
    | nil => exact hp.elim
    | cons h hs' =>
      obtain ⟨h1, h2⟩ := hp
      rw [patchCounts, h1]
      show (if f.seekable = true then _ else _) = _
      rw [if_pos hs]
      have e : f.bytes = (a ++ encodeSegmPre h) ++ (encodeSint h.count 8 ++
          (encodeSegmPost h ++ (hs'.flatMap encodeSegm ++ b))) := by
        rw [hb, List.flatMap_cons, encodeSegm]
        simp only [List.append_assoc]
      have e1 := OutFile.patch hs e (d := encodeSint s.writeCount 8) (by simp)
      rw [List.length_append] at e1
      rw [e1]
      have := ih (f := { f with bytes := a ++ encodeSegmPre h ++ (encodeSint (↑s.writeCount) 8 ++
          (encodeSegmPost h ++ (hs'.flatMap encodeSegm ++ b))) }) hs hs'
        (a ++ encodeSegm { h with count := s.writeCount })
        (by rw [List.length_append, encodeSegm_count_length]; exact h2)
        (by simp only [encodeSegm, List.append_assoc]; rfl)
      rw [this]
      simp only [counted, List.flatMap_cons, List.append_assoc]

theorem patchCounts_none (f : OutFile) (segs : List Seg) (h : f.seekable = false ∨ ∀ s ∈ segs, s.countPos = none) :
    patchCounts f segs = f := by
  induction segs with
  | nil => rfl
  | cons s ss ih =>
    have ih := ih (h.imp id (fun h t ht => h t (by simp [ht])))
    rw [patchCounts]
    cases hc : s.countPos with
    | none => exact ih
    | some p =>
      rcases h with h | h
      · simp only [h, Bool.false_eq_true, if_false]; exact ih
      · have := h s (by simp); rw [hc] at this; cases this

/-! ## Writing grains -/

theorem writeGrains_eq {e : Enc} (hf : e.file.AtEnd) (l : Nat) (gs : List Grain) :
    (e.writeGrains l gs).file.bytes = e.file.bytes ++ gs.flatMap (encodeGrain e.major l) ∧
    (e.writeGrains l gs).file.seekable = e.file.seekable ∧ (e.writeGrains l gs).file.AtEnd ∧
    (e.writeGrains l gs) = { e with
      file := (e.writeGrains l gs).file
      segs := e.segs.map (fun s => if s.localId = l then { s with writeCount := s.writeCount + gs.length } else s) } := by
  induction gs generalizing e with
  | nil =>
    refine ⟨by simp [Enc.writeGrains], rfl, hf, ?_⟩
    simp only [Enc.writeGrains, List.length_nil, Nat.add_zero, ite_self, List.map_id']
  | cons g gs ih =>
    have hf1 : (e.writeGrain l g).file.AtEnd := OutFile.write_atEnd (f := e.file) hf _
    obtain ⟨h1, h2, h3, h4⟩ := ih hf1
    simp only [Enc.writeGrains]
    refine ⟨?_, ?_, h3, ?_⟩
    · rw [h1]
      have : (e.writeGrain l g).file.bytes = e.file.bytes ++ encodeGrain e.major l g :=
        OutFile.write_bytes (f := e.file) hf _
      rw [this, List.flatMap_cons, List.append_assoc]; rfl
    · rw [h2]; exact OutFile.write_seekable _ _
    · have : ((e.writeGrain l g).segs.map
          (fun s => if s.localId = l then { s with writeCount := s.writeCount + gs.length } else s)) =
          e.segs.map (fun s => if s.localId = l then { s with writeCount := s.writeCount + (g :: gs).length } else s) := by
        unfold Enc.writeGrain Enc.updSeg
        simp only [List.map_map]
        apply List.map_congr_left
        intro s _
        simp only [Function.comp]
        by_cases hs : s.localId = l
        · simp only [hs, if_true, List.length_cons]; congr 1; omega
        · simp only [hs, if_false]
      rw [this] at h4
      exact h4

/-! ## The state during a dump -/

/-- A segment during a dump: `w` was written since the dump started, `held` was put aside. -/
def Seg.during (w : List (Nat × Grain)) (held : Nat → List Grain) (s : Seg) : Seg :=
  { s with writeCount := s.writeCount + (ofSeg s.localId w).length, grains := s.grains ++ held s.localId }

/-- The dump that handle `k` started in state `e0` is active; since then the grains `w` were written. -/
structure Live (e0 : Enc) (k : Nat) (w : List (Nat × Grain)) (held : Nat → List Grain) (e : Enc) : Prop where
  frame : Frame e0 e
  tags : e.tags = e0.tags
  segs : e.segs = e0.segs.map (Seg.during w held)
  seekable : e.file.seekable = e0.file.seekable
  bytes : e.file.bytes = e0.file.bytes ++ w.flatMap (fun x => encodeGrain e0.major x.1 x.2)
  atEnd : e.file.AtEnd
  opened : e.syncOpen = some k
  handle : ∃ n, e.handles[k]? = some ⟨false, n, true⟩
  others : ∀ j, j ≠ k → e.handles[j]? = e0.handles[j]?
  declared : ∀ x ∈ w, x.1 ∈ e0.lids

theorem Live.lids {e0 k w held e} (h : Live e0 k w held e) : e.lids = e0.lids := by
  unfold Enc.lids
  rw [h.segs, List.map_map]; rfl

theorem Live.major {e0 k w held e} (h : Live e0 k w held e) : e.major = e0.major := h.frame.major

/-- The handle an operation is called on. -/
def Op.handle? : Op → Option Nat
  | .hAddTag k _ => some k
  | .hAddSegment k .. => some k
  | .hAddGrains k .. => some k
  | _ => none

theorem Live.write {e0 k w held e} (h : Live e0 k w held e) {l : Nat} (hl : l ∈ e0.lids) (gs : List Grain) :
    Live e0 k (w ++ gs.map (fun g => (l, g))) held (e.writeGrains l gs) := by
  obtain ⟨h1, h2, h3, h4⟩ := writeGrains_eq h.atEnd l gs
  have hfr : Frame e (e.writeGrains l gs) := by
    rw [h4]; exact ⟨rfl, rfl, rfl, rfl, rfl, rfl, rfl, rfl⟩
  refine ⟨h.frame.trans hfr, ?_, ?_, h2.trans h.seekable, ?_, h3, hfr.syncOpen.trans h.opened, ?_, ?_, ?_⟩
  · rw [h4]; exact h.tags
  · rw [h4]
    simp only
    rw [h.segs, List.map_map]
    apply List.map_congr_left
    intro s _
    simp only [Function.comp]
    by_cases hs : (Seg.during w held s).localId = l
    · rw [if_pos hs]
      have hs' : s.localId = l := hs
      simp only [Seg.during, ofSeg_append, List.length_append, hs', ofSeg_map_self, Nat.add_assoc]
    · rw [if_neg hs]
      have hs' : l ≠ s.localId := fun e => hs e.symm
      simp only [Seg.during, ofSeg_append, List.length_append, ofSeg_map_ne hs', List.length_nil, Nat.add_zero]
  · rw [h1, h.bytes, List.flatMap_append, List.flatMap_map, h.major, List.append_assoc]
  · rw [h4]; exact h.handle
  · rw [h4]; exact h.others
  · intro x hx
    rcases List.mem_append.mp hx with hx | hx
    · exact h.declared x hx
    · obtain ⟨g, -, rfl⟩ := List.mem_map.mp hx; exact hl

theorem Live.hold {e0 k w held e} (h : Live e0 k w held e) (l : Nat) (gs : List Grain) :
    Live e0 k w (fun l' => held l' ++ if l' = l then gs else [])
      (e.updSeg l (fun s => { s with grains := s.grains ++ gs })) := by
  refine ⟨h.frame.trans ⟨rfl, rfl, rfl, rfl, rfl, rfl, rfl, rfl⟩, h.tags, ?_, h.seekable, h.bytes, h.atEnd, h.opened,
    h.handle, h.others, h.declared⟩
  unfold Enc.updSeg
  simp only
  rw [h.segs, List.map_map]
  apply List.map_congr_left
  intro s _
  simp only [Function.comp]
  by_cases hs : (Seg.during w held s).localId = l
  · rw [if_pos hs]
    have hs' : s.localId = l := hs
    simp only [Seg.during, hs', if_true, List.append_assoc]
  · rw [if_neg hs]
    have hs' : ¬ s.localId = l := hs
    simp only [Seg.during, hs', if_false, List.append_nil]

/-- One operation during a dump: either its grains are all written, or (only for a segment made by another
handle) they are put aside; nothing else happens to tags, segments and file. -/
theorem Live.sAddGrains {e0 k w held e} (h : Live e0 k w held e) (l : Nat) (gs : List Grain) :
    ∃ held', (Live e0 k (w ++ tookBy gs (e.sAddGrains l gs).2) held' (e.sAddGrains l gs).1 ∧ held' = held) ∨
      (Live e0 k w held' (e.sAddGrains l gs).1 ∧
        ∃ s ∈ e0.segs, ∃ j, s.parent = some j ∧ j ≠ k) := by
  unfold Enc.sAddGrains
  cases hs : e.seg l with
  | none => exact ⟨held, .inl ⟨by simpa [tookBy] using h, rfl⟩⟩
  | some s =>
    simp only
    obtain ⟨hm, hl⟩ := Enc.seg_some hs
    obtain ⟨n, hk⟩ := h.handle
    have hl0 : l ∈ e0.lids := by rw [← h.lids, ← hl]; exact List.mem_map.mpr ⟨s, hm, rfl⟩
    rw [h.segs] at hm
    obtain ⟨s0, hs0, hs1⟩ := List.mem_map.mp hm
    cases hpar : s.parent with
    | none =>
      have : ((e.parentHandle s).map Handle.active).getD false = true := by
        unfold Enc.parentHandle
        simp only [hpar, h.opened, Option.bind_some, hk]; rfl
      rw [if_pos this]
      exact ⟨held, .inl ⟨h.write hl0 gs, rfl⟩⟩
    | some j =>
      by_cases hj : j = k
      · subst hj
        have : ((e.parentHandle s).map Handle.active).getD false = true := by
          unfold Enc.parentHandle
          simp only [hpar, hk]; rfl
        rw [if_pos this]
        exact ⟨held, .inl ⟨h.write hl0 gs, rfl⟩⟩
      · split
        · exact ⟨held, .inl ⟨h.write hl0 gs, rfl⟩⟩
        · refine ⟨_, .inr ⟨h.hold l gs, s0, hs0, j, ?_, hj⟩⟩
          rw [← hpar, ← hs1]; rfl

theorem Live.choose_mem {e0 k w held e} (h : Live e0 k w held e) {sid lid l}
    (hc : (e.choose sid lid).filter e.hasSeg = some l) : l ∈ e0.lids := by
  rw [Option.filter_eq_some_iff] at hc
  rw [← h.lids, ← e.hasSeg_iff]; exact hc.2

theorem Live.hAddGrains {e0 k w held e} (h : Live e0 k w held e) (gs sid lid fresh) :
    Live e0 k (w ++ tookBy gs (e.hAddGrains k gs sid lid fresh).2) held (e.hAddGrains k gs sid lid fresh).1 := by
  obtain ⟨n, hk⟩ := h.handle
  unfold Enc.hAddGrains
  simp only [hk, if_true]
  split
  · rename_i l hc
    exact h.write (h.choose_mem hc) gs
  · simpa [tookBy] using h

theorem Live.stay {e0 k w held e} (h : Live e0 k w held e) (o : Op) (hg : o.grains = []) :
    w ++ o.takes e = w := by rw [takes_eq_nil _ _ hg, List.append_nil]

theorem Live.bump {e0 k w held e} (h : Live e0 k w held e) (l : Nat) :
    Live e0 k w held (e.updHandle k (fun h => { h with nextLocal := bumpLocal h.nextLocal l })) := by
  obtain ⟨n, hk⟩ := h.handle
  refine ⟨h.frame.trans ⟨rfl, rfl, rfl, rfl, rfl, rfl, rfl, modify_kinds _ _ _ (fun _ => rfl)⟩, h.tags, h.segs, h.seekable, h.bytes,
    h.atEnd, h.opened, ⟨bumpLocal n l, ?_⟩, ?_, h.declared⟩
  · simp only [Enc.updHandle, List.getElem?_modify, if_true, hk]; rfl
  · intro j hj
    simp only [Enc.updHandle, List.getElem?_modify]
    have hj' : ¬ k = j := fun e => hj e.symm
    simpa [hj'] using h.others j hj

/-- Adding a segment through the dumping handle never succeeds. -/
theorem Live.hAddSegment {e0 k w held e} (h : Live e0 k w held e) (id lid tags fresh) :
    Live e0 k w held (e.hAddSegment k id lid tags fresh).1 ∧
      ((e.hAddSegment k id lid tags fresh).2 = .error .encode ∨
        (e.hAddSegment k id lid tags fresh).2 = .error .activeDump) := by
  obtain ⟨n, hk⟩ := h.handle
  unfold Enc.hAddSegment
  simp only [hk, if_true]
  split
  · exact ⟨h.bump _, .inl rfl⟩
  · exact ⟨h.bump _, .inr rfl⟩

/-- An editing operation during a dump. -/
theorem Live.step {e0 k w held e} (h : Live e0 k w held e) (hd : ∀ s ∈ e0.segs, s.activeDump = true)
    (o : Op) (ho : o.isDump = false) (hh : ∀ j, o.handle? = some j → j = k) :
    ∃ held', (Live e0 k (w ++ o.takes e) held' (o.run e).1 ∧ held' = held) ∨
      (Live e0 k w held' (o.run e).1 ∧ ∃ s ∈ e0.segs, ∃ j, s.parent = some j ∧ j ≠ k) := by
  obtain ⟨n, hk⟩ := h.handle
  have hd' : ∀ l s, e.seg l = some s → s.activeDump = true := by
    intro l s hs
    have := (Enc.seg_some hs).1
    rw [h.segs] at this
    obtain ⟨s0, hs0, rfl⟩ := List.mem_map.mp this
    exact hd s0 hs0
  cases o with
  | addTag t =>
    refine ⟨held, .inl ⟨?_, rfl⟩⟩
    rw [h.stay _ rfl]
    simp only [Op.run, Enc.addTag, h.opened, Option.isSome_some, if_true]
    exact h
  | addSegment id lid tags fresh =>
    refine ⟨held, .inl ⟨?_, rfl⟩⟩
    rw [h.stay _ rfl]
    simp only [Op.run, Enc.addSegment, h.opened, Option.isSome_some, if_true]
    exact h
  | addGrains gs sid lid fresh =>
    refine ⟨held, .inl ⟨?_, rfl⟩⟩
    rw [takes_of rfl]
    simp only [Op.run, Op.grains, Enc.addGrains, h.opened]
    exact h.hAddGrains gs sid lid fresh
  | hAddTag j t =>
    obtain rfl := hh j rfl
    refine ⟨held, .inl ⟨?_, rfl⟩⟩
    rw [h.stay _ rfl]
    simp only [Op.run, Enc.hAddTag, hk, if_true]
    exact h
  | hAddSegment j id lid tags fresh =>
    obtain rfl := hh j rfl
    refine ⟨held, .inl ⟨?_, rfl⟩⟩
    rw [h.stay _ rfl]
    exact (h.hAddSegment id lid tags fresh).1
  | hAddGrains j gs sid lid fresh =>
    obtain rfl := hh j rfl
    refine ⟨held, .inl ⟨?_, rfl⟩⟩
    rw [takes_of rfl]
    exact h.hAddGrains gs sid lid fresh
  | sAddTag l t =>
    refine ⟨held, .inl ⟨?_, rfl⟩⟩
    rw [h.stay _ rfl]
    simp only [Op.run, Enc.sAddTag]
    split
    · exact h
    · rename_i s hs
      rw [if_pos (hd' l s hs)]; exact h
  | sAddFlow l f =>
    refine ⟨held, .inl ⟨?_, rfl⟩⟩
    rw [h.stay _ rfl]
    simp only [Op.run, Enc.sAddFlow]
    split
    · exact h
    · rename_i s hs
      rw [if_pos (hd' l s hs)]; exact h
  | sAddGrains l gs =>
    rw [takes_of rfl]
    exact h.sAddGrains l gs
  | enter => cases ho
  | exit => cases ho
  | aenter => cases ho
  | aexit => cases ho
  | startDump => cases ho
  | endDump => cases ho

/-- A history of editing operations during a dump, on the encoder, the dumping handle and segments that were
not made by another handle: exactly the accepted grains are written, in call order. -/
theorem Live.steps {e0 k w held e} (h : Live e0 k w held e) (hd : ∀ s ∈ e0.segs, s.activeDump = true)
    (hp : ∀ s ∈ e0.segs, ∀ j, s.parent = some j → j = k)
    (os : List Op) (ho : ∀ o ∈ os, o.isDump = false ∧ ∀ j, o.handle? = some j → j = k) :
    Live e0 k (w ++ e.taken os) held (e.runs os) := by
  induction os generalizing e w with
  | nil => simpa [Enc.taken, Enc.runs] using h
  | cons o os ih =>
    obtain ⟨held', h1 | ⟨-, s, hs, j, hj, hjk⟩⟩ := h.step hd o (ho o (by simp)).1 (ho o (by simp)).2
    · obtain ⟨h1, rfl⟩ := h1
      have := ih h1 (fun x hx => ho x (by simp [hx]))
      rw [List.append_assoc] at this
      exact this
    · exact absurd (hp s hs j hj) hjk

/-- The same for histories that may also use segments made by other handles. -/
theorem Live.steps_any {e0 k w held e} (h : Live e0 k w held e) (hd : ∀ s ∈ e0.segs, s.activeDump = true)
    (os : List Op) (ho : ∀ o ∈ os, o.isDump = false ∧ ∀ j, o.handle? = some j → j = k) :
    ∃ w' held', Live e0 k w' held' (e.runs os) := by
  induction os generalizing e w held with
  | nil => exact ⟨w, held, h⟩
  | cons o os ih =>
    obtain ⟨held', h1 | ⟨h1, -⟩⟩ := h.step hd o (ho o (by simp)).1 (ho o (by simp)).2
    · exact ih h1.1 (fun x hx => ho x (by simp [hx]))
    · exact ih h1 (fun x hx => ho x (by simp [hx]))

/-! ## Starting and finishing a dump -/

theorem setPositions_header (all : Bool) (pos : Nat) (segs : List Seg) (b : Bool) :
    (setPositions all pos segs).map (Seg.header b) = segs.map (Seg.header b) := by
  induction segs generalizing pos with
  | nil => rfl
  | cons s ss ih => simp only [setPositions, List.map_cons, ih]; rfl

theorem setPositions_forall (all : Bool) (pos : Nat) (segs : List Seg) {s : Seg} (h : s ∈ setPositions all pos segs) :
    ∃ t ∈ segs, ∃ p, s = { t with countPos := p } := by
  induction segs generalizing pos with
  | nil => cases h
  | cons t ts ih =>
    rcases List.mem_cons.mp h with rfl | h
    · exact ⟨t, by simp, _, rfl⟩
    · obtain ⟨t', ht, p, rfl⟩ := ih _ h
      exact ⟨t', by simp [ht], p, rfl⟩

theorem setPositions_pos (all : Bool) (pos : Nat) (segs : List Seg) (f : Seg → Seg)
    (hf : ∀ s, (f s).countPos = s.countPos) :
    Positioned pos ((setPositions all pos segs).map f) (segs.map (Seg.header all)) := by
  induction segs generalizing pos with
  | nil => trivial
  | cons s ss ih =>
    simp only [setPositions, List.map_cons, Positioned]
    exact ⟨by rw [hf], ih _⟩

/-- The segments right after a dump started. -/
def startSegs (e : Enc) (all : Bool) : List Seg :=
  (if !all && e.file.seekable then
      setPositions all (0 + (encodeFileHeader e.major e.minor).length + (encodeHeadPre (e.headIn all)).length) e.segs
    else e.segs).map Seg.dumped

theorem start_eq (e : Enc) (k : Nat) (all : Bool) :
    e.start k all = { e with
      handles := e.handles.modify k (fun h => { h with active := true })
      segs := startSegs e all
      file := e.file.clear.write (encodeFileHeader e.major e.minor ++ encodeHead (e.headIn all) ++ e.pendingBytes) } := by
  unfold Enc.start startSegs
  simp only [Enc.updHandle, Enc.headIn, Enc.pendingBytes, OutFile.clear_seekable]
  congr 2
  by_cases h : (!all && e.file.seekable) = true
  · rw [if_pos h, if_pos h]
    have hs : e.file.seekable = true := by simp only [Bool.and_eq_true] at h; exact h.2
    simp only [OutFile.clear, hs, if_true, OutFile.seek, OutFile.truncate]
  · rw [if_neg h, if_neg h]

theorem startSegs_lids (e : Enc) (all : Bool) : (startSegs e all).map Seg.localId = e.lids := by
  unfold startSegs
  have h : ∀ segs : List Seg, (segs.map Seg.dumped).map Seg.localId = segs.map Seg.localId := by
    intro segs; rw [List.map_map]; rfl
  rw [h]
  split
  · have := congrArg (List.map SegmIn.localId) (setPositions_header all
      (0 + (encodeFileHeader e.major e.minor).length + (encodeHeadPre (e.headIn all)).length) e.segs false)
    rw [List.map_map, List.map_map] at this
    exact this
  · rfl

theorem startSegs_mem {e : Enc} {all : Bool} {s : Seg} (h : s ∈ startSegs e all) :
    ∃ t ∈ e.segs, ∃ p, s = { t.dumped with countPos := p } ∧ (all = true → p = t.countPos) := by
  unfold startSegs at h
  obtain ⟨s1, hs1, rfl⟩ := List.mem_map.mp h
  split at hs1
  · rename_i hc
    obtain ⟨t, ht, p, rfl⟩ := setPositions_forall _ _ _ hs1
    refine ⟨t, ht, p, rfl, ?_⟩
    rintro rfl; simp at hc
  · exact ⟨s1, hs1, s1.countPos, rfl, fun _ => rfl⟩

/-- Starting a dump makes it live. -/
theorem start_live {e : Enc} {k : Nat} {n : Nat} {a : Bool} (all : Bool) (ho : e.syncOpen = some k)
    (hk : e.handles[k]? = some ⟨false, n, a⟩) : Live (e.start k all) k [] (fun _ => []) (e.start k all) := by
  rw [start_eq]
  refine ⟨.refl _, rfl, ?_, rfl, by simp, ?_, ho, ⟨n, ?_⟩, fun _ _ => rfl, by simp⟩
  · simp only
    conv => lhs; rw [← List.map_id (startSegs e all)]
    apply List.map_congr_left
    intro s _
    simp [Seg.during, ofSeg]
  · exact OutFile.write_atEnd e.file.clear_atEnd _
  · simp only [List.getElem?_modify, if_true, hk]; rfl

theorem counted_map (segs0 : List Seg) (w held) (heads : List SegmIn) :
    counted (segs0.map (Seg.during w held)) heads =
      List.zipWith (fun s h => { h with count := ((s.writeCount + (ofSeg s.localId w).length : Nat) : Int) }) segs0 heads := by
  induction segs0 generalizing heads with
  | nil => rfl
  | cons s ss ih =>
    cases heads with
    | nil => rfl
    | cons h hs => simp only [List.map_cons, counted, List.zipWith_cons_cons, ih]; rfl

/-- The state after a dump was finished. -/
theorem finish_file {e0 k w held e} (h : Live e0 k w held e) :
    (e.finish k).file = (patchCounts e.file e.segs).write terminator := by
  obtain ⟨n, hk⟩ := h.handle
  unfold Enc.finish
  simp only [hk, Option.map_some, Option.getD_some, if_true]

theorem close_file (e : Enc) (k : Nat) : (e.close k).file = (e.finish k).file := rfl

/-- The heads of the segments with the number of grains written for each of them. -/
def countedHeads (segs : List Seg) (w : List (Nat × Grain)) : List SegmIn :=
  segs.map (fun s => ⟨s.localId, s.id, ((s.writeCount + (ofSeg s.localId w).length : Nat) : Int), s.flow, s.tags⟩)

theorem startSegs_counted (e : Enc) (w : List (Nat × Grain)) (hs : e.file.seekable = true) :
    List.zipWith (fun (s : Seg) (h : SegmIn) =>
        { h with count := ((s.writeCount + (ofSeg s.localId w).length : Nat) : Int) })
      (startSegs e false) (e.segs.map (Seg.header false)) =
    e.segs.map (fun s => ⟨s.localId, s.id,
      ((s.writeCount + s.grains.length + (ofSeg s.localId w).length : Nat) : Int), s.flow, s.tags⟩) := by
  unfold startSegs
  simp only [hs, Bool.not_false, Bool.and_true, if_true]
  generalize 0 + (encodeFileHeader e.major e.minor).length + (encodeHeadPre (e.headIn false)).length = pos
  induction e.segs generalizing pos with
  | nil => rfl
  | cons s ss ih =>
    simp only [setPositions, List.map_cons, List.zipWith_cons_cons, ih]
    rfl

/-- The contents of the file a streaming dump to a seekable file leaves, from the state `e` in which it was
started and the grains `w` written while it was active. -/
def streamSpec (e : Enc) (w : List (Nat × Grain)) : FileSpec :=
  ⟨e.major, e.minor,
    ⟨e.id, e.created, e.segs.map (fun s => ⟨s.localId, s.id,
      ((s.writeCount + s.grains.length + (ofSeg s.localId w).length : Nat) : Int), s.flow, s.tags⟩), e.tags⟩,
    e.pending ++ w⟩

/-- The contents a dump leaves when the counts are not patched. -/
def plainSpec (e : Enc) (all : Bool) (w : List (Nat × Grain)) : FileSpec :=
  ⟨e.major, e.minor, e.headIn all, e.pending ++ w⟩

theorem encodeHeadPre_segments (h : HeadIn) (segs : List SegmIn)
    (hl : segs.map segmBlockSize = h.segments.map segmBlockSize) :
    encodeHeadPre { h with segments := segs } = encodeHeadPre h := by
  unfold encodeHeadPre headSize
  simp only [hl]

/-- A dump without patching: the file ends with the encoding of its contents. -/
theorem plain_file {e e' : Enc} {k : Nat} {all : Bool} {w held} (h : Live (e.start k all) k w held e')
    (hp : e.file.seekable = false ∨ ∀ s ∈ e'.segs, s.countPos = none) :
    (e'.finish k).file.bytes = (if e.file.seekable then [] else e.file.bytes) ++ (plainSpec e all w).bytes := by
  have hsk : e'.file.seekable = e.file.seekable := by
    rw [h.seekable, start_eq]; simp only [OutFile.write_seekable, OutFile.clear_seekable]
  rw [finish_file h, patchCounts_none, OutFile.write_bytes h.atEnd, h.bytes, start_eq]
  · simp only [OutFile.write_bytes e.file.clear_atEnd, OutFile.clear_bytes, Enc.pendingBytes_eq, plainSpec, FileSpec.bytes,
      List.flatMap_append, List.append_assoc]
  · rw [hsk]; exact hp

/-- A streaming dump to a seekable file: the file is exactly the encoding of its contents, counts included. -/
theorem stream_file {e e' : Enc} {k : Nat} {w held} (h : Live (e.start k false) k w held e')
    (hs : e.file.seekable = true) : (e'.finish k).file.bytes = (streamSpec e w).bytes := by
  have hsk : e'.file.seekable = true := by
    rw [h.seekable, start_eq]; simp only [OutFile.write_seekable, OutFile.clear_seekable, hs]
  have hb : e'.file.bytes = (encodeFileHeader e.major e.minor ++ encodeHeadPre (e.headIn false)) ++
      ((e.segs.map (Seg.header false)).flatMap encodeSegm ++ (e.tags.flatMap encodeTag ++
        (e.pending ++ w).flatMap (fun x => encodeGrain e.major x.1 x.2))) := by
    rw [h.bytes, start_eq]
    simp only [OutFile.write_bytes e.file.clear_atEnd, OutFile.clear_bytes, hs, if_true, Enc.pendingBytes_eq,
      List.flatMap_append, List.append_assoc, List.nil_append, encodeHead, Enc.headIn]
  have hpos : Positioned (encodeFileHeader e.major e.minor ++ encodeHeadPre (e.headIn false)).length e'.segs
      (e.segs.map (Seg.header false)) := by
    rw [h.segs, start_eq]
    simp only [startSegs, hs, Bool.not_false, Bool.and_true, if_true, List.map_map]
    have := setPositions_pos false
      (0 + (encodeFileHeader e.major e.minor).length + (encodeHeadPre (e.headIn false)).length) e.segs
      (Seg.during w held ∘ Seg.dumped) (fun _ => rfl)
    rw [Nat.zero_add, ← List.length_append] at this ⊢
    exact this
  rw [finish_file h, patchCounts_eq hsk _ _ _ _ hpos hb]
  rw [OutFile.write_bytes]
  · simp only
    rw [h.segs, counted_map]
    have hst : (e.start k false).segs = startSegs e false := by rw [start_eq]
    rw [hst, startSegs_counted e w hs]
    unfold streamSpec FileSpec.bytes encodeHead
    simp only
    have hpre : encodeHeadPre ⟨e.id, e.created, e.segs.map (fun s => ⟨s.localId, s.id,
        ((s.writeCount + s.grains.length + (ofSeg s.localId w).length : Nat) : Int), s.flow, s.tags⟩), e.tags⟩ =
        encodeHeadPre (e.headIn false) :=
      encodeHeadPre_segments (e.headIn false) _ (by simp only [Enc.headIn, List.map_map]; rfl)
    rw [hpre]
    simp only [List.append_assoc]
  · intro _
    simp only
    rw [h.atEnd hsk, hb, h.segs, counted_map]
    have hst : (e.start k false).segs = startSegs e false := by rw [start_eq]
    rw [hst, startSegs_counted e w hs]
    simp only [List.length_append, List.length_flatMap, List.map_map]
    congr 2
    congr 1
    apply List.map_congr_left
    intro s _
    simp only [Function.comp]
    exact (encodeSegm_count_length (Seg.header false s) _).symm

end Verif.Gsf

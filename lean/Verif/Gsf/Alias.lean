import Verif.Gsf.EncoderLemmas

/-!
# Encoders and the grain objects they are given

`Gsf/Encoder` models an encoder that is given the values of grains. The program gives it objects: a segment keeps references to them
(`self._grains.append(grain)`, `gsf.py` line 2477) and looks at them only when it encodes them (2254-2260), while an active dump encodes at
once (1743-1745). Between the two the program can change the objects. Here the lists of the segments hold references.

Synchronous use only. An object has a number; what it is worth at a time is a `Grain`. A program changes objects in any way (assignments to
attributes, to the lists they give out, to parts shared between objects), so a change is given by what all objects are worth after it.
-/

namespace Verif.Gsf

/-- What each object is worth. -/
abbrev Objs := Nat → Grain

/-- An encoder with references: `held l` is `_grains` of the segment with local id `l`; the lists `grains` of `enc` are not used. -/
structure RefEnc where
  enc : Enc
  held : Nat → List Nat

/-- A new encoder. -/
def RefEnc.new (file : OutFile) (major minor : Nat) (id : Bytes) (created : DateTime) (streaming : Bool) : RefEnc :=
  ⟨Enc.new file major minor id created streaming, fun _ => []⟩

/-- The encoder with what the objects are worth in place of the references. -/
def RefEnc.now (r : RefEnc) (h : Objs) : Enc :=
  { r.enc with segs := r.enc.segs.map (fun s => { s with grains := (r.held s.localId).map h }) }

/-- Lines 2176-2178: a new segment has no grains. -/
def RefEnc.made (r : RefEnc) (x : Enc × Except EncErr Nat) : RefEnc × Except EncErr Nat :=
  (⟨x.1, match x.2 with
    | .ok l => fun l' => if l' = l then [] else r.held l'
    | .error _ => r.held⟩, x.2)

/-- `GSFEncoderSegment.add_grains`, lines 2470-2486. -/
def RefEnc.sAddGrains (r : RefEnc) (h : Objs) (l : Nat) (rs : List Nat) : RefEnc × Except EncErr Nat :=
  match r.enc.seg l with
  | none => (r, .error .noObject)
  | some s =>
    if ((r.enc.parentHandle s).map Handle.active).getD false then (⟨r.enc.writeGrains l (rs.map h), r.held⟩, .ok l)
    else (⟨r.enc, fun l' => r.held l' ++ if l' = l then rs else []⟩, .ok l)

/-- `OpenGSFEncoder.add_grains`, lines 1731-1747 with `_get_segment` (1646-1659). -/
def RefEnc.hAddGrains (r : RefEnc) (h : Objs) (k : Nat) (rs : List Nat) (sid : Option Bytes) (lid : Option Nat) (fresh : Bytes) :
    RefEnc × Except EncErr Nat :=
  match r.enc.handles[k]? with
  | none => (r, .error .noObject)
  | some hd =>
    match (r.enc.choose sid lid).filter r.enc.hasSeg with
    | some l => if hd.active then (⟨r.enc.writeGrains l (rs.map h), r.held⟩, .ok l) else r.sAddGrains h l rs
    | none =>
      if hd.active then (r, .error .encode)
      else
        match r.made (r.enc.hAddSegment k sid (r.enc.choose sid lid) [] fresh) with
        | (r1, .error x) => (r1, .error x)
        | (r1, .ok l) => r1.sAddGrains h l rs

/-- `GSFEncoder.add_grains`, lines 2062-2085. -/
def RefEnc.addGrains (r : RefEnc) (h : Objs) (rs : List Nat) (sid : Option Bytes) (lid : Option Nat) (fresh : Bytes) :
    RefEnc × Except EncErr Nat :=
  match r.enc.syncOpen with
  | some k => r.hAddGrains h k rs sid lid fresh
  | none =>
    match (r.enc.choose sid lid).filter r.enc.hasSeg with
    | some l => r.sAddGrains h l rs
    | none =>
      match r.made (r.enc.addSegment sid (r.enc.choose sid lid) [] fresh) with
      | (r1, .error x) => (r1, .error x)
      | (r1, .ok l) => r1.sAddGrains h l rs

/-- `_start_dump`, lines 1754-1767: all objects that are held are encoded as they are now, and dropped (2254-2260). -/
def RefEnc.start (r : RefEnc) (h : Objs) (k : Nat) (all : Bool) : RefEnc := ⟨(r.now h).start k all, fun _ => []⟩

/-- `GSFEncoder.__enter__`, lines 1959-1974. -/
def RefEnc.enter (r : RefEnc) (h : Objs) : RefEnc :=
  let (e1, k) := r.enc.makeHandle false
  let r1 : RefEnc := ⟨{ e1 with syncOpen := some k }, r.held⟩
  if e1.streaming then r1.start h k false else r1

/-- `GSFEncoder.__exit__`, lines 1976-1982. -/
def RefEnc.exit (r : RefEnc) (h : Objs) : RefEnc :=
  match r.enc.syncOpen with
  | none => r
  | some k =>
    let r1 := if r.enc.streaming then r else r.start h k true
    ⟨r1.enc.close k, r1.held⟩

/-- `GSFEncoder.start_dump`, lines 2095-2109. -/
def RefEnc.startDump (r : RefEnc) (h : Objs) (all : Bool) : RefEnc :=
  let (e1, k) := r.enc.makeHandle false
  RefEnc.start ⟨{ e1 with syncOpen := some k }, r.held⟩ h k all

/-- `GSFEncoder.end_dump`, lines 2111-2117. -/
def RefEnc.endDump (r : RefEnc) : RefEnc :=
  match r.enc.syncOpen with
  | none => r
  | some k => ⟨r.enc.close k, r.held⟩

/-- The operations of a program on an encoder; grains are objects. -/
inductive ROp where
  | addTag (t : Tag)
  | addSegment (id : Option Bytes) (lid : Option Nat) (tags : List Tag) (fresh : Bytes)
  | addGrains (rs : List Nat) (sid : Option Bytes) (lid : Option Nat) (fresh : Bytes)
  | hAddTag (k : Nat) (t : Tag)
  | hAddSegment (k : Nat) (id : Option Bytes) (lid : Option Nat) (tags : List Tag) (fresh : Bytes)
  | hAddGrains (k : Nat) (rs : List Nat) (sid : Option Bytes) (lid : Option Nat) (fresh : Bytes)
  | sAddTag (l : Nat) (t : Tag)
  | sAddFlow (l : Nat) (f : FlowIn)
  | sAddGrains (l : Nat) (rs : List Nat)
  | enter
  | exit
  | startDump (all : Bool)
  | endDump
  deriving DecidableEq, Repr

/-- The objects an operation hands over. -/
def ROp.objects : ROp → List Nat
  | .addGrains rs .. => rs
  | .hAddGrains _ rs .. => rs
  | .sAddGrains _ rs => rs
  | _ => []

/-- The same operation with the values of the objects, as one of `Gsf/Encoder`. -/
def ROp.vals (h : Objs) : ROp → Op
  | .addTag t => .addTag t
  | .addSegment id lid tags fresh => .addSegment id lid tags fresh
  | .addGrains rs sid lid fresh => .addGrains (rs.map h) sid lid fresh
  | .hAddTag k t => .hAddTag k t
  | .hAddSegment k id lid tags fresh => .hAddSegment k id lid tags fresh
  | .hAddGrains k rs sid lid fresh => .hAddGrains k (rs.map h) sid lid fresh
  | .sAddTag l t => .sAddTag l t
  | .sAddFlow l f => .sAddFlow l f
  | .sAddGrains l rs => .sAddGrains l (rs.map h)
  | .enter => .enter
  | .exit => .exit
  | .startDump all => .startDump all
  | .endDump => .endDump

/-- One operation while the objects are worth `h`. -/
def ROp.run (h : Objs) (r : RefEnc) : ROp → RefEnc × Except EncErr (Option Nat)
  | .addTag t => let x := r.enc.addTag t; (⟨x.1, r.held⟩, x.2.map (fun _ => none))
  | .addSegment id lid tags fresh => let x := r.made (r.enc.addSegment id lid tags fresh); (x.1, x.2.map some)
  | .addGrains rs sid lid fresh => let x := r.addGrains h rs sid lid fresh; (x.1, x.2.map some)
  | .hAddTag k t => let x := r.enc.hAddTag k t; (⟨x.1, r.held⟩, x.2.map (fun _ => none))
  | .hAddSegment k id lid tags fresh => let x := r.made (r.enc.hAddSegment k id lid tags fresh); (x.1, x.2.map some)
  | .hAddGrains k rs sid lid fresh => let x := r.hAddGrains h k rs sid lid fresh; (x.1, x.2.map some)
  | .sAddTag l t => let x := r.enc.sAddTag l t; (⟨x.1, r.held⟩, x.2.map (fun _ => none))
  | .sAddFlow l f => let x := r.enc.sAddFlow l f; (⟨x.1, r.held⟩, x.2.map (fun _ => none))
  | .sAddGrains l rs => let x := r.sAddGrains h l rs; (x.1, x.2.map some)
  | .enter => (r.enter h, .ok none)
  | .exit => (r.exit h, .ok none)
  | .startDump all => (r.startDump h all, .ok none)
  | .endDump => (r.endDump, .ok none)

/-- A step of a program: it changes objects, or calls the encoder. -/
inductive PStep where
  | change (h : Objs)
  | call (o : ROp)

/-- The objects and the encoder. -/
structure World where
  objs : Objs
  enc : RefEnc

def PStep.run (w : World) : PStep → World
  | .change h => ⟨h, w.enc⟩
  | .call o => ⟨w.objs, (o.run w.objs w.enc).1⟩

/-- The world after a program; an exception is caught and the next step follows. -/
def World.runs (w : World) : List PStep → World
  | [] => w
  | s :: ss => (s.run w).runs ss

/-! ## Objects and values -/

namespace RefEnc

theorem now_lids (r : RefEnc) (h : Objs) : (r.now h).lids = r.enc.lids := by
  simp [now, Enc.lids, List.map_map, Function.comp_def]

theorem now_hasSeg (r : RefEnc) (h : Objs) (l : Nat) : (r.now h).hasSeg l = r.enc.hasSeg l := by
  simp [now, Enc.hasSeg, List.any_map, Function.comp_def]

theorem now_seg (r : RefEnc) (h : Objs) (l : Nat) :
    (r.now h).seg l = (r.enc.seg l).map (fun s => { s with grains := (r.held s.localId).map h }) := by
  simp [now, Enc.seg, List.find?_map, Function.comp_def]

theorem now_choose (r : RefEnc) (h : Objs) (sid : Option Bytes) (lid : Option Nat) :
    (r.now h).choose sid lid = r.enc.choose sid lid := by
  cases lid with
  | some l => rfl
  | none => simp [now, Enc.choose, List.filter_map, List.map_map, Function.comp_def]

theorem now_parent (r : RefEnc) (h : Objs) (s : Seg) (gs : List Grain) :
    (r.now h).parentHandle { s with grains := gs } = r.enc.parentHandle s := rfl

theorem now_write (r : RefEnc) (h : Objs) (l : Nat) (gs : List Grain) :
    (RefEnc.mk (r.enc.writeGrains l gs) r.held).now h = (r.now h).writeGrains l gs := by
  induction gs generalizing r with
  | nil => rfl
  | cons g gs ih =>
    have : (RefEnc.mk (r.enc.writeGrain l g) r.held).now h = (r.now h).writeGrain l g := by
      simp only [now, Enc.writeGrain, Enc.updSeg, List.map_map]
      congr 1
      apply List.map_congr_left
      intro s _
      simp only [Function.comp]
      by_cases hs : s.localId = l
      · simp [hs]
      · simp [hs]
    have := ih (RefEnc.mk (r.enc.writeGrain l g) r.held)
    simp only [Enc.writeGrains]
    rw [this]
    congr 1

theorem now_hold (r : RefEnc) (h : Objs) (l : Nat) (rs : List Nat) :
    (RefEnc.mk r.enc (fun l' => r.held l' ++ if l' = l then rs else [])).now h =
      (r.now h).updSeg l (fun s => { s with grains := s.grains ++ rs.map h }) := by
  simp only [now, Enc.updSeg, List.map_map]
  congr 1
  apply List.map_congr_left
  intro s _
  simp only [Function.comp]
  by_cases hs : s.localId = l
  · simp [hs]
  · simp [hs]

theorem now_sAddGrains (r : RefEnc) (h : Objs) (l : Nat) (rs : List Nat) :
    ((r.sAddGrains h l rs).1.now h, (r.sAddGrains h l rs).2) = (r.now h).sAddGrains l (rs.map h) := by
  unfold sAddGrains Enc.sAddGrains
  rw [now_seg]
  cases hs : r.enc.seg l with
  | none => rfl
  | some s =>
    simp only [Option.map_some]
    by_cases ha : ((r.enc.parentHandle s).map Handle.active).getD false = true
    · have ha' : (((r.now h).parentHandle { s with grains := (r.held s.localId).map h }).map Handle.active).getD false = true := ha
      rw [if_pos ha, if_pos ha', now_write]
    · have ha' : ¬ (((r.now h).parentHandle { s with grains := (r.held s.localId).map h }).map Handle.active).getD false = true := ha
      rw [if_neg ha, if_neg ha', now_hold]

theorem now_made_seg (r : RefEnc) (h : Objs) (e1 : Enc) (l : Nat) (hs : e1.segs = r.enc.segs) (hl : e1.hasSeg l = false)
    (s : Seg) (hs' : s.localId = l) (hg : s.grains = []) :
    (RefEnc.mk { e1 with segs := e1.segs ++ [s] } (fun l' => if l' = l then [] else r.held l')).now h =
      { (RefEnc.mk e1 r.held).now h with segs := ((RefEnc.mk e1 r.held).now h).segs ++ [s] } := by
  simp only [now, List.map_append, List.map_cons, List.map_nil]
  congr 1
  congr 1
  · apply List.map_congr_left
    intro t ht
    have : t.localId ≠ l := by
      intro e
      rw [Enc.hasSeg_false] at hl
      exact hl (List.mem_map.mpr ⟨t, ht, e⟩)
    simp [this]
  · rw [if_pos hs', List.map_nil, ← hg]

theorem now_addSegment (r : RefEnc) (h : Objs) (id lid tags fresh) :
    ((r.made (r.enc.addSegment id lid tags fresh)).1.now h, (r.made (r.enc.addSegment id lid tags fresh)).2) =
      (r.now h).addSegment id lid tags fresh := by
  unfold Enc.addSegment
  by_cases ho : r.enc.syncOpen.isSome
  · have ho' : (r.now h).syncOpen.isSome := ho
    rw [if_pos ho, if_pos ho']
    rfl
  · have ho' : ¬ (r.now h).syncOpen.isSome := ho
    rw [if_neg ho, if_neg ho']
    simp only
    have e1 : (r.now h).nextLocal = r.enc.nextLocal := rfl
    rw [e1]
    generalize lid.getD r.enc.nextLocal = l
    have e2 : ({ r.now h with nextLocal := bumpLocal r.enc.nextLocal l } : Enc).hasSeg l =
        ({ r.enc with nextLocal := bumpLocal r.enc.nextLocal l } : Enc).hasSeg l := now_hasSeg r h l
    rw [e2]
    by_cases hl : ({ r.enc with nextLocal := bumpLocal r.enc.nextLocal l } : Enc).hasSeg l = true
    · rw [if_pos hl, if_pos hl]
      rfl
    · rw [if_neg hl, if_neg hl]
      simp only [made]
      rw [Prod.mk.injEq]
      refine ⟨?_, rfl⟩
      exact now_made_seg r h { r.enc with nextLocal := bumpLocal r.enc.nextLocal l } l rfl (by simpa using hl)
        (Seg.new (id.getD fresh) l tags none) rfl rfl

theorem now_hAddSegment (r : RefEnc) (h : Objs) (k id lid tags fresh) :
    ((r.made (r.enc.hAddSegment k id lid tags fresh)).1.now h, (r.made (r.enc.hAddSegment k id lid tags fresh)).2) =
      (r.now h).hAddSegment k id lid tags fresh := by
  unfold Enc.hAddSegment
  have e0 : (r.now h).handles = r.enc.handles := rfl
  rw [e0]
  cases hk : r.enc.handles[k]? with
  | none => rfl
  | some hd =>
    simp only
    generalize lid.getD hd.nextLocal = l
    have e2 : ((r.now h).updHandle k (fun h => { h with nextLocal := bumpLocal h.nextLocal l })).hasSeg l =
        (r.enc.updHandle k (fun h => { h with nextLocal := bumpLocal h.nextLocal l })).hasSeg l := now_hasSeg r h l
    rw [e2]
    by_cases hl : (r.enc.updHandle k (fun h => { h with nextLocal := bumpLocal h.nextLocal l })).hasSeg l = true
    · rw [if_pos hl, if_pos hl]
      rfl
    · rw [if_neg hl, if_neg hl]
      by_cases ha : hd.active = true
      · rw [if_pos ha, if_pos ha]
        rfl
      · rw [if_neg ha, if_neg ha]
        simp only [made]
        rw [Prod.mk.injEq]
        refine ⟨?_, rfl⟩
        exact now_made_seg r h (r.enc.updHandle k (fun h => { h with nextLocal := bumpLocal h.nextLocal l })) l rfl (by simpa using hl)
          (Seg.new (id.getD fresh) l tags (some k)) rfl rfl

theorem now_hAddGrains (r : RefEnc) (h : Objs) (k rs sid lid fresh) :
    ((r.hAddGrains h k rs sid lid fresh).1.now h, (r.hAddGrains h k rs sid lid fresh).2) =
      (r.now h).hAddGrains k (rs.map h) sid lid fresh := by
  unfold hAddGrains Enc.hAddGrains
  have e0 : (r.now h).handles = r.enc.handles := rfl
  have e1 : (r.now h).hasSeg = r.enc.hasSeg := funext (now_hasSeg r h)
  rw [e0, now_choose, e1]
  cases hk : r.enc.handles[k]? with
  | none => rfl
  | some hd =>
    simp only
    cases hc : (r.enc.choose sid lid).filter r.enc.hasSeg with
    | some l =>
      simp only
      by_cases ha : hd.active = true
      · rw [if_pos ha, if_pos ha, now_write]
      · rw [if_neg ha, if_neg ha]
        exact now_sAddGrains r h l rs
    | none =>
      simp only
      by_cases ha : hd.active = true
      · rw [if_pos ha, if_pos ha]
      · rw [if_neg ha, if_neg ha]
        rw [← now_hAddSegment]
        cases hm : r.made (r.enc.hAddSegment k sid (r.enc.choose sid lid) [] fresh) with
        | mk r1 x =>
          cases x with
          | error x => rfl
          | ok l => exact now_sAddGrains r1 h l rs

theorem now_addGrains (r : RefEnc) (h : Objs) (rs sid lid fresh) :
    ((r.addGrains h rs sid lid fresh).1.now h, (r.addGrains h rs sid lid fresh).2) =
      (r.now h).addGrains (rs.map h) sid lid fresh := by
  unfold addGrains Enc.addGrains
  have e0 : (r.now h).syncOpen = r.enc.syncOpen := rfl
  have e1 : (r.now h).hasSeg = r.enc.hasSeg := funext (now_hasSeg r h)
  rw [e0, now_choose, e1]
  cases hk : r.enc.syncOpen with
  | some k => exact now_hAddGrains r h k rs sid lid fresh
  | none =>
    simp only
    cases hc : (r.enc.choose sid lid).filter r.enc.hasSeg with
    | some l => exact now_sAddGrains r h l rs
    | none =>
      simp only
      rw [← now_addSegment]
      cases hm : r.made (r.enc.addSegment sid (r.enc.choose sid lid) [] fresh) with
      | mk r1 x =>
        cases x with
        | error x => rfl
        | ok l => exact now_sAddGrains r1 h l rs

theorem now_of_none (e : Enc) (he : ∀ s ∈ e.segs, s.grains = []) (h : Objs) : (RefEnc.mk e (fun _ => [])).now h = e := by
  unfold now
  simp only [List.map_nil]
  have : e.segs.map (fun s => { s with grains := [] }) = e.segs := by
    conv => rhs; rw [← List.map_id e.segs]
    apply List.map_congr_left
    intro s hs
    rw [id, ← he s hs]
  rw [this]

theorem start_none (e : Enc) (k : Nat) (all : Bool) : ∀ s ∈ (e.start k all).segs, s.grains = [] := by
  intro s hs
  unfold Enc.start at hs
  simp only at hs
  obtain ⟨t, -, rfl⟩ := List.mem_map.mp hs
  rfl

theorem now_start (r : RefEnc) (h h' : Objs) (k : Nat) (all : Bool) : (r.start h k all).now h' = (r.now h).start k all :=
  now_of_none _ (start_none _ _ _) h'

theorem now_close (r : RefEnc) (h : Objs) (k : Nat) : (RefEnc.mk (r.enc.close k) r.held).now h = (r.now h).close k := by
  have hp : ∀ (f : OutFile) (ss : List Seg),
      patchCounts f (ss.map (fun s => { s with grains := (r.held s.localId).map h })) = patchCounts f ss := by
    intro f ss
    induction ss generalizing f with
    | nil => rfl
    | cons s ss ih =>
      simp only [List.map_cons, patchCounts]
      cases s.countPos with
      | none => exact ih f
      | some p =>
        simp only
        split
        · exact ih _
        · exact ih f
  unfold Enc.close Enc.finish
  have e0 : (r.now h).handles = r.enc.handles := rfl
  have e1 : patchCounts (r.now h).file (r.now h).segs = patchCounts r.enc.file r.enc.segs := hp _ _
  simp only [e0, e1]
  by_cases ha : ((r.enc.handles[k]?).map Handle.active).getD false = true
  · simp only [ha, if_true]
    rfl
  · simp only [ha, if_false]
    rfl

end RefEnc

/-- An operation on objects does to the encoder with their values what the operation with the values does. -/
theorem ROp.run_now (h : Objs) (r : RefEnc) (o : ROp) :
    ((o.run h r).1.now h, (o.run h r).2) = (o.vals h).run (r.now h) := by
  cases o with
  | addTag t =>
    simp only [ROp.run, ROp.vals, Op.run, Enc.addTag]
    by_cases ho : r.enc.syncOpen.isSome
    · have ho' : (r.now h).syncOpen.isSome := ho
      rw [if_pos ho, if_pos ho']
    · have ho' : ¬ (r.now h).syncOpen.isSome := ho
      rw [if_neg ho, if_neg ho']
      rfl
  | addSegment id lid tags fresh =>
    have e := r.now_addSegment h id lid tags fresh
    simp only [ROp.run, ROp.vals, Op.run, ← e]
  | addGrains rs sid lid fresh =>
    have e := r.now_addGrains h rs sid lid fresh
    simp only [ROp.run, ROp.vals, Op.run, ← e]
  | hAddTag k t =>
    have e0 : (r.now h).handles = r.enc.handles := rfl
    simp only [ROp.run, ROp.vals, Op.run, Enc.hAddTag, e0]
    cases r.enc.handles[k]? with
    | none => rfl
    | some hd =>
      simp only
      by_cases ha : hd.active = true
      · simp only [ha, if_true]
      · simp only [ha, if_false]; rfl
  | hAddSegment k id lid tags fresh =>
    have e := r.now_hAddSegment h k id lid tags fresh
    simp only [ROp.run, ROp.vals, Op.run, ← e]
  | hAddGrains k rs sid lid fresh =>
    have e := r.now_hAddGrains h k rs sid lid fresh
    simp only [ROp.run, ROp.vals, Op.run, ← e]
  | sAddTag l t =>
    simp only [ROp.run, ROp.vals, Op.run, Enc.sAddTag, RefEnc.now_seg]
    cases r.enc.seg l with
    | none => rfl
    | some s =>
      simp only [Option.map_some]
      by_cases ha : s.activeDump = true
      · rw [if_pos ha, if_pos ha]
      · rw [if_neg ha, if_neg ha]
        simp only [Prod.mk.injEq, and_true, RefEnc.now, Enc.updSeg, List.map_map]
        congr 1
        apply List.map_congr_left
        intro s _
        simp only [Function.comp]
        by_cases hs : s.localId = l
        · rw [if_pos hs, if_pos hs]
        · rw [if_neg hs, if_neg hs]
  | sAddFlow l f =>
    simp only [ROp.run, ROp.vals, Op.run, Enc.sAddFlow, RefEnc.now_seg]
    cases r.enc.seg l with
    | none => rfl
    | some s =>
      simp only [Option.map_some]
      by_cases ha : s.activeDump = true
      · rw [if_pos ha, if_pos ha]
      · rw [if_neg ha, if_neg ha]
        simp only [Prod.mk.injEq, and_true, RefEnc.now, Enc.updSeg, List.map_map]
        congr 1
        apply List.map_congr_left
        intro s _
        simp only [Function.comp]
        by_cases hs : s.localId = l
        · rw [if_pos hs, if_pos hs]
        · rw [if_neg hs, if_neg hs]
  | sAddGrains l rs =>
    have e := r.now_sAddGrains h l rs
    simp only [ROp.run, ROp.vals, Op.run, ← e]
  | enter =>
    simp only [ROp.run, ROp.vals, Op.run, Prod.mk.injEq, and_true, RefEnc.enter, Enc.enter, Enc.makeHandle]
    have e0 : (r.now h).streaming = r.enc.streaming := rfl
    simp only [e0]
    by_cases hs : r.enc.streaming = true
    · simp only [hs, if_true]
      rw [RefEnc.now_start]
      rfl
    · simp only [hs, if_false]
      rfl
  | exit =>
    simp only [ROp.run, ROp.vals, Op.run, Prod.mk.injEq, and_true, RefEnc.exit, Enc.exit]
    have e0 : (r.now h).streaming = r.enc.streaming := rfl
    have e1 : (r.now h).syncOpen = r.enc.syncOpen := rfl
    simp only [e0, e1]
    cases r.enc.syncOpen with
    | none => rfl
    | some k =>
      simp only
      by_cases hs : r.enc.streaming = true
      · simp only [hs, if_true]
        exact RefEnc.now_close r h k
      · simp only [hs, Bool.false_eq_true, if_false]
        rw [RefEnc.now_close (r.start h k true) h k, RefEnc.now_start]
  | startDump all =>
    simp only [ROp.run, ROp.vals, Op.run, Prod.mk.injEq, and_true, RefEnc.startDump, Enc.startDump, Enc.makeHandle]
    rw [RefEnc.now_start]
    rfl
  | endDump =>
    simp only [ROp.run, ROp.vals, Op.run, Prod.mk.injEq, and_true, RefEnc.endDump, Enc.endDump]
    have e1 : (r.now h).syncOpen = r.enc.syncOpen := rfl
    simp only [e1]
    cases r.enc.syncOpen with
    | none => rfl
    | some k => exact RefEnc.now_close r h k

end Verif.Gsf

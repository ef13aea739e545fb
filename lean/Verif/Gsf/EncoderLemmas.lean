import Verif.Gsf.Encoder
import Verif.Gsf.Whole

/-!
# Invariants of the encoder state machine
-/

namespace Verif.Gsf

/-- The operation starts or ends a dump. -/
def Op.isDump : Op → Bool
  | .enter | .exit | .aenter | .aexit | .startDump _ | .endDump => true
  | _ => false

/-- The grains an operation was given. -/
def Op.grains : Op → List Grain
  | .addGrains gs .. => gs
  | .hAddGrains _ gs .. => gs
  | .sAddGrains _ gs => gs
  | _ => []

/-- The grains an operation accepted (it did not raise), each with the local id of the segment that took
it. -/
def Op.takes (e : Enc) (o : Op) : List (Nat × Grain) :=
  match (o.run e).2 with
  | .ok (some l) => o.grains.map (fun g => (l, g))
  | _ => []

/-- The grains accepted during a history, in call order. -/
def Enc.taken (e : Enc) : List Op → List (Nat × Grain)
  | [] => []
  | o :: os => o.takes e ++ (o.run e).1.taken os

/-- The grains of one segment. -/
def ofSeg (l : Nat) (gs : List (Nat × Grain)) : List Grain := (gs.filter (fun x => x.1 == l)).map Prod.snd

theorem ofSeg_append (l gs gs') : ofSeg l (gs ++ gs') = ofSeg l gs ++ ofSeg l gs' := by
  simp [ofSeg]

theorem ofSeg_map_self (l : Nat) (gs : List Grain) : ofSeg l (gs.map (fun g => (l, g))) = gs := by
  induction gs with
  | nil => rfl
  | cons g gs ih => simp only [ofSeg, List.map_cons, List.filter_cons, beq_self_eq_true, if_true] at ih ⊢; rw [ih]

theorem ofSeg_map_ne {l l' : Nat} (h : l' ≠ l) (gs : List Grain) : ofSeg l (gs.map (fun g => (l', g))) = [] := by
  induction gs with
  | nil => rfl
  | cons g gs ih =>
    simp only [ofSeg, List.map_cons, List.filter_cons] at ih ⊢
    rw [if_neg (by simpa using h)]; exact ih

/-- The grains waiting to be written, grouped by segment in dictionary order. -/
def Enc.pending (e : Enc) : List (Nat × Grain) := e.segs.flatMap (fun s => s.grains.map (fun g => (s.localId, g)))

theorem Enc.pendingBytes_eq (e : Enc) :
    e.pendingBytes = e.pending.flatMap (fun x => encodeGrain e.major x.1 x.2) := by
  unfold Enc.pendingBytes Enc.pending
  rw [List.flatMap_assoc]
  congr 1
  funext s
  rw [List.flatMap_map]

def Enc.lids (e : Enc) : List Nat := e.segs.map Seg.localId

theorem Enc.hasSeg_iff (e : Enc) (l : Nat) : e.hasSeg l = true ↔ l ∈ e.lids := by
  unfold Enc.hasSeg Enc.lids
  simp [List.any_eq_true, List.mem_map]

theorem Enc.hasSeg_false (e : Enc) (l : Nat) : e.hasSeg l = false ↔ l ∉ e.lids := by
  rw [← e.hasSeg_iff]; simp

theorem Enc.seg_some {e : Enc} {l : Nat} {s : Seg} (h : e.seg l = some s) : s ∈ e.segs ∧ s.localId = l := by
  unfold Enc.seg at h
  exact ⟨List.mem_of_find?_eq_some h, by simpa using List.find?_some h⟩

theorem Enc.seg_isSome (e : Enc) (l : Nat) : (e.seg l).isSome = true ↔ l ∈ e.lids := by
  unfold Enc.seg Enc.lids
  rw [List.find?_isSome]
  simp [List.mem_map]

theorem Enc.seg_of_mem {e : Enc} {l : Nat} (h : l ∈ e.lids) : ∃ s, e.seg l = some s := by
  rw [← e.seg_isSome] at h
  exact Option.isSome_iff_exists.mp h

/-- The grains waiting in one segment. -/
def pend (segs : List Seg) (l : Nat) : List Grain := (segs.filter (fun s => s.localId == l)).flatMap Seg.grains

theorem pend_nil_of_not_mem {segs : List Seg} {l : Nat} (h : l ∉ segs.map Seg.localId) : pend segs l = [] := by
  unfold pend
  rw [List.filter_eq_nil_iff.mpr]
  · rfl
  · intro s hs; simp only [beq_iff_eq]; intro e; exact h (List.mem_map.mpr ⟨s, hs, e⟩)

theorem pend_cons (s : Seg) (ss : List Seg) (l : Nat) :
    pend (s :: ss) l = (if s.localId = l then s.grains else []) ++ pend ss l := by
  unfold pend
  by_cases h : s.localId = l
  · rw [List.filter_cons_of_pos (by simpa using h), if_pos h]; rfl
  · rw [List.filter_cons_of_neg (by simpa using h), if_neg h]; rfl

theorem pend_append (ss ts : List Seg) (l : Nat) : pend (ss ++ ts) l = pend ss l ++ pend ts l := by
  unfold pend; simp

theorem ofSeg_pending (segs : List Seg) (l : Nat) :
    ofSeg l (segs.flatMap (fun s => s.grains.map (fun g => (s.localId, g)))) = pend segs l := by
  induction segs with
  | nil => rfl
  | cons s ss ih =>
    rw [List.flatMap_cons, ofSeg_append, ih, pend_cons]
    congr 1
    by_cases h : s.localId = l
    · rw [if_pos h, h, ofSeg_map_self]
    · rw [if_neg h, ofSeg_map_ne h]

theorem pend_of_mem {segs : List Seg} (hn : (segs.map Seg.localId).Nodup) {s : Seg} (hs : s ∈ segs) :
    pend segs s.localId = s.grains := by
  induction segs with
  | nil => cases hs
  | cons t ts ih =>
    rw [List.map_cons, List.nodup_cons] at hn
    rw [pend_cons]
    rcases List.mem_cons.mp hs with rfl | hs
    · rw [if_pos rfl, pend_nil_of_not_mem hn.1, List.append_nil]
    · rw [if_neg, ih hn.2 hs]; · rfl
      intro e; exact hn.1 (e ▸ List.mem_map.mpr ⟨s, hs, rfl⟩)

theorem map_upd_localId (segs : List Seg) (l : Nat) (f : Seg → Seg) (hf : ∀ s, (f s).localId = s.localId) :
    (segs.map (fun s => if s.localId = l then f s else s)).map Seg.localId = segs.map Seg.localId := by
  rw [List.map_map]
  apply List.map_congr_left
  intro s _
  simp only [Function.comp]
  split
  · exact hf s
  · rfl

theorem Enc.updSeg_lids (e : Enc) (l : Nat) (f : Seg → Seg) (hf : ∀ s, (f s).localId = s.localId) :
    (e.updSeg l f).lids = e.lids := map_upd_localId _ _ _ hf

theorem pend_upd_same (segs : List Seg) (l : Nat) (f : Seg → Seg) (hf : ∀ s, (f s).localId = s.localId)
    (hg : ∀ s, (f s).grains = s.grains) (l' : Nat) :
    pend (segs.map (fun s => if s.localId = l then f s else s)) l' = pend segs l' := by
  induction segs with
  | nil => rfl
  | cons s ss ih =>
    rw [List.map_cons, pend_cons, pend_cons, ih]
    congr 1
    split <;> simp_all

theorem pend_upd_append (segs : List Seg) (hn : (segs.map Seg.localId).Nodup) (l : Nat) (hl : l ∈ segs.map Seg.localId)
    (gs : List Grain) (l' : Nat) :
    pend (segs.map (fun s => if s.localId = l then { s with grains := s.grains ++ gs } else s)) l' =
      pend segs l' ++ ofSeg l' (gs.map (fun g => (l, g))) := by
  induction segs with
  | nil => simp at hl
  | cons s ss ih =>
    rw [List.map_cons, List.nodup_cons] at hn
    rw [List.map_cons, pend_cons, pend_cons]
    by_cases hs : s.localId = l
    · have hid : ss.map (fun s => if s.localId = l then { s with grains := s.grains ++ gs } else s) = ss := by
        conv => rhs; rw [← List.map_id ss]
        apply List.map_congr_left
        intro t ht
        rw [if_neg]; · rfl
        intro e; exact hn.1 (hs ▸ e ▸ List.mem_map.mpr ⟨t, ht, rfl⟩)
      rw [hid, if_pos hs]
      by_cases hl' : s.localId = l'
      · rw [if_pos hl', if_pos hl', ← hl', ← hs, ofSeg_map_self, pend_nil_of_not_mem hn.1]
        simp
      · rw [if_neg hl', if_neg hl', ← hs, ofSeg_map_ne hl']
        simp
    · rw [if_neg hs]
      rw [List.map_cons, List.mem_cons] at hl
      rw [ih hn.2 (hl.resolve_left (fun e => hs e.symm)), List.append_assoc]

/-! ## No dump is active -/

/-- No handle is dumping. -/
structure Idle (e : Enc) : Prop where
  nodup : e.lids.Nodup
  inactive : ∀ h ∈ e.handles, h.active = false

/-- Nothing was ever dumped. -/
def Fresh (e : Enc) : Prop :=
  ∀ s ∈ e.segs, s.writeCount = 0 ∧ s.countPos = none ∧ s.activeDump = false

/-- The attributes that editing never touches. -/
structure Frame (e e' : Enc) : Prop where
  major : e'.major = e.major
  minor : e'.minor = e.minor
  id : e'.id = e.id
  created : e'.created = e.created
  streaming : e'.streaming = e.streaming
  syncOpen : e'.syncOpen = e.syncOpen
  asyncOpen : e'.asyncOpen = e.asyncOpen
  kinds : e'.handles.map Handle.isAsync = e.handles.map Handle.isAsync

theorem Frame.handles {e e' : Enc} (h : Frame e e') : e'.handles.length = e.handles.length := by
  have := congrArg List.length h.kinds
  simpa using this

theorem modify_kinds (l : List Handle) (k : Nat) (f : Handle → Handle) (hf : ∀ h, (f h).isAsync = h.isAsync) :
    (l.modify k f).map Handle.isAsync = l.map Handle.isAsync := by
  induction l generalizing k with
  | nil => cases k <;> rfl
  | cons a l ih =>
    cases k with
    | zero => simp [hf]
    | succ k => simp [List.modify_succ_cons, ih]

theorem Frame.refl (e : Enc) : Frame e e := ⟨rfl, rfl, rfl, rfl, rfl, rfl, rfl, rfl⟩

theorem Frame.trans {a b c : Enc} (h : Frame a b) (k : Frame b c) : Frame a c :=
  ⟨k.1.trans h.1, k.2.trans h.2, k.3.trans h.3, k.4.trans h.4, k.5.trans h.5, k.6.trans h.6, k.7.trans h.7,
    k.8.trans h.8⟩

/-- What one editing step does while no dump is active: the grains `t` are put into their segments. -/
structure EditStep (e : Enc) (t : List (Nat × Grain)) (e' : Enc) : Prop where
  idle : Idle e'
  frame : Frame e e'
  file : e'.file = e.file
  fresh : Fresh e → Fresh e'
  pend : ∀ l, pend e'.segs l = pend e.segs l ++ ofSeg l t
  lids : ∃ more, e'.lids = e.lids ++ more
  parents : e.handles = [] → (∀ s ∈ e.segs, s.parent = none) → ∀ s ∈ e'.segs, s.parent = none

theorem EditStep.refl {e : Enc} (h : Idle e) : EditStep e [] e :=
  ⟨h, .refl e, rfl, id, fun l => by simp [ofSeg], ⟨[], by simp⟩, fun _ h => h⟩

theorem EditStep.trans {a b c : Enc} {t u} (h : EditStep a t b) (k : EditStep b u c) : EditStep a (t ++ u) c where
  idle := k.idle
  frame := h.frame.trans k.frame
  file := k.file.trans h.file
  fresh := fun f => k.fresh (h.fresh f)
  pend := fun l => by rw [k.pend, h.pend, ofSeg_append, List.append_assoc]
  lids := by
    obtain ⟨m, hm⟩ := h.lids; obtain ⟨n, hn⟩ := k.lids
    exact ⟨m ++ n, by rw [hn, hm, List.append_assoc]⟩
  parents := fun h0 hp => k.parents (by
    have := h.frame.handles; rw [h0] at this; exact List.length_eq_zero_iff.mp this) (h.parents h0 hp)

theorem editStep_upd {e : Enc} (hi : Idle e) (l : Nat) (f : Seg → Seg) (hf : ∀ s, (f s).localId = s.localId)
    (hg : ∀ s, (f s).grains = s.grains) (hw : ∀ s, (f s).writeCount = s.writeCount)
    (hc : ∀ s, (f s).countPos = s.countPos) (ha : ∀ s, (f s).activeDump = s.activeDump)
    (hp : ∀ s, (f s).parent = s.parent) : EditStep e [] (e.updSeg l f) where
  idle := ⟨by rw [e.updSeg_lids l f hf]; exact hi.nodup, hi.inactive⟩
  frame := ⟨rfl, rfl, rfl, rfl, rfl, rfl, rfl, rfl⟩
  file := rfl
  fresh := fun h s hs => by
    unfold Enc.updSeg at hs
    obtain ⟨t, ht, rfl⟩ := List.mem_map.mp hs
    have := h t ht
    split
    · rw [hw, hc, ha]; exact this
    · exact this
  pend := fun l' => by
    unfold Enc.updSeg
    simp only
    rw [pend_upd_same _ _ _ hf hg]; simp [ofSeg]
  lids := ⟨[], by rw [e.updSeg_lids l f hf, List.append_nil]⟩
  parents := fun _ h s hs => by
    unfold Enc.updSeg at hs
    obtain ⟨t, ht, rfl⟩ := List.mem_map.mp hs
    split
    · rw [hp]; exact h t ht
    · exact h t ht

theorem editStep_grains {e : Enc} (hi : Idle e) (l : Nat) (hl : l ∈ e.lids) (gs : List Grain) :
    EditStep e (gs.map (fun g => (l, g))) (e.updSeg l (fun s => { s with grains := s.grains ++ gs })) where
  idle := ⟨by rw [e.updSeg_lids _ (fun s => { s with grains := s.grains ++ gs }) (fun _ => rfl)]; exact hi.nodup, hi.inactive⟩
  frame := ⟨rfl, rfl, rfl, rfl, rfl, rfl, rfl, rfl⟩
  file := rfl
  fresh := fun h s hs => by
    unfold Enc.updSeg at hs
    obtain ⟨t, ht, rfl⟩ := List.mem_map.mp hs
    have := h t ht
    split <;> exact this
  pend := fun l' => pend_upd_append _ hi.nodup l hl gs l'
  lids := ⟨[], by rw [e.updSeg_lids _ (fun s => { s with grains := s.grains ++ gs }) (fun _ => rfl), List.append_nil]⟩
  parents := fun _ h s hs => by
    unfold Enc.updSeg at hs
    obtain ⟨t, ht, rfl⟩ := List.mem_map.mp hs
    split <;> exact h t ht

theorem editStep_newSeg {e : Enc} (hi : Idle e) (id : Bytes) (l : Nat) (tags : List Tag) (p : Option Nat)
    (hl : e.hasSeg l = false) (hp : e.handles = [] → p = none) :
    EditStep e [] { e with segs := e.segs ++ [Seg.new id l tags p] } where
  idle := ⟨by
    have := hi.nodup
    rw [e.hasSeg_false] at hl
    unfold Enc.lids at *
    simp only [List.map_append, List.map_cons, List.map_nil]
    rw [List.nodup_append]
    refine ⟨this, by simp, ?_⟩
    intro a ha b hb
    simp only [Seg.new, List.mem_singleton] at hb
    subst hb
    rintro rfl
    exact hl ha, hi.inactive⟩
  frame := ⟨rfl, rfl, rfl, rfl, rfl, rfl, rfl, rfl⟩
  file := rfl
  fresh := fun h s hs => by
    rcases List.mem_append.mp hs with hs | hs
    · exact h s hs
    · rw [List.mem_singleton] at hs; subst hs; exact ⟨rfl, rfl, rfl⟩
  pend := fun l' => by
    rw [pend_append]
    congr 1
    rw [pend_cons]
    by_cases hq : (Seg.new id l tags p).localId = l'
    · rw [if_pos hq]; rfl
    · rw [if_neg hq]; rfl
  lids := ⟨[l], by simp [Enc.lids, Seg.new]⟩
  parents := fun h0 h s hs => by
    rcases List.mem_append.mp hs with hs | hs
    · exact h s hs
    · rw [List.mem_singleton] at hs; subst hs; exact hp h0

theorem editStep_next {e : Enc} (hi : Idle e) (n : Nat) : EditStep e [] { e with nextLocal := n } :=
  ⟨⟨hi.nodup, hi.inactive⟩, ⟨rfl, rfl, rfl, rfl, rfl, rfl, rfl, rfl⟩, rfl, id, fun l => by simp [ofSeg],
    ⟨[], by simp [Enc.lids]⟩, fun _ h => h⟩

theorem editStep_tag {e : Enc} (hi : Idle e) (t : List Tag) : EditStep e [] { e with tags := t } :=
  ⟨⟨hi.nodup, hi.inactive⟩, ⟨rfl, rfl, rfl, rfl, rfl, rfl, rfl, rfl⟩, rfl, id, fun l => by simp [ofSeg],
    ⟨[], by simp [Enc.lids]⟩, fun _ h => h⟩

theorem mem_modify {α} (l : List α) (k : Nat) (f : α → α) {x : α} (h : x ∈ l.modify k f) :
    x ∈ l ∨ ∃ y ∈ l, x = f y := by
  induction l generalizing k with
  | nil => cases k <;> simp at h
  | cons a l ih =>
    cases k with
    | zero =>
      rcases List.mem_cons.mp h with rfl | h
      · exact .inr ⟨a, by simp, rfl⟩
      · exact .inl (by simp [h])
    | succ k =>
      rw [List.modify_succ_cons] at h
      rcases List.mem_cons.mp h with rfl | h
      · exact .inl (by simp)
      · rcases ih k h with h | ⟨y, hy, rfl⟩
        · exact .inl (by simp [h])
        · exact .inr ⟨y, by simp [hy], rfl⟩

theorem editStep_handle {e : Enc} (hi : Idle e) (k : Nat) (f : Handle → Handle) (hf : ∀ h, (f h).active = h.active)
    (hf' : ∀ h, (f h).isAsync = h.isAsync) : EditStep e [] (e.updHandle k f) :=
  ⟨⟨hi.nodup, fun h hh => by
      rcases mem_modify _ _ _ hh with hh | ⟨y, hy, rfl⟩
      · exact hi.inactive h hh
      · rw [hf]; exact hi.inactive y hy⟩,
    ⟨rfl, rfl, rfl, rfl, rfl, rfl, rfl, modify_kinds _ _ _ hf'⟩, rfl, id, fun l => by simp [ofSeg, Enc.updHandle],
    ⟨[], by simp [Enc.lids, Enc.updHandle]⟩, fun _ h => h⟩

/-- The grains a grain operation reports to have accepted. -/
def tookBy (gs : List Grain) : Except EncErr Nat → List (Nat × Grain)
  | .ok l => gs.map (fun g => (l, g))
  | .error _ => []

theorem parentHandle_mem {e : Enc} {s : Seg} {h : Handle} (hh : e.parentHandle s = some h) : h ∈ e.handles := by
  unfold Enc.parentHandle at hh
  cases hp : s.parent with
  | none =>
    rw [hp] at hh
    simp only [Option.bind_eq_some_iff] at hh
    obtain ⟨k, -, hk⟩ := hh
    exact List.mem_of_getElem? hk
  | some k =>
    rw [hp] at hh
    simp only [Option.filter_eq_some_iff] at hh
    exact List.mem_of_getElem? hh.1

theorem Idle.parent_inactive {e : Enc} (hi : Idle e) (s : Seg) :
    ((e.parentHandle s).map Handle.active).getD false = false := by
  cases hh : e.parentHandle s with
  | none => rfl
  | some h => exact hi.inactive h (parentHandle_mem hh)

theorem edit_sAddGrains {e : Enc} (hi : Idle e) (l : Nat) (gs : List Grain) :
    EditStep e (tookBy gs (e.sAddGrains l gs).2) (e.sAddGrains l gs).1 := by
  unfold Enc.sAddGrains
  cases hs : e.seg l with
  | none => exact .refl hi
  | some s =>
    simp only [hi.parent_inactive s]
    have := Enc.seg_some hs
    exact editStep_grains hi l (this.2 ▸ List.mem_map.mpr ⟨s, this.1, rfl⟩) gs

theorem edit_addSegment {e : Enc} (hi : Idle e) (id lid tags fresh) :
    EditStep e [] (e.addSegment id lid tags fresh).1 := by
  unfold Enc.addSegment
  by_cases ho : e.syncOpen.isSome
  · rw [if_pos ho]; exact .refl hi
  · rw [if_neg ho]
    have h1 := editStep_next hi (bumpLocal e.nextLocal (lid.getD e.nextLocal))
    simp only
    split
    · exact h1
    · rename_i hs
      exact h1.trans (editStep_newSeg h1.idle _ _ _ _ (by simpa using hs) (fun _ => rfl))

theorem handles_nil_of_get {e : Enc} {k : Nat} {h : Handle} (hh : e.handles[k]? = some h) : e.handles ≠ [] := by
  intro h0; rw [h0] at hh; simp at hh

theorem edit_hAddSegment {e : Enc} (hi : Idle e) (k id lid tags fresh) :
    EditStep e [] (e.hAddSegment k id lid tags fresh).1 := by
  unfold Enc.hAddSegment
  cases hh : e.handles[k]? with
  | none => exact .refl hi
  | some h =>
    simp only
    have h1 := editStep_handle hi k (fun h' => { h' with nextLocal := bumpLocal h'.nextLocal (lid.getD h.nextLocal) })
      (fun _ => rfl) (fun _ => rfl)
    split
    · exact h1
    · rename_i hs
      split
      · exact h1
      · refine h1.trans (editStep_newSeg h1.idle _ _ _ _ (by simpa using hs) ?_)
        intro h0
        have := h1.frame.handles
        rw [h0] at this
        exact absurd (List.length_eq_zero_iff.mp this.symm) (handles_nil_of_get hh)

theorem edit_hAddGrains {e : Enc} (hi : Idle e) (k gs sid lid fresh) :
    EditStep e (tookBy gs (e.hAddGrains k gs sid lid fresh).2) (e.hAddGrains k gs sid lid fresh).1 := by
  unfold Enc.hAddGrains
  cases hh : e.handles[k]? with
  | none => exact .refl hi
  | some h =>
    have ha := hi.inactive h (List.mem_of_getElem? hh)
    simp only [ha, Bool.false_eq_true, if_false]
    split
    · exact edit_sAddGrains hi _ _
    · have h1 := edit_hAddSegment hi k sid (e.choose sid lid) [] fresh
      split
      · rename_i e1 x hx
        rw [hx] at h1; exact h1
      · rename_i e1 l hx
        rw [hx] at h1
        exact h1.trans (edit_sAddGrains h1.idle _ _)

theorem edit_addGrains {e : Enc} (hi : Idle e) (gs sid lid fresh) :
    EditStep e (tookBy gs (e.addGrains gs sid lid fresh).2) (e.addGrains gs sid lid fresh).1 := by
  unfold Enc.addGrains
  split
  · exact edit_hAddGrains hi _ _ _ _ _
  · split
    · exact edit_sAddGrains hi _ _
    · have h1 := edit_addSegment hi sid (e.choose sid lid) [] fresh
      split
      · rename_i e1 x hx
        rw [hx] at h1; exact h1
      · rename_i e1 l hx
        rw [hx] at h1
        exact h1.trans (edit_sAddGrains h1.idle _ _)

theorem takes_eq_nil (e : Enc) (o : Op) (h : o.grains = []) : o.takes e = [] := by
  unfold Op.takes
  rw [h]
  cases (o.run e).2 with
  | error _ => rfl
  | ok x => cases x <;> rfl

theorem takes_of {e : Enc} {o : Op} {r : Except EncErr Nat} (h : (o.run e).2 = r.map some) :
    o.takes e = tookBy o.grains r := by
  unfold Op.takes
  rw [h]
  cases r <;> rfl

/-- While no dump is active, an editing operation only touches the encoder's tags and segments: nothing is
written and the accepted grains are appended to their segments. -/
theorem edit_step {e : Enc} (hi : Idle e) (o : Op) (ho : o.isDump = false) :
    EditStep e (o.takes e) (o.run e).1 := by
  cases o with
  | addTag t =>
    rw [takes_eq_nil _ _ rfl]
    simp only [Op.run, Enc.addTag]
    split
    · exact .refl hi
    · exact editStep_tag hi _
  | addSegment id lid tags fresh => rw [takes_eq_nil _ _ rfl]; exact edit_addSegment hi id lid tags fresh
  | addGrains gs sid lid fresh => rw [takes_of rfl]; exact edit_addGrains hi gs sid lid fresh
  | hAddTag k t =>
    rw [takes_eq_nil _ _ rfl]
    simp only [Op.run, Enc.hAddTag]
    split
    · exact .refl hi
    · split
      · exact .refl hi
      · exact editStep_tag hi _
  | hAddSegment k id lid tags fresh => rw [takes_eq_nil _ _ rfl]; exact edit_hAddSegment hi k id lid tags fresh
  | hAddGrains k gs sid lid fresh => rw [takes_of rfl]; exact edit_hAddGrains hi k gs sid lid fresh
  | sAddTag l t =>
    rw [takes_eq_nil _ _ rfl]
    simp only [Op.run, Enc.sAddTag]
    split
    · exact .refl hi
    · split
      · exact .refl hi
      · exact editStep_upd hi _ _ (fun _ => rfl) (fun _ => rfl) (fun _ => rfl) (fun _ => rfl) (fun _ => rfl) (fun _ => rfl)
  | sAddFlow l f =>
    rw [takes_eq_nil _ _ rfl]
    simp only [Op.run, Enc.sAddFlow]
    split
    · exact .refl hi
    · split
      · exact .refl hi
      · exact editStep_upd hi _ _ (fun _ => rfl) (fun _ => rfl) (fun _ => rfl) (fun _ => rfl) (fun _ => rfl) (fun _ => rfl)
  | sAddGrains l gs => rw [takes_of rfl]; exact edit_sAddGrains hi l gs
  | enter => cases ho
  | exit => cases ho
  | aenter => cases ho
  | aexit => cases ho
  | startDump => cases ho
  | endDump => cases ho

theorem edit_steps {e : Enc} (hi : Idle e) (os : List Op) (ho : ∀ o ∈ os, o.isDump = false) :
    EditStep e (e.taken os) (e.runs os) := by
  induction os generalizing e with
  | nil => exact .refl hi
  | cons o os ih =>
    have h1 := edit_step hi o (ho o (by simp))
    exact h1.trans (ih h1.idle (fun x hx => ho x (by simp [hx])))

end Verif.Gsf

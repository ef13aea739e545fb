import Verif.Gsf.Alias
import Verif.Props.C12

/-!
# C74: what is written of grains that the program changes after it has added them
-/

namespace Verif.Props

open Verif Verif.Gsf

/-! ## Specification -/

/-- The operations that add tags, segments, flows or grains, through the encoder, its first handle or segments, and start or end no dump. -/
def editB : ROp → Bool
  | .enter | .exit | .startDump _ | .endDump => false
  | .hAddTag k _ => k == 0
  | .hAddSegment k .. => k == 0
  | .hAddGrains k .. => k == 0
  | _ => true

/-- A program part that changes objects in any way and calls such operations. -/
def editsP (ss : List PStep) : Bool :=
  ss.all (fun s => match s with | .change _ => true | .call o => editB o)

/-- What the objects are worth after a program part. -/
def objsAfter (h : Objs) : List PStep → Objs
  | [] => h
  | .change h' :: ss => objsAfter h' ss
  | .call _ :: ss => objsAfter h ss

/-- The objects that one call hands over, if it does not raise: the segment, the object and what it is worth then. -/
def handedBy (w : World) (o : ROp) : List (Nat × Nat × Grain) :=
  match (o.run w.objs w.enc).2 with
  | .ok (some l) => o.objects.map (fun r => (l, r, w.objs r))
  | _ => []

/-- The same for a program part, in the order of the calls. -/
def handedOver (w : World) : List PStep → List (Nat × Nat × Grain)
  | [] => []
  | .change h :: ss => handedOver ⟨h, w.enc⟩ ss
  | .call o :: ss => handedBy w o ++ handedOver (PStep.run w (.call o)) ss

/-- The objects handed over for a segment. -/
def objsOf (l : Nat) (xs : List (Nat × Nat × Grain)) : List Nat := (xs.filter (fun x => x.1 == l)).map (fun x => x.2.1)

/-- What they were worth then. -/
def valuesOf (l : Nat) (xs : List (Nat × Nat × Grain)) : List Grain := (xs.filter (fun x => x.1 == l)).map (fun x => x.2.2)

/-- The ways to start and end a streaming dump. -/
def StreamPairP (streaming : Bool) (start stop : ROp) : Prop :=
  (start = .startDump false ∧ stop = .endDump) ∨ (streaming = true ∧ start = .enter ∧ stop = .exit)

/-- A program part that gives one object one value after the other, and hands it to the segment `l` each time. -/
def reuse (l r : Nat) (vs : List Grain) : List PStep :=
  vs.flatMap (fun v => [.change (fun _ => v), .call (.sAddGrains l [r])])

namespace C74

/-! ## Calls -/

theorem vals_edit {o : ROp} (h : editB o = true) (H : Objs) :
    (o.vals H).isDump = false ∧ ∀ j, (o.vals H).handle? = some j → j = 0 := by
  cases o <;> simp_all [editB, ROp.vals, Op.isDump, Op.handle?]

theorem vals_grains (o : ROp) (H : Objs) : (o.vals H).grains = o.objects.map H := by
  cases o <;> rfl

theorem takes_vals (o : ROp) (h : Objs) (r : RefEnc) :
    (o.vals h).takes (r.now h) = match (o.run h r).2 with
      | .ok (some l) => o.objects.map (fun x => (l, h x))
      | _ => [] := by
  have e := o.run_now h r
  unfold Op.takes
  rw [← e, vals_grains]
  cases (o.run h r).2 with
  | error x => rfl
  | ok x =>
    cases x with
    | none => rfl
    | some l => simp only [List.map_map, Function.comp_def]

theorem runs_append (w : World) (a b : List PStep) : w.runs (a ++ b) = (w.runs a).runs b := by
  induction a generalizing w with
  | nil => rfl
  | cons s ss ih => exact ih _

theorem runs_objs (w : World) (ss : List PStep) : (w.runs ss).objs = objsAfter w.objs ss := by
  induction ss generalizing w with
  | nil => rfl
  | cons s ss ih => cases s <;> exact ih _

theorem objsAfter_append (h : Objs) (a b : List PStep) : objsAfter h (a ++ b) = objsAfter (objsAfter h a) b := by
  induction a generalizing h with
  | nil => rfl
  | cons s ss ih => cases s <;> exact ih _

theorem handed_append (w : World) (a b : List PStep) : handedOver w (a ++ b) = handedOver w a ++ handedOver (w.runs a) b := by
  induction a generalizing w with
  | nil => rfl
  | cons s ss ih =>
    cases s with
    | change h => exact ih _
    | call o =>
      show handedBy w o ++ handedOver _ (ss ++ b) = (handedBy w o ++ handedOver _ ss) ++ _
      rw [ih, List.append_assoc]
      rfl

/-! ## While no dump is active -/

/-- The calls of a program part with the values `H` throughout. -/
def calls (H : Objs) : List PStep → List Op
  | [] => []
  | .change _ :: ss => calls H ss
  | .call o :: ss => o.vals H :: calls H ss

theorem calls_edits {ss : List PStep} (h : editsP ss = true) (H : Objs) : Edits (calls H ss) := by
  induction ss with
  | nil => intro o ho; cases ho
  | cons s ss ih =>
    simp only [editsP, List.all_cons, Bool.and_eq_true] at h
    cases s with
    | change h' => exact ih h.2
    | call o =>
      intro x hx
      rcases List.mem_cons.mp hx with rfl | hx
      · exact vals_edit h.1 H
      · exact ih h.2 x hx

theorem sAdd_same {r : RefEnc} (hi : ∀ hd ∈ r.enc.handles, hd.active = false) (h H : Objs) (l : Nat) (rs : List Nat) :
    r.sAddGrains h l rs = r.sAddGrains H l rs := by
  unfold RefEnc.sAddGrains
  cases hs : r.enc.seg l with
  | none => rfl
  | some s =>
    simp only
    have ha : ((r.enc.parentHandle s).map Handle.active).getD false = false := by
      cases hp : r.enc.parentHandle s with
      | none => rfl
      | some hd =>
        have : hd ∈ r.enc.handles := by
          unfold Enc.parentHandle at hp
          cases hpar : s.parent with
          | none =>
            rw [hpar] at hp
            simp only [Option.bind_eq_some_iff] at hp
            obtain ⟨k, -, hk⟩ := hp
            exact List.mem_of_getElem? hk
          | some k =>
            rw [hpar] at hp
            simp only [Option.filter_eq_some_iff] at hp
            exact List.mem_of_getElem? hp.1
        simp [hi hd this]
    simp [ha]

theorem made_handles {r : RefEnc} {x : Enc × Except EncErr Nat} (h : ∀ hd ∈ x.1.handles, hd.active = false) :
    ∀ hd ∈ (r.made x).1.enc.handles, hd.active = false := h

theorem run_same {r : RefEnc} {h0 : Objs} (hi : Idle (r.now h0)) (h H : Objs) {o : ROp} (ho : editB o = true) : o.run h r = o.run H r := by
  have hh : ∀ hd ∈ r.enc.handles, hd.active = false := hi.inactive
  have hseg : ∀ k id lid tags fresh, ∀ hd ∈ (r.enc.hAddSegment k id lid tags fresh).1.handles, hd.active = false := by
    intro k id lid tags fresh
    have hi' := (edit_step hi (.hAddSegment k id lid tags fresh) rfl).idle.inactive
    have e := (ROp.hAddSegment k id lid tags fresh).run_now h0 r
    have e' : ((Op.hAddSegment k id lid tags fresh).run (r.now h0)).1.handles = (r.enc.hAddSegment k id lid tags fresh).1.handles := by
      show (((ROp.hAddSegment k id lid tags fresh).vals h0).run (r.now h0)).1.handles = _
      rw [← e]; rfl
    rw [← e']; exact hi'
  have hseg' : ∀ id lid tags fresh, ∀ hd ∈ (r.enc.addSegment id lid tags fresh).1.handles, hd.active = false := by
    intro id lid tags fresh
    have hi' := (edit_step hi (.addSegment id lid tags fresh) rfl).idle.inactive
    have e := (ROp.addSegment id lid tags fresh).run_now h0 r
    have e' : ((Op.addSegment id lid tags fresh).run (r.now h0)).1.handles = (r.enc.addSegment id lid tags fresh).1.handles := by
      show (((ROp.addSegment id lid tags fresh).vals h0).run (r.now h0)).1.handles = _
      rw [← e]; rfl
    rw [← e']; exact hi'
  have hadd : ∀ k rs sid lid fresh, r.hAddGrains h k rs sid lid fresh = r.hAddGrains H k rs sid lid fresh := by
    intro k rs sid lid fresh
    unfold RefEnc.hAddGrains
    cases hk : r.enc.handles[k]? with
    | none => rfl
    | some hd =>
      have ha : hd.active = false := hh hd (List.mem_of_getElem? hk)
      simp only [ha, Bool.false_eq_true, if_false]
      cases (r.enc.choose sid lid).filter r.enc.hasSeg with
      | some l => exact sAdd_same hh h H l rs
      | none =>
        simp only
        have hm := made_handles (r := r) (hseg k sid (r.enc.choose sid lid) [] fresh)
        cases hx : r.made (r.enc.hAddSegment k sid (r.enc.choose sid lid) [] fresh) with
        | mk r1 x =>
          rw [hx] at hm
          cases x with
          | error x => rfl
          | ok l => exact sAdd_same hm h H l rs
  cases o with
  | addGrains rs sid lid fresh =>
    simp only [ROp.run]
    have : r.addGrains h rs sid lid fresh = r.addGrains H rs sid lid fresh := by
      unfold RefEnc.addGrains
      cases r.enc.syncOpen with
      | some k => exact hadd k rs sid lid fresh
      | none =>
        simp only
        cases (r.enc.choose sid lid).filter r.enc.hasSeg with
        | some l => exact sAdd_same hh h H l rs
        | none =>
          simp only
          have hm := made_handles (r := r) (hseg' sid (r.enc.choose sid lid) [] fresh)
          cases hx : r.made (r.enc.addSegment sid (r.enc.choose sid lid) [] fresh) with
          | mk r1 x =>
            rw [hx] at hm
            cases x with
            | error x => rfl
            | ok l => exact sAdd_same hm h H l rs
    rw [this]
  | hAddGrains k rs sid lid fresh => simp only [ROp.run, hadd]
  | sAddGrains l rs => simp only [ROp.run, sAdd_same hh h H l rs]
  | enter => cases ho
  | exit => cases ho
  | startDump all => cases ho
  | endDump => cases ho
  | _ => rfl

/-- While no dump is active the values of the objects are not looked at. -/
theorem quiet {w : World} {h0 : Objs} (hi : Idle (w.enc.now h0)) {ss : List PStep} (hs : editsP ss = true) (H : Objs) :
    (w.runs ss).enc.now H = (w.enc.now H).runs (calls H ss) ∧
      (w.enc.now H).taken (calls H ss) = (handedOver w ss).map (fun x => (x.1, H x.2.1)) := by
  induction ss generalizing w h0 with
  | nil => exact ⟨rfl, rfl⟩
  | cons s ss ih =>
    simp only [editsP, List.all_cons, Bool.and_eq_true] at hs
    cases s with
    | change h' => exact ih (w := ⟨h', w.enc⟩) hi hs.2
    | call o =>
      have hsame := run_same hi w.objs H (o := o) hs.1
      have hsame0 := run_same hi w.objs h0 (o := o) hs.1
      have hi' : Idle ((o.run w.objs w.enc).1.now h0) := by
        rw [hsame0]
        have e := o.run_now h0 w.enc
        have := (edit_step hi (o.vals h0) (vals_edit hs.1 h0).1).idle
        rw [← e] at this
        exact this
      have e := o.run_now H w.enc
      obtain ⟨i1, i2⟩ := ih (w := PStep.run w (.call o)) (h0 := h0) hi' hs.2
      have e1 : (PStep.run w (.call o)).enc.now H = ((o.vals H).run (w.enc.now H)).1 := by
        show (o.run w.objs w.enc).1.now H = _
        rw [hsame, ← e]
      refine ⟨?_, ?_⟩
      · show ((PStep.run w (.call o)).runs ss).enc.now H = _
        rw [i1, e1]; rfl
      · show (o.vals H).takes (w.enc.now H) ++ ((o.vals H).run (w.enc.now H)).1.taken (calls H ss) = _
        rw [← e1, i2, takes_vals, ← hsame]
        show _ = ((handedBy w o) ++ _).map _
        rw [List.map_append]
        congr 1
        unfold handedBy
        split
        · rename_i l hl
          rw [List.map_map]; rfl
        · rfl

/-! ## While a dump is active -/

/-- The calls of a program part with the values the objects have at each. -/
def timed (h : Objs) : List PStep → List Op
  | [] => []
  | .change h' :: ss => timed h' ss
  | .call o :: ss => o.vals h :: timed h ss

theorem timed_edits {ss : List PStep} (hs : editsP ss = true) (h : Objs) : Edits (timed h ss) := by
  induction ss generalizing h with
  | nil => intro o ho; cases ho
  | cons s ss ih =>
    simp only [editsP, List.all_cons, Bool.and_eq_true] at hs
    cases s with
    | change h' => exact ih hs.2 h'
    | call o =>
      intro x hx
      rcases List.mem_cons.mp hx with rfl | hx
      · exact vals_edit hs.1 h
      · exact ih hs.2 h x hx

theorem now_same {r : RefEnc} {h : Objs} (hn : ∀ s ∈ (r.now h).segs, s.grains = []) (H : Objs) : r.now H = r.now h := by
  simp only [RefEnc.now]
  congr 1
  apply List.map_congr_left
  intro s hs
  have := hn { s with grains := (r.held s.localId).map h } (List.mem_map.mpr ⟨s, hs, rfl⟩)
  have e : r.held s.localId = [] := by simpa using this
  simp [e]

/-- While a dump is active nothing is held: objects are encoded with the values they have when they are handed over. -/
theorem live {e0 : Enc} (hd : ∀ s ∈ e0.segs, s.activeDump = true) (hp : ∀ s ∈ e0.segs, ∀ j, s.parent = some j → j = 0)
    (hg : ∀ s ∈ e0.segs, s.grains = []) {w : World} {v : List (Nat × Grain)}
    (hl : Live e0 0 v (fun _ => []) (w.enc.now w.objs)) {ss : List PStep} (hs : editsP ss = true) :
    (∀ H, (w.runs ss).enc.now H = (w.enc.now w.objs).runs (timed w.objs ss)) ∧
      (w.enc.now w.objs).taken (timed w.objs ss) = (handedOver w ss).map (fun x => (x.1, x.2.2)) := by
  have none : ∀ {e : Enc} {v}, Live e0 0 v (fun _ => []) e → ∀ s ∈ e.segs, s.grains = [] := by
    intro e v hl s hs
    rw [hl.segs] at hs
    obtain ⟨t, ht, rfl⟩ := List.mem_map.mp hs
    simp [Seg.during, hg t ht]
  induction ss generalizing w v with
  | nil => exact ⟨fun H => now_same (none hl) H, rfl⟩
  | cons s ss ih =>
    simp only [editsP, List.all_cons, Bool.and_eq_true] at hs
    cases s with
    | change h' =>
      have e := now_same (none hl) h'
      have hl' : Live e0 0 v (fun _ => []) (w.enc.now h') := by rw [e]; exact hl
      have := ih (w := ⟨h', w.enc⟩) hl' hs.2
      simp only at this
      rw [e] at this
      exact this
    | call o =>
      have e := o.run_now w.objs w.enc
      have h1 := hl.steps hd hp [o.vals w.objs] (by
        intro x hx
        rw [List.mem_singleton] at hx
        subst hx
        exact vals_edit hs.1 w.objs)
      have e1 : (PStep.run w (.call o)).enc.now w.objs = ((o.vals w.objs).run (w.enc.now w.objs)).1 := by
        show (o.run w.objs w.enc).1.now w.objs = _
        rw [← e]
      have h1' : Live e0 0 (v ++ (w.enc.now w.objs).taken [o.vals w.objs]) (fun _ => []) ((PStep.run w (.call o)).enc.now w.objs) := by
        rw [e1]; exact h1
      obtain ⟨i1, i2⟩ := ih (w := PStep.run w (.call o)) h1' hs.2
      have e2 : (PStep.run w (.call o)).objs = w.objs := rfl
      rw [e2] at i1 i2
      refine ⟨fun H => ?_, ?_⟩
      · show ((PStep.run w (.call o)).runs ss).enc.now H = _
        rw [i1 H, e1]; rfl
      · show (o.vals w.objs).takes (w.enc.now w.objs) ++ ((o.vals w.objs).run (w.enc.now w.objs)).1.taken (timed w.objs ss) = _
        rw [← e1, i2, takes_vals]
        show _ = ((handedBy w o) ++ _).map _
        rw [List.map_append]
        congr 1
        unfold handedBy
        split
        · rw [List.map_map]; rfl
        · rfl

theorem ofSeg_objs (l : Nat) (xs : List (Nat × Nat × Grain)) (H : Objs) :
    ofSeg l (xs.map (fun x => (x.1, H x.2.1))) = (objsOf l xs).map H := by
  simp [ofSeg, objsOf, List.filter_map, Function.comp_def]

theorem ofSeg_values (l : Nat) (xs : List (Nat × Nat × Grain)) :
    ofSeg l (xs.map (fun x => (x.1, x.2.2))) = valuesOf l xs := by
  simp [ofSeg, valuesOf, List.filter_map, Function.comp_def]

theorem new_now (file major minor id created streaming) (H : Objs) :
    (RefEnc.new file major minor id created streaming).now H = Enc.new file major minor id created streaming := rfl

/-- What an encoder does between the set up and the end of a streaming dump. -/
theorem stream_vals (h0 : Objs) (file : OutFile) (major minor : Nat) (id : Bytes) (created : DateTime) (streaming : Bool)
    (setup during : List PStep) (hs : editsP setup = true) (hd : editsP during = true) {start stop : ROp}
    (hp : StreamPairP streaming start stop) :
    let w0 : World := ⟨h0, RefEnc.new file major minor id created streaming⟩
    let prog := setup ++ .call start :: (during ++ [.call stop])
    let e0 := Enc.new file major minor id created streaming
    let h1 := objsAfter h0 setup
    let valprog := calls h1 setup ++ start.vals h1 :: (timed h1 during ++ [stop.vals h1])
    (w0.runs prog).enc.enc.file = (e0.runs valprog).file ∧
      e0.taken (calls h1 setup) = (handedOver w0 setup).map (fun x => (x.1, h1 x.2.1)) ∧
      ((start.vals h1).run (e0.runs (calls h1 setup))).1.taken (timed h1 during) =
        (handedOver (w0.runs (setup ++ [.call start])) during).map (fun x => (x.1, x.2.2)) := by
  intro w0 prog e0 h1 valprog
  have hb0 : Born e0 := born_new file major minor id created streaming
  obtain ⟨q1, q2⟩ := quiet (w := w0) (h0 := h1) hb0.idle hs h1
  have q1' : (w0.runs setup).enc.now h1 = e0.runs (calls h1 setup) := q1
  have hob : (w0.runs setup).objs = h1 := runs_objs w0 setup
  have hed : Edits (calls h1 setup) := calls_edits hs h1
  have hb : Born (e0.runs (calls h1 setup)) := hb0.edits (fun o ho => (hed o ho).1)
  have hst : (e0.runs (calls h1 setup)).streaming = streaming := (edit_steps hb0.idle _ (fun o ho => (hed o ho).1)).frame.streaming
  have hw1 : w0.runs (setup ++ [.call start]) = ⟨h1, (start.run h1 (w0.runs setup).enc).1⟩ := by
    rw [runs_append]
    show PStep.run (w0.runs setup) (.call start) = _
    simp only [PStep.run, hob]
  have hn1 : (start.run h1 (w0.runs setup).enc).1.now h1 = ((start.vals h1).run (e0.runs (calls h1 setup))).1 := by
    rw [← q1', ← start.run_now h1 (w0.runs setup).enc]
  have hlen : (e0.runs (calls h1 setup)).handles.length = 0 := by rw [hb.handles]; rfl
  have hrun : ((start.vals h1).run (e0.runs (calls h1 setup))).1 = (opened (e0.runs (calls h1 setup))).start 0 false := by
    rcases hp with ⟨rfl, -⟩ | ⟨hst', rfl, -⟩
    · show (e0.runs (calls h1 setup)).startDump false = _
      rw [startDump_eq, hlen]
    · show (e0.runs (calls h1 setup)).enter = _
      rw [enter_eq, hlen, hst, hst', if_pos rfl]
  have hl := opened_live (e0.runs (calls h1 setup)) false
  rw [hlen] at hl
  have hl' : Live ((opened (e0.runs (calls h1 setup))).start 0 false) 0 [] (fun _ => [])
      ((w0.runs (setup ++ [.call start])).enc.now (w0.runs (setup ++ [.call start])).objs) := by
    rw [hw1]
    show Live _ _ _ _ ((start.run h1 (w0.runs setup).enc).1.now h1)
    rw [hn1, hrun]; exact hl
  obtain ⟨l1, l2⟩ := live (e0 := (opened (e0.runs (calls h1 setup))).start 0 false) start_dumped
    (start_parents (e := opened (e0.runs (calls h1 setup))) hb.parents) (RefEnc.start_none _ _ _) hl' hd
  have ho1 : (w0.runs (setup ++ [.call start])).objs = h1 := by rw [hw1]
  have he1 : (w0.runs (setup ++ [.call start])).enc.now h1 = ((start.vals h1).run (e0.runs (calls h1 setup))).1 := by
    rw [hw1]; exact hn1
  rw [ho1, he1] at l1 l2
  refine ⟨?_, q2, l2⟩
  have hprog : prog = (setup ++ [.call start]) ++ (during ++ [.call stop]) := by simp [prog]
  rw [hprog, runs_append, runs_append]
  generalize hW : (w0.runs (setup ++ [.call start])).runs during = W at l1
  show ((stop.run W.objs W.enc).1).enc.file = _
  have hstop := stop.run_now W.objs W.enc
  have hsv : stop.vals W.objs = stop.vals h1 := by
    rcases hp with ⟨-, rfl⟩ | ⟨-, -, rfl⟩ <;> rfl
  have e : ((stop.run W.objs W.enc).1).enc.file = ((stop.run W.objs W.enc).1.now W.objs).file := rfl
  rw [e]
  have e' : (stop.run W.objs W.enc).1.now W.objs = ((stop.vals W.objs).run (W.enc.now W.objs)).1 := by rw [← hstop]
  rw [e', hsv, l1]
  show _ = (e0.runs (calls h1 setup ++ start.vals h1 :: (timed h1 during ++ [stop.vals h1]))).file
  rw [Props.runs_append]
  show _ = (((start.vals h1).run (e0.runs (calls h1 setup))).1.runs (timed h1 during ++ [stop.vals h1])).file
  rw [Props.runs_append]
  rfl

theorem pair_vals {streaming : Bool} {start stop : ROp} (hp : StreamPairP streaming start stop) (h : Objs) :
    StreamPair streaming (start.vals h) (stop.vals h) := by
  rcases hp with ⟨rfl, rfl⟩ | ⟨hs, rfl, rfl⟩
  · exact .inl ⟨rfl, rfl⟩
  · exact .inr ⟨hs, rfl, rfl⟩

/-- The same up to the end of a `with` block of an encoder that does not stream, with the values of the end. -/
theorem all_vals (h0 : Objs) (file : OutFile) (major minor : Nat) (id : Bytes) (created : DateTime)
    (setup during : List PStep) (hs : editsP setup = true) (hd : editsP during = true) :
    let w0 : World := ⟨h0, RefEnc.new file major minor id created false⟩
    let prog := setup ++ .call .enter :: (during ++ [.call .exit])
    let e0 := Enc.new file major minor id created false
    let h1 := objsAfter h0 (setup ++ during)
    let valprog := calls h1 setup ++ .enter :: (calls h1 during ++ [.exit])
    (w0.runs prog).enc.enc.file = (e0.runs valprog).file ∧
      e0.taken valprog = (handedOver w0 prog).map (fun x => (x.1, h1 x.2.1)) := by
  intro w0 prog e0 h1 valprog
  have hb0 : Born e0 := born_new file major minor id created false
  obtain ⟨q1, q2⟩ := quiet (w := w0) (h0 := h1) hb0.idle hs h1
  have q1' : (w0.runs setup).enc.now h1 = e0.runs (calls h1 setup) := q1
  have q2' : e0.taken (calls h1 setup) = (handedOver w0 setup).map (fun x => (x.1, h1 x.2.1)) := q2
  have hed : Edits (calls h1 setup) := calls_edits hs h1
  have hb : Born (e0.runs (calls h1 setup)) := hb0.edits (fun o ho => (hed o ho).1)
  have hst : (e0.runs (calls h1 setup)).streaming = false := (edit_steps hb0.idle _ (fun o ho => (hed o ho).1)).frame.streaming
  have hst' : (w0.runs setup).enc.enc.streaming = false := by
    have : ((w0.runs setup).enc.now h1).streaming = false := by rw [q1']; exact hst
    exact this
  have hrun : (Op.enter.run (e0.runs (calls h1 setup))).1 = opened (e0.runs (calls h1 setup)) := by
    show (e0.runs (calls h1 setup)).enter = _
    rw [enter_eq, hst, if_neg (by simp)]
  have hio : Idle (opened (e0.runs (calls h1 setup))) := by
    refine ⟨hb.idle.nodup, ?_⟩
    intro h hh
    simp only [opened, hb.handles, List.nil_append, List.mem_singleton] at hh
    subst hh; rfl
  have hent : ∀ H, (w0.runs setup).enc.enter H = (w0.runs setup).enc.enter h1 := by
    intro H
    simp only [RefEnc.enter, Enc.makeHandle, hst', Bool.false_eq_true, if_false]
  generalize hW1 : w0.runs (setup ++ [.call .enter]) = W1
  have hW1e : W1.enc = (w0.runs setup).enc.enter h1 := by
    rw [← hW1, runs_append]
    show (w0.runs setup).enc.enter _ = _
    exact hent _
  have hn1 : W1.enc.now h1 = opened (e0.runs (calls h1 setup)) := by
    rw [hW1e, ← hrun, ← q1']
    have := ROp.enter.run_now h1 (w0.runs setup).enc
    exact congrArg Prod.fst this
  obtain ⟨p1, p2⟩ := quiet (w := W1) (h0 := h1) (by rw [hn1]; exact hio) hd h1
  rw [hn1] at p1 p2
  have hprog : prog = (setup ++ [.call .enter]) ++ (during ++ [.call .exit]) := by simp [prog]
  have hobj : (W1.runs during).objs = h1 := by
    rw [← hW1, runs_objs, runs_objs, objsAfter_append]
    show objsAfter (objsAfter h0 setup) during = _
    rw [← objsAfter_append]
  refine ⟨?_, ?_⟩
  · rw [hprog, runs_append, hW1, runs_append]
    show ((ROp.exit.run (W1.runs during).objs (W1.runs during).enc).1).enc.file = _
    rw [hobj]
    have e := ROp.exit.run_now h1 (W1.runs during).enc
    have e' : (ROp.exit.run h1 (W1.runs during).enc).1.now h1 = ((W1.runs during).enc.now h1).exit := congrArg Prod.fst e
    have e2 : ((ROp.exit.run h1 (W1.runs during).enc).1).enc.file = ((ROp.exit.run h1 (W1.runs during).enc).1.now h1).file := rfl
    rw [e2, e', p1]
    show _ = (e0.runs (calls h1 setup ++ .enter :: (calls h1 during ++ [.exit]))).file
    rw [Props.runs_append]
    show _ = ((Op.enter.run (e0.runs (calls h1 setup))).1.runs (calls h1 during ++ [.exit])).file
    rw [hrun, Props.runs_append]
    rfl
  · rw [hprog, handed_append, handed_append, hW1, handed_append]
    show e0.taken (calls h1 setup ++ .enter :: (calls h1 during ++ [.exit])) = _
    rw [taken_append]
    show _ ++ (Op.enter.takes _ ++ (Op.enter.run (e0.runs (calls h1 setup))).1.taken (calls h1 during ++ [.exit])) = _
    rw [hrun, taken_append, p2, q2']
    have t1 : Op.enter.takes (e0.runs (calls h1 setup)) = [] := rfl
    have t2 : handedOver (w0.runs setup) [.call .enter] = [] := rfl
    have t3 : handedOver (W1.runs during) [.call .exit] = [] := rfl
    have t4 : ((opened (e0.runs (calls h1 setup))).runs (calls h1 during)).taken [.exit] = [] := rfl
    rw [t1, t2, t3, t4]
    simp

theorem writeGrains_lids (e : Enc) (l : Nat) (gs : List Grain) : (e.writeGrains l gs).lids = e.lids := by
  induction gs generalizing e with
  | nil => rfl
  | cons g gs ih =>
    have h1 : (e.writeGrain l g).lids = e.lids := e.updSeg_lids l (fun s => { s with writeCount := s.writeCount + 1 }) (fun _ => rfl)
    exact (ih (e.writeGrain l g)).trans h1

theorem sAdd_ok {r : RefEnc} {l : Nat} (hl : l ∈ r.enc.lids) (h : Objs) (rs : List Nat) :
    (r.sAddGrains h l rs).2 = .ok l ∧ l ∈ (r.sAddGrains h l rs).1.enc.lids := by
  obtain ⟨s, hs⟩ := Enc.seg_of_mem hl
  unfold RefEnc.sAddGrains
  rw [hs]
  by_cases ha : ((r.enc.parentHandle s).map Handle.active).getD false = true
  · simp only [ha, if_true, true_and]
    rw [writeGrains_lids]; exact hl
  · have hb : ((r.enc.parentHandle s).map Handle.active).getD false = false := by simpa using ha
    simp only [hb, Bool.false_eq_true, if_false, true_and]
    exact hl

theorem start_lids (r : RefEnc) (h : Objs) (k : Nat) (all : Bool) : (r.start h k all).enc.lids = r.enc.lids := by
  show ((r.now h).start k all).lids = _
  rw [start_eq]
  exact (startSegs_lids (r.now h) all).trans (r.now_lids h)

theorem enter_lids (w : World) : (PStep.run w (.call .enter)).enc.enc.lids = w.enc.enc.lids := by
  show (w.enc.enter w.objs).enc.lids = _
  unfold RefEnc.enter
  by_cases hs : w.enc.enc.streaming = true
  · simp only [Enc.makeHandle, hs, if_true]
    exact start_lids _ _ _ _
  · have hb : w.enc.enc.streaming = false := by simpa using hs
    simp only [Enc.makeHandle, hb, Bool.false_eq_true, if_false]
    rfl

theorem reuse_handed (w : World) (l r : Nat) (vs : List Grain) (hl : l ∈ w.enc.enc.lids) :
    handedOver w (reuse l r vs) = vs.map (fun v => (l, r, v)) := by
  induction vs generalizing w with
  | nil => rfl
  | cons v vs ih =>
    obtain ⟨h1, h2⟩ := sAdd_ok hl (fun _ => v) [r]
    show handedBy ⟨fun _ => v, w.enc⟩ (.sAddGrains l [r]) ++
      handedOver ⟨fun _ => v, (w.enc.sAddGrains (fun _ => v) l [r]).1⟩ (reuse l r vs) = _
    rw [ih _ h2]
    have : handedBy ⟨fun _ => v, w.enc⟩ (.sAddGrains l [r]) = [(l, r, v)] := by
      have e : (ROp.run (fun _ => v) w.enc (.sAddGrains l [r])).2 = .ok (some l) := by
        show ((w.enc.sAddGrains (fun _ => v) l [r]).2.map some) = _
        rw [h1]; rfl
      simp only [handedBy, e]
      rfl
    rw [this]; rfl

theorem reuse_edits (l r : Nat) (vs : List Grain) : editsP (reuse l r vs) = true := by
  simp only [editsP, reuse, List.all_flatMap, List.all_eq_true]
  intro v _ x hx
  simp only [List.mem_cons, List.not_mem_nil, or_false] at hx
  rcases hx with rfl | rfl <;> rfl

theorem reuse_after (h : Objs) (l r : Nat) (vs : List Grain) (v : Grain) : objsAfter h (reuse l r (vs ++ [v])) r = v := by
  have : reuse l r (vs ++ [v]) = reuse l r vs ++ [.change (fun _ => v), .call (.sAddGrains l [r])] := by simp [reuse]
  rw [this, objsAfter_append]; rfl

theorem objsOf_append (l : Nat) (xs ys) : objsOf l (xs ++ ys) = objsOf l xs ++ objsOf l ys := by simp [objsOf]

theorem objsOf_reuse (l r : Nat) (vs : List Grain) : objsOf l (vs.map (fun v => (l, r, v))) = List.replicate vs.length r := by
  induction vs with
  | nil => rfl
  | cons v vs ih =>
    simp only [objsOf, List.map_cons, List.filter_cons, beq_self_eq_true, if_true, List.length_cons, List.replicate_succ] at ih ⊢
    rw [ih]

theorem valuesOf_reuse (l r : Nat) (vs : List Grain) : valuesOf l (vs.map (fun v => (l, r, v))) = vs := by
  induction vs with
  | nil => rfl
  | cons v vs ih =>
    simp only [valuesOf, List.map_cons, List.filter_cons, beq_self_eq_true, if_true] at ih ⊢
    rw [ih]

end C74

/-! ## Theorems -/

/-- **C74**, streaming to a file that can seek: the file is a complete GSF file with right counts. For each segment it holds
first the objects handed over before the dump as they were when it started, and then those handed over since, each as it was when it was
handed over, in order; what becomes of them later does not matter. -/
theorem C74_streaming (h0 : Objs) (file : OutFile) (hf : file.seekable = true) (major minor : Nat) (id : Bytes) (created : DateTime)
    (streaming : Bool) (setup during : List PStep) (hs : editsP setup = true) (hd : editsP during = true) {start stop : ROp}
    (hp : StreamPairP streaming start stop) :
    let w0 : World := ⟨h0, RefEnc.new file major minor id created streaming⟩
    ∃ f : FileSpec, (w0.runs (setup ++ .call start :: (during ++ [.call stop]))).enc.enc.file.bytes = f.bytes ∧ CountsRight f ∧
      ∀ l, ofSeg l f.grains = (objsOf l (handedOver w0 setup)).map (objsAfter h0 setup) ++
        valuesOf l (handedOver (w0.runs (setup ++ [.call start])) during) := by
  intro w0
  obtain ⟨h1, h2, h3⟩ := C74.stream_vals h0 file major minor id created streaming setup during hs hd hp
  obtain ⟨f, f1, f2, f3, -⟩ := C12_streaming file hf major minor id created streaming _ _ (C74.calls_edits hs (objsAfter h0 setup))
    (C74.timed_edits hd (objsAfter h0 setup)) (C74.pair_vals hp (objsAfter h0 setup))
  refine ⟨f, by rw [h1]; exact f1, f2, fun l => ?_⟩
  rw [f3 l, taken_append, ofSeg_append, h2, C74.ofSeg_objs]
  congr 1
  generalize hE : (Enc.new file major minor id created streaming).runs (C74.calls (objsAfter h0 setup) setup) = E at h3
  show ofSeg l ((start.vals (objsAfter h0 setup)).takes E ++ ((start.vals (objsAfter h0 setup)).run E).1.taken
    (C74.timed (objsAfter h0 setup) during ++ [stop.vals (objsAfter h0 setup)])) = _
  have hstart : (start.vals (objsAfter h0 setup)).takes E = [] := by
    rcases hp with ⟨rfl, -⟩ | ⟨-, rfl, -⟩ <;> rfl
  have hstop : ∀ e, (stop.vals (objsAfter h0 setup)).takes e = [] := by
    rcases hp with ⟨-, rfl⟩ | ⟨-, -, rfl⟩ <;> exact fun _ => rfl
  rw [hstart, List.nil_append, taken_append, h3, ofSeg_append, C74.ofSeg_values]
  simp [Enc.taken, hstop, ofSeg, w0]

/-- **C74**, all at once: a `with` block on an encoder made without `streaming`. The file holds all objects handed over before and in the
block, in order, as they are at the end of the block. -/
theorem C74_all_at_once (h0 : Objs) (file : OutFile) (major minor : Nat) (id : Bytes) (created : DateTime)
    (setup during : List PStep) (hs : editsP setup = true) (hd : editsP during = true) :
    let w0 : World := ⟨h0, RefEnc.new file major minor id created false⟩
    let prog := setup ++ .call .enter :: (during ++ [.call .exit])
    ∃ f : FileSpec, (w0.runs prog).enc.enc.file.bytes = (if file.seekable then [] else file.bytes) ++ f.bytes ∧ CountsRight f ∧
      ∀ l, ofSeg l f.grains = (objsOf l (handedOver w0 prog)).map (objsAfter h0 (setup ++ during)) := by
  intro w0 prog
  obtain ⟨h1, h2⟩ := C74.all_vals h0 file major minor id created setup during hs hd
  obtain ⟨f, f1, f2, f3⟩ := C12_all_at_once file major minor id created _ _ (C74.calls_edits hs (objsAfter h0 (setup ++ during)))
    (C74.calls_edits hd (objsAfter h0 (setup ++ during)))
  refine ⟨f, by rw [h1]; exact f1, f2, fun l => ?_⟩
  rw [f3 l, h2, C74.ofSeg_objs]

/-- **C74**: when what is handed over is not changed until the end of the dump, both ways to dump hold what the program handed over. -/
theorem C74_unchanged (h0 : Objs) (file : OutFile) (major minor : Nat) (id : Bytes) (created : DateTime)
    (setup during : List PStep) (hs : editsP setup = true) (hd : editsP during = true) :
    let w0 : World := ⟨h0, RefEnc.new file major minor id created false⟩
    let prog := setup ++ .call .enter :: (during ++ [.call .exit])
    (∀ x ∈ handedOver w0 prog, objsAfter h0 (setup ++ during) x.2.1 = x.2.2) →
    ∃ f : FileSpec, (w0.runs prog).enc.enc.file.bytes = (if file.seekable then [] else file.bytes) ++ f.bytes ∧ CountsRight f ∧
      ∀ l, ofSeg l f.grains = valuesOf l (handedOver w0 prog) := by
  intro w0 prog hu
  obtain ⟨f, f1, f2, f3⟩ := C74_all_at_once h0 file major minor id created setup during hs hd
  refine ⟨f, f1, f2, fun l => ?_⟩
  rw [f3 l]
  unfold objsOf valuesOf
  rw [List.map_map]
  exact List.map_congr_left (fun x hx => hu x (List.mem_filter.1 hx).1)

/-- **C74**: one grain object that is given a new value and added for every grain. When streaming, the file holds every value. -/
theorem C74_reuse_streaming (h0 : Objs) (file : OutFile) (hf : file.seekable = true) (major minor : Nat) (id : Bytes) (created : DateTime)
    (sid : Bytes) (l r : Nat) (vs : List Grain) :
    let w0 : World := ⟨h0, RefEnc.new file major minor id created true⟩
    let setup : List PStep := [.call (.addSegment (some sid) (some l) [] [])]
    ∃ f : FileSpec, (w0.runs (setup ++ .call .enter :: (reuse l r vs ++ [.call .exit]))).enc.enc.file.bytes = f.bytes ∧
      CountsRight f ∧ ofSeg l f.grains = vs := by
  intro w0 setup
  obtain ⟨f, f1, f2, f3⟩ := C74_streaming h0 file hf major minor id created true setup (reuse l r vs) rfl (C74.reuse_edits l r vs)
    (start := .enter) (stop := .exit) (.inr ⟨rfl, rfl, rfl⟩)
  refine ⟨f, f1, f2, ?_⟩
  rw [f3 l, C74.reuse_handed, C74.valuesOf_reuse]
  · rfl
  · show l ∈ (PStep.run (w0.runs setup) (.call .enter)).enc.enc.lids
    rw [C74.enter_lids]
    show l ∈ [l]
    simp

/-- **C74** is violated by the code when it does not stream: the same program leaves a file with as many grains, but all of them are the
last value. -/
theorem C74_reuse_counterexample (h0 : Objs) (file : OutFile) (major minor : Nat) (id : Bytes) (created : DateTime)
    (sid : Bytes) (l r : Nat) (vs : List Grain) (v : Grain) :
    let w0 : World := ⟨h0, RefEnc.new file major minor id created false⟩
    let setup : List PStep := [.call (.addSegment (some sid) (some l) [] [])]
    ∃ f : FileSpec, (w0.runs (setup ++ .call .enter :: (reuse l r (vs ++ [v]) ++ [.call .exit]))).enc.enc.file.bytes =
        (if file.seekable then [] else file.bytes) ++ f.bytes ∧
      CountsRight f ∧ ofSeg l f.grains = List.replicate (vs.length + 1) v := by
  intro w0 setup
  obtain ⟨f, f1, f2, f3⟩ := C74_all_at_once h0 file major minor id created setup (reuse l r (vs ++ [v])) rfl (C74.reuse_edits l r _)
  refine ⟨f, f1, f2, ?_⟩
  rw [f3 l]
  have hh : handedOver w0 (setup ++ .call .enter :: (reuse l r (vs ++ [v]) ++ [.call .exit])) = (vs ++ [v]).map (fun v => (l, r, v)) := by
    have e : setup ++ .call .enter :: (reuse l r (vs ++ [v]) ++ [.call .exit]) =
      (setup ++ [.call .enter]) ++ (reuse l r (vs ++ [v]) ++ [.call .exit]) := by simp
    rw [e, C74.handed_append w0 (setup ++ [PStep.call ROp.enter]), C74.handed_append _ (reuse l r (vs ++ [v])), C74.reuse_handed]
    · have t1 : handedOver w0 (setup ++ [.call .enter]) = [] := rfl
      have t3 : ∀ W : World, handedOver W [.call .exit] = [] := fun _ => rfl
      rw [t1, t3]; simp
    · show l ∈ [l]
      simp
  rw [hh, C74.objsOf_reuse, List.map_replicate]
  have : objsAfter h0 (setup ++ reuse l r (vs ++ [v])) r = v := C74.reuse_after h0 l r vs v
  rw [this]; simp

/-! ## The hypotheses are met by non-trivial programs -/

/-- A grain is added, changed and added again, before and in the dump. -/
def aliasSetup : List PStep :=
  [.call (.addSegment (some (u 7)) (some 3) [] (u 0)), .change (fun _ => gVideo), .call (.addGrains [1] none none (u 0)),
   .change (fun r => if r = 1 then gAudio else gEmpty)]

def aliasDuring : List PStep :=
  [.call (.addGrains [2, 1] none (some 3) (u 0)), .change (fun _ => gCoded), .call (.sAddGrains 3 [1]), .change (fun _ => gEvent)]

example : editsP aliasSetup = true ∧ editsP aliasDuring = true := by decide

/-- What is in the two files of this program. -/
example :
    ((World.runs ⟨fun _ => gEmpty, RefEnc.new ⟨true, [1, 2, 3], 2⟩ 9 0 (u 9) ⟨2024, 2, 29, 23, 59, 59⟩ true⟩
      (aliasSetup ++ .call .enter :: (aliasDuring ++ [.call .exit]))).enc.enc.file.bytes =
    (⟨9, 0, ⟨u 9, ⟨2024, 2, 29, 23, 59, 59⟩, [⟨3, u 7, 4, none, []⟩], []⟩,
      [(3, gAudio), (3, gEmpty), (3, gAudio), (3, gCoded)]⟩ : FileSpec).bytes) ∧
    ((World.runs ⟨fun _ => gEmpty, RefEnc.new ⟨true, [1, 2, 3], 2⟩ 9 0 (u 9) ⟨2024, 2, 29, 23, 59, 59⟩ false⟩
      (aliasSetup ++ .call .enter :: (aliasDuring ++ [.call .exit]))).enc.enc.file.bytes =
    (⟨9, 0, ⟨u 9, ⟨2024, 2, 29, 23, 59, 59⟩, [⟨3, u 7, 4, none, []⟩], []⟩,
      [(3, gEvent), (3, gEvent), (3, gEvent), (3, gEvent)]⟩ : FileSpec).bytes) := by decide +kernel

/-- A program for `C74_unchanged`: an object that is not handed over is changed. -/
example :
    let h0 : Objs := fun _ => gVideo
    let during : List PStep := [.call (.sAddGrains 3 [2]), .change (fun r => if r = 5 then gEmpty else gVideo), .call (.sAddGrains 3 [1])]
    let w0 : World := ⟨h0, RefEnc.new ⟨true, [], 0⟩ 9 0 (u 9) ⟨2024, 2, 29, 23, 59, 59⟩ false⟩
    let setup : List PStep := [.call (.addSegment (some (u 7)) (some 3) [] (u 0))]
    handedOver w0 (setup ++ .call .enter :: (during ++ [.call .exit])) = [(3, 2, gVideo), (3, 1, gVideo)] ∧
    (∀ x ∈ handedOver w0 (setup ++ .call .enter :: (during ++ [.call .exit])), objsAfter h0 (setup ++ during) x.2.1 = x.2.2) := by
  decide +kernel

end Verif.Props

import Verif.Gsf.Crash
import Verif.Props.C05
import Verif.Props.C12

/-!
# C70: what is left of a file if its writer dies

* `C70_calls`: the lists of calls of `Gsf/Crash` do to the file what the operations of `Gsf/Encoder` do, for all states and operations.
* `C70_streaming`: for every crash point of a streaming dump, what is left is a first part of a good file.
* `C70_readable`, `C70_survives`: it can be read, with everything that was handed over before the crashing call.
* `C70_all_at_once`: the same for a dump that is written at the end of the `with` block; before that the file is untouched.
* `C70_failed_write_counterexample`: a program that goes on after a failed write gets a wrong file.
-/

namespace Verif.Gsf.Crash

open Verif Verif.Gsf Verif.Props

/-! ## The calls are those of the operations -/

theorem doAll_append (f : OutFile) (a b : List FAct) : f.doAll (a ++ b) = (f.doAll a).doAll b := by
  induction a generalizing f with
  | nil => rfl
  | cons x a ih => exact ih _

theorem grainCalls_file (e : Enc) (l : Nat) (gs : List Grain) : (e.writeGrains l gs).file = e.file.doAll (e.grainCalls l gs) := by
  induction gs generalizing e with
  | nil => rfl
  | cons g gs ih =>
    rw [Enc.writeGrains, ih]
    rfl

theorem sAddCalls_file (e : Enc) (l : Nat) (gs : List Grain) : (e.sAddGrains l gs).1.file = e.file.doAll (e.sAddCalls l gs) := by
  unfold Enc.sAddGrains Enc.sAddCalls
  cases e.seg l with
  | none => rfl
  | some s =>
    simp only
    split
    · exact grainCalls_file e l gs
    · rfl

theorem hAddSegment_file (e : Enc) (k id lid tags fresh) : (e.hAddSegment k id lid tags fresh).1.file = e.file := by
  unfold Enc.hAddSegment
  cases e.handles[k]? with
  | none => rfl
  | some h =>
    simp only
    split
    · rfl
    · split <;> rfl

theorem addSegment_file (e : Enc) (id lid tags fresh) : (e.addSegment id lid tags fresh).1.file = e.file := by
  unfold Enc.addSegment
  split
  · rfl
  · simp only
    split <;> rfl

theorem hAddCalls_file (e : Enc) (k gs sid lid fresh) :
    (e.hAddGrains k gs sid lid fresh).1.file = e.file.doAll (e.hAddCalls k gs sid lid fresh) := by
  unfold Enc.hAddGrains Enc.hAddCalls
  cases e.handles[k]? with
  | none => rfl
  | some h =>
    simp only
    cases (e.choose sid lid).filter e.hasSeg with
    | some l =>
      simp only
      split
      · exact grainCalls_file e l gs
      · exact sAddCalls_file e l gs
    | none =>
      simp only
      split
      · rfl
      · have hf := hAddSegment_file e k sid (e.choose sid lid) [] fresh
        generalize e.hAddSegment k sid (e.choose sid lid) [] fresh = r at hf
        obtain ⟨e1, r⟩ := r
        cases r with
        | error x => exact hf
        | ok l =>
          simp only at hf ⊢
          rw [sAddCalls_file, hf]

theorem addCalls_file (e : Enc) (gs sid lid fresh) : (e.addGrains gs sid lid fresh).1.file = e.file.doAll (e.addCalls gs sid lid fresh) := by
  unfold Enc.addGrains Enc.addCalls
  cases e.syncOpen with
  | some k => exact hAddCalls_file e k gs sid lid fresh
  | none =>
    simp only
    cases (e.choose sid lid).filter e.hasSeg with
    | some l => exact sAddCalls_file e l gs
    | none =>
      simp only
      have hf := addSegment_file e sid (e.choose sid lid) [] fresh
      generalize e.addSegment sid (e.choose sid lid) [] fresh = r at hf
      obtain ⟨e1, r⟩ := r
      cases r with
      | error x => exact hf
      | ok l =>
        simp only at hf ⊢
        rw [sAddCalls_file, hf]

theorem startCalls_file (e : Enc) (k : Nat) (all : Bool) : (e.start k all).file = e.file.doAll (e.startCalls all) := by
  rw [start_eq]
  unfold Enc.startCalls
  rw [doAll_append]
  have : e.file.clear = e.file.doAll (if e.file.seekable then [.seek 0, .truncate] else []) := by
    unfold OutFile.clear
    split <;> rfl
  rw [← this]
  rfl

theorem patchCalls_file (f : OutFile) (segs : List Seg) : patchCounts f segs = f.doAll (patchCalls f.seekable f.pos segs) := by
  induction segs generalizing f with
  | nil => rfl
  | cons s ss ih =>
    rw [patchCounts, patchCalls]
    cases s.countPos with
    | none => exact ih f
    | some p =>
      simp only
      by_cases h : f.seekable = true
      · rw [if_pos h, if_pos h, ih]
        simp only [OutFile.doAll, OutFile.does]
        have h1 : (((f.seek p).write (encodeSint (↑s.writeCount) 8)).seek f.pos).seekable = f.seekable :=
          OutFile.write_seekable (f.seek p) _
        rw [h1]
        rfl
      · rw [if_neg h, if_neg h, ih]

theorem finishCalls_file (e : Enc) (k : Nat) : (e.finish k).file = e.file.doAll (e.finishCalls k) := by
  unfold Enc.finish Enc.finishCalls
  rw [doAll_append, ← patchCalls_file]
  simp only
  split <;> rfl

theorem calls_file (e : Enc) (o : Op) : (o.run e).1.file = e.file.doAll (o.calls e) := by
  cases o with
  | addTag t => simp only [Op.run, Op.calls]; unfold Enc.addTag; split <;> rfl
  | addSegment id lid tags fresh => exact addSegment_file e id lid tags fresh
  | addGrains gs sid lid fresh => exact addCalls_file e gs sid lid fresh
  | hAddTag k t =>
    simp only [Op.run, Op.calls]
    unfold Enc.hAddTag
    cases e.handles[k]? with
    | none => rfl
    | some h => simp only; split <;> rfl
  | hAddSegment k id lid tags fresh => exact hAddSegment_file e k id lid tags fresh
  | hAddGrains k gs sid lid fresh => exact hAddCalls_file e k gs sid lid fresh
  | sAddTag l t =>
    simp only [Op.run, Op.calls]
    unfold Enc.sAddTag
    cases e.seg l with
    | none => rfl
    | some s => simp only; split <;> rfl
  | sAddFlow l f =>
    simp only [Op.run, Op.calls]
    unfold Enc.sAddFlow
    cases e.seg l with
    | none => rfl
    | some s => simp only; split <;> rfl
  | sAddGrains l gs => exact sAddCalls_file e l gs
  | enter =>
    simp only [Op.run, Op.calls]
    rw [Props.enter_eq]
    split
    · exact startCalls_file (opened e) _ false
    · rfl
  | exit =>
    simp only [Op.run, Op.calls, Enc.exit]
    cases h : e.syncOpen with
    | none => rfl
    | some k =>
      simp only
      rw [close_file, finishCalls_file]
      by_cases hs : e.streaming = true
      · rw [if_pos hs, if_pos hs]
      · rw [if_neg hs, if_neg hs, doAll_append, startCalls_file e k true]
  | aenter =>
    simp only [Op.run, Op.calls]
    show (if e.streaming = true then _ else _ : Enc).file = _
    split
    · exact startCalls_file _ _ false
    · rfl
  | aexit =>
    simp only [Op.run, Op.calls, Enc.aexit]
    cases h : e.asyncOpen with
    | none => rfl
    | some k =>
      simp only
      rw [finishCalls_file]
      by_cases hs : e.streaming = true
      · rw [if_pos hs, if_pos hs]
      · rw [if_neg hs, if_neg hs, doAll_append, startCalls_file e k true]
  | startDump all => exact startCalls_file (opened e) _ all
  | endDump =>
    simp only [Op.run, Op.calls, Enc.endDump]
    cases h : e.syncOpen with
    | none => rfl
    | some k =>
      simp only
      rw [close_file, finishCalls_file]

/-! ## Dying -/

/-- If there are more calls than there are, the process did not die. -/
theorem die_all (f : OutFile) (l : List FAct) (n k : Nat) (h : l.length ≤ n) : f.die l n k = f.doAll l := by
  induction l generalizing f n with
  | nil => cases n <;> rfl
  | cons a l ih =>
    cases n with
    | zero => simp at h
    | succ n =>
      simp only [List.length_cons] at h
      show OutFile.die f (a :: l) (n + 1) k = _
      cases a <;> exact ih _ _ (by omega)

theorem die_append (f : OutFile) (a b : List FAct) (n k : Nat) :
    f.die (a ++ b) n k = if n < a.length then f.die a n k else (f.doAll a).die b (n - a.length) k := by
  induction a generalizing f n with
  | nil => simp [OutFile.doAll]
  | cons x a ih =>
    cases n with
    | zero => cases x <;> rfl
    | succ n =>
      have e1 : ∀ y l, OutFile.die f (y :: l) (n + 1) k = (f.does y).die l n k := by intro y l; cases y <;> rfl
      rw [List.cons_append, e1, e1, ih]
      simp only [List.length_cons, Nat.add_lt_add_iff_right, Nat.add_sub_add_right, OutFile.doAll]

/-- Writes at the end of the file: what is there, and a first part of what is written. -/
theorem die_writes (f : OutFile) (hf : f.AtEnd) (ds : List Bytes) (n k : Nat) :
    ∃ m, m ≤ ds.flatten.length ∧ (f.die (ds.map .write) n k).bytes = f.bytes ++ ds.flatten.take m := by
  induction ds generalizing f n with
  | nil => exact ⟨0, Nat.zero_le _, by cases n <;> simp [OutFile.die]⟩
  | cons d ds ih =>
    cases n with
    | zero =>
      refine ⟨min k d.length, ?_, ?_⟩
      · simp only [List.flatten_cons, List.length_append]; omega
      · show (f.write (d.take k)).bytes = _
        rw [OutFile.write_bytes hf, List.flatten_cons, List.take_append_of_le_length (by omega), ← List.take_take,
          List.take_length]
    | succ n =>
      obtain ⟨m, h1, h2⟩ := ih (f.write d) (OutFile.write_atEnd hf d) n
      refine ⟨d.length + m, ?_, ?_⟩
      · simp only [List.flatten_cons, List.length_append]; omega
      · show ((f.write d).die (ds.map .write) n k).bytes = _
        have : (d ++ ds.flatten).take (d.length + m) = d ++ ds.flatten.take m := by
          rw [List.take_append, List.take_of_length_le (by omega), Nat.add_sub_cancel_left]
        rw [h2, OutFile.write_bytes hf, List.flatten_cons, this, List.append_assoc]

/-- Adding grains, segments, tags and flows only appends. -/
theorem edit_calls (e : Enc) (o : Op) (h : o.isDump = false) : ∃ ds : List Bytes, o.calls e = ds.map .write := by
  have hg : ∀ (e : Enc) l gs, ∃ ds : List Bytes, e.grainCalls l gs = ds.map FAct.write := fun e l gs =>
    ⟨gs.map (encodeGrain e.major l), by rw [List.map_map]; rfl⟩
  have hs : ∀ (e : Enc) l gs, ∃ ds : List Bytes, e.sAddCalls l gs = ds.map FAct.write := by
    intro e l gs
    unfold Enc.sAddCalls
    cases e.seg l with
    | none => exact ⟨[], rfl⟩
    | some s =>
      simp only
      split
      · exact hg e l gs
      · exact ⟨[], rfl⟩
  have hh : ∀ (e : Enc) k gs sid lid fresh, ∃ ds : List Bytes, e.hAddCalls k gs sid lid fresh = ds.map FAct.write := by
    intro e k gs sid lid fresh
    unfold Enc.hAddCalls
    cases e.handles[k]? with
    | none => exact ⟨[], rfl⟩
    | some h =>
      simp only
      cases (e.choose sid lid).filter e.hasSeg with
      | some l =>
        simp only
        split
        · exact hg e l gs
        · exact hs e l gs
      | none =>
        simp only
        split
        · exact ⟨[], rfl⟩
        · generalize e.hAddSegment k sid (e.choose sid lid) [] fresh = r
          obtain ⟨e1, r⟩ := r
          cases r with
          | error x => exact ⟨[], rfl⟩
          | ok l => exact hs e1 l gs
  cases o with
  | addGrains gs sid lid fresh =>
    show ∃ ds, e.addCalls gs sid lid fresh = _
    unfold Enc.addCalls
    cases e.syncOpen with
    | some k => exact hh e k gs sid lid fresh
    | none =>
      simp only
      cases (e.choose sid lid).filter e.hasSeg with
      | some l => exact hs e l gs
      | none =>
        simp only
        generalize e.addSegment sid (e.choose sid lid) [] fresh = r
        obtain ⟨e1, r⟩ := r
        cases r with
        | error x => exact ⟨[], rfl⟩
        | ok l => exact hs e1 l gs
  | hAddGrains k gs sid lid fresh => exact hh e k gs sid lid fresh
  | sAddGrains l gs => exact hs e l gs
  | enter => cases h
  | exit => cases h
  | aenter => cases h
  | aexit => cases h
  | startDump _ => cases h
  | endDump => cases h
  | _ => exact ⟨[], rfl⟩

theorem doAll_writes (f : OutFile) (hf : f.AtEnd) (ds : List Bytes) :
    (f.doAll (ds.map .write)).bytes = f.bytes ++ ds.flatten := by
  induction ds generalizing f with
  | nil => simp [OutFile.doAll]
  | cons d ds ih =>
    show ((f.write d).doAll (ds.map .write)).bytes = _
    rw [ih _ (OutFile.write_atEnd hf d), OutFile.write_bytes hf, List.flatten_cons, List.append_assoc]

/-! ## Counts that are written in part -/

theorem encodeUint_uintOf (bs : Bytes) : encodeUint (uintOf bs) bs.length = bs := by
  induction bs with
  | nil => rfl
  | cons b bs ih =>
    have hb := b.toNat_lt
    have h1 : ((uintOf (b :: bs) : Nat) : Int) % 256 = b.toNat := by
      simp only [uintOf]; omega
    have h2 : ((uintOf (b :: bs) : Nat) : Int) / 256 = uintOf bs := by
      simp only [uintOf]; omega
    simp only [List.length_cons, encodeUint]
    rw [h1, h2, ih]
    simp

theorem uintOf_append (a b : Bytes) : uintOf (a ++ b) = uintOf a + 256 ^ a.length * uintOf b := by
  induction a with
  | nil => simp [uintOf]
  | cons x a ih =>
    simp only [List.cons_append, uintOf, ih, List.length_cons, Nat.pow_succ]
    rw [Nat.mul_add, ← Nat.mul_assoc, Nat.mul_comm 256 (256 ^ a.length)]
    omega

/-- The first bytes of a number over those of `-1`: a negative number, unless all eight were written. -/
theorem half_count (v : Int) (k : Nat) :
    ∃ c : Int, (encodeSint v 8).take k ++ (encodeSint (-1) 8).drop k = encodeSint c 8 ∧ (c = v ∨ (-(2 : Int) ^ 63 ≤ c ∧ c < 0)) := by
  by_cases hk : 8 ≤ k
  · refine ⟨v, ?_, .inl rfl⟩
    rw [List.take_of_length_le (by simpa using hk), List.drop_of_length_le (by simpa using hk), List.append_nil]
  · generalize hb : (encodeSint v 8).take k ++ (encodeSint (-1) 8).drop k = b
    have hlen : b.length = 8 := by
      rw [← hb]; simp; omega
    have hlast : ∃ x, b = x ++ [255] ∧ x.length = 7 := by
      have : (encodeSint (-1) 8) = List.replicate 7 255 ++ [255] := by decide
      rw [← hb, this, List.drop_append_of_le_length (by simp; omega), ← List.append_assoc]
      exact ⟨_, rfl, by simp; omega⟩
    obtain ⟨x, hx, hxl⟩ := hlast
    have hu := uintOf_lt b
    rw [hlen] at hu
    have hlow : 2 ^ 63 ≤ uintOf b := by
      rw [hx, uintOf_append, hxl]
      have : uintOf [255] = 255 := by decide
      rw [this]
      omega
    refine ⟨(uintOf b : Int) - 256 ^ 8, ?_, .inr ⟨by omega, by omega⟩⟩
    unfold encodeSint
    rw [if_pos (by omega), Int.sub_add_cancel]
    conv => rhs; rw [← hlen]
    exact (encodeUint_uintOf b).symm

/-- The heads of the segments when some counts have been written, and one perhaps in part. -/
def Half : List Nat → List SegmIn → List SegmIn → Prop
  | [], [], [] => True
  | v :: ss, h :: hs, h' :: hs' =>
    (∃ c : Int, h' = { h with count := c } ∧ (c = v ∨ (-(2 : Int) ^ 63 ≤ c ∧ c < 0))) ∧ Half ss hs hs'
  | _, _, _ => False

theorem half_refl {pos : Nat} : ∀ {segs : List Seg} {heads : List SegmIn}, Positioned pos segs heads →
    (∀ h ∈ heads, h.count = -1) → Half (segs.map Seg.writeCount) heads heads := by
  intro segs heads
  induction segs generalizing heads pos with
  | nil =>
    intro hp hc
    cases heads with
    | nil => trivial
    | cons => exact hp.elim
  | cons s ss ih =>
    intro hp hc
    cases heads with
    | nil => exact hp.elim
    | cons h hs =>
      refine ⟨⟨-1, ?_, .inr ⟨by decide, by decide⟩⟩, ih hp.2 (fun x hx => hc x (by simp [hx]))⟩
      have := hc h (by simp)
      rw [← this]

/-- A first part of a write in the middle of the file. -/
theorem half_patch {f : OutFile} (hs : f.seekable = true) {x old y d : Bytes} (hb : f.bytes = x ++ (old ++ y))
    (hl : old.length = d.length) (k : Nat) :
    ((f.seek x.length).write (d.take k)).bytes = x ++ ((d.take k ++ old.drop k) ++ y) := by
  have h := OutFile.patch hs (x := x) (old := old.take k) (y := old.drop k ++ y) (d := d.take k)
    (by rw [hb, ← List.append_assoc (old.take k), List.take_append_drop]) (by simp [hl])
  have := congrArg OutFile.bytes h
  simp only [OutFile.seek] at this
  rw [List.append_assoc]
  exact this

theorem die_patch {f : OutFile} (hs : f.seekable = true) (segs : List Seg) (heads : List SegmIn) (a b : Bytes)
    (hp : Positioned a.length segs heads) (hc : ∀ h ∈ heads, h.count = -1) (hb : f.bytes = a ++ (heads.flatMap encodeSegm ++ b))
    (n k : Nat) :
    ∃ heads', Half (segs.map Seg.writeCount) heads heads' ∧
      (f.die (patchCalls true f.pos segs) n k).bytes = a ++ (heads'.flatMap encodeSegm ++ b) := by
  induction segs generalizing f heads a n with
  | nil => exact ⟨heads, half_refl hp hc, by cases n <;> exact hb⟩
  | cons s ss ih =>
    cases heads with
    | nil => exact hp.elim
    | cons h hs' =>
      have hp0 := hp
      obtain ⟨h1, h2⟩ := hp
      have hch : h.count = -1 := hc h (by simp)
      have hrest : Half (ss.map Seg.writeCount) hs' hs' := half_refl h2 (fun x hx => hc x (by simp [hx]))
      have e : f.bytes = (a ++ encodeSegmPre h) ++ (encodeSint h.count 8 ++
          (encodeSegmPost h ++ (hs'.flatMap encodeSegm ++ b))) := by
        rw [hb, List.flatMap_cons, encodeSegm]
        simp only [List.append_assoc]
      have hh := half_patch hs e (d := encodeSint s.writeCount 8) (by simp)
      rw [List.length_append] at hh
      have hlist : patchCalls true f.pos (s :: ss) =
          .seek (a.length + (encodeSegmPre h).length) :: .write (encodeSint s.writeCount 8) :: .seek f.pos ::
            patchCalls true f.pos ss := by
        rw [patchCalls, h1]; rfl
      rw [hlist]
      have part : ∀ k, ∃ heads', Half ((s :: ss).map Seg.writeCount) (h :: hs') heads' ∧
          ((f.seek (a.length + (encodeSegmPre h).length)).write ((encodeSint s.writeCount 8).take k)).bytes =
            a ++ (heads'.flatMap encodeSegm ++ b) := by
        intro k
        obtain ⟨c, hc1, hc2⟩ := half_count s.writeCount k
        refine ⟨{ h with count := c } :: hs', ⟨⟨c, rfl, hc2⟩, hrest⟩, ?_⟩
        rw [hh, hch, hc1, List.flatMap_cons, encodeSegm]
        simp only [List.append_assoc]
        rfl
      match n with
      | 0 => exact ⟨h :: hs', half_refl hp0 hc, hb⟩
      | 1 => exact part k
      | 2 =>
        have := part 8
        rw [List.take_of_length_le (by simp)] at this
        exact this
      | n + 3 =>
        have e1 := OutFile.patch hs e (d := encodeSint s.writeCount 8) (by simp)
        rw [List.length_append] at e1
        obtain ⟨heads', g1, g2⟩ := ih (f := { f with bytes := a ++ encodeSegmPre h ++ (encodeSint (↑s.writeCount) 8 ++
            (encodeSegmPost h ++ (hs'.flatMap encodeSegm ++ b))) }) hs hs'
          (a ++ encodeSegm { h with count := s.writeCount })
          (by rw [List.length_append, encodeSegm_count_length]; exact h2) (fun x hx => hc x (by simp [hx]))
          (by simp only [encodeSegm, List.append_assoc]; rfl) n
        refine ⟨{ h with count := s.writeCount } :: heads', ⟨⟨_, rfl, .inl rfl⟩, g1⟩, ?_⟩
        show ((((f.seek _).write _).seek f.pos).die (patchCalls true f.pos ss) n k).bytes = _
        rw [e1]
        simp only at g2 ⊢
        rw [g2, List.flatMap_cons]
        simp only [List.append_assoc]

theorem half_counted {pos : Nat} : ∀ {segs : List Seg} {heads : List SegmIn}, Positioned pos segs heads →
    Half (segs.map Seg.writeCount) heads (counted segs heads) := by
  intro segs heads
  induction segs generalizing heads pos with
  | nil =>
    intro hp
    cases heads with
    | nil => trivial
    | cons => exact hp.elim
  | cons s ss ih =>
    intro hp
    cases heads with
    | nil => exact hp.elim
    | cons h hs => exact ⟨⟨_, rfl, .inl rfl⟩, ih hp.2⟩

theorem half_length : ∀ {vs : List Nat} {hs hs' : List SegmIn}, Half vs hs hs' →
    (hs'.flatMap encodeSegm).length = (hs.flatMap encodeSegm).length ∧ hs'.map segmBlockSize = hs.map segmBlockSize
  | [], [], [], _ => ⟨rfl, rfl⟩
  | v :: vs, h :: hs, h' :: hs', ⟨⟨c, e, _⟩, r⟩ => by
    obtain ⟨i1, i2⟩ := half_length r
    subst e
    refine ⟨?_, ?_⟩
    · rw [List.flatMap_cons, List.flatMap_cons, List.length_append, List.length_append, i1, encodeSegm_count_length]
    · rw [List.map_cons, List.map_cons, i2]; rfl
  | [], [], _ :: _, h => h.elim
  | [], _ :: _, _, h => h.elim
  | _ :: _, [], _, h => h.elim
  | _ :: _, _ :: _, [], h => h.elim

/-- The heads that go with a list of segments. -/
theorem half_mem (g : Seg → Nat) (hd : Seg → SegmIn) : ∀ {segs : List Seg} {hs' : List SegmIn}, Half (segs.map g) (segs.map hd) hs' →
    (∀ sg ∈ hs', ∃ s ∈ segs, ∃ c : Int, sg = { hd s with count := c } ∧ (c = g s ∨ (-(2 : Int) ^ 63 ≤ c ∧ c < 0))) ∧
    hs'.map (fun sg => { sg with count := 0 }) = segs.map (fun s => { hd s with count := 0 })
  | [], [], _ => ⟨fun _ h => (by cases h), rfl⟩
  | s :: ss, h' :: hs', ⟨⟨c, e, hc⟩, r⟩ => by
    obtain ⟨i1, i2⟩ := half_mem g hd r
    subst e
    refine ⟨?_, ?_⟩
    · intro sg hsg
      rcases List.mem_cons.mp hsg with rfl | hsg
      · exact ⟨s, by simp, c, rfl, hc⟩
      · obtain ⟨t, ht, x⟩ := i1 sg hsg
        exact ⟨t, by simp [ht], x⟩
    · rw [List.map_cons, List.map_cons, i2]
  | [], _ :: _, h => h.elim
  | _ :: _, [], h => h.elim

theorem setPositions_map {α : Type} (f : Seg → α) (hf : ∀ s p, f { s with countPos := p } = f s) (all : Bool) (pos : Nat)
    (segs : List Seg) : (setPositions all pos segs).map f = segs.map f := by
  induction segs generalizing pos with
  | nil => rfl
  | cons s ss ih => simp only [setPositions, List.map_cons, ih, hf]

/-! ## The bytes -/

/-- What comes before the file: nothing, or what a file that cannot seek holds already. -/
abbrev base (e : Enc) : Bytes := if e.file.seekable then [] else e.file.bytes

theorem live_bytes {e e' : Enc} {k : Nat} {all : Bool} {w held} (h : Live (e.start k all) k w held e') :
    e'.file.bytes = base e ++ (encodeFileHeader e.major e.minor ++ encodeHead (e.headIn all) ++
      (e.pending ++ w).flatMap (fun x => encodeGrain e.major x.1 x.2)) := by
  rw [h.bytes, start_eq]
  simp only [OutFile.write_bytes e.file.clear_atEnd, OutFile.clear_bytes, Enc.pendingBytes_eq,
    List.flatMap_append, List.append_assoc, base]

/-- A first part of a file. -/
theorem first_part (f : FileSpec) (gs gs' : List (Nat × Grain)) (t : Bytes) (hf : f.grains = gs ++ gs')
    (m : Nat) (hm : m ≤ t.length) (b : Bytes) (ht : gs'.flatMap (fun x => encodeGrain f.major x.1 x.2) ++ terminator = t ++ b) :
    encodeFileHeader f.major f.minor ++ encodeHead f.head ++ gs.flatMap (fun x => encodeGrain f.major x.1 x.2) ++ t.take m =
      f.bytes.take (grainsEnd f gs.length + m) := by
  have h1 : f.bytes = (encodeFileHeader f.major f.minor ++ encodeHead f.head ++ gs.flatMap (fun x => encodeGrain f.major x.1 x.2)) ++ (t ++ b) := by
    unfold FileSpec.bytes
    rw [hf, List.flatMap_append, ← ht]
    simp only [List.append_assoc]
  have h2 : grainsEnd f gs.length = (encodeFileHeader f.major f.minor ++ encodeHead f.head ++
      gs.flatMap (fun x => encodeGrain f.major x.1 x.2)).length := by
    unfold grainsEnd
    rw [hf, List.take_left]
    simp only [List.length_append]
  rw [h1, h2, List.take_length_add_append, List.take_append_of_le_length hm]

theorem start_die (e : Enc) (all : Bool) (n k : Nat) :
    (e.file.die (e.startCalls all) n k).bytes = e.file.bytes ∨
      ∃ m, (e.file.die (e.startCalls all) n k).bytes = base e ++
        (encodeFileHeader e.major e.minor ++ encodeHead (e.headIn all) ++ e.pendingBytes).take m := by
  unfold Enc.startCalls
  generalize encodeFileHeader e.major e.minor ++ encodeHead (e.headIn all) ++ e.pendingBytes = X
  rw [die_append]
  generalize hL : (if e.file.seekable then [FAct.seek 0, .truncate] else []) = L
  have hc : e.file.doAll L = e.file.clear := by
    rw [← hL]
    unfold OutFile.clear
    split <;> rfl
  by_cases hn : n < L.length
  · left
    rw [if_pos hn]
    by_cases hs : e.file.seekable = true
    · rw [if_pos hs] at hL
      subst hL
      simp only [List.length_cons, List.length_nil] at hn
      have : n = 0 ∨ n = 1 := by omega
      rcases this with rfl | rfl <;> rfl
    · rw [if_neg hs] at hL
      subst hL
      simp at hn
  · right
    rw [if_neg hn, hc]
    obtain ⟨m, -, h⟩ := die_writes e.file.clear e.file.clear_atEnd [X] (n - L.length) k
    refine ⟨m, ?_⟩
    rw [show [FAct.write X] = [X].map .write from rfl, h, OutFile.clear_bytes]
    simp

theorem stop_calls {e0 k w held e} (h : Live e0 k w held e) {stop : Op}
    (hs : stop = .endDump ∨ (stop = .exit ∧ e.streaming = true)) :
    stop.calls e = patchCalls e.file.seekable e.file.pos e.segs ++ [.write terminator] := by
  obtain ⟨n, hk⟩ := h.handle
  have : e.finishCalls k = patchCalls e.file.seekable e.file.pos e.segs ++ [.write terminator] := by
    unfold Enc.finishCalls
    simp only [hk, Option.map_some, Option.getD_some, if_true]
  rcases hs with rfl | ⟨rfl, hst⟩
  · simp only [Op.calls, h.opened, this]
  · simp only [Op.calls, h.opened, hst, if_true, this]

theorem patchCalls_unseekable (pos : Nat) (segs : List Seg) : patchCalls false pos segs = [] := by
  induction segs with
  | nil => rfl
  | cons s ss ih =>
    rw [patchCalls]
    cases s.countPos with
    | none => exact ih
    | some p => simp [ih]

theorem terminator_die (f : OutFile) (hf : f.AtEnd) (n k : Nat) :
    ∃ m, m ≤ terminator.length ∧ (f.die [.write terminator] n k).bytes = f.bytes ++ terminator.take m := by
  obtain ⟨m, h1, h2⟩ := die_writes f hf [terminator] n k
  refine ⟨m, by simpa using h1, ?_⟩
  rw [show [FAct.write terminator] = [terminator].map .write from rfl, h2]
  simp

/-- Dying while a streaming dump is ended. -/
theorem stop_die {e e' : Enc} {k : Nat} {w held} (h : Live (e.start k false) k w held e') {stop : Op}
    (hs : stop = .endDump ∨ (stop = .exit ∧ e'.streaming = true)) (n j : Nat) :
    ∃ heads m, Half (e.segs.map (fun s => s.writeCount + s.grains.length + (ofSeg s.localId w).length)) (e.segs.map (Seg.header false)) heads ∧
      m ≤ terminator.length ∧
      (e'.file.die (stop.calls e') n j).bytes = base e ++ (encodeFileHeader e.major e.minor ++
        encodeHead { e.headIn false with segments := heads } ++
        (e.pending ++ w).flatMap (fun x => encodeGrain e.major x.1 x.2) ++ terminator.take m) := by
  have hcount : ∀ hd : e.file.seekable = true, e'.segs.map Seg.writeCount =
      e.segs.map (fun s => s.writeCount + s.grains.length + (ofSeg s.localId w).length) := by
    intro hd
    rw [h.segs, start_eq]
    simp only [startSegs, hd, Bool.not_false, Bool.and_true, if_true, List.map_map]
    rw [setPositions_map _ (fun _ _ => rfl)]
    rfl
  have hb := live_bytes h
  have hcm : ∀ x ∈ e.segs.map (Seg.header false), x.count = -1 := by
    intro x hx
    obtain ⟨s, -, rfl⟩ := List.mem_map.mp hx
    rfl
  have hsk : e'.file.seekable = e.file.seekable := by
    rw [h.seekable, start_eq]; simp only [OutFile.write_seekable, OutFile.clear_seekable]
  rw [stop_calls h hs]
  by_cases hsa : e.file.seekable = true
  · have hsk' := hsk.trans hsa
    have hb' : e'.file.bytes = (encodeFileHeader e.major e.minor ++ encodeHeadPre (e.headIn false)) ++
        ((e.segs.map (Seg.header false)).flatMap encodeSegm ++ (e.tags.flatMap encodeTag ++
          (e.pending ++ w).flatMap (fun x => encodeGrain e.major x.1 x.2))) := by
      rw [hb]
      simp only [base, hsa, if_true, List.append_assoc, List.nil_append, encodeHead, Enc.headIn]
    have hpos : Positioned (encodeFileHeader e.major e.minor ++ encodeHeadPre (e.headIn false)).length e'.segs
        (e.segs.map (Seg.header false)) := by
      rw [h.segs, start_eq]
      simp only [startSegs, hsa, Bool.not_false, Bool.and_true, if_true, List.map_map]
      have := setPositions_pos false
        (0 + (encodeFileHeader e.major e.minor).length + (encodeHeadPre (e.headIn false)).length) e.segs
        (Seg.during w held ∘ Seg.dumped) (fun _ => rfl)
      rw [Nat.zero_add, ← List.length_append] at this ⊢
      exact this
    have assemble : ∀ heads, Half (e.segs.map (fun s => s.writeCount + s.grains.length + (ofSeg s.localId w).length))
        (e.segs.map (Seg.header false)) heads →
        encodeHead { e.headIn false with segments := heads } =
          encodeHeadPre (e.headIn false) ++ (heads.flatMap encodeSegm ++ e.tags.flatMap encodeTag) := by
      intro heads hh
      unfold encodeHead
      rw [encodeHeadPre_segments (e.headIn false) heads (half_length hh).2]
      simp only [List.append_assoc, Enc.headIn]
    rw [hsk', die_append]
    split
    · obtain ⟨heads, g1, g2⟩ := die_patch hsk' e'.segs (e.segs.map (Seg.header false)) _ _ hpos hcm hb' n j
      rw [hcount hsa] at g1
      refine ⟨heads, 0, g1, Nat.zero_le _, ?_⟩
      rw [g2, assemble heads g1]
      simp only [base, hsa, if_true, List.take_zero, List.append_nil, List.nil_append, List.append_assoc]
    · have hpe := patchCounts_eq hsk' e'.segs (e.segs.map (Seg.header false)) _ _ hpos hb'
      have hcd := half_counted hpos
      rw [hcount hsa] at hcd
      have hpf : e'.file.doAll (patchCalls true e'.file.pos e'.segs) = patchCounts e'.file e'.segs := by
        rw [patchCalls_file, hsk']
      rw [hpf, hpe]
      have hat : OutFile.AtEnd { e'.file with bytes := encodeFileHeader e.major e.minor ++ encodeHeadPre (e.headIn false) ++
          ((counted e'.segs (e.segs.map (Seg.header false))).flatMap encodeSegm ++ (e.tags.flatMap encodeTag ++
            (e.pending ++ w).flatMap (fun x => encodeGrain e.major x.1 x.2))) } := by
        intro _
        simp only
        rw [h.atEnd hsk', hb']
        simp only [List.length_append, (half_length hcd).1]
      obtain ⟨m, g1, g2⟩ := terminator_die _ hat (n - (patchCalls true e'.file.pos e'.segs).length) j
      refine ⟨_, m, hcd, g1, ?_⟩
      rw [g2, assemble _ hcd]
      simp only [base, hsa, if_true, List.nil_append, List.append_assoc]
  · have hsk' : e'.file.seekable = false := by rw [hsk]; simpa using hsa
    rw [hsk', patchCalls_unseekable, List.nil_append]
    obtain ⟨m, g1, g2⟩ := terminator_die e'.file h.atEnd n j
    refine ⟨e.segs.map (Seg.header false), m, ?_, g1, ?_⟩
    · clear g1 g2 hsk' hsk hcm hb hcount
      induction e.segs with
      | nil => trivial
      | cons s ss ih => exact ⟨⟨-1, rfl, .inr ⟨by decide, by decide⟩⟩, ih⟩
    · rw [g2, hb]
      simp only [List.append_assoc]
      rfl

end Verif.Gsf.Crash

namespace Verif.Props

open Verif Verif.Gsf Verif.Gsf.Crash

/-! ## Specification -/

/-- The grains that the calls of a program handed over to the dump that its first call starts: those that the encoder held, and
those of the calls that were accepted. -/
def handed (e : Enc) : List Op → List (Nat × Grain)
  | [] => []
  | start :: calls => e.pending ++ (start.run e).1.taken calls

/-- A file with the identifier, time, tags, segments and flows that the encoder has, with the grains `gs`; each count is right or unknown
(negative). -/
structure Holds (e : Enc) (gs : List (Nat × Grain)) (f : FileSpec) : Prop where
  version : f.major = e.major ∧ f.minor = e.minor
  ident : f.head.id = e.id ∧ f.head.created = e.created ∧ f.head.tags = e.tags
  segments : f.head.segments.map (fun sg => (sg.localId, sg.id, sg.flow, sg.tags)) = e.segs.map (fun s => (s.localId, s.id, s.flow, s.tags))
  counts : ∀ sg ∈ f.head.segments, (-(2 : Int) ^ 63 ≤ sg.count ∧ sg.count < 0) ∨
    sg.count = ((gs.filter (fun x => x.1 == sg.localId)).length : Nat)
  grains : f.grains = gs

/-- The values fit their fields, so that they can be written at all. -/
def Fits (e : Enc) (gs : List (Nat × Grain)) : Prop :=
  (⟨e.major, e.minor, ⟨e.id, e.created, e.segs.map (fun s => ⟨s.localId, s.id, -1, s.flow, s.tags⟩), e.tags⟩, gs⟩ : FileSpec).Ok ∧
    gs.length < 2 ^ 63

/-! ## Proofs -/

theorem holds_of_half {e : Enc} (hb : Born e) {w : List (Nat × Grain)} (hd : ∀ x ∈ w, x.1 ∈ e.lids) {heads : List SegmIn}
    (h : Half (e.segs.map (fun s => s.writeCount + s.grains.length + (ofSeg s.localId w).length)) (e.segs.map (Seg.header false)) heads) :
    Holds e (e.pending ++ w) ⟨e.major, e.minor, { e.headIn false with segments := heads }, e.pending ++ w⟩ := by
  obtain ⟨h1, h2⟩ := half_mem _ _ h
  refine ⟨⟨rfl, rfl⟩, ⟨rfl, rfl, rfl⟩, ?_, ?_, rfl⟩
  · have := congrArg (List.map (fun sg : SegmIn => (sg.localId, sg.id, sg.flow, sg.tags))) h2
    rw [List.map_map, List.map_map] at this
    exact this
  · intro sg hsg
    obtain ⟨s, hs, c, rfl, hc⟩ := h1 sg hsg
    rcases hc with rfl | hc
    · right
      exact (streamSpec_counts hb.idle.nodup (fun s hs => (hb.fresh s hs).1) hd).1 _ (List.mem_map.mpr ⟨s, hs, rfl⟩)
    · exact .inl hc

theorem holds_plain (e : Enc) (w : List (Nat × Grain)) : Holds e (e.pending ++ w) (plainSpec e false w) := by
  refine ⟨⟨rfl, rfl⟩, ⟨rfl, rfl, rfl⟩, ?_, ?_, rfl⟩
  · show (e.segs.map (Seg.header false)).map _ = _
    rw [List.map_map]
    rfl
  · intro sg hsg
    obtain ⟨s, -, rfl⟩ := List.mem_map.mp hsg
    exact .inl ⟨by show -(2 : Int) ^ 63 ≤ -1; decide, by show (-1 : Int) < 0; decide⟩

theorem stream_starts {e : Enc} (hb : Born e) {start stop : Op} (hp : StreamPair e.streaming start stop) :
    (start.run e).1 = (opened e).start 0 false ∧ start.calls e = (opened e).startCalls false := by
  have hlen : e.handles.length = 0 := by rw [hb.handles]; rfl
  rcases hp with ⟨rfl, -⟩ | ⟨hst, rfl, -⟩
  · exact ⟨by show e.startDump false = _; rw [startDump_eq, hlen], rfl⟩
  · refine ⟨by show e.enter = _; rw [Props.enter_eq, hlen, hst, if_pos rfl], ?_⟩
    simp only [Op.calls, hst, if_true]
    rfl

theorem stop_takes {e e' : Enc} {start stop : Op} (hp : StreamPair e.streaming start stop) : stop.takes e' = [] := by
  rcases hp with ⟨-, rfl⟩ | ⟨-, -, rfl⟩ <;> rfl

/-- **C70.** A new encoder that was set up in any way writes a streaming dump: it is started, grains are added, it is ended. The process
dies in call `o`, after any part of what that call writes. If it dies while the dump is started, the file may still be what it was.
Otherwise what is left is a first part of a GSF file that has the segments, flows and tags of the encoder and the grains handed over so
far; every count in it is right or unknown; and the part reaches over the head and all grains handed over by earlier calls. -/
theorem C70_streaming {e : Enc} (hb : Born e) {start stop : Op} (hp : StreamPair e.streaming start stop) {during : List Op}
    (hd : Edits during) (before : List Op) (o : Op) (after : List Op) (hprog : start :: (during ++ [stop]) = before ++ o :: after) (n k : Nat) :
    (before = [] ∧ (o.dies (e.runs before) n k).bytes = e.file.bytes) ∨
      ∃ f m, Holds e (handed e (before ++ [o])) f ∧
        (o.dies (e.runs before) n k).bytes = (if e.file.seekable then [] else e.file.bytes) ++ f.bytes.take m ∧
        (before ≠ [] → grainsEnd f (handed e before).length ≤ m) := by
  obtain ⟨hrun, hcalls⟩ := stream_starts hb hp
  have hlen : e.handles.length = 0 := by rw [hb.handles]; rfl
  have hl := opened_live e false
  rw [hlen] at hl
  cases before with
  | nil =>
    obtain ⟨rfl, -⟩ := List.cons.inj hprog
    have h1 : handed e ([] ++ [start]) = e.pending ++ [] := rfl
    show (_ ∧ (e.file.die (start.calls e) n k).bytes = _) ∨ _
    rw [h1, hcalls]
    rcases start_die (opened e) false n k with h | ⟨m, h⟩
    · exact .inl ⟨rfl, h⟩
    · right
      refine ⟨plainSpec e false [], min m (encodeFileHeader e.major e.minor ++ encodeHead (e.headIn false) ++ e.pendingBytes).length, holds_plain e [], ?_, fun h => absurd rfl h⟩
      · show (e.file.die (start.calls e) n k).bytes = _
        rw [hcalls]
        refine h.trans ?_
        congr 1
        rw [List.take_eq_take_min]
        have hp : (plainSpec e false []).bytes = (encodeFileHeader e.major e.minor ++ encodeHead (e.headIn false) ++ e.pendingBytes) ++ terminator := by
          unfold FileSpec.bytes plainSpec
          simp only [Enc.pendingBytes_eq, List.append_nil, List.append_assoc]
        rw [hp, List.take_append_of_le_length (Nat.min_le_right _ _)]
        rfl
  | cons start' bs =>
    rw [List.cons_append] at hprog
    obtain ⟨hst0, hprog2⟩ := List.cons.inj hprog
    subst hst0
    clear hprog
    have hprog := hprog2
    clear hprog2
    right
    have hbs : Edits bs := by
      intro x hx
      have hx' : x ∈ during ++ [stop] := by rw [hprog]; simp [hx]
      have hbl : bs.length ≤ during.length := by
        have := congrArg List.length hprog
        simp only [List.length_append, List.length_cons, List.length_nil] at this
        omega
      have : bs = during.take bs.length := by
        have := congrArg (List.take bs.length) hprog
        rw [List.take_append_of_le_length hbl, List.take_left] at this
        exact this.symm
      rw [this] at hx
      exact hd x (List.mem_of_mem_take hx)
    have h2 := hl.steps start_dumped (start_parents hb.parents) bs hbs
    rw [List.nil_append, ← hrun] at h2
    have hruns : e.runs (start :: bs) = (start.run e).1.runs bs := rfl
    rw [hruns]
    generalize hw : (start.run e).1.taken bs = w at h2
    generalize he1 : (start.run e).1.runs bs = e1 at h2
    have hdec : ∀ x ∈ w, x.1 ∈ e.lids := by
      intro x hx
      have := h2.declared x hx
      rw [hrun, start_eq] at this
      show x.1 ∈ (opened e).lids
      rw [← startSegs_lids _ false]; exact this
    have hhand : handed e (start :: bs) = e.pending ++ w := by rw [handed, hw]
    have hhand2 : handed e (start :: bs ++ [o]) = e.pending ++ (w ++ o.takes e1) := by
      show e.pending ++ (start.run e).1.taken (bs ++ [o]) = _
      rw [taken_append, hw, he1]
      simp [Enc.taken]
    rw [hhand, hhand2]
    rw [hrun] at h2
    cases after with
    | nil =>
      have hso : o = stop := by
        have := congrArg List.getLast? hprog
        simpa using this.symm
      subst hso
      rw [stop_takes hp, List.append_nil]
      have hstop : o = .endDump ∨ (o = .exit ∧ e1.streaming = true) := by
        rcases hp with ⟨-, rfl⟩ | ⟨hst, -, rfl⟩
        · exact .inl rfl
        · refine .inr ⟨rfl, ?_⟩
          rw [h2.frame.streaming, start_eq]; exact hst
      obtain ⟨heads, m, g1, g2, g3⟩ := stop_die h2 hstop n k
      refine ⟨⟨e.major, e.minor, { e.headIn false with segments := heads }, e.pending ++ w⟩, _, holds_of_half hb hdec g1, ?_, fun _ => Nat.le_add_right _ m⟩
      refine g3.trans ?_
      congr 1
      exact first_part ⟨e.major, e.minor, { e.headIn false with segments := heads }, e.pending ++ w⟩ (e.pending ++ w) [] terminator
        (by simp) m g2 [] (by simp)
    | cons a as =>
      have hoe : o ∈ during := by
        have hl1 := congrArg List.length hprog
        simp only [List.length_append, List.length_cons, List.length_nil] at hl1
        have := congrArg (fun l => l[bs.length]?) hprog
        simp only [List.getElem?_append_right (Nat.le_refl bs.length), Nat.sub_self, List.getElem?_cons_zero] at this
        rw [List.getElem?_append_left (by omega)] at this
        exact List.mem_of_getElem? this
      have h3 : Live ((opened e).start 0 false) 0 (w ++ o.takes e1) (fun _ => []) (o.run e1).1 := by
        have := h2.steps start_dumped (start_parents hb.parents) [o] (by
          intro x hx
          rw [List.mem_singleton] at hx
          subst hx
          exact hd x hoe)
        simpa [Enc.taken, Enc.runs] using this
      obtain ⟨ds, hds⟩ := edit_calls e1 o (hd o hoe).1
      have hbytes : ds.flatten = (o.takes e1).flatMap (fun x => encodeGrain e.major x.1 x.2) := by
        have e1b := live_bytes h2
        have e2b := live_bytes h3
        rw [calls_file, hds, doAll_writes _ h2.atEnd, e1b, ← List.append_assoc (opened e).pending, List.flatMap_append (xs := (opened e).pending ++ w)] at e2b
        simp only [List.append_assoc] at e2b
        have := List.append_cancel_left e2b
        have := List.append_cancel_left this
        have := List.append_cancel_left this
        exact List.append_cancel_left this
      obtain ⟨m, g1, g2⟩ := die_writes e1.file h2.atEnd ds n k
      refine ⟨plainSpec e false (w ++ o.takes e1), _, holds_plain e _, ?_, fun _ => Nat.le_add_right _ m⟩
      show (e1.file.die (o.calls e1) n k).bytes = _
      rw [hds, g2, live_bytes h2]
      have hfp := first_part (plainSpec e false (w ++ o.takes e1)) (e.pending ++ w) (o.takes e1) ds.flatten
        (by simp [plainSpec]) m g1 terminator (by rw [hbytes]; rfl)
      rw [← hfp]
      simp only [List.append_assoc]
      rfl

theorem Holds.ok {e : Enc} {gs : List (Nat × Grain)} {f : FileSpec} (h : Holds e gs f) (hf : Fits e gs) : f.Ok := by
  obtain ⟨ho, hlen⟩ := hf
  obtain ⟨h1, h2, h3, h4, h5⟩ := h
  have hseg : ∀ sg ∈ f.head.segments, ∃ s ∈ e.segs, s.localId = sg.localId ∧ s.id = sg.id ∧ s.flow = sg.flow ∧ s.tags = sg.tags := by
    intro sg hsg
    have : (sg.localId, sg.id, sg.flow, sg.tags) ∈ f.head.segments.map (fun sg => (sg.localId, sg.id, sg.flow, sg.tags)) :=
      List.mem_map.mpr ⟨sg, hsg, rfl⟩
    rw [h3] at this
    obtain ⟨s, hs, he⟩ := List.mem_map.mp this
    simp only [Prod.mk.injEq] at he
    exact ⟨s, hs, he⟩
  obtain ⟨k1, k2, k3, k4, k5⟩ := ho.head
  refine ⟨by rw [h1.1]; exact ho.major, by rw [h1.2]; exact ho.minor, ⟨by rw [h2.1]; exact k1, by rw [h2.2.1]; exact k2, ?_, by rw [h2.2.2]; exact k4, ?_⟩,
    by rw [h5, h1.1]; exact ho.grains⟩
  · intro sg hsg
    obtain ⟨s, hs, e1, e2, e3, e4⟩ := hseg sg hsg
    obtain ⟨q1, q2, -, q4, q5⟩ := k3 _ (List.mem_map.mpr ⟨s, hs, rfl⟩)
    refine ⟨by rw [← e2]; exact q1, by rw [← e1]; exact q2, ?_, by rw [← e3]; exact q4, by rw [← e4]; exact q5⟩
    rcases h4 sg hsg with hc | hc
    · exact ⟨hc.1, by omega⟩
    · have := List.length_filter_le (fun x : Nat × Grain => x.1 == sg.localId) gs
      rw [hc]
      omega
  · have hsz : f.head.segments.map segmBlockSize =
        (e.segs.map (fun s => (⟨s.localId, s.id, -1, s.flow, s.tags⟩ : SegmIn))).map segmBlockSize := by
      have := congrArg (List.map (fun x : Nat × Bytes × Option FlowIn × List (List Char × List Char) =>
        segmBlockSize ⟨x.1, x.2.1, 0, x.2.2.1, x.2.2.2⟩)) h3
      rw [List.map_map, List.map_map] at this
      rw [List.map_map]
      exact this
    unfold headSize at k5 ⊢
    rw [hsz, h2.2.2]
    exact k5

theorem grainsEnd_mono (f : FileSpec) {a b : Nat} (h : a ≤ b) : grainsEnd f a ≤ grainsEnd f b := by
  unfold grainsEnd
  have : f.grains.take b = f.grains.take a ++ (f.grains.take b).drop a := by
    conv => lhs; rw [← List.take_append_drop a (f.grains.take b), List.take_take, Nat.min_eq_left h]
  rw [this, List.flatMap_append, List.length_append (as := List.flatMap _ (f.grains.take a))]
  omega

/-- **C70**, for the reader: a first part of a file that reaches over its first `j` grains can be read without error, and what is read
begins with these grains; after them come others of the file, in order, the last one perhaps with a part of its data. -/
theorem C70_readable {e : Enc} {gs : List (Nat × Grain)} {f : FileSpec} (h : Holds e gs f) (hf : Fits e gs) {j m : Nat}
    (hj : j ≤ gs.length) (hm : grainsEnd f j ≤ m) :
    ∃ r k tail, decodeFile {} (f.bytes.take m) = .ok r ∧ j ≤ k ∧ k ≤ gs.length ∧
      r.view (f.bytes.take m) = (gs.take k).map (fun x => (x.2.toMeta e.major, x.2.payload, x.1)) ++ tail ∧
      (tail = [] ∨ ∃ x d, gs[k]? = some x ∧ tail = [(x.2.toMeta e.major, d, x.1)] ∧ PartOf (x.2.payload) d) ∧
      r.hdr.head.segments.map (fun sg => (sg.localId, sg.id, sg.flow, sg.tags)) =
        e.segs.map (fun s => (s.localId, s.id, s.flow.map FlowIn.toFlow, s.tags)) ∧
      (∀ sg ∈ r.hdr.head.segments, sg.count < 0 ∨ sg.count = ((gs.filter (fun x => x.1 == sg.localId)).length : Nat)) := by
  have hok := h.ok hf
  obtain ⟨r, k, tail, h1, h2, h3, h4, h5, h6, h7, h8⟩ := C05_truncated f hok {} m (Nat.le_trans (grainsEnd_mono f (Nat.zero_le j)) hm)
  obtain ⟨v1, v2, v3, v4, v5⟩ := h
  rw [v5] at h4 h6 h7
  have hv : ∀ x : Nat × Grain, Opts.viewOf {} f.major x = (x.2.toMeta e.major, x.2.payload, x.1) := by
    intro x
    unfold Opts.viewOf
    rw [v1.1]
    simp
  refine ⟨r, k, tail, h1, ?_, h4, ?_, ?_, ?_, ?_⟩
  · rcases Nat.lt_or_ge k gs.length with hk | hk
    · have := h6 hk
      rcases Nat.lt_or_ge k j with hkj | hkj
      · have := grainsEnd_mono f (show k + 1 ≤ j from hkj)
        omega
      · exact hkj
    · omega
  · rw [h7]
    congr 1
    have : (gs.take k).filter (fun x => !Opts.drops {} x.1) = gs.take k := by
      apply List.filter_eq_self.mpr
      intro x _
      rfl
    rw [this]
    exact List.map_congr_left (fun x _ => hv x)
  · rcases h8 with h8 | ⟨x, d, g1, -, g2, g3, -⟩
    · exact .inl h8
    · refine .inr ⟨x, d, by rw [← v5]; exact g1, by rw [g2, v1.1], ?_⟩
      rw [hv] at g3
      exact g3
  · rw [h2]
    show (f.head.segments.map SegmIn.toSegm).map _ = _
    have := congrArg (List.map (fun x : Nat × Bytes × Option FlowIn × List (List Char × List Char) => (x.1, x.2.1, x.2.2.1.map FlowIn.toFlow, x.2.2.2))) v3
    rw [List.map_map, List.map_map] at this
    rw [List.map_map]
    exact this
  · rw [h2]
    intro sg hsg
    obtain ⟨s, hs, rfl⟩ := List.mem_map.mp hsg
    exact (v4 s hs).imp (·.2) id

/-- **C70**, together: after a crash in any call but the first of a streaming dump, everything before that call can be read back. -/
theorem C70_survives {e : Enc} (hb : Born e) {start stop : Op} (hp : StreamPair e.streaming start stop) {during : List Op}
    (hd : Edits during) (before : List Op) (o : Op) (after : List Op) (hprog : start :: (during ++ [stop]) = before ++ o :: after)
    (hne : before ≠ []) (hf : Fits e (handed e (before ++ [o]))) (n k : Nat) :
    let left := (o.dies (e.runs before) n k).bytes.drop (if e.file.seekable then 0 else e.file.bytes.length)
    ∃ r tail, decodeFile {} left = .ok r ∧
      r.view left = (handed e before).map (fun x => (x.2.toMeta e.major, x.2.payload, x.1)) ++ tail ∧
      r.hdr.head.segments.map (fun sg => (sg.localId, sg.id, sg.flow, sg.tags)) =
        e.segs.map (fun s => (s.localId, s.id, s.flow.map FlowIn.toFlow, s.tags)) ∧
      (∀ sg ∈ r.hdr.head.segments, sg.count < 0 ∨
        sg.count = (((handed e (before ++ [o])).filter (fun x => x.1 == sg.localId)).length : Nat)) := by
  intro left
  rcases C70_streaming hb hp hd before o after hprog n k with ⟨h, -⟩ | ⟨f, m, h1, h2, h3⟩
  · exact absurd h hne
  · have hl : left = f.bytes.take m := by
      show List.drop _ (Op.dies (e.runs before) o n k).bytes = _
      rw [h2]
      split <;> simp
    have hpre : ∃ t, handed e (before ++ [o]) = handed e before ++ t := by
      cases before with
      | nil => exact absurd rfl hne
      | cons a bs =>
        refine ⟨((a.run e).1.runs bs).taken [o], ?_⟩
        show e.pending ++ (a.run e).1.taken (bs ++ [o]) = _
        rw [taken_append, ← List.append_assoc]
        rfl
    obtain ⟨t, ht⟩ := hpre
    obtain ⟨r, q, tail, g1, g2, g3, g4, -, g6, g7⟩ := C70_readable h1 hf (j := (handed e before).length) (by rw [ht]; simp) (h3 hne)
    rw [hl]
    refine ⟨r, ((t.take (q - (handed e before).length)).map (fun x => (x.2.toMeta e.major, x.2.payload, x.1))) ++ tail, g1, ?_, g6, g7⟩
    rw [g4, ht, List.take_append, List.take_of_length_le g2, List.map_append, List.append_assoc]

/-! ### All at once -/

theorem idle_sAdd {e : Enc} (h : Idle e) (l : Nat) (gs : List Grain) : e.sAddCalls l gs = [] := by
  unfold Enc.sAddCalls
  cases e.seg l with
  | none => rfl
  | some s =>
    simp only
    have hact : ((e.parentHandle s).map Handle.active).getD false = false := by
      cases hq : e.parentHandle s with
      | none => rfl
      | some q =>
        have hm : q ∈ e.handles := by
          unfold Enc.parentHandle at hq
          cases hp : s.parent with
          | none =>
            rw [hp] at hq
            cases hs : e.syncOpen with
            | none => rw [hs] at hq; cases hq
            | some k => rw [hs] at hq; exact List.mem_of_getElem? hq
          | some j => rw [hp] at hq; exact List.mem_of_getElem? (Option.filter_eq_some_iff.mp hq).1
        exact h.inactive q hm
    rw [hact]
    rfl

/-- While no dump is active nothing is written. -/
theorem idle_writes {e : Enc} (h : Idle e) (o : Op) (ho : o.isDump = false) : o.calls e = [] := by
  have hh : ∀ k gs sid lid fresh, e.hAddCalls k gs sid lid fresh = [] := by
    intro k gs sid lid fresh
    unfold Enc.hAddCalls
    cases hk : e.handles[k]? with
    | none => rfl
    | some q =>
      have hq : q.active = false := h.inactive q (List.mem_of_getElem? hk)
      simp only [hq, Bool.false_eq_true, if_false]
      cases (e.choose sid lid).filter e.hasSeg with
      | some l => exact idle_sAdd h l gs
      | none =>
        simp only
        have hi := (edit_steps h [.hAddSegment k sid (e.choose sid lid) [] fresh] (by simp [Op.isDump])).idle
        have hr : e.runs [.hAddSegment k sid (e.choose sid lid) [] fresh] = (e.hAddSegment k sid (e.choose sid lid) [] fresh).1 := rfl
        rw [hr] at hi
        generalize e.hAddSegment k sid (e.choose sid lid) [] fresh = r at hi
        obtain ⟨e1, r⟩ := r
        cases r with
        | error x => rfl
        | ok l => exact idle_sAdd hi l gs
  cases o with
  | addGrains gs sid lid fresh =>
    show e.addCalls gs sid lid fresh = []
    unfold Enc.addCalls
    cases e.syncOpen with
    | some k => exact hh k gs sid lid fresh
    | none =>
      simp only
      cases (e.choose sid lid).filter e.hasSeg with
      | some l => exact idle_sAdd h l gs
      | none =>
        simp only
        have hi := (edit_steps h [.addSegment sid (e.choose sid lid) [] fresh] (by simp [Op.isDump])).idle
        have hr : e.runs [.addSegment sid (e.choose sid lid) [] fresh] = (e.addSegment sid (e.choose sid lid) [] fresh).1 := rfl
        rw [hr] at hi
        generalize e.addSegment sid (e.choose sid lid) [] fresh = r at hi
        obtain ⟨e1, r⟩ := r
        cases r with
        | error x => rfl
        | ok l => exact idle_sAdd hi l gs
  | hAddGrains k gs sid lid fresh => exact hh k gs sid lid fresh
  | sAddGrains l gs => exact idle_sAdd h l gs
  | enter => cases ho
  | exit => cases ho
  | aenter => cases ho
  | aexit => cases ho
  | startDump _ => cases ho
  | endDump => cases ho
  | _ => rfl

/-- **C70**, all at once: an encoder made without `streaming` and used in a `with` block writes nothing before the block ends; if the process
dies earlier, the file is what it was. If it dies at the end of the block, the file is still what it was, or what is left is a first part
of a GSF file whose counts are right and that has, for each segment, the grains that were handed over. -/
theorem C70_all_at_once (file : OutFile) (major minor : Nat) (id : Bytes) (created : DateTime)
    (setup during : List Op) (hs : Edits setup) (hd : Edits during)
    (before : List Op) (o : Op) (after : List Op) (hprog : setup ++ .enter :: (during ++ [.exit]) = before ++ o :: after) (n k : Nat) :
    let e0 := Enc.new file major minor id created false
    let left := (o.dies (e0.runs before) n k).bytes
    left = file.bytes ∨ (after = [] ∧ ∃ f m, left = (if file.seekable then [] else file.bytes) ++ f.bytes.take m ∧ CountsRight f ∧
      ∀ l, ofSeg l f.grains = ofSeg l (e0.taken before)) := by
  intro e0 left
  have hb0 : Born e0 := born_new file major minor id created false
  by_cases ha : after = []
  · subst ha
    have hlast : o = .exit ∧ setup ++ .enter :: during = before := by
      have h1 : setup ++ .enter :: (during ++ [.exit]) = (setup ++ .enter :: during) ++ [.exit] := by simp
      rw [h1] at hprog
      obtain ⟨g1, g2⟩ := List.append_inj' hprog rfl
      exact ⟨by simpa using g2.symm, g1⟩
    obtain ⟨rfl, rfl⟩ := hlast
    have hed := edit_steps hb0.idle setup (fun o ho => (hs o ho).1)
    have hb := hb0.edits (fun o ho => (hs o ho).1)
    have hst : (e0.runs setup).streaming = false := hed.frame.streaming
    have hrun : (Op.enter.run (e0.runs setup)).1 = opened (e0.runs setup) := by
      show (e0.runs setup).enter = _
      rw [Props.enter_eq, hst, if_neg (by simp)]
    have hio : Idle (opened (e0.runs setup)) := by
      refine ⟨hb.idle.nodup, ?_⟩
      intro h hh
      simp only [opened, hb.handles, List.nil_append, List.mem_singleton] at hh
      subst hh; rfl
    have hed2 := edit_steps hio during (fun o ho => (hd o ho).1)
    have hfr : Fresh (opened (e0.runs setup)) := hb.fresh
    generalize he2 : (opened (e0.runs setup)).runs during = e2 at hed2
    have hfr2 := hed2.fresh hfr
    have hop : e2.syncOpen = some 0 := by
      rw [hed2.frame.syncOpen]; simp [opened, hb.handles]
    have hk : ∃ n, e2.handles[0]? = some ⟨false, n, false⟩ := by
      have h1 := hed2.frame.kinds
      simp only [opened, hb.handles, List.nil_append, List.map_cons, List.map_nil] at h1
      match hh : e2.handles with
      | [] => rw [hh] at h1; simp at h1
      | [⟨a, n, b⟩] =>
        have hact := hed2.idle.inactive ⟨a, n, b⟩ (by rw [hh]; simp)
        rw [hh] at h1
        simp only [List.map_cons, List.map_nil, List.cons.injEq, and_true] at h1
        simp only at hact
        subst h1; subst hact
        exact ⟨n, rfl⟩
      | _ :: _ :: _ => rw [hh] at h1; simp at h1
    obtain ⟨q, hk⟩ := hk
    have hst2 : e2.streaming = false := hed2.frame.streaming.trans hst
    have hfile2 : e2.file = file := hed2.file.trans hed.file
    have hruns : e0.runs (setup ++ .enter :: during) = e2 := by
      rw [runs_append]
      show ((Op.enter.run (e0.runs setup)).1).runs during = _
      rw [hrun, he2]
    have htaken : ∀ l, ofSeg l (plainSpec e2 true []).grains = ofSeg l (e0.taken (setup ++ .enter :: during)) := by
      intro l
      show ofSeg l (e2.pending ++ []) = _
      rw [List.append_nil, taken_append, ofSeg_append]
      unfold Enc.pending
      rw [ofSeg_pending, hed2.pend]
      show pend (e0.runs setup).segs l ++ _ = _
      rw [hed.pend]
      show ([] ++ ofSeg l (e0.taken setup)) ++ _ = _ ++ ofSeg l (Op.enter.takes _ ++ (Op.enter.run _).1.taken _)
      rw [hrun, List.nil_append, ofSeg_append]
      simp [Op.takes, Op.run, ofSeg]
    have hcr := plainSpec_counts hed2.idle.nodup (fun s hs => (hfr2 s hs).1)
    have hl := start_live true hop hk
    have hleft : left = (e2.file.die (e2.startCalls true ++ [.write terminator]) n k).bytes := by
      show (Op.exit.dies (e0.runs (setup ++ .enter :: during)) n k).bytes = _
      rw [hruns]
      unfold Op.dies
      have hpc : (e2.start 0 true).finishCalls 0 = [.write terminator] := by
        obtain ⟨q', hk'⟩ := hl.handle
        have hnone : ∀ s ∈ (e2.start 0 true).segs, s.countPos = none := by
          rw [start_eq]
          intro s hs
          obtain ⟨t, ht, p, rfl, hp⟩ := startSegs_mem hs
          exact (hp rfl).trans ((hfr2 t ht).2.1)
        unfold Enc.finishCalls
        have : ∀ (b : Bool) (p : Nat) (segs : List Seg), (∀ s ∈ segs, s.countPos = none) → patchCalls b p segs = [] := by
          intro b p segs hsegs
          induction segs with
          | nil => rfl
          | cons s ss ih =>
            rw [patchCalls, hsegs s (by simp)]
            exact ih (fun t ht => hsegs t (by simp [ht]))
        rw [this _ _ _ hnone]
        simp only [hk', Option.map_some, Option.getD_some, if_true, List.nil_append]
      simp only [Op.calls, hop, hst2, Bool.false_eq_true, if_false, hpc]
    rw [hleft, die_append]
    have hspec : (plainSpec e2 true []).bytes = (encodeFileHeader e2.major e2.minor ++ encodeHead (e2.headIn true) ++ e2.pendingBytes) ++ terminator := by
      unfold FileSpec.bytes plainSpec
      simp only [Enc.pendingBytes_eq, List.append_nil, List.append_assoc]
    split
    · rcases start_die e2 true n k with h | ⟨m, h⟩
      · left
        rw [h, hfile2]
      · right
        refine ⟨rfl, plainSpec e2 true [], min m (encodeFileHeader e2.major e2.minor ++ encodeHead (e2.headIn true) ++ e2.pendingBytes).length,
          ?_, hcr, htaken⟩
        rw [h, List.take_eq_take_min, hspec, List.take_append_of_le_length (Nat.min_le_right _ _), base, hfile2]
    · right
      rw [← startCalls_file e2 0 true]
      obtain ⟨m, g1, g2⟩ := terminator_die (e2.start 0 true).file hl.atEnd (n - (e2.startCalls true).length) k
      refine ⟨rfl, plainSpec e2 true [], (encodeFileHeader e2.major e2.minor ++ encodeHead (e2.headIn true) ++ e2.pendingBytes).length + m,
        ?_, hcr, htaken⟩
      rw [g2, live_bytes hl, hspec, List.take_length_add_append, base, hfile2, Enc.pendingBytes_eq, List.append_nil]
      simp only [List.append_assoc]
  · left
    obtain ⟨as, x, hax⟩ : ∃ as x, after = as ++ [x] := ⟨after.dropLast, after.getLast ha, (List.dropLast_append_getLast ha).symm⟩
    subst hax
    have hp2 : setup ++ .enter :: during = before ++ o :: as := by
      have h1 : setup ++ .enter :: (during ++ [.exit]) = (setup ++ .enter :: during) ++ [.exit] := by simp
      have h2 : before ++ o :: (as ++ [x]) = (before ++ o :: as) ++ [x] := by simp
      rw [h1, h2] at hprog
      exact (List.append_inj' hprog rfl).1
    -- every state before the end of the block is idle and has the file as it was
    have key : ∀ (p : List Op) (e : Enc), (∀ y ∈ p, y.isDump = false ∨ y = .enter) → Idle e → e.streaming = false →
        Idle (e.runs p) ∧ (e.runs p).streaming = false ∧ (e.runs p).file = e.file := by
      intro p
      induction p with
      | nil => exact fun e _ h1 h2 => ⟨h1, h2, rfl⟩
      | cons y p ih =>
        intro e hy h1 h2
        have hstep : Idle (y.run e).1 ∧ (y.run e).1.streaming = false ∧ (y.run e).1.file = e.file := by
          rcases hy y (by simp) with hy | rfl
          · have := edit_steps h1 [y] (by simpa using hy)
            exact ⟨this.idle, this.frame.streaming.trans h2, this.file⟩
          · have : (Op.enter.run e).1 = opened e := by
              show e.enter = _
              rw [Props.enter_eq, h2, if_neg (by simp)]
            rw [this]
            refine ⟨⟨h1.nodup, ?_⟩, h2, rfl⟩
            intro h hh
            simp only [opened, List.mem_append, List.mem_singleton] at hh
            rcases hh with hh | rfl
            · exact h1.inactive h hh
            · rfl
        obtain ⟨i1, i2, i3⟩ := ih (y.run e).1 (fun z hz => hy z (by simp [hz])) hstep.1 hstep.2.1
        exact ⟨i1, i2, i3.trans hstep.2.2⟩
    have hall : ∀ y ∈ setup ++ Op.enter :: during, y.isDump = false ∨ y = .enter := by
      intro y hy
      simp only [List.mem_append, List.mem_cons] at hy
      rcases hy with hy | rfl | hy
      · exact .inl (hs y hy).1
      · exact .inr rfl
      · exact .inl (hd y hy).1
    rw [hp2] at hall
    obtain ⟨i1, i2, i3⟩ := key before e0 (fun y hy => hall y (by simp [hy])) hb0.idle rfl
    have hoc : o.calls (e0.runs before) = [] := by
      rcases hall o (by simp) with ho | rfl
      · exact idle_writes i1 o ho
      · simp only [Op.calls, i2, Bool.false_eq_true, if_false]
    show ((e0.runs before).file.die (o.calls (e0.runs before)) n k).bytes = _
    rw [hoc, i3]
    rfl

/-- The lists of calls of `Gsf/Crash` do to the file what the operations of `Gsf/Encoder` do. -/
theorem C70_calls (e : Enc) (o : Op) : (o.run e).1.file = e.file.doAll (o.calls e) := calls_file e o

/-! ### Failed writes -/

/-- A streaming dump to which one grain was added. -/
def demoOpen : Enc :=
  (Enc.new ⟨true, [], 0⟩ 9 0 (u 9) ⟨2024, 2, 29, 23, 59, 59⟩ true).runs
    [.addSegment (some (u 7)) (some 3) [] (u 0), .enter, .addGrains [gAudio] none none (u 0)]

/-- The file if the write of a second grain raises after `k` bytes, a third grain is added, and the dump is ended. -/
def failedFile (k : Nat) : Bytes := ((demoOpen.failGrain 3 gAudio k).runs [.addGrains [gCoded] none none (u 0), .exit]).file.bytes

/-- The number of grains read from a file, and the counts in its head. -/
def readCounts (b : Bytes) : Option (Nat × List Int) :=
  (decodeFile {} b).toOption.map (fun r => ((r.view b).length, r.hdr.head.segments.map Segm.count))

/-- A program that goes on after a failed write gets a wrong file: the grain that could not be written is counted although no byte of it is
there; and if a part of it was written, the next grain, whose call succeeded, is swallowed by the block of that part and lost. In a normally
ended dump the count then says three, and one grain is read. -/
theorem C70_failed_write_counterexample :
    readCounts (failedFile 0) = some (2, [3]) ∧ readCounts (failedFile 10) = some (1, [3]) ∧ readCounts (failedFile 120) = some (3, [3]) := by
  decide +kernel

/-! ## Examples -/

/-- The encoder of `demoSetup`, on a file with old contents. -/
def crashEnc : Enc := (Enc.new ⟨true, [1, 2, 3], 2⟩ 9 0 (u 9) ⟨2024, 2, 29, 23, 59, 59⟩ true).runs demoSetup

/-- The hypotheses of `C70_streaming` and `C70_survives` for a crash in the second of the calls that add grains. -/
example : Born crashEnc ∧ StreamPair crashEnc.streaming .enter .exit ∧ Edits demoDuring ∧
    .enter :: (demoDuring ++ [.exit]) = [.enter, .hAddGrains 0 [gAudio, gEmpty] none (some 4) (u 0)] ++
      .addGrains [gCoded] (some (u 7)) none (u 0) :: (demoDuring.drop 2 ++ [.exit]) ∧
    Fits crashEnc (handed crashEnc [.enter, .hAddGrains 0 [gAudio, gEmpty] none (some 4) (u 0), .addGrains [gCoded] (some (u 7)) none (u 0)]) ∧
    handed crashEnc [.enter, .hAddGrains 0 [gAudio, gEmpty] none (some 4) (u 0)] = [(3, gVideo), (4, gAudio), (4, gEmpty)] := by
  refine ⟨(born_new ..).edits (fun o ho => (edits_of (ops := demoSetup) (by decide) o ho).1), .inr ⟨by decide +kernel, rfl, rfl⟩,
    edits_of (by decide), rfl, ⟨by decide +kernel, by decide +kernel⟩, by decide +kernel⟩

/-- The number of grains read and the counts in the head, if the process dies in a call of this program. -/
def crashCounts (before : List Op) (o : Op) (n k : Nat) : Option (Nat × List Int) :=
  readCounts ((o.dies (crashEnc.runs before) n k).bytes)

/-- Dying in the middle of a grain, between the two counts, in the middle of a count, before the terminator; and while the dump is
started, before and after the old contents are gone. -/
example :
    crashCounts [.enter] (.hAddGrains 0 [gAudio, gEmpty] none (some 4) (u 0)) 1 40 = some (2, [-1, -1]) ∧
    crashCounts (.enter :: demoDuring) .exit 3 0 = some (5, [2, -1]) ∧
    crashCounts (.enter :: demoDuring) .exit 4 5 = some (5, [2, -1099511627773]) ∧
    crashCounts (.enter :: demoDuring) .exit 6 3 = some (5, [2, 3]) ∧
    (Op.enter.dies crashEnc 1 0).bytes = [1, 2, 3] ∧ (Op.enter.dies crashEnc 2 0).bytes = [] := by
  decide +kernel

/-- The hypotheses of `C70_all_at_once` for a crash at the end of the block, and what is left after 600 bytes. -/
example : demoSetup ++ .enter :: (demoDuring ++ [.exit]) = (demoSetup ++ .enter :: demoDuring) ++ .exit :: [] ∧
    (Op.exit.dies ((Enc.new ⟨true, [1, 2, 3], 2⟩ 9 0 (u 9) ⟨2024, 2, 29, 23, 59, 59⟩ false).runs (demoSetup ++ .enter :: demoDuring)) 2 600).bytes.length = 600 := by
  decide +kernel

end Verif.Props

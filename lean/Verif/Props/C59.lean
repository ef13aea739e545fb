import Verif.Wrap.Probe
import Verif.Props.C53

/-!
# C59: what `gsf_probe` reports

For every segment of the head: the smallest range of times that has the times of all its grains in it, the first grain or all
grains, and the timestamps of all grains in order. A grain of a segment that is not in the (first) head makes the tool fail.
-/

namespace Verif.Props

open Verif Verif.Gsf Verif.Tools Verif.Times

/-! ## Specification -/

/-- `t` is the smallest range that has all of `rs` in it: whatever range has `t` in it has all of `rs` in it, and the other way
round. -/
def Spans (t : Range) (rs : List Range) : Prop :=
  ∀ u : Range, (∀ x, t.has x → u.has x) ↔ ∀ r ∈ rs, ∀ x, r.has x → u.has x

/-- What is to be reported on a segment with the grains `ms`, whose times are `rs`. -/
structure Reported (o : POpts) (s : Segm) (ms : List Meta) (rs : List Range) (rep : Report) : Prop where
  segm : rep.segm = s
  timerange : match rep.timerange with
    | none => ms = []
    | some t => ms ≠ [] ∧ Spans t rs
  grains : rep.first = (if o.allGrains then none else ms.head?) ∧ rep.all = (if o.allGrains then ms else [])
  stamps : rep.stamps = if o.allTimestamps then ms.map (fun m => (m.origin, m.sync)) else []

/-- A grain the tool can deal with: the data of an event is what an event grain has as its data, and audio has a sample rate. -/
def Probeable (g : Grain) : Prop :=
  match g.body with
  | .event => Extractable g
  | .audio a => a.sampleRate ≠ 0
  | .codedAudio a => a.sampleRate ≠ 0
  | _ => True

end Verif.Props

namespace Verif.Props.Probe

open Verif Verif.Gsf Verif.Tools Verif.Times

/-! ## Ranges -/

theorem hull_spans (a b : Range) : Spans (hull a b) [a, b] := by
  intro u
  unfold hull
  simp only [List.mem_cons, List.not_mem_nil, or_false, forall_eq_or_imp, forall_eq]
  unfold Range.has
  split
  · rename_i h
    exact ⟨fun k => ⟨fun x hx => by omega, k⟩, fun k => k.2⟩
  · split
    · rename_i h1 h2
      exact ⟨fun k => ⟨k, fun x hx => by omega⟩, fun k => k.1⟩
    · rename_i h1 h2
      constructor
      · intro k
        have k1 := k (min a.start b.start) (by simp only []; omega)
        have k2 := k (max a.stop b.stop) (by simp only []; omega)
        exact ⟨fun x hx => by omega, fun x hx => by omega⟩
      · rintro ⟨k1, k2⟩ x hx
        have a1 := k1 a.start (by omega)
        have a2 := k1 a.stop (by omega)
        have b1 := k2 b.start (by omega)
        have b2 := k2 b.stop (by omega)
        simp only [] at hx
        omega

theorem spans_one (a : Range) : Spans a [a] := by
  intro u
  simp

theorem spans_snoc {t r : Range} {rs : List Range} (h : Spans t rs) : Spans (hull t r) (rs ++ [r]) := by
  intro u
  rw [hull_spans t r u]
  simp only [List.mem_cons, List.not_mem_nil, or_false, forall_eq_or_imp, forall_eq, List.mem_append]
  rw [h u]
  constructor
  · rintro ⟨k1, k2⟩ x (hx | rfl)
    · exact k1 x hx
    · exact k2
  · intro k
    exact ⟨fun x hx => k x (.inl hx), k r (.inr rfl)⟩

/-! ## The loop -/

/-- What a round does to the report of its segment. -/
def upd (o : POpts) (rep : Report) (x : Meta × Range) : Report :=
  let rep1 := if o.allGrains then { rep with all := rep.all ++ [x.1] } else rep
  let rep2 := match rep1.timerange with
    | some t => { rep1 with timerange := some (hull t x.2) }
    | none => { rep1 with timerange := some x.2, first := if o.allGrains then none else some x.1 }
  if o.allTimestamps then { rep2 with stamps := rep2.stamps ++ [(x.1.origin, x.1.sync)] } else rep2

/-- The range of a grain, for grains that have one. -/
def rangeOf (L : TimeLib) (m : Meta) : Range := (originRange L (timesOf m)).getD ⟨0, 0⟩

theorem step_eq {L : TimeLib} {o : POpts} {d : Reports} {x : Meta × Option Bytes × Nat} (hm : makes x.1.grainType x.2.1 = true)
    (hr : (originRange L (timesOf x.1)).isSome) {rep : Report} (hd : d x.2.2 = some rep) :
    probeStep L o d x = some (fun i => if i = x.2.2 then some (upd o rep (x.1, rangeOf L x.1)) else d i) := by
  obtain ⟨r, hr⟩ := Option.isSome_iff_exists.mp hr
  unfold probeStep
  rw [if_neg (by rw [hm]; simp), hd]
  simp only [hr]
  unfold rangeOf
  rw [hr]
  rfl

theorem loop_eq (L : TimeLib) (o : POpts) :
    ∀ (xs : List (Meta × Option Bytes × Nat)) (d : Reports),
      (∀ x ∈ xs, makes x.1.grainType x.2.1 = true ∧ (originRange L (timesOf x.1)).isSome ∧ (d x.2.2).isSome) →
      ∃ d', probeLoop L o d xs = some d' ∧ ∀ i, d' i = (d i).map (fun rep =>
        ((xs.filter (fun x => x.2.2 = i)).map (fun x => (x.1, rangeOf L x.1))).foldl (upd o) rep) := by
  intro xs
  induction xs with
  | nil => intro d _; exact ⟨d, rfl, fun i => by simp⟩
  | cons x xs ih =>
    intro d h
    obtain ⟨h1, h2, h3⟩ := h x (List.mem_cons_self ..)
    obtain ⟨rep, hd⟩ := Option.isSome_iff_exists.mp h3
    unfold probeLoop
    rw [step_eq h1 h2 hd]
    simp only [Option.bind_some]
    obtain ⟨d', e1, e2⟩ := ih (fun i => if i = x.2.2 then some (upd o rep (x.1, rangeOf L x.1)) else d i) (by
      intro y hy
      obtain ⟨a, b, c⟩ := h y (List.mem_cons_of_mem _ hy)
      refine ⟨a, b, ?_⟩
      split
      · rfl
      · exact c)
    refine ⟨d', e1, ?_⟩
    intro i
    rw [e2 i]
    by_cases hi : i = x.2.2
    · subst hi
      rw [if_pos rfl, hd]
      simp
    · rw [if_neg hi, List.filter_cons_of_neg (by simp only [decide_eq_true_eq]; exact fun e => hi e.symm)]

/-- An id that is not there ends the loop. -/
theorem loop_none (L : TimeLib) (o : POpts) :
    ∀ (xs : List (Meta × Option Bytes × Nat)) (d : Reports) (x : Meta × Option Bytes × Nat), x ∈ xs → d x.2.2 = none →
      probeLoop L o d xs = none := by
  intro xs
  induction xs with
  | nil => intro d x hx; cases hx
  | cons y xs ih =>
    intro d x hx hd
    unfold probeLoop
    cases hs : probeStep L o d y with
    | none => rfl
    | some d' =>
      simp only [Option.bind_some]
      have hy : d y.2.2 ≠ none := by
        intro hn
        unfold probeStep at hs
        split at hs
        · cases hs
        · rw [hn] at hs; cases hs
      rcases List.mem_cons.mp hx with rfl | hx
      · exact absurd hd hy
      · refine ih d' x hx ?_
        have hne : x.2.2 ≠ y.2.2 := fun e => hy (e ▸ hd)
        unfold probeStep at hs
        split at hs
        · cases hs
        · cases hdy : d y.2.2 with
          | none => exact absurd hdy hy
          | some rep =>
            rw [hdy] at hs
            simp only [] at hs
            cases hor : originRange L (timesOf y.1) with
            | none => rw [hor] at hs; cases hs
            | some r =>
              rw [hor] at hs
              simp only [Option.some.injEq] at hs
              rw [← hs]
              simp only [if_neg hne, hd]

/-- Reports grow grain by grain. -/
theorem reported_snoc {o : POpts} {s : Segm} {ms : List Meta} {rs : List Range} {rep : Report} (h : Reported o s ms rs rep)
    (hl : ms = [] → rs = []) (x : Meta × Range) : Reported o s (ms ++ [x.1]) (rs ++ [x.2]) (upd o rep x) := by
  obtain ⟨h1, h2, ⟨h3, h4⟩, h5⟩ := h
  cases ht : rep.timerange with
  | none =>
    rw [ht] at h2
    simp only [] at h2
    have hrs := hl h2
    subst h2 hrs
    cases ha : o.allGrains <;> cases hs : o.allTimestamps <;>
      simp only [ha, hs, Bool.false_eq_true, if_false, if_true, List.head?_nil, List.map_nil] at h3 h4 h5 <;>
      refine ⟨?_, ?_, ⟨?_, ?_⟩, ?_⟩ <;> simp [upd, ha, hs, ht, h1, h3, h4, h5] <;> exact spans_one _
  | some t =>
    rw [ht] at h2
    obtain ⟨hne, hsp⟩ := h2
    have hhd : (ms ++ [x.1]).head? = ms.head? := by
      cases ms with
      | nil => exact absurd rfl hne
      | cons m ms => rfl
    cases ha : o.allGrains <;> cases hs : o.allTimestamps <;>
      simp only [ha, hs, Bool.false_eq_true, if_false, if_true] at h3 h4 h5 <;>
      refine ⟨?_, ?_, ⟨?_, ?_⟩, ?_⟩ <;> simp [upd, ha, hs, ht, h1, h3, h4, h5, hhd] <;> exact spans_snoc hsp

theorem reported_all (o : POpts) (s : Segm) :
    ∀ (xs : List (Meta × Range)) (ms : List Meta) (rs : List Range) (rep : Report), Reported o s ms rs rep → (ms = [] → rs = []) →
      Reported o s (ms ++ xs.map Prod.fst) (rs ++ xs.map Prod.snd) (xs.foldl (upd o) rep) := by
  intro xs
  induction xs with
  | nil => intro ms rs rep h _; simpa using h
  | cons x xs ih =>
    intro ms rs rep h hl
    have := ih (ms ++ [x.1]) (rs ++ [x.2]) (upd o rep x) (reported_snoc h hl x) (by simp)
    simpa using this

/-! ## The head -/

theorem report_start (segs : List Segm) (i : Nat) :
    Reports.start segs i = (segs.reverse.find? (fun s => s.localId = i)).map (fun s => ⟨s, none, none, [], []⟩) := by
  have gen : ∀ (l : List Segm) (d : Reports),
      l.foldl (fun (d : Reports) s => fun i => if i = s.localId then some ⟨s, none, none, [], []⟩ else d i) d i =
        match (l.reverse.find? (fun s => s.localId = i)) with
        | some s => some ⟨s, none, none, [], []⟩
        | none => d i := by
    intro l
    induction l with
    | nil => intro d; rfl
    | cons s l ih =>
      intro d
      rw [List.foldl_cons, ih, List.reverse_cons, List.find?_append]
      cases l.reverse.find? (fun s => decide (s.localId = i)) with
      | some s' => rfl
      | none =>
        simp only [Option.none_or, List.find?_singleton]
        by_cases h : s.localId = i
        · simp [h]
        · have h' : ¬ i = s.localId := fun e => h e.symm
          simp [h, h']
  unfold Reports.start
  rw [gen]
  cases segs.reverse.find? (fun s => decide (s.localId = i)) with
  | some s => rfl
  | none => rfl

theorem headers_eq {f : FileSpec} {bs : Bytes} (hf : f.Ok) (hd : DecoFile f bs) (rest : Bytes) :
    ∃ p, decodeFileHeaders false ⟨0, bs ++ rest⟩ 0 = .ok (f.hdr, p) := by
  have hat : At ⟨0, bs ++ rest⟩ 0 (bs ++ rest) := at_self _ _
  obtain ⟨pre, hb, gb, post, hpre, hhd, hgb, hpost, hbs⟩ := hd
  have hat1 := hat.left
  rw [hbs, ← List.append_assoc] at hat1
  rw [hbs, ← List.append_assoc]
  exact ⟨_, fileHeaders_read hf.major hf.minor hf.head hhd hpre _ _ hat1.left⟩

theorem makes_ok (major : Nat) (g : Grain) (h : Probeable g) : makes (g.toMeta major).grainType g.payload = true := by
  unfold Probeable at h
  cases hb : g.body with
  | empty => rw [Extract.type_empty major g hb]; rfl
  | event =>
    rw [hb] at h
    have ht : (g.toMeta major).grainType = some .event := by unfold Grain.toMeta; rw [hb]; rfl
    have hw := Extract.written major g h
    rw [ht] at hw
    rw [ht]
    unfold makes
    rw [hw]
    rfl
  | video v =>
    have ht : (g.toMeta major).grainType = some .video := by unfold Grain.toMeta; rw [hb]; rfl
    rw [ht]; rfl
  | codedVideo v =>
    have ht : (g.toMeta major).grainType = some .codedVideo := by unfold Grain.toMeta; rw [hb]; rfl
    rw [ht]; rfl
  | audio v =>
    have ht : (g.toMeta major).grainType = some .audio := by unfold Grain.toMeta; rw [hb]; rfl
    rw [ht]; rfl
  | codedAudio v =>
    have ht : (g.toMeta major).grainType = some .codedAudio := by unfold Grain.toMeta; rw [hb]; rfl
    rw [ht]; rfl

theorem count_some (L : TimeLib) (n : Nat) (hn : n ≠ 0) (c : Int) : (L.count (n : Rat) c).isSome := by
  unfold TimeLib.count
  rw [if_pos]
  · rfl
  · show 0 < ((n : Rat)).num
    rw [Rat.num_natCast]
    omega

theorem range_ok (L : TimeLib) (major : Nat) (g : Grain) (h : Probeable g) : (originRange L (timesOf (g.toMeta major))).isSome := by
  unfold Probeable at h
  unfold originRange finalOrigin
  have hb0 : ∀ m : Meta, m.grainType = (g.toMeta major).grainType → m.cogAudio = (g.toMeta major).cogAudio → True := fun _ _ _ => trivial
  cases hb : g.body with
  | empty =>
    have ht := Extract.type_empty major g hb
    unfold timesOf
    rw [ht]
    rfl
  | event =>
    have ht : (g.toMeta major).grainType = some .event := by unfold Grain.toMeta; rw [hb]; rfl
    unfold timesOf
    rw [ht]
    rfl
  | video v =>
    have ht : (g.toMeta major).grainType = some .video := by unfold Grain.toMeta; rw [hb]; rfl
    unfold timesOf
    rw [ht]
    rfl
  | codedVideo v =>
    have ht : (g.toMeta major).grainType = some .codedVideo := by unfold Grain.toMeta; rw [hb]; rfl
    unfold timesOf
    rw [ht]
    rfl
  | audio v =>
    rw [hb] at h
    have ht : (g.toMeta major).grainType = some .audio := by unfold Grain.toMeta; rw [hb]; rfl
    have hc : (g.toMeta major).cogAudio = some v := by unfold Grain.toMeta; rw [hb]; rfl
    unfold timesOf
    rw [ht, hc]
    simp only [Option.isSome_map]
    exact count_some L _ h _
  | codedAudio v =>
    rw [hb] at h
    have ht : (g.toMeta major).grainType = some .codedAudio := by unfold Grain.toMeta; rw [hb]; rfl
    have hc : (g.toMeta major).cogCodedAudio = some v := by unfold Grain.toMeta; rw [hb]; rfl
    unfold timesOf
    rw [ht, hc]
    simp only [Option.isSome_map]
    exact count_some L _ h _

end Verif.Props.Probe

namespace Verif.Props

open Verif Verif.Gsf Verif.Tools Verif.Times Verif.Props.Probe

/-- The grains of files one after the other, as a reader sees them, with their ids. -/
def allSeen (fs : List (FileSpec × Bytes)) : List (Meta × Nat) :=
  fs.flatMap (fun x => x.1.grains.map (fun y => (y.2.toMeta x.1.major, y.1)))

/-- The grains with the id `i`. -/
def seenOf (i : Nat) (fs : List (FileSpec × Bytes)) : List Meta := ((allSeen fs).filter (fun x => x.2 = i)).map Prod.fst

/-- The segment reported under an id: the last one in the head that has it. -/
def segmOf (h : Head) (i : Nat) : Option Segm := h.segments.reverse.find? (fun s => s.localId = i)

theorem probe_run (L : TimeLib) (o : POpts) (f : FileSpec) (bs : Bytes) (hf : f.Ok) (hd : DecoFile f bs)
    (fs : List (FileSpec × Bytes)) (hfs : ∀ x ∈ fs, x.1.Ok ∧ DecoFile x.1 x.2) :
    probeFile L o (bs ++ fs.flatMap Prod.snd) = probeLoop L o (Reports.start f.head.toHead.segments)
      (((f, bs) :: fs).flatMap (fun x => x.1.grains.map (probeOpts.viewOf x.1.major))) := by
  obtain ⟨p, hp⟩ := headers_eq hf hd (fs.flatMap Prod.snd)
  obtain ⟨r, k1, k2, _, k4⟩ := decodeFile_concat (o := probeOpts) rfl hf hd hfs
  unfold decodeFile at k1
  rw [hp] at k1
  unfold probeFile
  rw [hp]
  simp only [Except.ok.injEq] at k1 ⊢
  rw [k1, k4, k2]
  have : ∀ l : List (Nat × Grain), l.filter (fun x => !probeOpts.drops x.1) = l := by
    intro l
    apply List.filter_eq_self.mpr
    intro x _
    rfl
  simp only [this]
  rfl

/-- **C59.** What is reported on one or more written files, if all segments are in the head of the first: every segment of the head
has the last entry with its id, the smallest range of times with all its grains in it, its first grain (or all grains) and the
timestamps of all its grains in order. -/
theorem C59_report (L : TimeLib) (o : POpts) (f : FileSpec) (bs : Bytes) (hf : f.Ok) (hd : DecoFile f bs)
    (fs : List (FileSpec × Bytes)) (hfs : ∀ x ∈ fs, x.1.Ok ∧ DecoFile x.1 x.2)
    (hg : ∀ x ∈ (f, bs) :: fs, ∀ y ∈ x.1.grains, Probeable y.2 ∧ ∃ s ∈ f.head.segments, s.toSegm.localId = y.1) :
    ∃ d, probeFile L o (bs ++ fs.flatMap Prod.snd) = some d ∧ ∀ i,
      match segmOf f.head.toHead i with
      | none => d i = none
      | some s => ∃ rep, d i = some rep ∧ Reported o s (seenOf i ((f, bs) :: fs))
          ((seenOf i ((f, bs) :: fs)).filterMap (fun m => originRange L (timesOf m))) rep := by
  rw [probe_run L o f bs hf hd fs hfs]
  obtain ⟨d', e1, e2⟩ := loop_eq L o (((f, bs) :: fs).flatMap (fun x => x.1.grains.map (probeOpts.viewOf x.1.major)))
    (Reports.start f.head.toHead.segments) (by
      intro x hx
      obtain ⟨z, hz, hx⟩ := List.mem_flatMap.mp hx
      obtain ⟨y, hy, rfl⟩ := List.mem_map.mp hx
      obtain ⟨h1, s, hs, h2⟩ := hg z hz y hy
      refine ⟨makes_ok z.1.major y.2 h1, range_ok L z.1.major y.2 h1, ?_⟩
      rw [report_start, Option.isSome_map, List.find?_isSome]
      exact ⟨s.toSegm, List.mem_reverse.mpr (List.mem_map.mpr ⟨s, hs, rfl⟩), decide_eq_true h2⟩)
  refine ⟨d', e1, ?_⟩
  intro i
  have key : ((((f, bs) :: fs).flatMap (fun x => x.1.grains.map (probeOpts.viewOf x.1.major))).filter (fun x => x.2.2 = i)).map
      (fun x => (x.1, rangeOf L x.1)) = (seenOf i ((f, bs) :: fs)).map (fun m => (m, rangeOf L m)) := by
    have : ((f, bs) :: fs).flatMap (fun x => x.1.grains.map (probeOpts.viewOf x.1.major)) =
        ((f, bs) :: fs).flatMap (fun x => x.1.grains.map (fun y => (y.2.toMeta x.1.major, y.2.payload, y.1))) := rfl
    rw [this]
    unfold seenOf allSeen
    generalize (f, bs) :: fs = l
    induction l with
    | nil => rfl
    | cons x l ih =>
      simp only [List.flatMap_cons, List.filter_append, List.map_append, ih, List.filter_map, List.map_map]
      rfl
  have hrange : ∀ m ∈ seenOf i ((f, bs) :: fs), originRange L (timesOf m) = some (rangeOf L m) := by
    intro m hm
    obtain ⟨y, hy, rfl⟩ := List.mem_map.mp hm
    obtain ⟨z, hz, hy⟩ := List.mem_flatMap.mp (List.mem_filter.mp hy).1
    obtain ⟨w, hw, rfl⟩ := List.mem_map.mp hy
    obtain ⟨r, hr⟩ := Option.isSome_iff_exists.mp (range_ok L z.1.major w.2 (hg z hz w hw).1)
    unfold rangeOf
    rw [hr]
    rfl
  have hfm : ∀ l : List Meta, (∀ m ∈ l, originRange L (timesOf m) = some (rangeOf L m)) →
      l.filterMap (fun m => originRange L (timesOf m)) = l.map (rangeOf L) := by
    intro l
    induction l with
    | nil => intro _; rfl
    | cons m l ih =>
      intro h
      rw [List.filterMap_cons, h m (List.mem_cons_self ..), ih (fun x hx => h x (List.mem_cons_of_mem _ hx))]
      rfl
  rw [e2 i, key, report_start, hfm _ hrange]
  unfold segmOf
  cases f.head.toHead.segments.reverse.find? (fun s => decide (s.localId = i)) with
  | none => rfl
  | some s =>
    refine ⟨_, rfl, ?_⟩
    have := reported_all o s ((seenOf i ((f, bs) :: fs)).map (fun m => (m, rangeOf L m))) [] [] ⟨s, none, none, [], []⟩
      ⟨rfl, rfl, ⟨by cases o.allGrains <;> rfl, by cases o.allGrains <;> rfl⟩, by cases o.allTimestamps <;> rfl⟩ (fun _ => rfl)
    simpa [Function.comp_def] using this

/-- **C59**, one file as the encoder writes it. -/
theorem C59_one_file (L : TimeLib) (o : POpts) (f : FileSpec) (hf : f.Ok)
    (hg : ∀ y ∈ f.grains, Probeable y.2 ∧ ∃ s ∈ f.head.segments, s.toSegm.localId = y.1) :
    ∃ d, probeFile L o f.bytes = some d ∧ ∀ i,
      match segmOf f.head.toHead i with
      | none => d i = none
      | some s => ∃ rep, d i = some rep ∧ Reported o s (seenOf i [(f, f.bytes)])
          ((seenOf i [(f, f.bytes)]).filterMap (fun m => originRange L (timesOf m))) rep := by
  have := C59_report L o f f.bytes hf (decoFile_self hf) [] (by simp) (by
    intro x hx
    rw [List.mem_singleton] at hx
    subst hx
    exact hg)
  simpa using this

/-- A grain of a segment that is not in the head of the first file: the tool fails and reports nothing. That is so for files one after the
other that have different segments, which the decoder reads. -/
theorem C59_undeclared (L : TimeLib) (o : POpts) (f : FileSpec) (bs : Bytes) (hf : f.Ok) (hd : DecoFile f bs)
    (fs : List (FileSpec × Bytes)) (hfs : ∀ x ∈ fs, x.1.Ok ∧ DecoFile x.1 x.2) (x : FileSpec × Bytes) (hx : x ∈ (f, bs) :: fs)
    (y : Nat × Grain) (hy : y ∈ x.1.grains) (hn : ∀ s ∈ f.head.segments, s.toSegm.localId ≠ y.1) :
    probeFile L o (bs ++ fs.flatMap Prod.snd) = none := by
  rw [probe_run L o f bs hf hd fs hfs]
  refine loop_none L o _ _ (probeOpts.viewOf x.1.major y) (List.mem_flatMap.mpr ⟨x, hx, List.mem_map_of_mem hy⟩) ?_
  show Reports.start _ y.1 = none
  rw [report_start, Option.map_eq_none_iff, List.find?_eq_none]
  intro s hs
  obtain ⟨s', hs', rfl⟩ := List.mem_map.mp (List.mem_reverse.mp hs)
  simpa using hn s' hs'

/-- A file with two segments meets the hypotheses; its report with the library as it is documented. -/
example : twoSegments.Ok ∧ (∀ y ∈ twoSegments.grains, Probeable y.2 ∧ ∃ s ∈ twoSegments.head.segments, s.toSegm.localId = y.1) ∧
    (probeFile floorLib ⟨true, false⟩ twoSegments.bytes).map (fun d => (d 1).map (fun r => (r.timerange, r.stamps))) =
      some (some (some ⟨-1500000000, 7⟩, [(-1500000000, 281474976710655999999999), (7, 8)])) ∧
    (probeFile floorLib ⟨false, true⟩ twoSegments.bytes).map (fun d => (d 300).map (fun r => (r.timerange, r.all.length, r.first))) =
      some (some (some ⟨7, 39979173⟩, 1, none)) ∧
    (probeFile floorLib ⟨false, true⟩ twoSegments.bytes).map (fun d => d 2) = some none := by
  refine ⟨by decide +kernel, ?_, by decide +kernel, by decide +kernel, by decide +kernel⟩
  intro y hy
  simp only [twoSegments, List.mem_cons, List.not_mem_nil, or_false] at hy
  rcases hy with rfl | rfl | rfl
  · exact ⟨trivial, _, List.mem_cons_self .., rfl⟩
  · exact ⟨by show (48000 : Nat) ≠ 0; decide, _, List.mem_cons_of_mem _ (List.mem_cons_self ..), rfl⟩
  · exact ⟨trivial, _, List.mem_cons_self .., rfl⟩

/-- **C59 fails** for two files one after the other, the second with another segment: the decoder gives the grains of both, the tool ends with
`KeyError` and reports nothing. -/
theorem C59_concat_counterexample : ∃ (f g : FileSpec), f.Ok ∧ g.Ok ∧ (probeFile floorLib ⟨false, false⟩ f.bytes).isSome
    ∧ (probeFile floorLib ⟨false, false⟩ g.bytes).isSome
    ∧ ((decodeFile probeOpts (f.bytes ++ g.bytes)).toOption.map (fun r => r.items.length)) = some 4
    ∧ (probeFile floorLib ⟨false, false⟩ (f.bytes ++ g.bytes)).isNone :=
  ⟨twoSegments, ⟨9, 0, { sampleHead with segments := [⟨2, u 10, 1, none, []⟩] }, [(2, gVideo)]⟩, by decide +kernel, by decide +kernel,
    by decide +kernel, by decide +kernel, by decide +kernel, by decide +kernel⟩

/-- Audio without a sample rate makes the tool fail. -/
theorem C59_no_rate_counterexample : ∃ f : FileSpec, f.Ok ∧ f.grains.length = 1 ∧ (probeFile floorLib ⟨false, false⟩ f.bytes).isNone :=
  ⟨⟨9, 0, sampleHead, [(1, { gAudio with body := .audio ⟨10, 2, 0, 0⟩ })]⟩, by decide +kernel, rfl, by decide +kernel⟩

end Verif.Props

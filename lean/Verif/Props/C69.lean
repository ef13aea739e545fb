import Verif.Gsf.Concurrent
import Verif.Props.C12

/-!
# C69: several tasks may add grains to one open asynchronous encoder
-/

namespace Verif.Gsf.Conc

open Verif Verif.Gsf Verif.Props

/-! ## Specification -/

/-- The grains that a task hands over, with the segment they are for: that named by its arguments. If there is none the call raises. -/
def given (e : Enc) (t : Task) : List (Nat × Grain) :=
  match (e.choose t.sid t.lid).filter e.hasSeg with
  | some l => t.grains.map (fun g => (l, g))
  | none => []

/-- The part of a merged list that belongs to task `i`. -/
def part (i : Nat) (l : List (Nat × Nat × Grain)) : List (Nat × Grain) := (l.filter (fun x => x.1 == i)).map Prod.snd

/-- The schedule does not begin to leave, and cancels nothing. -/
def Act.isAdd : Act → Bool
  | .run _ | .exec _ => true
  | _ => false

/-- The schedule does not begin to leave. -/
def Act.isStay : Act → Bool
  | .leave | .leaveExec => false
  | _ => true

namespace C69

/-! ## Lists -/

theorem part_append (i : Nat) (a b) : part i (a ++ b) = part i a ++ part i b := by simp [part]

theorem part_self (i : Nat) (x : Nat × Grain) : part i [(i, x)] = [x] := by simp [part]

theorem part_other {i j : Nat} (h : j ≠ i) (x : Nat × Grain) : part i [(j, x)] = [] := by simp [part, h]

/-- Lists with the same parts have the same elements. -/
theorem perm_of_parts {a b : List (Nat × Nat × Grain)} (h : ∀ i, part i a = part i b) : a.Perm b := by
  rw [List.perm_iff_count]
  rintro ⟨i, x⟩
  have key : ∀ l : List (Nat × Nat × Grain), l.count (i, x) = (part i l).count x := by
    intro l
    induction l with
    | nil => rfl
    | cons y l ih =>
      obtain ⟨j, y⟩ := y
      rw [List.count_cons, ih]
      by_cases hj : j = i
      · subst hj
        have : part j ((j, y) :: l) = y :: part j l := by simp [part]
        rw [this, List.count_cons]
        by_cases hy : y = x
        · simp [hy]
        · have : ((j, y) == (j, x)) = false := by simp [hy]
          simp [this, hy]
      · have : part i ((j, y) :: l) = part i l := by simp [part, hj]
        rw [this]
        have : ((j, y) == (i, x)) = false := by simp [hj]
        simp [this]
  rw [key, key, h i]

theorem ofSeg_perm {a b : List (Nat × Grain)} (h : a.Perm b) (l : Nat) : (ofSeg l a).length = (ofSeg l b).length := by
  unfold ofSeg
  rw [List.length_map, List.length_map]
  exact (h.filter _).length_eq

/-! ## What holds while the tasks run -/

/-- `c` are the grains encoded so far, `w` those written, `d` those whose write was dropped, of one task. -/
def TaskInv (e : Enc) (t0 t : Task) (c w d : List (Nat × Grain)) : Prop :=
  t.grains = t0.grains ∧ t.sid = t0.sid ∧ t.lid = t0.lid ∧
  match t.pc with
  | .fresh => c = [] ∧ w = [] ∧ d = []
  | .loop l todo p => (e.choose t0.sid t0.lid).filter e.hasSeg = some l ∧ given e t0 = c ++ todo.map (fun g => (l, g)) ∧
      c = w ++ p.toList.map (fun g => (l, g)) ∧ d = []
  | .ended => c = given e t0 ∧ w = c ∧ d = []
  | .cancelled p => c <+: given e t0 ∧ c = w ++ d ++ p.toList ∧ (p.isSome → d = [])

structure Inv (e : Enc) (k : Nat) (tasks : List Task) (c w d : List (Nat × Nat × Grain)) (s : Sys) : Prop where
  major : s.enc.major = e.major
  handles : s.enc.handles = e.handles
  k : s.k = k
  segs : s.enc.segs = e.segs.map (Seg.during (c.map Prod.snd) (fun _ => []))
  seekable : s.enc.file.seekable = e.file.seekable
  bytes : s.enc.file.bytes = e.file.bytes ++ (w.map Prod.snd).flatMap (fun x => encodeGrain e.major x.1 x.2)
  atEnd : s.enc.file.AtEnd
  leave : s.leave = .no
  length : s.tasks.length = tasks.length
  task : ∀ i t0 t, tasks[i]? = some t0 → s.tasks[i]? = some t → TaskInv e t0 t (part i c) (part i w) (part i d)
  tags : ∀ i, tasks[i]? = none → part i c = [] ∧ part i w = [] ∧ part i d = []

theorem choose_during {e e' : Enc} {c : List (Nat × Grain)} (h : e'.segs = e.segs.map (Seg.during c (fun _ => []))) (sid lid) :
    (e'.choose sid lid).filter e'.hasSeg = (e.choose sid lid).filter e.hasSeg := by
  have h1 : e'.choose sid lid = e.choose sid lid := by
    unfold Enc.choose
    cases lid with
    | some l => rfl
    | none =>
      simp only [h, List.filter_map, List.map_map]
      rfl
  have h2 : e'.hasSeg = e.hasSeg := by
    funext l
    unfold Enc.hasSeg
    rw [h, List.any_map]
    rfl
  rw [h1, h2]

theorem bump {e e' : Enc} {c : List (Nat × Grain)} (h : e'.segs = e.segs.map (Seg.during c (fun _ => []))) (l : Nat) (g : Grain) :
    (e'.updSeg l (fun s => { s with writeCount := s.writeCount + 1 })).segs =
      e.segs.map (Seg.during (c ++ [(l, g)]) (fun _ => [])) := by
  unfold Enc.updSeg
  simp only [h, List.map_map]
  apply List.map_congr_left
  intro s _
  simp only [Function.comp]
  by_cases hs : s.localId = l
  · have : (Seg.during c (fun _ => []) s).localId = l := hs
    rw [if_pos this]
    subst hs
    simp only [Seg.during, ofSeg_append, List.length_append]
    have : (ofSeg s.localId [(s.localId, g)]).length = 1 := by simp [ofSeg]
    rw [this, Nat.add_assoc]
  · have : ¬ (Seg.during c (fun _ => []) s).localId = l := hs
    rw [if_neg this]
    simp only [Seg.during, ofSeg_append, List.length_append]
    have : (ofSeg s.localId [(l, g)]).length = 0 := by simp [ofSeg, Ne.symm hs]
    rw [this, Nat.add_zero]

/-- An action of task `i` that encodes the grains `c'`, writes `w'` and drops `d'`. -/
theorem Inv.put {e k tasks c w d s} (h : Inv e k tasks c w d s) {i : Nat} {t0 t : Task} (h0 : tasks[i]? = some t0)
    (ht : s.tasks[i]? = some t) (c' w' d' : List (Nat × Grain)) (r : Enc × At)
    (hm : r.1.major = s.enc.major) (hh : r.1.handles = s.enc.handles)
    (hsegs : r.1.segs = e.segs.map (Seg.during (c.map Prod.snd ++ c') (fun _ => [])))
    (hsk : r.1.file.seekable = s.enc.file.seekable)
    (hb : r.1.file.bytes = s.enc.file.bytes ++ w'.flatMap (fun x => encodeGrain e.major x.1 x.2))
    (ha : r.1.file.AtEnd)
    (hi : TaskInv e t0 { t with pc := r.2 } (part i c ++ c') (part i w ++ w') (part i d ++ d')) :
    Inv e k tasks (c ++ c'.map (fun x => (i, x))) (w ++ w'.map (fun x => (i, x))) (d ++ d'.map (fun x => (i, x))) (s.put i t r) := by
  have hsnd : ∀ a : List (Nat × Grain), (a.map (fun x => (i, x))).map Prod.snd = a := by
    intro a; rw [List.map_map]; exact List.map_id _
  have hp : ∀ a : List (Nat × Grain), part i (a.map (fun x => (i, x))) = a := by
    intro a; induction a with
    | nil => rfl
    | cons x a ih => simp only [part, List.map_cons, List.filter_cons, beq_self_eq_true, if_true] at ih ⊢; rw [ih]
  have hq : ∀ (j : Nat) (a : List (Nat × Grain)), i ≠ j → part j (a.map (fun x => (i, x))) = [] := by
    intro j a hj; induction a with
    | nil => rfl
    | cons x a ih =>
      have : (i == j) = false := by simp [hj]
      simp only [part, List.map_cons, List.filter_cons, this] at ih ⊢; exact ih
  refine ⟨hm.trans h.major, hh.trans h.handles, h.k, ?_, hsk.trans h.seekable, ?_, ha, h.leave, ?_, ?_, ?_⟩
  · show r.1.segs = _
    rw [hsegs, List.map_append, hsnd]
  · show r.1.file.bytes = _
    rw [hb, h.bytes, List.map_append, hsnd, List.flatMap_append, List.append_assoc]
  · show (s.tasks.set i _).length = _
    rw [List.length_set]; exact h.length
  · intro j u0 u hj hu
    have hu : (s.tasks.set i { t with pc := r.2 })[j]? = some u := hu
    rw [part_append, part_append, part_append]
    by_cases hij : i = j
    · subst hij
      rw [List.getElem?_set_self (by rw [List.getElem?_eq_some_iff] at ht; exact ht.1)] at hu
      cases hu
      rw [h0] at hj
      cases hj
      rw [hp, hp, hp]
      exact hi
    · rw [List.getElem?_set_ne hij] at hu
      rw [hq j _ hij, hq j _ hij, hq j _ hij]
      simp only [List.append_nil]
      exact h.task j u0 u hj hu
  · intro j hj
    have hij : i ≠ j := by intro e; subst e; rw [h0] at hj; cases hj
    rw [part_append, part_append, part_append, hq j _ hij, hq j _ hij, hq j _ hij]
    simp only [List.append_nil]
    exact h.tags j hj

theorem Inv.begun {e k tasks c w d s} (h : Inv e k tasks c w d s) {i : Nat} {t : Task} (ht : s.tasks[i]? = some t) :
    ∃ t0, tasks[i]? = some t0 := by
  have := (List.getElem?_eq_some_iff.1 ht).1
  rw [h.length] at this
  exact ⟨_, List.getElem?_eq_getElem this⟩

/-- Nothing of the encoder changes. -/
theorem Inv.same {e k tasks c w d s} (h : Inv e k tasks c w d s) {i : Nat} {t0 t : Task} (h0 : tasks[i]? = some t0)
    (ht : s.tasks[i]? = some t) (pc : At) (hi : TaskInv e t0 { t with pc := pc } (part i c) (part i w) (part i d)) :
    Inv e k tasks c w d (s.put i t (s.enc, pc)) := by
  have := h.put h0 ht [] [] [] (s.enc, pc) rfl rfl (by simpa using h.segs) rfl (by simp) h.atEnd (by simpa using hi)
  simpa using this

theorem Inv.goes {e k tasks c w d s} (h : Inv e k tasks c w d s) {i : Nat} {t0 t : Task} (h0 : tasks[i]? = some t0)
    (ht : s.tasks[i]? = some t) {l : Nat} {todo : List Grain}
    (hf : t.grains = t0.grains ∧ t.sid = t0.sid ∧ t.lid = t0.lid)
    (hl : (e.choose t0.sid t0.lid).filter e.hasSeg = some l) (hg : given e t0 = part i c ++ todo.map (fun g => (l, g)))
    (hw : part i c = part i w) (hd : part i d = []) :
    ∃ c', Inv e k tasks c' w d (s.put i t (next s.enc l todo)) := by
  cases todo with
  | nil =>
    refine ⟨c, h.same h0 ht .ended ?_⟩
    exact ⟨hf.1, hf.2.1, hf.2.2, by simpa using hg.symm, hw.symm, hd⟩
  | cons g gs =>
    have := h.put h0 ht [(l, g)] [] [] (next s.enc l (g :: gs)) rfl rfl (bump h.segs l g) rfl (by simp [next, Enc.updSeg]) h.atEnd
      ⟨hf.1, hf.2.1, hf.2.2, hl, by rw [hg]; simp, by simp [hw], by simpa using hd⟩
    exact ⟨_, by simpa using this⟩

theorem Inv.write {e k tasks c w d s} (h : Inv e k tasks c w d s) {i : Nat} {t0 t : Task} (h0 : tasks[i]? = some t0)
    (ht : s.tasks[i]? = some t) (l : Nat) (g : Grain) (pc : At)
    (hi : TaskInv e t0 { t with pc := pc } (part i c) (part i w ++ [(l, g)]) (part i d)) :
    Inv e k tasks c (w ++ [(i, l, g)]) d (s.put i t ({ s.enc with file := s.enc.file.write (encodeGrain s.enc.major l g) }, pc)) := by
  have := h.put h0 ht [] [(l, g)] [] ({ s.enc with file := s.enc.file.write (encodeGrain s.enc.major l g) }, pc) rfl rfl
    (by simpa using h.segs) (OutFile.write_seekable _ _)
    (by simp only [OutFile.write_bytes h.atEnd, h.major]; simp) (OutFile.write_atEnd h.atEnd _) (by simpa using hi)
  simpa using this

/-- Every action but leaving keeps it. -/
theorem Inv.act {e k tasks c w d s} (h : Inv e k tasks c w d s) (hk : ((e.handles[k]?).map Handle.active).getD false = true) (a : Act)
    (ha : a.isStay = true) : ∃ c' w' d', Inv e k tasks c' w' d' (s.act a) ∧ ((∀ i, a ≠ .cancel i false) → d' = d) := by
  have hact : s.active = true := by unfold Sys.active; rw [h.handles, h.k]; exact hk
  cases a with
  | leave => cases ha
  | leaveExec => cases ha
  | run i =>
    cases ht : s.tasks[i]? with
    | none => exact ⟨c, w, d, by simpa only [Sys.act, ht] using h, fun _ => rfl⟩
    | some t =>
      obtain ⟨t0, h0⟩ := h.begun ht
      obtain ⟨f1, f2, f3, hi⟩ := h.task i t0 t h0 ht
      simp only [Sys.act, ht, Task.run]
      cases hpc : t.pc with
      | fresh =>
        rw [hpc] at hi
        obtain ⟨i1, i2, i3⟩ := hi
        simp only [hact, if_true, choose_during h.segs]
        rw [f2, f3]
        cases hl : (e.choose t0.sid t0.lid).filter e.hasSeg with
        | none =>
          refine ⟨c, w, d, h.same h0 ht .ended ⟨f1, f2, f3, ?_, by rw [i1, i2], i3⟩, fun _ => rfl⟩
          rw [i1]; unfold given; rw [hl]
        | some l =>
          obtain ⟨c', hc⟩ := h.goes h0 ht (todo := t.grains) ⟨f1, f2, f3⟩ hl (by rw [i1, f1]; unfold given; rw [hl]; rfl)
            (by rw [i1, i2]) i3
          exact ⟨c', w, d, hc, fun _ => rfl⟩
      | loop l todo p =>
        rw [hpc] at hi
        obtain ⟨i1, i2, i3, i4⟩ := hi
        cases p with
        | some g =>
          exact ⟨c, w, d, h.same h0 ht _ ⟨f1, f2, f3, i1, i2, i3, i4⟩, fun _ => rfl⟩
        | none =>
          obtain ⟨c', hc⟩ := h.goes h0 ht (todo := todo) ⟨f1, f2, f3⟩ i1 i2 (by simpa using i3) i4
          exact ⟨c', w, d, hc, fun _ => rfl⟩
      | ended =>
        rw [hpc] at hi
        exact ⟨c, w, d, h.same h0 ht _ ⟨f1, f2, f3, hi⟩, fun _ => rfl⟩
      | cancelled p =>
        rw [hpc] at hi
        exact ⟨c, w, d, h.same h0 ht _ ⟨f1, f2, f3, hi⟩, fun _ => rfl⟩
  | exec i =>
    cases ht : s.tasks[i]? with
    | none => exact ⟨c, w, d, by simpa only [Sys.act, ht] using h, fun _ => rfl⟩
    | some t =>
      obtain ⟨t0, h0⟩ := h.begun ht
      obtain ⟨f1, f2, f3, hi⟩ := h.task i t0 t h0 ht
      simp only [Sys.act, ht, Task.exec]
      cases hpc : t.pc with
      | fresh =>
        rw [hpc] at hi
        exact ⟨c, w, d, h.same h0 ht _ ⟨f1, f2, f3, hi⟩, fun _ => rfl⟩
      | ended =>
        rw [hpc] at hi
        exact ⟨c, w, d, h.same h0 ht _ ⟨f1, f2, f3, hi⟩, fun _ => rfl⟩
      | loop l todo p =>
        rw [hpc] at hi
        obtain ⟨i1, i2, i3, i4⟩ := hi
        cases p with
        | none => exact ⟨c, w, d, h.same h0 ht _ ⟨f1, f2, f3, i1, i2, i3, i4⟩, fun _ => rfl⟩
        | some g =>
          exact ⟨c, _, d, h.write h0 ht l g _ ⟨f1, f2, f3, i1, i2, by simpa using i3, i4⟩, fun _ => rfl⟩
      | cancelled p =>
        rw [hpc] at hi
        obtain ⟨i1, i2, i3⟩ := hi
        cases p with
        | none => exact ⟨c, w, d, h.same h0 ht _ ⟨f1, f2, f3, i1, i2, i3⟩, fun _ => rfl⟩
        | some x =>
          obtain ⟨l, g⟩ := x
          have hd := i3 rfl
          refine ⟨c, _, d, h.write h0 ht l g _ ⟨f1, f2, f3, i1, ?_, fun h => by cases h⟩, fun _ => rfl⟩
          rw [i2, hd]; simp
  | cancel i b =>
    cases ht : s.tasks[i]? with
    | none => exact ⟨c, w, d, by simpa only [Sys.act, ht] using h, fun _ => rfl⟩
    | some t =>
      obtain ⟨t0, h0⟩ := h.begun ht
      obtain ⟨f1, f2, f3, hi⟩ := h.task i t0 t h0 ht
      simp only [Sys.act, ht, Task.cancel]
      cases hpc : t.pc with
      | fresh =>
        rw [hpc] at hi
        obtain ⟨i1, i2, i3⟩ := hi
        refine ⟨c, w, d, h.same h0 ht _ ⟨f1, f2, f3, ?_, ?_, fun _ => i3⟩, fun _ => rfl⟩
        · rw [i1]; exact List.nil_prefix
        · rw [i1, i2, i3]; rfl
      | ended =>
        rw [hpc] at hi
        exact ⟨c, w, d, h.same h0 ht _ ⟨f1, f2, f3, hi⟩, fun _ => rfl⟩
      | cancelled p =>
        rw [hpc] at hi
        exact ⟨c, w, d, h.same h0 ht _ ⟨f1, f2, f3, hi⟩, fun _ => rfl⟩
      | loop l todo p =>
        rw [hpc] at hi
        obtain ⟨i1, i2, i3, i4⟩ := hi
        have hpre : part i c <+: given e t0 := ⟨_, i2.symm⟩
        cases b with
        | true =>
          refine ⟨c, w, d, h.same h0 ht _ ⟨f1, f2, f3, hpre, ?_, fun _ => i4⟩, fun _ => rfl⟩
          rw [i3, i4]; cases p <;> simp
        | false =>
          have := h.put h0 ht [] [] (p.toList.map (fun g => (l, g))) (s.enc, .cancelled none) rfl rfl (by simpa using h.segs) rfl
            (by simp) h.atEnd ⟨f1, f2, f3, by simpa using hpre, by rw [i3, i4]; simp, fun h => by cases h⟩
          exact ⟨_, _, _, this, fun hn => absurd rfl (hn i)⟩

theorem Inv.acts {e k tasks c w d s} (h : Inv e k tasks c w d s) (hk : ((e.handles[k]?).map Handle.active).getD false = true)
    (l : List Act) (ha : ∀ a ∈ l, a.isStay = true) :
    ∃ c' w' d', Inv e k tasks c' w' d' (s.acts l) ∧ ((∀ a ∈ l, ∀ i, a ≠ .cancel i false) → d' = d) := by
  induction l generalizing c w d s with
  | nil => exact ⟨c, w, d, h, fun _ => rfl⟩
  | cons a l ih =>
    obtain ⟨c1, w1, d1, h1, e1⟩ := h.act hk a (ha a (by simp))
    obtain ⟨c2, w2, d2, h2, e2⟩ := ih h1 (fun b hb => ha b (by simp [hb]))
    refine ⟨c2, w2, d2, h2, fun hn => ?_⟩
    rw [e2 (fun b hb => hn b (by simp [hb])), e1 (hn a (by simp))]

/-! ## Leaving -/

/-- What the file will be, if only `__aexit__` goes on. -/
def fin (s : Sys) : OutFile :=
  match s.leave with
  | .no => (patchCounts s.enc.file s.enc.segs).write terminator
  | .counts i back (some v) => (patchCounts ((s.enc.file.write (encodeSint v 8)).seek back) (s.enc.segs.drop i)).write terminator
  | .counts i back none => (patchCounts (s.enc.file.seek back) (s.enc.segs.drop i)).write terminator
  | .mark true => s.enc.file.write terminator
  | .mark false => s.enc.file
  | .left => s.enc.file

theorem count_fin (s : Sys) (f : OutFile) (i : Nat) (segs : List Seg) (h : s.enc.segs.drop i = segs) :
    fin { s with enc := { s.enc with file := (count f i segs).1 }, leave := (count f i segs).2 } =
      (patchCounts f segs).write terminator := by
  induction segs generalizing i with
  | nil => rfl
  | cons x xs ih =>
    have h' : s.enc.segs.drop (i + 1) = xs := by
      rw [← List.drop_drop, h, List.drop_one, List.tail_cons]
    have ih := ih (i + 1) h'
    simp only [count, patchCounts]
    cases hc : x.countPos with
    | none => exact ih
    | some p =>
      by_cases hs : f.seekable = true
      · simp only [hs, if_true, fin, h']
      · simp only [hs, Bool.false_eq_true, if_false]; exact ih

theorem leaveRun_fin (s : Sys) : fin s.leaveRun = fin s := by
  unfold Sys.leaveRun
  cases hl : s.leave with
  | no =>
    simp only
    rw [count_fin s _ 0 _ rfl]
    simp only [fin, hl, List.drop_zero]
  | counts i back v =>
    cases v with
    | none =>
      simp only
      rw [count_fin s _ i _ rfl]
      simp only [fin, hl]
    | some v => rfl
  | mark b => cases b <;> simp [fin, hl]
  | left => rfl

theorem leaveExec_fin (s : Sys) : fin s.leaveExec = fin s := by
  unfold Sys.leaveExec
  cases hl : s.leave with
  | no => rfl
  | counts i back v => cases v <;> simp [fin, hl]
  | mark b => cases b <;> simp [fin, hl]
  | left => rfl

theorem quiet_run {t : Task} (h : t.quiet = true) (e k a) : t.run e k a = (e, t.pc) := by
  unfold Task.quiet at h
  unfold Task.run
  cases hp : t.pc with
  | fresh => rw [hp] at h; cases h
  | loop l todo p => rw [hp] at h; cases h
  | ended => rfl
  | cancelled p => rfl

theorem quiet_exec {t : Task} (h : t.quiet = true) (e) : t.exec e = (e, t.pc) := by
  unfold Task.quiet at h
  unfold Task.exec
  cases hp : t.pc with
  | fresh => rfl
  | loop l todo p => rw [hp] at h; cases h
  | ended => rfl
  | cancelled p =>
    rw [hp] at h
    cases p with
    | none => rfl
    | some x => simp at h

theorem quiet_cancel {t : Task} (h : t.quiet = true) (b) : t.cancel b = t.pc := by
  unfold Task.quiet at h
  unfold Task.cancel
  cases hp : t.pc with
  | fresh => rw [hp] at h; cases h
  | loop l todo p => rw [hp] at h; cases h
  | ended => rfl
  | cancelled p => rfl

theorem put_same {s : Sys} {i : Nat} {t : Task} (ht : s.tasks[i]? = some t) : s.put i t (s.enc, t.pc) = s := by
  unfold Sys.put
  have : s.tasks.set i { t with pc := t.pc } = s.tasks := by
    obtain ⟨h1, h2⟩ := List.getElem?_eq_some_iff.1 ht
    have : ({ t with pc := t.pc } : Task) = s.tasks[i] := by rw [h2]
    rw [this, List.set_getElem_self]
  simp only [this]

/-- When all tasks are quiet only `__aexit__` does anything. -/
theorem fin_act {s : Sys} (h : s.tasks.all Task.quiet = true) (a : Act) :
    fin (s.act a) = fin s ∧ (s.act a).tasks = s.tasks := by
  have hq : ∀ (i : Nat) (t : Task), s.tasks[i]? = some t → t.quiet = true := fun i t ht =>
    List.all_eq_true.1 h t (List.mem_of_getElem? ht)
  cases a with
  | run i =>
    simp only [Sys.act]
    cases ht : s.tasks[i]? with
    | none => exact ⟨rfl, rfl⟩
    | some t => simp only [quiet_run (hq i t ht), put_same ht, and_self]
  | exec i =>
    simp only [Sys.act]
    cases ht : s.tasks[i]? with
    | none => exact ⟨rfl, rfl⟩
    | some t => simp only [quiet_exec (hq i t ht), put_same ht, and_self]
  | cancel i b =>
    simp only [Sys.act]
    cases ht : s.tasks[i]? with
    | none => exact ⟨rfl, rfl⟩
    | some t => simp only [quiet_cancel (hq i t ht), put_same ht, and_self]
  | leave =>
    refine ⟨leaveRun_fin s, ?_⟩
    simp only [Sys.act, Sys.leaveRun]
    cases s.leave with
    | no => rfl
    | counts i b v => cases v <;> rfl
    | mark b => cases b <;> rfl
    | left => rfl
  | leaveExec =>
    refine ⟨leaveExec_fin s, ?_⟩
    simp only [Sys.act, Sys.leaveExec]
    cases s.leave with
    | no => rfl
    | counts i b v => cases v <;> rfl
    | mark b => cases b <;> rfl
    | left => rfl

theorem fin_acts {s : Sys} (h : s.tasks.all Task.quiet = true) (l : List Act) : fin (s.acts l) = fin s := by
  induction l generalizing s with
  | nil => rfl
  | cons a l ih =>
    obtain ⟨h1, h2⟩ := fin_act h a
    show fin ((s.act a).acts l) = _
    rw [ih (by rw [h2]; exact h), h1]

theorem acts_append (s : Sys) (a b : List Act) : s.acts (a ++ b) = (s.acts a).acts b := by
  induction a generalizing s with
  | nil => rfl
  | cons x a ih => exact ih _

/-! ## The file -/

/-- The contents of the file: `w` was written, `c` was counted. -/
def spec (e : Enc) (w c : List (Nat × Grain)) : FileSpec :=
  if e.file.seekable then { streamSpec e c with grains := e.pending ++ w } else plainSpec e false w

/-- The encoder inside `async with`. -/
def inside (e : Enc) : Enc := { e with handles := e.handles ++ [⟨true, e.nextLocal, false⟩], asyncOpen := some e.handles.length }

theorem aenter_eq {e : Enc} (hs : e.streaming = true) : e.aenter = (inside e).start e.handles.length false := by
  have h : e.aenter = if e.streaming then (inside e).start e.handles.length false else inside e := rfl
  rw [h, hs, if_pos rfl]

theorem patched {e s : Enc} {w c : List (Nat × Grain)} {k : Nat}
    (hsegs : s.segs = (e.start k false).segs.map (Seg.during c (fun _ => [])))
    (hsk : s.file.seekable = (e.start k false).file.seekable)
    (hb : s.file.bytes = (e.start k false).file.bytes ++ w.flatMap (fun x => encodeGrain e.major x.1 x.2))
    (ha : s.file.AtEnd) :
    ((patchCounts s.file s.segs).write terminator).bytes =
      (if e.file.seekable then [] else e.file.bytes) ++ (spec e w c).bytes := by
  have hsk' : s.file.seekable = e.file.seekable := by
    rw [hsk, start_eq]; simp only [OutFile.write_seekable, OutFile.clear_seekable]
  by_cases hs : e.file.seekable = true
  · have hb' : s.file.bytes = (encodeFileHeader e.major e.minor ++ encodeHeadPre (e.headIn false)) ++
        ((e.segs.map (Seg.header false)).flatMap encodeSegm ++ (e.tags.flatMap encodeTag ++
          (e.pending ++ w).flatMap (fun x => encodeGrain e.major x.1 x.2))) := by
      rw [hb, start_eq]
      simp only [OutFile.write_bytes e.file.clear_atEnd, OutFile.clear_bytes, hs, if_true, Enc.pendingBytes_eq,
        List.flatMap_append, List.append_assoc, List.nil_append, encodeHead, Enc.headIn]
    have hpos : Positioned (encodeFileHeader e.major e.minor ++ encodeHeadPre (e.headIn false)).length s.segs
        (e.segs.map (Seg.header false)) := by
      rw [hsegs, start_eq]
      simp only [startSegs, hs, Bool.not_false, Bool.and_true, if_true, List.map_map]
      have := setPositions_pos false
        (0 + (encodeFileHeader e.major e.minor).length + (encodeHeadPre (e.headIn false)).length) e.segs
        (Seg.during c (fun _ => []) ∘ Seg.dumped) (fun _ => rfl)
      rw [Nat.zero_add, ← List.length_append] at this ⊢
      exact this
    rw [patchCounts_eq (hsk'.trans hs) _ _ _ _ hpos hb', OutFile.write_bytes]
    · simp only [hs, if_true, List.nil_append]
      rw [hsegs, counted_map]
      have hst : (e.start k false).segs = startSegs e false := by rw [start_eq]
      rw [hst, startSegs_counted e c hs]
      unfold spec streamSpec FileSpec.bytes encodeHead
      simp only [hs, if_true]
      have hpre : encodeHeadPre ⟨e.id, e.created, e.segs.map (fun s => ⟨s.localId, s.id,
          ((s.writeCount + s.grains.length + (ofSeg s.localId c).length : Nat) : Int), s.flow, s.tags⟩), e.tags⟩ =
          encodeHeadPre (e.headIn false) :=
        encodeHeadPre_segments (e.headIn false) _ (by simp only [Enc.headIn, List.map_map]; rfl)
      rw [hpre]
      simp only [List.append_assoc]
    · intro h
      have h1 := ha (hsk'.trans hs)
      simp only at h1 ⊢
      rw [h1, hb']
      simp only [List.length_append]
      congr 2
      rw [hsegs, counted_map]
      have hst : (e.start k false).segs = startSegs e false := by rw [start_eq]
      rw [hst, startSegs_counted e c hs]
      rw [List.flatMap_map, List.flatMap_map, List.length_flatMap, List.length_flatMap]
      congr 1
      apply List.map_congr_left
      intro t _
      exact (encodeSegm_count_length (t.header false) _).symm
  · have hs' : e.file.seekable = false := by simpa using hs
    rw [patchCounts_none _ _ (.inl (hsk'.trans hs')), OutFile.write_bytes ha, hb, start_eq]
    simp only [OutFile.write_bytes e.file.clear_atEnd, OutFile.clear_bytes, hs', Bool.false_eq_true, if_false, Enc.pendingBytes_eq,
      spec, plainSpec, FileSpec.bytes, List.flatMap_append, List.append_assoc]

theorem inside_ids (e : Enc) (k : Nat) :
    ((inside e).start k false).segs.map (fun s => (s.localId, s.id)) = e.segs.map (fun s => (s.localId, s.id)) := by
  rw [start_eq]
  show (startSegs (inside e) false).map _ = _
  unfold startSegs
  have h : ∀ segs : List Seg, (segs.map Seg.dumped).map (fun s => (s.localId, s.id)) = segs.map (fun s => (s.localId, s.id)) := by
    intro segs; rw [List.map_map]; rfl
  rw [h]
  split
  · have := congrArg (List.map (fun x : SegmIn => (x.localId, x.id))) (setPositions_header false
      (0 + (encodeFileHeader (inside e).major (inside e).minor).length + (encodeHeadPre ((inside e).headIn false)).length)
      (inside e).segs false)
    rw [List.map_map, List.map_map] at this
    exact this
  · rfl

theorem given_inside (e : Enc) (k : Nat) (t : Task) : given ((inside e).start k false) t = given e t := by
  have h := inside_ids e k
  have h2 : ((inside e).start k false).hasSeg = e.hasSeg := by
    funext l
    rw [Bool.eq_iff_iff, Enc.hasSeg_iff, Enc.hasSeg_iff]
    have := congrArg (List.map Prod.fst) h
    rw [List.map_map, List.map_map] at this
    exact iff_of_eq (congrArg (l ∈ ·) this)
  unfold given
  rw [choose_congr h, h2]

theorem start_inv {e : Enc} (hs : e.streaming = true) (tasks : List Task) :
    Inv e.aenter e.handles.length tasks [] [] [] (start e tasks) := by
  refine ⟨rfl, rfl, rfl, ?_, rfl, by simp [start], ?_, rfl, by simp [start], ?_, fun _ _ => ⟨rfl, rfl, rfl⟩⟩
  · show e.aenter.segs = _
    conv => lhs; rw [← List.map_id e.aenter.segs]
    apply List.map_congr_left
    intro s _
    simp [Seg.during, ofSeg]
  · show e.aenter.file.AtEnd
    rw [aenter_eq hs, start_eq]
    exact OutFile.write_atEnd (inside e).file.clear_atEnd _
  · intro i t0 t h0 ht
    simp only [start, List.getElem?_map, h0, Option.map_some, Option.some.injEq] at ht
    subst ht
    exact ⟨rfl, rfl, rfl, rfl, rfl, rfl⟩

theorem aenter_active {e : Enc} (hs : e.streaming = true) :
    ((e.aenter.handles[e.handles.length]?).map Handle.active).getD false = true := by
  rw [aenter_eq hs, start_eq]
  simp [inside]

theorem quiet_parts {e : Enc} {t0 t : Task} {c w d} (h : TaskInv e t0 t c w d) (hq : t.quiet = true) :
    c = w ++ d ∧ w <+: given e t0 ∧ (d = [] → (∀ p, t.pc ≠ .cancelled p) → w = given e t0) := by
  obtain ⟨-, -, -, h⟩ := h
  unfold Task.quiet at hq
  cases hp : t.pc with
  | fresh => rw [hp] at hq; cases hq
  | loop l todo p => rw [hp] at hq; cases hq
  | ended =>
    rw [hp] at h
    obtain ⟨h1, h2, h3⟩ := h
    exact ⟨by rw [h2, h3, List.append_nil], by rw [h2, h1]; exact List.prefix_refl _, fun _ _ => by rw [h2, h1]⟩
  | cancelled p =>
    rw [hp] at h hq
    cases p with
    | some x => simp at hq
    | none =>
      obtain ⟨h1, h2, -⟩ := h
      have h2 : c = w ++ d := by simpa using h2
      exact ⟨h2, (h2 ▸ List.prefix_append w d).trans h1, fun _ h => absurd rfl (h none)⟩

/-- No task is cancelled unless somebody cancels it. -/
theorem not_cancelled {s : Sys} (l : List Act) (hl : ∀ a ∈ l, a.isAdd = true) (h : ∀ t ∈ s.tasks, ∀ p, t.pc ≠ .cancelled p) :
    ∀ t ∈ (s.acts l).tasks, ∀ p, t.pc ≠ .cancelled p := by
  induction l generalizing s with
  | nil => exact h
  | cons a l ih =>
    refine ih (s := s.act a) (fun b hb => hl b (by simp [hb])) ?_
    have put : ∀ (i : Nat) (t : Task) (r : Enc × At), (∀ p, r.2 ≠ .cancelled p) → ∀ u ∈ (s.put i t r).tasks, ∀ p, u.pc ≠ .cancelled p := by
      intro i t r hr u hu
      rcases List.mem_or_eq_of_mem_set hu with hu | rfl
      · exact h u hu
      · exact hr
    have hnext : ∀ (e : Enc) (l : Nat) (gs : List Grain) p, (next e l gs).2 ≠ .cancelled p := by
      intro e l gs p; cases gs <;> simp [next]
    cases a with
    | run i =>
      simp only [Sys.act]
      cases ht : s.tasks[i]? with
      | none => exact h
      | some t =>
        have := h t (List.mem_of_getElem? ht)
        refine put i t _ ?_
        unfold Task.run
        cases hp : t.pc with
        | fresh =>
          simp only
          split
          · split
            · exact hnext _ _ _
            · intro p hp; cases hp
          · intro p hp; cases hp
        | loop l todo q => cases q with
          | none => exact hnext _ _ _
          | some g => intro p hp; cases hp
        | ended => intro p hp; cases hp
        | cancelled q => exact absurd hp (this q)
    | exec i =>
      simp only [Sys.act]
      cases ht : s.tasks[i]? with
      | none => exact h
      | some t =>
        have := h t (List.mem_of_getElem? ht)
        refine put i t _ ?_
        unfold Task.exec
        cases hp : t.pc with
        | fresh => intro p hp; cases hp
        | loop l todo q => cases q <;> (intro p hp; cases hp)
        | ended => intro p hp; cases hp
        | cancelled q => exact absurd hp (this q)
    | cancel i b => exact absurd (hl (.cancel i b) (by simp)) (by simp [Act.isAdd])
    | leave => exact absurd (hl .leave (by simp)) (by simp [Act.isAdd])
    | leaveExec => exact absurd (hl .leaveExec (by simp)) (by simp [Act.isAdd])

/-! ## Schedules can be completed -/

/-- How many actions a task may still take. -/
def todo (t : Task) : Nat :=
  match t.pc with
  | .fresh => 2 * t.grains.length + 2
  | .loop _ l p => 2 * l.length + 1 + p.toList.length
  | .ended => 0
  | .cancelled p => p.toList.length

theorem sum_set (l : List Task) (i : Nat) (t u : Task) (h : l[i]? = some t) (hu : todo u < todo t) :
    ((l.set i u).map todo).sum < (l.map todo).sum := by
  induction l generalizing i with
  | nil => cases h
  | cons x l ih =>
    cases i with
    | zero =>
      simp only [List.getElem?_cons_zero, Option.some.injEq] at h
      subst h
      simp only [List.set_cons_zero, List.map_cons, List.sum_cons]
      omega
    | succ i =>
      have := ih i (by simpa using h)
      simp only [List.set_cons_succ, List.map_cons, List.sum_cons]
      omega

theorem next_todo (e : Enc) (l : Nat) (gs : List Grain) (t : Task) (h : 2 * gs.length < todo t) :
    todo { t with pc := (next e l gs).2 } < todo t := by
  cases gs with
  | nil => simpa [next, todo] using h
  | cons g gs => simp only [List.length_cons] at h; simp only [next]; show 2 * gs.length + 1 + 1 < _; omega

theorem moves {s : Sys} {i : Nat} {t : Task} (ht : s.tasks[i]? = some t) (hq : t.quiet = false) :
    ∃ a : Act, a.isAdd = true ∧ ((s.act a).tasks.map todo).sum < (s.tasks.map todo).sum := by
  cases hp : t.pc with
  | fresh =>
    refine ⟨.run i, rfl, ?_⟩
    simp only [Sys.act, ht, Sys.put]
    refine sum_set _ _ t _ ht ?_
    have h2 : todo t = 2 * t.grains.length + 2 := by unfold todo; rw [hp]
    simp only [Task.run, hp]
    split
    · split
      · exact next_todo _ _ _ _ (by omega)
      · show 0 < _; omega
    · show 0 < _; omega
  | loop l l' p =>
    have h2 : todo t = 2 * l'.length + 1 + p.toList.length := by unfold todo; rw [hp]
    cases p with
    | none =>
      refine ⟨.run i, rfl, ?_⟩
      simp only [Sys.act, ht, Sys.put]
      refine sum_set _ _ t _ ht ?_
      simp only [Task.run, hp]
      exact next_todo _ _ _ _ (by omega)
    | some g =>
      refine ⟨.exec i, rfl, ?_⟩
      simp only [Sys.act, ht, Sys.put]
      refine sum_set _ _ t _ ht ?_
      simp only [Task.exec, hp]
      rw [h2]
      show 2 * l'.length + 1 + 0 < 2 * l'.length + 1 + 1
      omega
  | ended => unfold Task.quiet at hq; rw [hp] at hq; cases hq
  | cancelled p =>
    cases p with
    | none => unfold Task.quiet at hq; rw [hp] at hq; cases hq
    | some x =>
      refine ⟨.exec i, rfl, ?_⟩
      simp only [Sys.act, ht, Sys.put]
      refine sum_set _ _ t _ ht ?_
      simp only [Task.exec, hp]
      have h2 : todo t = 1 := by unfold todo; rw [hp]; rfl
      rw [h2]
      show 0 < 1
      omega

theorem completes (s : Sys) : ∃ more : List Act, (∀ a ∈ more, a.isAdd = true) ∧ (s.acts more).tasks.all Task.quiet = true := by
  generalize hn : (s.tasks.map todo).sum = n
  induction n using Nat.strongRecOn generalizing s with
  | ind n ih =>
    by_cases hq : s.tasks.all Task.quiet = true
    · exact ⟨[], (fun _ h => by cases h), hq⟩
    · simp only [List.all_eq_true, Classical.not_forall] at hq
      obtain ⟨t, ht, hq⟩ := hq
      obtain ⟨i, hi⟩ := List.mem_iff_getElem?.1 ht
      obtain ⟨a, ha, hlt⟩ := moves hi (by simpa using hq)
      obtain ⟨more, h1, h2⟩ := ih _ (hn ▸ hlt) (s.act a) rfl
      refine ⟨a :: more, ?_, h2⟩
      intro b hb
      rcases List.mem_cons.1 hb with rfl | hb
      · exact ha
      · exact h1 b hb

/-- How many actions `__aexit__` may still take. -/
def exits (s : Sys) : Nat :=
  match s.leave with
  | .no => 2 * s.enc.segs.length + 6
  | .counts i _ (some _) => 2 * (s.enc.segs.length - i) + 5
  | .counts i _ none => 2 * (s.enc.segs.length - i) + 4
  | .mark true => 2
  | .mark false => 1
  | .left => 0

theorem count_exits (s : Sys) (f : OutFile) (i : Nat) (segs : List Seg) (h : i + segs.length ≤ s.enc.segs.length) :
    exits { s with enc := { s.enc with file := (count f i segs).1 }, leave := (count f i segs).2 } ≤
      2 * (s.enc.segs.length - i) + 3 := by
  induction segs generalizing i with
  | nil => show 2 ≤ _; omega
  | cons x xs ih =>
    simp only [List.length_cons] at h
    have ih := ih (i + 1) (by omega)
    simp only [count]
    cases hc : x.countPos with
    | none => exact Nat.le_trans ih (by omega)
    | some p =>
      simp only
      by_cases hs : f.seekable = true
      · simp only [hs, if_true]
        show 2 * (s.enc.segs.length - (i + 1)) + 5 ≤ _
        omega
      · simp only [hs, Bool.false_eq_true, if_false]
        exact Nat.le_trans ih (by omega)

theorem leaves (s : Sys) : ∃ rest : List Act, (s.acts rest).leave = .left := by
  generalize hn : exits s = n
  induction n using Nat.strongRecOn generalizing s with
  | ind n ih =>
    have step : ∀ a : Act, exits (s.act a) < n → ∃ rest : List Act, (s.acts rest).leave = .left := by
      intro a h
      obtain ⟨rest, hr⟩ := ih _ h (s.act a) rfl
      exact ⟨a :: rest, hr⟩
    subst hn
    have hd : ∀ i, (s.enc.segs.drop i).length = s.enc.segs.length - i := fun i => List.length_drop
    cases hl : s.leave with
    | no =>
      refine step .leave ?_
      have := count_exits s s.enc.file 0 (s.enc.segs.drop 0) (by rw [hd]; omega)
      simp only [Sys.act, Sys.leaveRun, hl]
      refine Nat.lt_of_le_of_lt this ?_
      simp only [exits, hl]; omega
    | counts i b v =>
      cases v with
      | none =>
        refine step .leave ?_
        simp only [Sys.act, Sys.leaveRun, hl]
        by_cases hi : i ≤ s.enc.segs.length
        · refine Nat.lt_of_le_of_lt (count_exits s (s.enc.file.seek b) i (s.enc.segs.drop i) (by rw [hd]; omega)) ?_
          simp only [exits, hl]; omega
        · have : s.enc.segs.drop i = [] := List.drop_eq_nil_of_le (by omega)
          rw [this]
          simp only [count, exits, hl]; omega
      | some v =>
        refine step .leaveExec ?_
        simp only [Sys.act, Sys.leaveExec, hl, exits]; omega
    | mark b =>
      cases b with
      | true => refine step .leaveExec ?_; simp only [Sys.act, Sys.leaveExec, hl, exits]; omega
      | false => refine step .leave ?_; simp only [Sys.act, Sys.leaveRun, hl, exits]; omega
    | left => exact ⟨[], hl⟩

end C69

end Verif.Gsf.Conc

namespace Verif.Props

open Verif Verif.Gsf Verif.Gsf.Conc

/-- **C69** with cancellations. The tasks run in any order, writes are carried out in any order, tasks are cancelled at any point,
and when all have come to an end the encoder is left. Then the file is a GSF file that holds an interleaving of what the tasks
handed over: of each task a beginning, in its order. Each count is the number of grains of the segment and of writes that were
dropped because their task was cancelled before a thread began with them. -/
theorem C69_cancel (e : Enc) (hb : Born e) (hs : e.streaming = true) (tasks : List Task) (stay rest : List Act)
    (ha : ∀ a ∈ stay, a.isStay = true) (hq : ((start e tasks).acts stay).tasks.all Task.quiet = true)
    (hl : ((start e tasks).acts (stay ++ rest)).leave = .left) :
    ∃ (f : FileSpec) (order dropped : List (Nat × Nat × Grain)),
      ((start e tasks).acts (stay ++ rest)).enc.file.bytes = (if e.file.seekable then [] else e.file.bytes) ++ f.bytes ∧
      f.major = e.major ∧ f.minor = e.minor ∧ f.head.segments.map SegmIn.localId = e.lids ∧
      f.grains = e.pending ++ order.map Prod.snd ∧
      (∀ i t, tasks[i]? = some t → part i order <+: given e t) ∧
      (∀ x ∈ order ++ dropped, x.1 < tasks.length ∧ x.2.1 ∈ e.lids) ∧
      (e.file.seekable = false → ∀ sg ∈ f.head.segments, sg.count = -1) ∧
      (e.file.seekable = true → ∀ sg ∈ f.head.segments,
        sg.count = ((ofSeg sg.localId f.grains).length + (ofSeg sg.localId (dropped.map Prod.snd)).length : Nat)) ∧
      ((∀ a ∈ stay, ∀ i, a ≠ .cancel i false) → dropped = []) ∧
      (∀ i t, tasks[i]? = some t → (∀ a ∈ stay, ∀ j b, a ≠ .cancel j b) → part i order = given e t) := by
  obtain ⟨c, w, d, h, hd⟩ := (C69.start_inv hs tasks).acts (C69.aenter_active hs) stay ha
  have hparts : ∀ i t, tasks[i]? = some t → ∃ u, ((start e tasks).acts stay).tasks[i]? = some u ∧ u.quiet = true ∧
      C69.TaskInv e.aenter t u (part i c) (part i w) (part i d) := by
    intro i t ht
    have hlt := (List.getElem?_eq_some_iff.1 ht).1
    rw [← h.length] at hlt
    refine ⟨_, List.getElem?_eq_getElem hlt, List.all_eq_true.1 hq _ (List.getElem_mem _), ?_⟩
    exact h.task i t _ ht (List.getElem?_eq_getElem hlt)
  have hgiven : ∀ t, given e.aenter t = given e t := fun t => by rw [C69.aenter_eq hs]; exact C69.given_inside e _ t
  have hperm : c.Perm (w ++ d) := by
    refine C69.perm_of_parts (fun i => ?_)
    rw [C69.part_append]
    cases ht : tasks[i]? with
    | none =>
      obtain ⟨h1, h2, h3⟩ := h.tags i ht
      rw [h1, h2, h3]; rfl
    | some t =>
      obtain ⟨u, hu, hqu, hi⟩ := hparts i t ht
      exact (C69.quiet_parts hi hqu).1
  have htag : ∀ x ∈ c, x.1 < tasks.length ∧ x.2.1 ∈ e.lids := by
    rintro ⟨i, x⟩ hx
    have hx : x ∈ part i c := List.mem_map.2 ⟨(i, x), List.mem_filter.2 ⟨hx, by simp⟩, rfl⟩
    cases ht : tasks[i]? with
    | none => rw [(h.tags i ht).1] at hx; cases hx
    | some t =>
      refine ⟨(List.getElem?_eq_some_iff.1 ht).1, ?_⟩
      obtain ⟨u, hu, hqu, hi⟩ := hparts i t ht
      have hpre : part i c <+: given e t := by
        rw [← hgiven]
        obtain ⟨-, -, -, h⟩ := hi
        cases hp : u.pc with
        | fresh => rw [hp] at h; rw [h.1]; exact List.nil_prefix
        | loop l todo p => rw [hp] at h; exact ⟨_, h.2.1.symm⟩
        | ended => rw [hp] at h; rw [h.1]; exact List.prefix_refl _
        | cancelled p => rw [hp] at h; exact h.1
      have hx := hpre.subset hx
      unfold given at hx
      cases hc : (e.choose t.sid t.lid).filter e.hasSeg with
      | none => rw [hc] at hx; cases hx
      | some l =>
        rw [hc] at hx
        obtain ⟨g, -, rfl⟩ := List.mem_map.1 hx
        rw [Option.filter_eq_some_iff] at hc
        exact (e.hasSeg_iff l).1 hc.2
  have hfile : ((start e tasks).acts (stay ++ rest)).enc.file =
      (patchCounts ((start e tasks).acts stay).enc.file ((start e tasks).acts stay).enc.segs).write terminator := by
    have h1 := C69.fin_acts hq rest
    rw [← C69.acts_append] at h1
    unfold C69.fin at h1
    rw [hl, h.leave] at h1
    exact h1
  refine ⟨C69.spec (C69.inside e) (w.map Prod.snd) (c.map Prod.snd), w, d, ?_, ?_, ?_, ?_, ?_, ?_, ?_, ?_, ?_, hd, ?_⟩
  · rw [hfile]
    have h1 := h.segs
    have h2 := h.seekable
    have h3 := h.bytes
    rw [C69.aenter_eq hs] at h1 h2 h3
    exact C69.patched (e := C69.inside e) h1 h2 h3 h.atEnd
  · unfold C69.spec; split <;> rfl
  · unfold C69.spec; split <;> rfl
  · unfold C69.spec; split
    · simp only [streamSpec, List.map_map]; rfl
    · simp only [plainSpec, Enc.headIn, List.map_map]; rfl
  · unfold C69.spec; split <;> rfl
  · intro i t ht
    obtain ⟨u, hu, hqu, hi⟩ := hparts i t ht
    rw [← hgiven]
    exact (C69.quiet_parts hi hqu).2.1
  · intro x hx
    exact htag x (hperm.mem_iff.2 hx)
  · intro hsk sg hsg
    unfold C69.spec at hsg
    rw [if_neg (by show ¬ e.file.seekable = true; rw [hsk]; simp)] at hsg
    simp only [plainSpec, Enc.headIn] at hsg
    obtain ⟨s, -, rfl⟩ := List.mem_map.1 hsg
    rfl
  · intro hsk sg hsg
    have hg : (C69.spec (C69.inside e) (w.map Prod.snd) (c.map Prod.snd)).grains = e.pending ++ w.map Prod.snd := by
      unfold C69.spec; split <;> rfl
    rw [hg]
    unfold C69.spec at hsg
    rw [if_pos (show (C69.inside e).file.seekable = true from hsk)] at hsg
    simp only [streamSpec] at hsg
    obtain ⟨s, hs', rfl⟩ := List.mem_map.1 hsg
    simp only
    have hs'' : s ∈ e.segs := hs'
    rw [ofSeg_append]
    unfold Enc.pending
    rw [ofSeg_pending, pend_of_mem hb.idle.nodup hs'', (hb.fresh s hs'').1, List.length_append,
      C69.ofSeg_perm (hperm.map Prod.snd), List.map_append, ofSeg_append, List.length_append]
    congr 1; omega
  · intro i t ht hn
    obtain ⟨u, hu, hqu, hi⟩ := hparts i t ht
    have hdn : d = [] := hd (fun a ha i => hn a ha i false)
    rw [← hgiven]
    refine (C69.quiet_parts hi hqu).2.2 (by rw [hdn]; rfl) ?_
    refine C69.not_cancelled stay ?_ ?_ u (List.mem_of_getElem? hu)
    · intro a haa
      have h1 := ha a haa
      have h2 := hn a haa
      cases a with
      | run i => rfl
      | exec i => rfl
      | cancel i b => exact absurd rfl (h2 i b)
      | leave => cases h1
      | leaveExec => cases h1
    · intro t ht p
      obtain ⟨t', -, rfl⟩ := List.mem_map.1 ht
      intro h; cases h

/-- **C69.** Several tasks add grains to an open asynchronous encoder; the event loop runs them in any order, and their writes are
carried out in any order. They all come to an end, and then the encoder is left. The file is read back as an interleaving of what the
tasks handed over: nothing is lost, doubled or damaged, each task's grains are in its order, and the counts are right. -/
theorem C69_add_partial (e : Enc) (hb : Born e) (hs : e.streaming = true) (tasks : List Task) (adds rest : List Act)
    (ha : ∀ a ∈ adds, a.isAdd = true) (hq : ((start e tasks).acts adds).tasks.all Task.quiet = true)
    (hl : ((start e tasks).acts (adds ++ rest)).leave = .left) :
    ∃ (f : FileSpec) (order : List (Nat × Nat × Grain)),
      ((start e tasks).acts (adds ++ rest)).enc.file.bytes = (if e.file.seekable then [] else e.file.bytes) ++ f.bytes ∧
      f.grains = e.pending ++ order.map Prod.snd ∧ f.head.segments.map SegmIn.localId = e.lids ∧
      (∀ i t, tasks[i]? = some t → part i order = given e t) ∧ (∀ x ∈ order, x.1 < tasks.length) ∧
      (e.file.seekable = true → CountsRight f) ∧
      (f.Ok → ∃ r, decodeFile {} f.bytes = .ok r ∧ r.ending = .eof ∧
        r.view f.bytes = f.grains.map (fun x => (x.2.toMeta f.major, x.2.payload, x.1))) := by
  obtain ⟨f, order, dropped, h1, h2, h3, h4, h5, h6, h7, h8, h9, h10, h11⟩ := C69_cancel e hb hs tasks adds rest
    (fun a h => by have := ha a h; cases a <;> first | rfl | cases this) hq hl
  have hn : ∀ a ∈ adds, ∀ j b, a ≠ .cancel j b := by
    rintro a h j b rfl
    have := ha _ h
    cases this
  have hd : dropped = [] := h10 (fun a h i => hn a h i false)
  refine ⟨f, order, h1, h5, h4, fun i t ht => h11 i t ht hn, fun x hx => (h7 x (by simp [hx])).1, ?_, ?_⟩
  · intro hsk
    refine ⟨fun sg hsg => ?_, fun x hx => ?_⟩
    · rw [h9 hsk sg hsg, hd, ofSeg_length]
      simp [ofSeg]
    · rw [h4]
      rw [h5] at hx
      rcases List.mem_append.1 hx with hx | hx
      · exact pending_declared hx
      · obtain ⟨y, hy, rfl⟩ := List.mem_map.1 hx
        exact (h7 y (by simp [hy])).2
  · intro hf
    obtain ⟨r, g1, g2, -, g4⟩ := C01_round_trip_normal_form f hf
    exact ⟨r, g1, g2, g4⟩

/-- No schedule is stuck: whatever has happened so far, all tasks can still come to an end, and the encoder can then be left. -/
theorem C69_completes (e : Enc) (tasks : List Task) (before : List Act) :
    ∃ more rest : List Act, (∀ a ∈ more, a.isAdd = true) ∧ ((start e tasks).acts (before ++ more)).tasks.all Task.quiet = true ∧
      ((start e tasks).acts (before ++ more ++ rest)).leave = .left := by
  obtain ⟨more, h1, h2⟩ := C69.completes ((start e tasks).acts before)
  obtain ⟨rest, h3⟩ := C69.leaves (((start e tasks).acts before).acts more)
  refine ⟨more, rest, h1, ?_, ?_⟩
  · rw [C69.acts_append]; exact h2
  · rw [C69.acts_append, C69.acts_append]; exact h3

/-! ## What goes wrong -/

/-- An encoder with two segments. -/
def C69_enc (seekable : Bool) : Enc :=
  (Enc.new ⟨seekable, [], 0⟩ 9 0 (u 9) ⟨2024, 2, 29, 23, 59, 59⟩ true).runs
    [.addSegment (some (u 7)) (some 3) [] (u 0), .addSegment (some (u 8)) none [] (u 0)]

/-- Three tasks; the third asks for a segment that is not there. -/
def C69_tasks : List Task :=
  [⟨[gEmpty, gCoded], some (u 7), none, u 0, .fresh⟩, ⟨[gAudio, gEvent], none, some 4, u 0, .fresh⟩,
    ⟨[gEmpty], some (u 6), none, u 0, .fresh⟩]

/-- Leaving while a task still writes: `__aexit__` has moved the file position to the count of a segment when the thread writes the
grain, so the grain is written over the head of the file. The file cannot be read. -/
theorem C69_leave_counterexample :
    ∃ l : List Act, let s := (start (C69_enc true) C69_tasks).acts l
      s.leave = .left ∧ s.tasks.all Task.quiet = true ∧ (∀ i b, Act.cancel i b ∉ l) ∧
        (decodeFile {} s.enc.file.bytes).toOption = none := by
  refine ⟨[.run 0, .leave, .exec 0, .leaveExec, .leave, .leaveExec, .leave, .leaveExec, .leave, .run 0, .exec 0, .run 0,
    .run 1, .run 2], ?_⟩
  refine ⟨by decide +kernel, by decide +kernel, ?_, by decide +kernel⟩
  intro i b h
  simp at h

/-- A task that is cancelled before a thread has begun with its write: the grain is counted, but it is not in the file. -/
theorem C69_cancel_counterexample :
    ∃ l : List Act, let s := (start (C69_enc true) C69_tasks).acts l
      s.leave = .left ∧ s.tasks.all Task.quiet = true ∧
        ((decodeFile {} s.enc.file.bytes).toOption.map (fun r => ((r.view s.enc.file.bytes).length,
          r.hdr.head.segments.map (fun sg => sg.count)))) = some (0, [1, 0]) := by
  refine ⟨[.run 0, .cancel 0 false, .cancel 1 true, .run 2, .leave, .leaveExec, .leave, .leaveExec, .leave, .leaveExec, .leave], ?_⟩
  refine ⟨by decide +kernel, by decide +kernel, by decide +kernel⟩

/-- The in-memory file of the library (`AsyncBytesIO`) does not carry out writes in one step. If the threads of two tasks take turns
between its statements, one write is lost: both are stored at the same position. -/
theorem C69_memory_counterexample (b c : Bytes) (hl : b.length = c.length) :
    ∃ l : List Bool, let r := race (IO.Mem.BIO.new []) b c .start .start l
      r.2 = (.done, .done) ∧ r.1.getvalue = c := by
  refine ⟨[false, true, false, true, false, true, false, true], ?_⟩
  have h1 : ∀ x : Bytes, IO.Mem.slice x 0 ((x.length : Int) + x.length) = x := by
    intro x
    unfold IO.Mem.slice IO.Mem.bound
    rw [if_neg (by omega), if_neg (by omega)]
    have : min ((x.length : Int) + x.length).toNat x.length = x.length := by omega
    rw [this]
    simp
  have h2 : ∀ x y : Bytes, x.length = y.length → IO.Mem.setSlice x 0 (0 + (y.length : Int)) y = y := by
    intro x y h
    unfold IO.Mem.setSlice IO.Mem.bound
    rw [if_neg (by omega), if_neg (by omega)]
    simp [h]
  by_cases hb : b = []
  · subst hb
    have : c = [] := List.length_eq_zero_iff.1 hl.symm
    subst this
    exact ⟨by decide, by decide⟩
  · have hp : 0 < b.length := List.length_pos_iff.2 hb
    have h0 : (IO.Mem.setSlice (IO.Mem.zeros b.length) 0 0 (IO.Mem.slice [] 0 0)) = IO.Mem.zeros b.length := by
      simp [IO.Mem.setSlice, IO.Mem.slice, IO.Mem.bound]
    have hz : (IO.Mem.zeros b.length).length = b.length := by simp [IO.Mem.zeros]
    have s1 : thread (IO.Mem.BIO.new []) b .start = (⟨IO.Mem.zeros b.length, 0, 0⟩, .store) := by
      have e1 : ((0 : Int) + (b.length : Int) > (([] : Bytes).length : Int)) := by simp; omega
      have e2 : (max ((0 : Int) + (b.length : Int)) (2 * (([] : Bytes).length : Int))).toNat = b.length := by simp
      simp only [thread, IO.Mem.BIO.new, if_neg (show ¬ (0 : Int) < 0 by omega), if_pos e1, e2]
      congr 2
    have s2 : thread ⟨IO.Mem.zeros b.length, 0, 0⟩ c .start = (⟨IO.Mem.zeros b.length, 0, 0⟩, .store) := by
      simp only [thread, if_neg (show ¬ (0 : Int) < 0 by omega)]
      rw [if_neg (by rw [hz]; omega)]
    have s3 : thread ⟨IO.Mem.zeros b.length, 0, 0⟩ b .store = (⟨b, 0, 0⟩, .advance) := by
      simp only [thread, h2 _ b hz]
    have s4 : thread ⟨b, 0, 0⟩ c .store = (⟨c, 0, 0⟩, .advance) := by
      simp only [thread, h2 b c hl]
    have s5 : thread ⟨c, 0, 0⟩ b .advance = (⟨c, 0 + b.length, 0⟩, .measure) := rfl
    have s6 : thread ⟨c, 0 + b.length, 0⟩ c .advance = (⟨c, 0 + b.length + c.length, 0⟩, .measure) := rfl
    simp only [race, s1, s2, s3, s4, s5, s6]
    refine ⟨rfl, ?_⟩
    show IO.Mem.slice c 0 (max ((0 : Int) + b.length + c.length) (max ((0 : Int) + b.length + c.length) 0)) = c
    have : max ((0 : Int) + b.length + c.length) (max ((0 : Int) + b.length + c.length) 0) = (c.length : Int) + c.length := by omega
    rw [this]
    exact h1 c

/-- Without interleaving they are both there. -/
example : (race (IO.Mem.BIO.new []) [1, 2] [3, 4] .start .start [false, false, false, false, true, true, true, true]).1.getvalue =
    [1, 2, 3, 4] := by decide +kernel

/-! ## The hypotheses are met -/

/-- The tasks take turns, and the writes happen in another order than they were asked for. -/
def C69_schedule : List Act :=
  [.run 0, .run 1, .exec 1, .run 2, .run 1, .exec 0, .exec 1, .run 0, .run 1, .exec 0, .run 0]

def C69_exit : List Act := [.leave, .leaveExec, .leave, .leaveExec, .leave, .leaveExec, .leave]

theorem C69_born (b : Bool) : Born (C69_enc b) :=
  (born_new ..).edits (fun o ho => (edits_of (ops := [.addSegment (some (u 7)) (some 3) [] (u 0), .addSegment (some (u 8)) none [] (u 0)])
    (by decide) o ho).1)

example : (C69_enc true).streaming = true ∧ (∀ a ∈ C69_schedule, a.isAdd = true) ∧
    ((start (C69_enc true) C69_tasks).acts C69_schedule).tasks.all Task.quiet = true ∧
    ((start (C69_enc true) C69_tasks).acts (C69_schedule ++ C69_exit)).leave = .left ∧
    ((start (C69_enc true) C69_tasks).acts (C69_schedule ++ C69_exit)).enc.file.bytes =
      (⟨9, 0, ⟨u 9, ⟨2024, 2, 29, 23, 59, 59⟩, [⟨3, u 7, 2, none, []⟩, ⟨4, u 8, 2, none, []⟩], []⟩,
        [(4, gAudio), (3, gEmpty), (4, gEvent), (3, gCoded)]⟩ : FileSpec).bytes := by
  decide +kernel

/-- The same on a stream. -/
example : ((start (C69_enc false) C69_tasks).acts (C69_schedule ++ [.leave, .leaveExec, .leave])).leave = .left := by decide +kernel

end Verif.Props

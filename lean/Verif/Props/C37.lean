import Verif.IO.Streams

/-!
# C37: forward-only streams
-/

namespace Verif.Props.Fwd

open Verif Verif.IO.Stream

/-! ## Specification -/

/-- The stream as an array, the position, and how far it has been consumed. -/
structure Ref where
  content : Bytes
  pos : Nat
  floor : Nat
deriving DecidableEq, Repr

def Ref.at (f : Ref) : Bytes := f.content.drop f.pos

/-- Reading delivers the bytes at the position; a seek to what has been consumed, or from the end, is refused and
changes nothing. -/
def Ref.step (f : Ref) : Op → Ref × Obs
  | .read n | .readinto n =>
    (⟨f.content, f.pos + (f.at.take n).length, f.pos + (f.at.take n).length⟩, .bytes (f.at.take n))
  | .readToEnd | .readall => (⟨f.content, f.pos + f.at.length, f.pos + f.at.length⟩, .bytes f.at)
  | .tell => (f, .num f.pos)
  | .seek o w =>
    match (match w with | .set => some o | .cur => some (f.pos + o) | .fromEnd => none) with
    | none => (f, .refused)
    | some t => if t < f.floor then (f, .refused) else ({ f with pos := t.toNat }, .num t)

def Ref.run (f : Ref) : List Op → List Obs
  | [] => []
  | o :: os => (f.step o).2 :: Ref.run (f.step o).1 os

/-! ## The asynchronous wrapper -/

def Reader.all (r : Reader) : Bytes := r.buffer ++ r.coming.flatten

theorem take_spec (n : Nat) (b : Bytes) (ps : List Bytes) :
    (Reader.take n b ps).1 = (b ++ ps.flatten).take n ∧ Reader.all (Reader.take n b ps).2 = (b ++ ps.flatten).drop n := by
  induction ps generalizing b with
  | nil => rw [Reader.take]; simp [Reader.all]
  | cons p ps ih =>
    rw [Reader.take]
    by_cases h : n ≤ b.length
    · rw [if_pos h]
      refine ⟨?_, ?_⟩
      · rw [List.take_append_of_le_length h]
      · rw [List.drop_append_of_le_length h]; rfl
    · rw [if_neg h, List.flatten_cons, ← List.append_assoc]
      exact ih (b ++ p)

theorem read_spec (r : Reader) (n : Nat) :
    (r.read (some n)).1 = (Reader.all r).take n ∧ Reader.all (r.read (some n)).2 = (Reader.all r).drop n :=
  take_spec n r.buffer r.coming

/-- The wrapper's fields represent the position. -/
structure Rel (s : SW) (f : Ref) : Prop where
  left : Reader.all s.reader = f.content.drop s.pos
  floor : f.floor = s.pos
  pos : f.pos = s.tell

theorem align_spec {s f} (h : Rel s f) :
    Reader.all s.align.reader = f.at ∧ s.align.pos = f.pos ∧ s.align.next ≤ f.pos := by
  have hp := h.pos
  unfold SW.align SW.tell Ref.at at *
  by_cases hn : s.next > s.pos
  · rw [if_pos hn] at hp ⊢
    refine ⟨?_, hp.symm, ?_⟩
    · simp only
      rw [(read_spec _ _).2, h.left, List.drop_drop, hp]
      congr 1
      omega
    · simp only; omega
  · rw [if_neg hn] at hp ⊢
    exact ⟨by rw [h.left, hp], hp.symm, by omega⟩

theorem tell_of_le {s : SW} (h : s.next ≤ s.pos) : s.tell = s.pos := by unfold SW.tell; rw [if_neg (by omega)]

theorem sw_read_rel {s f} (h : Rel s f) (n : Nat) :
    (s.read (some n)).2 = f.at.take n ∧
      Rel (s.read (some n)).1 ⟨f.content, f.pos + (f.at.take n).length, f.pos + (f.at.take n).length⟩ := by
  obtain ⟨h1, h2, h3⟩ := align_spec h
  have hr := read_spec s.align.reader n
  rw [h1] at hr
  unfold SW.read
  simp only
  refine ⟨hr.1, ?_, ?_, ?_⟩
  · simp only
    rw [hr.2, hr.1, h2]
    unfold Ref.at
    rw [List.drop_drop]
    -- past the end both are empty
    by_cases hle : n ≤ (f.content.drop f.pos).length
    · rw [List.length_take, Nat.min_eq_left hle]
    · rw [List.length_drop] at hle
      rw [List.drop_of_length_le (by omega), List.drop_of_length_le]
      rw [List.length_take, List.length_drop]
      omega
  · simp only; rw [hr.1, h2]
  · rw [tell_of_le]
    · simp only; rw [hr.1, h2]
    · simp only; omega

theorem sw_readEnd_rel {s f} (h : Rel s f) :
    (s.read none).2 = f.at ∧ Rel (s.read none).1 ⟨f.content, f.pos + f.at.length, f.pos + f.at.length⟩ := by
  obtain ⟨h1, h2, h3⟩ := align_spec h
  have e1 : (s.align.reader.read none).1 = f.at := h1
  unfold SW.read
  simp only
  refine ⟨e1, ?_, ?_, ?_⟩
  · simp only
    rw [e1, h2]
    show ([] : Bytes) ++ [] = _
    unfold Ref.at
    rw [List.drop_of_length_le]
    · rfl
    · rw [List.length_drop]; omega
  · simp only; rw [e1, h2]
  · rw [tell_of_le]
    · simp only; rw [e1, h2]
    · simp only; omega

theorem sw_step_rel {s f} (h : Rel s f) (o : Op) (ho : o ≠ .readall) :
    (s.step o).2 = (f.step o).2 ∧ Rel (s.step o).1 (f.step o).1 := by
  cases o with
  | read n =>
    have := sw_read_rel h n
    exact ⟨congrArg Obs.bytes this.1, this.2⟩
  | readinto n =>
    have := sw_read_rel h n
    exact ⟨congrArg Obs.bytes this.1, this.2⟩
  | readToEnd =>
    have := sw_readEnd_rel h
    exact ⟨congrArg Obs.bytes this.1, this.2⟩
  | readall => exact absurd rfl ho
  | tell => exact ⟨by unfold SW.step Ref.step; simp only [h.pos], h⟩
  | seek k w =>
    have hp := h.pos
    have hf := h.floor
    have key : ∀ t : Int,
        ((if t < s.pos then (s, Obs.refused) else ({ s with next := t.toNat }, .num t)).2 =
          (if t < f.floor then (f, Obs.refused) else ({ f with pos := t.toNat }, .num t)).2 ∧
        Rel (if t < s.pos then (s, Obs.refused) else ({ s with next := t.toNat }, .num t)).1
          (if t < f.floor then (f, Obs.refused) else ({ f with pos := t.toNat }, .num t)).1) := by
      intro t
      by_cases ht : t < s.pos
      · rw [if_pos ht, if_pos (by omega)]
        exact ⟨rfl, h⟩
      · rw [if_neg ht, if_neg (by omega)]
        refine ⟨rfl, h.left, hf, ?_⟩
        unfold SW.tell
        simp only
        split <;> omega
    unfold SW.step Ref.step SW.seek
    cases w with
    | set => exact key k
    | cur => simp only; rw [← hp]; exact key _
    | fromEnd => exact ⟨rfl, h⟩

theorem sw_run_rel {s f} (h : Rel s f) (os : List Op) (ho : ∀ o ∈ os, o ≠ .readall) : s.run os = f.run os := by
  induction os generalizing s f with
  | nil => rfl
  | cons o os ih =>
    obtain ⟨h1, h2⟩ := sw_step_rel h o (ho o (List.mem_cons_self ..))
    rw [SW.run, Ref.run, h1, ih h2 (fun o hm => ho o (List.mem_cons_of_mem _ hm))]

/-! ## Standard input -/

/-- The specification of `InputStreamWrapper`: as above, but a read of more than there is raises `EOFError`, and a
seek consumes what it skips. -/
def refIn (c : Bytes) (p : Nat) : Op → Option Nat × Obs
  | .read n => if (c.drop p).length < n then (none, .eof) else (some (p + n), .bytes ((c.drop p).take n))
  | .readToEnd => (some (p + (c.drop p).length), .bytes (c.drop p))
  | .tell => (some p, .num p)
  | .seek o w =>
    match (match w with | .set => some o | .cur => some (p + o) | .fromEnd => none) with
    | none => (some p, .refused)
    | some t => if t < p then (some p, .refused) else (some t.toNat, .num t)
  | _ => (some p, .refused)

/-- The observations up to and including the first `EOFError`. -/
def refRun (c : Bytes) (p : Nat) : List Op → List Obs
  | [] => []
  | o :: os =>
    (refIn c p o).2 :: (match (refIn c p o).1 with | none => [] | some p' => refRun c p' os)

/-- The wrapper's observations up to and including the first `EOFError`. -/
def runIn (s : IW) : List Op → List Obs
  | [] => []
  | o :: os => (s.step o).2 :: (match (s.step o).2 with | .eof => [] | _ => runIn (s.step o).1 os)

theorem pipe_read (p : Pipe) (s : Nat) : ∃ k, (p.read s).1 = p.left.take k ∧ (p.read s).2.left = p.left.drop k ∧ k ≤ s ∧
    (0 < s → 0 < k) := by
  unfold Pipe.read
  cases p.limits with
  | nil => exact ⟨s, rfl, rfl, Nat.le_refl _, fun h => h⟩
  | cons k ks => exact ⟨min s (max k 1), rfl, rfl, by omega, by omega⟩

theorem readLoop_spec (f : Nat) (p : Pipe) (want : Nat) (hf : want ≤ f) :
    (want ≤ p.left.length → (readLoop f p want).1 = some (p.left.take want) ∧ (readLoop f p want).2.left = p.left.drop want) ∧
      (p.left.length < want → (readLoop f p want).1 = none) := by
  induction f generalizing p want with
  | zero =>
    have : want = 0 := by omega
    subst this
    refine ⟨fun _ => ⟨?_, ?_⟩, fun h => by omega⟩
    · rw [readLoop, if_pos rfl, List.take_zero]
    · rw [readLoop, List.drop_zero]
  | succ f ih =>
    by_cases h0 : want = 0
    · subst h0
      refine ⟨fun _ => ⟨?_, ?_⟩, fun h => by omega⟩
      · rw [readLoop, if_pos rfl, List.take_zero]
      · rw [readLoop, if_pos rfl, List.drop_zero]
    · obtain ⟨k, h1, h2, h3, h4⟩ := pipe_read p want
      have hk := h4 (by omega)
      rw [readLoop, if_neg h0]
      simp only
      rw [h1, List.length_take]
      by_cases hl : p.left.length = 0
      · rw [if_pos (by omega)]
        exact ⟨fun h => by omega, fun _ => rfl⟩
      · rw [if_neg (by omega)]
        have ih' := ih (p.read want).2 (want - min k p.left.length) (by omega)
        rw [h2, List.length_drop] at ih'
        refine ⟨fun hw => ?_, fun hw => ?_⟩
        · obtain ⟨h5, h6⟩ := ih'.1 (by omega)
          have hmin : min k p.left.length = k := by omega
          rw [hmin] at h5 h6 ⊢
          refine ⟨?_, ?_⟩
          · rw [h5, Option.map_some, ← List.take_add]
            have hkw : k + (want - k) = want := by omega
            rw [hkw]
          · rw [h6, List.drop_drop]
            congr 1
            omega
        · rw [ih'.2 (by omega)]
          rfl

/-- The wrapper is at its position. -/
def InRel (c : Bytes) (s : IW) (p : Nat) : Prop := s.file.left = c.drop p ∧ s.pos = p

theorem read_full {p : Pipe} (h : p.limits = []) (n : Nat) : (p.read n).2 = ⟨p.left.drop n, []⟩ := by
  unfold Pipe.read; rw [h]

theorem readLoop_limits (f : Nat) (p : Pipe) (want : Nat) (h : p.limits = []) : (readLoop f p want).2.limits = [] := by
  induction f generalizing p want with
  | zero => exact h
  | succ f ih =>
    have hr : (p.read want).2.limits = [] := by rw [read_full h]
    rw [readLoop]
    by_cases h0 : want = 0
    · rw [if_pos h0]; exact h
    · rw [if_neg h0]
      simp only
      split
      · exact hr
      · exact ih _ _ hr

/-- One operation. Skipping needs a file whose `read` never falls short before the end (`limits = []`). -/
theorem in_step {c s p} (h : InRel c s p) (o : Op) (hf : s.file.limits = [] ∨ ∀ k w, o ≠ .seek k w) :
    (s.step o).2 = (refIn c p o).2 ∧ ((refIn c p o).1 = none ↔ (s.step o).2 = .eof) ∧
      (∀ p', (refIn c p o).1 = some p' → InRel c (s.step o).1 p') ∧
      (s.file.limits = [] → (s.step o).1.file.limits = []) := by
  obtain ⟨h1, h2⟩ := h
  cases o with
  | read n =>
    have hs := readLoop_spec n s.file n (Nat.le_refl _)
    rw [h1] at hs
    unfold IW.step refIn
    simp only
    by_cases hn : (c.drop p).length < n
    · have he := hs.2 hn
      rw [he, if_pos hn]
      exact ⟨rfl, ⟨fun _ => rfl, fun _ => rfl⟩, fun p' hp => (by cases hp), fun hl => readLoop_limits _ _ _ hl⟩
    · obtain ⟨e1, e2⟩ := hs.1 (by omega)
      rw [e1, if_neg hn]
      refine ⟨rfl, ⟨fun hc => (by cases hc), fun hc => (by cases hc)⟩, fun p' hp => ?_, fun hl => readLoop_limits _ _ _ hl⟩
      injection hp with hp
      subst hp
      refine ⟨?_, ?_⟩
      · simp only; rw [e2, List.drop_drop]
      · simp only; rw [h2, List.length_take]; omega
  | readToEnd =>
    unfold IW.step refIn
    simp only
    refine ⟨by rw [h1], ⟨fun hc => (by cases hc), fun hc => (by cases hc)⟩, fun p' hp => ?_, fun hl => hl⟩
    injection hp with hp
    subst hp
    refine ⟨?_, ?_⟩
    · simp only
      rw [List.drop_of_length_le]
      rw [List.length_drop]; omega
    · simp only; rw [h1, h2]
  | tell =>
    refine ⟨?_, ⟨fun hc => (by cases hc), fun hc => (by cases hc)⟩, fun p' hp => ?_, fun hl => hl⟩
    · unfold IW.step refIn; simp only; rw [h2]
    · injection hp with hp; subst hp; exact ⟨h1, h2⟩
  | seek k w =>
    have hl : s.file.limits = [] := by
      rcases hf with hf | hf
      · exact hf
      · exact absurd rfl (hf k w)
    have key : ∀ d t : Int, d = t - p →
        (if d < 0 then (s, Obs.refused) else if d > 0 then (⟨(s.file.read d.toNat).2, s.pos + d.toNat⟩, .num (s.pos + d))
          else (s, .num s.pos)).2 = (if t < p then (some p, Obs.refused) else (some t.toNat, .num t)).2 ∧
        (((if t < p then (some p, Obs.refused) else (some t.toNat, .num t)) : Option Nat × Obs).1 = none ↔
          (if d < 0 then (s, Obs.refused) else if d > 0 then (⟨(s.file.read d.toNat).2, s.pos + d.toNat⟩, .num (s.pos + d))
          else (s, .num s.pos)).2 = .eof) ∧
        (∀ p', ((if t < p then (some p, Obs.refused) else (some t.toNat, .num t)) : Option Nat × Obs).1 = some p' →
          InRel c (if d < 0 then (s, Obs.refused) else if d > 0 then
            (⟨(s.file.read d.toNat).2, s.pos + d.toNat⟩, .num (s.pos + d)) else (s, .num s.pos)).1 p') ∧
        (s.file.limits = [] → (if d < 0 then (s, Obs.refused) else if d > 0 then
            (⟨(s.file.read d.toNat).2, s.pos + d.toNat⟩, .num (s.pos + d)) else (s, .num s.pos)).1.file.limits = []) := by
      intro d t hd
      by_cases h3 : d < 0
      · rw [if_pos h3, if_pos (by omega)]
        refine ⟨rfl, ⟨fun hc => (by cases hc), fun hc => (by cases hc)⟩, fun p' hp => ?_, fun hl => hl⟩
        injection hp with hp; subst hp; exact ⟨h1, h2⟩
      · rw [if_neg h3, if_neg (c := t < p) (by omega)]
        by_cases h4 : d > 0
        · rw [if_pos h4]
          refine ⟨?_, ⟨fun hc => (by cases hc), fun hc => (by cases hc)⟩, fun p' hp => ?_, fun hl => ?_⟩
          · simp only; congr 1; omega
          · injection hp with hp
            subst hp
            refine ⟨?_, ?_⟩
            · simp only
              rw [read_full hl, h1, List.drop_drop]
              have hpd : p + d.toNat = t.toNat := by omega
              rw [hpd]
            · simp only; omega
          · simp only; rw [read_full hl]
        · rw [if_neg h4]
          refine ⟨?_, ⟨fun hc => (by cases hc), fun hc => (by cases hc)⟩, fun p' hp => ?_, fun hl => hl⟩
          · simp only; congr 1; omega
          · injection hp with hp
            have : p' = p := by omega
            subst this
            exact ⟨h1, h2⟩
    unfold IW.step refIn
    cases w with
    | set => exact key _ _ (by rw [h2])
    | cur => exact key _ _ (by omega)
    | fromEnd =>
      refine ⟨rfl, ⟨fun hc => (by cases hc), fun hc => (by cases hc)⟩, fun p' hp => ?_, fun hl => hl⟩
      injection hp with hp; subst hp; exact ⟨h1, h2⟩
  | readinto n =>
    refine ⟨rfl, ⟨fun hc => (by cases hc), fun hc => (by cases hc)⟩, fun p' hp => ?_, fun hl => hl⟩
    injection hp with hp; subst hp; exact ⟨h1, h2⟩
  | readall =>
    refine ⟨rfl, ⟨fun hc => (by cases hc), fun hc => (by cases hc)⟩, fun p' hp => ?_, fun hl => hl⟩
    injection hp with hp; subst hp; exact ⟨h1, h2⟩

theorem in_run {c s p} (h : InRel c s p) (os : List Op) (hf : s.file.limits = [] ∨ ∀ o ∈ os, ∀ k w, o ≠ .seek k w) :
    runIn s os = refRun c p os := by
  induction os generalizing s p with
  | nil => rfl
  | cons o os ih =>
    have hf' : s.file.limits = [] ∨ ∀ k w, o ≠ .seek k w := by
      rcases hf with hf | hf
      · exact .inl hf
      · exact .inr (hf o (List.mem_cons_self ..))
    obtain ⟨h1, h2, h3, h4⟩ := in_step h o hf'
    rw [runIn, refRun]
    congr 1
    cases hr : (refIn c p o).1 with
    | none =>
      rw [h2.1 hr]
    | some p' =>
      have hne : (s.step o).2 ≠ .eof := by
        intro he
        rw [h2.2 he] at hr
        cases hr
      have hn : runIn (s.step o).1 os = refRun c p' os := by
        refine ih (h3 p' hr) ?_
        rcases hf with hf | hf
        · exact .inl (h4 hf)
        · exact .inr (fun o ho => hf o (List.mem_cons_of_mem _ ho))
      cases ho : (s.step o).2 with
      | eof => exact absurd ho hne
      | bytes b => exact hn
      | num n => exact hn
      | refused => exact hn

end Verif.Props.Fwd

namespace Verif.Props

open Verif Verif.IO.Stream Fwd

/-- **C37**, asynchronous wrapper: however the stream is cut into pieces, every sequence of reads, forward skips,
position queries and refused seeks gives what it gives on the stream as an array: reads deliver the bytes at
`tell()`, and seeks to consumed bytes or from the end are refused and change nothing. Missing: `readall()`, which
leaves a wrong position (see the counterexample; `read()` is included). -/
theorem C37_async_partial (pieces : List Bytes) (os : List Op) (ho : ∀ o ∈ os, o ≠ .readall) :
    (SW.new pieces).run os = (Ref.mk pieces.flatten 0 0).run os :=
  sw_run_rel ⟨rfl, rfl, rfl⟩ os ho

/-- **C37**, the pieces do not matter. -/
theorem C37_async_split (pieces pieces' : List Bytes) (h : pieces.flatten = pieces'.flatten) (os : List Op)
    (ho : ∀ o ∈ os, o ≠ .readall) : (SW.new pieces).run os = (SW.new pieces').run os := by
  rw [C37_async_partial _ _ ho, C37_async_partial _ _ ho, h]

/-- **C37**, writing: what has been sent is as long as the position says, bytes are never sent twice or moved, a skip
is filled with zeros, and a seek to what has been sent is refused. -/
theorem C37_write (s : WW) (hs : s.sent.length = s.pos) (b : Bytes) :
    (s.write b).sent = s.sent ++ List.replicate (s.tell - s.pos) 0 ++ b ∧ (s.write b).sent.length = (s.write b).pos ∧
      (s.write b).tell = s.tell + b.length ∧ (∀ t, t < s.pos ↔ s.seek t = none) := by
  unfold WW.write WW.align WW.tell
  refine ⟨?_, ?_, ?_, fun t => ?_⟩
  · by_cases h : s.next > s.pos
    · simp only [if_pos h]
    · simp only [if_neg h]
      simp
  · by_cases h : s.next > s.pos
    · simp only [if_pos h, List.length_append, List.length_replicate]; omega
    · simp only [if_neg h, List.length_append]; omega
  · by_cases h : s.next > s.pos
    · simp only [if_pos h]
      split <;> omega
    · simp only [if_neg h]
      split <;> omega
  · unfold WW.seek
    by_cases h : t < s.pos
    · rw [if_pos h]; exact ⟨fun _ => rfl, fun _ => h⟩
    · rw [if_neg h]; exact ⟨fun hc => absurd hc h, fun hc => by cases hc⟩

/-- **C37**, standard input: for every stream and every way in which reads of the underlying file fall short, reads
deliver the bytes at `tell()`, until the first `EOFError`. -/
theorem C37_stdin_reads (c : Bytes) (limits : List Nat) (os : List Op) (ho : ∀ o ∈ os, ∀ k w, o ≠ .seek k w) :
    runIn ⟨⟨c, limits⟩, 0⟩ os = refRun c 0 os :=
  in_run ⟨rfl, rfl⟩ os (.inr ho)

/-- **C37**, standard input with skips, for a file whose reads fall short only at the end (as those of
`sys.stdin.buffer`): until the first `EOFError`. Missing: files with short reads, see the counterexample. -/
theorem C37_stdin_seeks_partial (c : Bytes) (os : List Op) : runIn ⟨⟨c, []⟩, 0⟩ os = refRun c 0 os :=
  in_run ⟨rfl, rfl⟩ os (.inl rfl)

/-! ## Examples and counterexamples -/

example : (SW.new [[1, 2], [], [3, 4, 5], [6]]).run
    [.read 1, .seek 4 .set, .tell, .seek (-1) .cur, .read 2, .seek 0 .set, .seek 0 .fromEnd, .tell, .readToEnd, .tell] =
    [.bytes [1], .num 4, .num 4, .num 3, .bytes [4, 5], .refused, .refused, .num 5, .bytes [6], .num 6] := by decide +kernel

example : runIn ⟨⟨[1, 2, 3, 4, 5], [1, 1, 2]⟩, 0⟩ [.read 3, .tell, .read 1, .read 4, .read 1] =
    [.bytes [1, 2, 3], .num 3, .bytes [4], .eof] := by decide +kernel

/-- `readall` counts its bytes twice. -/
theorem C37_readall_counterexample :
    (SW.new [[1, 2, 3]]).run [.readall, .tell] = [.bytes [1, 2, 3], .num 6] := by decide +kernel

/-- A skip over a short read lands before its target: the byte delivered at position 2 is the one at 1. -/
theorem C37_short_skip_counterexample :
    IW.run ⟨⟨[10, 11, 12, 13], [1]⟩, 0⟩ [.seek 2 .set, .tell, .read 1] = [.num 2, .num 2, .bytes [11]] := by decide +kernel

/-- After an `EOFError` the bytes that were read are lost, and the position has not moved. -/
theorem C37_eof_counterexample :
    IW.run ⟨⟨[10, 11], []⟩, 0⟩ [.read 3, .tell, .readToEnd] = [.eof, .num 0, .bytes []] := by decide +kernel

end Verif.Props

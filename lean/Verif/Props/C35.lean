import Verif.IO.IOBytes

/-!
# C35: deferred bytes objects

The specification knows only the content of the file: an object stands for `content[start : start+length]`
and every use of it is that use of these bytes; the position of the stream is what the *other* users of it
make of it.
-/

namespace Verif.Props

open Verif Verif.IO

/-- The bytes an object stands for. -/
def rangeOf (content : Bytes) (b : IOB) : Bytes := (content.drop b.start).take b.length

/-- The same use of plain bytes. (`repr` shows whether loading happened and is left out here; adding works
for bytes.) -/
def useOfBytes (bs : Bytes) : Use → Val
  | .toBytes => .bytes bs
  | .method f => f bs
  | .len => .nat bs.length
  | .iter => .list bs
  | .repr => .unit
  | .add other => .bytes (bs ++ other)

/-- What a program should see if all objects were plain bytes. -/
def plainStep (content : Bytes) (ranges : List Bytes) (pos : Nat) : Op → Val × Nat
  | .use k u => ((ranges[k]?.map (fun bs => useOfBytes bs u)).getD .unit, pos)
  | .eqObj k j =>
    match ranges[k]?, ranges[j]? with
    | some a, some b => (.bool (a == b), pos)
    | _, _ => (.unit, pos)
  | .seek p => (.unit, p)
  | .read n => (.bytes ((content.drop pos).take n), pos + ((content.drop pos).take n).length)

def plainRun (content : Bytes) (ranges : List Bytes) : Nat → List Op → List Val × Nat
  | pos, [] => ([], pos)
  | pos, op :: ops =>
    let (v, pos) := plainStep content ranges pos op
    let (vs, pos) := plainRun content ranges pos ops
    (v :: vs, pos)

/-- The uses for which `IOBytes` keeps its promise: all but `+`, `==` between two different `IOBytes`, and
`repr`. -/
def Kept : Op → Prop
  | .use _ (.add _) => False
  | .use _ .repr => False
  | .eqObj _ _ => False
  | _ => True

instance : DecidablePred Kept := fun op => by
  cases op with
  | use k u => cases u <;> (unfold Kept; infer_instance)
  | _ => unfold Kept; infer_instance

/-- An object is either not loaded, and then was never read, or holds its range, read once. -/
def ObjOk (content : Bytes) (b : IOB) : Prop :=
  (b.object = none ∧ b.loads = 0) ∨ (b.object = some (rangeOf content b) ∧ b.loads = 1)

theorem force_ok {content : Bytes} {b : IOB} {f : File} (hf : f.content = content) (h : ObjOk content b) :
    (b.force f).1 = rangeOf content b ∧ ObjOk content (b.force f).2.1 ∧ (b.force f).2.2 = f ∧
      (b.force f).2.1.start = b.start ∧ (b.force f).2.1.length = b.length ∧
      (b.force f).2.1.loads ≤ 1 := by
  rcases h with ⟨h1, h2⟩ | ⟨h1, h2⟩
  · subst hf
    simp only [IOB.force, h1, IOB.loadbytes, File.seek, File.read, h2]
    exact ⟨rfl, .inr ⟨rfl, rfl⟩, trivial, trivial, trivial, Nat.le_refl _⟩
  · simp only [IOB.force, h1]
    exact ⟨trivial, .inr ⟨h1, h2⟩, trivial, trivial, trivial, by omega⟩

theorem pyIndex_nat (bs : Bytes) (i : Nat) :
    pyIndex bs i = match bs[i]? with | some x => .byte x | none => .indexError := by
  unfold pyIndex
  have h1 : ¬ ((i : Int) < 0) := by omega
  simp only [h1, if_false, Int.toNat_natCast]
  rfl

theorem iterFrom_eq (bs : Bytes) : ∀ (fuel i : Nat), bs.length < fuel + i → iterFrom bs fuel i = bs.drop i
  | 0, i, h => by rw [List.drop_eq_nil_of_le (by omega)]; rfl
  | fuel + 1, i, h => by
    rw [iterFrom, pyIndex_nat]
    by_cases hi : i < bs.length
    · rw [List.getElem?_eq_getElem hi]
      simp only
      rw [iterFrom_eq bs fuel (i + 1) (by omega), ← List.drop_eq_getElem_cons hi]
    · rw [List.getElem?_eq_none (by omega), List.drop_eq_nil_of_le (by omega)]

/-- All objects stand for ranges of the file. -/
structure WorldOk (content : Bytes) (ranges : List Bytes) (pos : Nat) (w : World) : Prop where
  hcontent : w.file.content = content
  hpos : w.file.pos = pos
  hranges : w.objs.map (rangeOf content) = ranges
  ok : ∀ b ∈ w.objs, ObjOk content b

theorem WorldOk.set {content ranges pos w} (h : WorldOk content ranges pos w) {k : Nat} {b b' : IOB}
    (hb : w.objs[k]? = some b) (hr : rangeOf content b' = rangeOf content b) (ho : ObjOk content b') :
    WorldOk content ranges pos ⟨w.file, w.objs.set k b'⟩ where
  hcontent := h.hcontent
  hpos := h.hpos
  hranges := by
    rw [← h.hranges, List.map_set, hr]
    apply List.ext_getElem?
    intro i
    rw [List.getElem?_set]
    split
    · rename_i hi
      subst hi
      rw [List.getElem?_map, hb]
      have := (List.getElem?_eq_some_iff.1 hb).1
      simp [this]
    · rfl
  ok := by
    intro c hc
    rcases List.mem_or_eq_of_mem_set hc with hc | rfl
    · exact h.ok c hc
    · exact ho

theorem force_range {content : Bytes} {b : IOB} {f : File} (hf : f.content = content) (h : ObjOk content b) :
    rangeOf content (b.force f).2.1 = rangeOf content b := by
  have := force_ok hf h
  unfold rangeOf
  rw [this.2.2.2.1, this.2.2.2.2.1]

theorem len_ok {content : Bytes} {b : IOB} (h : ObjOk content b) (hin : b.start + b.length ≤ content.length) :
    b.len = (rangeOf content b).length := by
  rcases h with ⟨h1, _⟩ | ⟨h1, _⟩
  · unfold IOB.len rangeOf
    rw [h1]
    simp only [List.length_take, List.length_drop]
    omega
  · unfold IOB.len
    rw [h1]

theorem step_ok {content ranges pos w} (h : WorldOk content ranges pos w) (op : Op) (hk : Kept op)
    (hin : ∀ b ∈ w.objs, b.start + b.length ≤ content.length) :
    (w.step op).1 = (plainStep content ranges pos op).1 ∧
      WorldOk content ranges (plainStep content ranges pos op).2 (w.step op).2 ∧
      (∀ b ∈ (w.step op).2.objs, b.start + b.length ≤ content.length) := by
  cases op with
  | seek p =>
    exact ⟨rfl, ⟨h.hcontent, rfl, h.hranges, h.ok⟩, hin⟩
  | read n =>
    refine ⟨?_, ⟨h.hcontent, ?_, h.hranges, h.ok⟩, hin⟩
    · simp only [World.step, File.read, plainStep, h.hcontent, h.hpos]
    · simp only [World.step, File.read, plainStep, h.hcontent, h.hpos]
  | eqObj k j => exact absurd hk (by simp [Kept])
  | use k u =>
    have hr : ranges[k]? = (w.objs[k]?).map (rangeOf content) := by rw [← h.hranges, List.getElem?_map]
    cases hb : w.objs[k]? with
    | none =>
      rw [hb] at hr
      simp only [World.step, hb, plainStep, hr]
      exact ⟨rfl, h, hin⟩
    | some b =>
      rw [hb] at hr
      simp only [Option.map_some] at hr
      have hmem := List.mem_of_getElem? hb
      have hfo := force_ok h.hcontent (h.ok b hmem)
      have hset := h.set hb (force_range h.hcontent (h.ok b hmem)) hfo.2.1
      have hfile := hfo.2.2.1
      have hin' : ∀ c ∈ w.objs.set k (b.force w.file).2.1, c.start + c.length ≤ content.length := by
        intro c hc
        rcases List.mem_or_eq_of_mem_set hc with hc | rfl
        · exact hin c hc
        · rw [hfo.2.2.2.1, hfo.2.2.2.2.1]; exact hin b hmem
      have hself : w.objs.set k b = w.objs := by
        apply List.ext_getElem?
        intro i
        rw [List.getElem?_set]
        split
        · rename_i hi
          subst hi
          rw [hb]
          have := (List.getElem?_eq_some_iff.1 hb).1
          simp [this]
        · rfl
      cases u with
      | repr => exact absurd hk (by simp [Kept])
      | add o => exact absurd hk (by simp [Kept])
      | len =>
        simp only [World.step, hb, IOB.use, plainStep, hr, Option.map_some, Option.getD_some, useOfBytes, hself]
        exact ⟨by rw [len_ok (h.ok b hmem) (hin b hmem)], h, hin⟩
      | toBytes =>
        simp only [World.step, hb, IOB.use, plainStep, hr, Option.map_some, Option.getD_some, useOfBytes, hfo.1, hfile]
        exact ⟨trivial, hset, hin'⟩
      | method f =>
        simp only [World.step, hb, IOB.use, plainStep, hr, Option.map_some, Option.getD_some, useOfBytes, hfo.1, hfile]
        exact ⟨trivial, hset, hin'⟩
      | iter =>
        simp only [World.step, hb, IOB.use, plainStep, hr, Option.map_some, Option.getD_some, useOfBytes, hfo.1, hfile]
        refine ⟨?_, hset, hin'⟩
        rw [iterFrom_eq _ _ _ (by omega), List.drop_zero]

/-- **C35.** Any file, any objects with ranges inside the file, any position, and any sequence of uses of
the objects mixed with seeks and reads of other users: every use gives what it gives on the bytes of the
range; the other users see the stream as if the objects were not there; each object was read at most
once. -/
theorem C35_partial (content : Bytes) (pos : Nat) (rs : List (Nat × Nat))
    (hin : ∀ r ∈ rs, r.1 + r.2 ≤ content.length) (ops : List Op) (hk : ∀ op ∈ ops, Kept op) :
    let w : World := ⟨⟨content, pos⟩, rs.map (fun r => ⟨r.1, r.2, none, 0⟩)⟩
    let ranges := rs.map (fun r => (content.drop r.1).take r.2)
    (w.run ops).1 = (plainRun content ranges pos ops).1 ∧
      (w.run ops).2.file = ⟨content, (plainRun content ranges pos ops).2⟩ ∧
      ∀ b ∈ (w.run ops).2.objs, b.loads ≤ 1 := by
  intro w ranges
  have main : ∀ (ops : List Op) (pos : Nat) (w : World), (∀ op ∈ ops, Kept op) → WorldOk content ranges pos w →
      (∀ b ∈ w.objs, b.start + b.length ≤ content.length) →
      (w.run ops).1 = (plainRun content ranges pos ops).1 ∧
        WorldOk content ranges (plainRun content ranges pos ops).2 (w.run ops).2 := by
    intro ops
    induction ops with
    | nil => intro pos w _ h _; exact ⟨rfl, h⟩
    | cons op ops ih =>
      intro pos w hk h hin
      obtain ⟨h1, h2, h3⟩ := step_ok h op (hk op (List.mem_cons_self ..)) hin
      obtain ⟨h4, h5⟩ := ih _ _ (fun op hop => hk op (List.mem_cons_of_mem _ hop)) h2 h3
      simp only [World.run, plainRun]
      exact ⟨by rw [h1, h4], h5⟩
  have h0 : WorldOk content ranges pos w := by
    refine ⟨rfl, rfl, ?_, ?_⟩
    · rw [List.map_map]; rfl
    · intro b hb
      rw [List.mem_map] at hb
      obtain ⟨r, _, rfl⟩ := hb
      exact .inl ⟨rfl, rfl⟩
  obtain ⟨h1, h2⟩ := main ops pos w hk h0 (by
    intro b hb
    rw [List.mem_map] at hb
    obtain ⟨r, hr, rfl⟩ := hb
    exact hin r hr)
  refine ⟨h1, ?_, ?_⟩
  · have e1 := h2.hcontent
    have e2 := h2.hpos
    cases hf : (w.run ops).2.file with
    | mk c p => rw [hf] at e1 e2; simp only at e1 e2; rw [e1, e2]
  · intro b hb
    rcases h2.ok b hb with ⟨_, h⟩ | ⟨_, h⟩ <;> omega

/-- **C35**, reading: no use at all, also on a range that goes past the end of the file, moves the position
of the stream, reads anything else than the range, or reads the range twice. -/
theorem C35_no_trace (b : IOB) (f : File) (hb : ObjOk f.content b) (u : Use) :
    (b.use f u).2.2 = f ∧ ObjOk f.content (b.use f u).2.1 ∧ rangeOf f.content (b.use f u).2.1 = rangeOf f.content b := by
  have h := force_ok rfl hb
  have hr := force_range rfl hb
  cases u with
  | len => exact ⟨rfl, hb, rfl⟩
  | repr => exact ⟨rfl, hb, rfl⟩
  | add o => exact ⟨rfl, hb, rfl⟩
  | toBytes => exact ⟨h.2.2.1, h.2.1, hr⟩
  | method g => exact ⟨h.2.2.1, h.2.1, hr⟩
  | iter => exact ⟨h.2.2.1, h.2.1, hr⟩

/-- Asking for the length or printing does not read. -/
theorem C35_len_lazy (b : IOB) (f : File) :
    (b.use f .len).2 = (b, f) ∧ (b.use f .repr).2 = (b, f) := ⟨rfl, rfl⟩

/-- **C35**, indexing: a position counted from either end gives the byte of the range there, anything else
is an `IndexError`. -/
theorem C35_index (bs : Bytes) :
    (∀ i, (h : i < bs.length) → pyIndex bs (i : Int) = .byte bs[i]) ∧
    (∀ k, (h0 : 0 < k) → (h : k ≤ bs.length) → pyIndex bs (-(k : Int)) = .byte (bs[bs.length - k]'(by omega))) ∧
    (∀ i : Int, (bs.length : Int) ≤ i ∨ i < -(bs.length : Int) → pyIndex bs i = .indexError) := by
  refine ⟨fun i h => ?_, fun k hk h => ?_, fun i h => ?_⟩
  · simp only [pyIndex]
    rw [if_neg (by omega), if_neg (by omega), Int.toNat_natCast, List.getElem?_eq_getElem h]
  · simp only [pyIndex]
    rw [if_pos (c := -(k : Int) < 0) (by omega), if_neg (by omega)]
    have e : (-(k : Int) + bs.length).toNat = bs.length - k := by omega
    rw [e, List.getElem?_eq_getElem (by omega)]
  · simp only [pyIndex]
    by_cases h0 : i < 0
    · rw [if_pos h0, if_pos (by omega)]
    · rw [if_neg h0, if_neg h0, List.getElem?_eq_none (by omega)]

/-- **C35 fails** for `==` between two objects over the same bytes: they compare unequal. -/
theorem C35_eq_counterexample :
    let w : World := ⟨⟨[1, 2, 1, 2], 0⟩, [⟨0, 2, none, 0⟩, ⟨2, 2, none, 0⟩]⟩
    (w.run [.use 0 .toBytes, .use 1 .toBytes, .eqObj 0 1]).1 = [.bytes [1, 2], .bytes [1, 2], .bool false] := by
  decide +kernel

/-- **C35 fails** for concatenation: it is always a `TypeError`. -/
theorem C35_add_counterexample (b : IOB) (f : File) (other : Bytes) : (b.use f (.add other)).1 = .typeError := rfl

/-- **C35 fails** for `len` of a range past the end of the file: it is the declared length until the bytes
are loaded and the real one afterwards. -/
theorem C35_len_counterexample :
    let w : World := ⟨⟨[1, 2, 3], 0⟩, [⟨1, 5, none, 0⟩]⟩
    (w.run [.use 0 .len, .use 0 .toBytes, .use 0 .len]).1 = [.nat 5, .bytes [2, 3], .nat 2] := by
  decide +kernel

/-- Two overlapping ranges, indexing from the end, iteration, comparison, and another user reading in
between. -/
example :
    let ops : List Op := [.use 1 (.method (fun bs => pyIndex bs (-1))), .read 2, .use 0 .iter, .use 0 .len,
      .read 1, .use 1 (.method (fun bs => .bool (bs == [3, 4])))]
    let w : World := ⟨⟨[1, 2, 3, 4, 5], 1⟩, [⟨0, 4, none, 0⟩, ⟨2, 2, none, 0⟩]⟩
    (∀ op ∈ ops, Kept op) ∧ (w.run ops).1 =
      [.byte 4, .bytes [2, 3], .list [1, 2, 3, 4], .nat 4, .bytes [4], .bool true] := by
  refine ⟨?_, by decide +kernel⟩
  intro op hop
  simp only [List.mem_cons, List.mem_nil_iff, or_false] at hop
  rcases hop with rfl | rfl | rfl | rfl | rfl | rfl <;> simp [Kept]

end Verif.Props

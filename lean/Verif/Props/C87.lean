import Verif.Compare.MatcherLemmas

/-!
# C87: what a comparison says about binary data
-/

namespace Verif.Props

open Verif Verif.Compare Verif.Compare.Matcher

/-- The samples `a[i:i+n]` and `b[j:j+n]` are there and are equal one by one. -/
def C87.Agree (a b : List Sample) (i j n : Nat) : Prop :=
  ∀ t, t < n → ∃ x y, a[i + t]? = some x ∧ b[j + t]? = some y ∧ x.eq y = true

/-- Position `i` is the first at which the samples differ. -/
def C87.FirstDifference (a b : List Sample) (i : Nat) : Prop :=
  C87.Agree a b 0 0 i ∧ ∃ x y, a[i]? = some x ∧ b[i]? = some y ∧ x.eq y = false

/-- A list of changes that turns what is left of `a` from `i` on into what is left of `b` from `j` on: each starts where the one before
ended, on both sides, and the last ends at the end of both. What is said to be equal is equal, and nothing else is kept. -/
inductive C87.Script (a b : List Sample) : Nat → Nat → List OpCode → Prop
  | done : Script a b a.length b.length []
  | equal {i j n ops} : 0 < n → C87.Agree a b i j n → Script a b (i + n) (j + n) ops →
      Script a b i j (⟨.equal, i, i + n, j, j + n⟩ :: ops)
  | delete {i i' j ops} : i < i' → i' ≤ a.length → Script a b i' j ops → Script a b i j (⟨.delete, i, i', j, j⟩ :: ops)
  | insert {i j j' ops} : j < j' → j' ≤ b.length → Script a b i j' ops → Script a b i j (⟨.insert, i, i, j, j'⟩ :: ops)
  | replace {i i' j j' x y ops} : i < i' → j < j' → i' ≤ a.length → j' ≤ b.length →
      a[i]? = some x → b[j]? = some y → x.eq y = false → Script a b i' j' ops →
      Script a b i j (⟨.replace, i, i', j, j'⟩ :: ops)

namespace C87L

theorem per : Per Sample.eq where
  symm := by
    intro x y h
    cases x <;> cases y <;> simp only [Sample.eq] at h ⊢ <;> grind
  trans := by
    intro x y z h g
    cases x <;> cases y <;> cases z <;> simp only [Sample.eq] at h g ⊢ <;> grind

theorem agree_of {a b : List Sample} {i j n : Nat} (h : ∀ t, t < n → same Sample.eq a b (i + t) (j + t) = true) :
    C87.Agree a b i j n := fun t ht => same_true.1 (h t ht)

theorem of_agree {a b : List Sample} {i j n : Nat} (h : C87.Agree a b i j n) :
    ∀ t, t < n → same Sample.eq a b (i + t) (j + t) = true := fun t ht => same_true.2 (h t ht)

theorem same_iff {a b : List Sample} : (a.length = b.length ∧ Common Sample.eq a b) ↔ sameSamples a b = true := by
  induction a generalizing b with
  | nil => cases b <;> simp [sameSamples, Common]
  | cons x a ih =>
    cases b with
    | nil => simp [sameSamples]
    | cons y b =>
      have e : sameSamples (x :: a) (y :: b) = (x.eq y && sameSamples a b) := by
        apply Bool.eq_iff_iff.2
        simp [sameSamples]
        grind
      rw [e, Bool.and_eq_true, ← ih]
      constructor
      · rintro ⟨h1, h2⟩
        refine ⟨by simpa [same] using h2 0 (by simp) (by simp), by simpa using h1, ?_⟩
        intro t ha hb
        simpa [same] using h2 (t + 1) (by simpa using ha) (by simpa using hb)
      · rintro ⟨h1, h2, h3⟩
        refine ⟨by simpa using h2, ?_⟩
        intro t ha hb
        cases t with
        | zero => simpa [same] using h1
        | succ t => simpa [same] using h3 t (by simpa using ha) (by simpa using hb)

/-- The operation before a block. -/
theorem script_gap {a b : List Sample} {i j i' j' : Nat} {ops : List OpCode} (h1 : i ≤ i') (h2 : j ≤ j') (h3 : i' ≤ a.length)
    (h4 : j' ≤ b.length) (hd : i < i' → j < j' → same Sample.eq a b i j = false) (hs : C87.Script a b i' j' ops) :
    C87.Script a b i j ((if i < i' ∧ j < j' then [⟨.replace, i, i', j, j'⟩]
      else if i < i' then [⟨.delete, i, i', j, j'⟩]
      else if j < j' then [⟨.insert, i, i', j, j'⟩] else []) ++ ops) := by
  by_cases c1 : i < i'
  · by_cases c2 : j < j'
    · rw [if_pos ⟨c1, c2⟩]
      have hd := hd c1 c2
      have ea : a[i]? = some a[i] := List.getElem?_eq_getElem (by omega)
      have eb : b[j]? = some b[j] := List.getElem?_eq_getElem (by omega)
      refine C87.Script.replace c1 c2 h3 h4 ea eb ?_ hs
      simpa only [same, ea, eb] using hd
    · rw [if_neg (fun h => c2 h.2), if_pos c1]
      have : j' = j := by omega
      subst this
      exact C87.Script.delete c1 h3 hs
  · rw [if_neg (fun h => c1 h.1), if_neg c1]
    have : i' = i := by omega
    subst this
    by_cases c2 : j < j'
    · rw [if_pos c2]
      exact C87.Script.insert c2 h4 hs
    · rw [if_neg c2]
      have : j' = j := by omega
      subst this
      exact hs

theorem script_of {a b : List Sample} : ∀ (ms : List Match) (i j : Nat), Tiled Sample.eq a b a.length b.length i j ms →
    C87.Script a b i j (opsFrom i j (ms ++ [⟨a.length, b.length, 0⟩]))
  | [], i, j, h => by
    obtain ⟨h1, h2, h3⟩ := h
    simp only [List.nil_append, opsFrom, if_true, List.append_nil]
    have := script_gap h1 h2 (Nat.le_refl _) (Nat.le_refl _) h3 C87.Script.done
    simpa using this
  | m :: ms, i, j, h => by
    have hb := tiled_total _ _ _ h
    obtain ⟨h1, h2, h3, h4, h5, h6⟩ := h
    have hb' := tiled_total _ _ _ h6
    simp only [List.cons_append, opsFrom]
    rw [List.append_assoc]
    apply script_gap h1 h2 (by omega) (by omega) h3
    rw [if_neg (by omega)]
    exact C87.Script.equal h4 (agree_of h5) (script_of ms _ _ h6)

theorem script (a b : List Sample) : C87.Script a b 0 0 (opcodes Sample.eq a b) :=
  script_of (found Sample.eq a b) 0 0 found_tiled

/-- The first change that is not "equal". -/
theorem first {a b : List Sample} : ∀ {i j : Nat} {ops : List OpCode}, C87.Script a b i j ops → i = j → C87.Agree a b 0 0 i →
    (ops.filter (fun x => x.tag != .equal) = [] → a.length = b.length ∧ C87.Agree a b 0 0 a.length) ∧
    ∀ op rest, ops.filter (fun x => x.tag != .equal) = op :: rest →
      C87.Agree a b 0 0 op.i1 ∧ op.i1 = op.j1 ∧ (op.i1 < a.length ∨ op.i1 < b.length) ∧
      (op.tag = .replace → C87.FirstDifference a b op.i1) := by
  intro i j ops h
  induction h with
  | done =>
    intro e ha
    exact ⟨fun _ => ⟨e, ha⟩, fun op rest h => by simp at h⟩
  | @equal i j n ops hn hag hs ih =>
    intro e ha
    subst e
    have := ih rfl (by
      intro t ht
      by_cases hti : t < i
      · exact ha t hti
      · have := hag (t - i) (by omega)
        rw [show i + (t - i) = 0 + t by omega] at this
        exact this)
    simpa using this
  | @delete i i' j ops h1 h2 hs ih =>
    intro e ha
    refine ⟨fun h => by simp at h, ?_⟩
    intro op rest h
    have : op = ⟨.delete, i, i', j, j⟩ := by
      simp only [List.filter_cons] at h
      rw [if_pos (by rfl)] at h
      injection h with h _
      exact h.symm
    subst this
    exact ⟨ha, e, Or.inl (by simp only; omega), fun h => by simp at h⟩
  | @insert i j j' ops h1 h2 hs ih =>
    intro e ha
    refine ⟨fun h => by simp at h, ?_⟩
    intro op rest h
    have : op = ⟨.insert, i, i, j, j'⟩ := by
      simp only [List.filter_cons] at h
      rw [if_pos (by rfl)] at h
      injection h with h _
      exact h.symm
    subst this
    exact ⟨ha, e, Or.inr (by simp only; omega), fun h => by simp at h⟩
  | @replace i i' j j' x y ops h1 h2 h3 h4 hx hy hne hs ih =>
    intro e ha
    refine ⟨fun h => by simp at h, ?_⟩
    intro op rest h
    have : op = ⟨.replace, i, i', j, j'⟩ := by
      simp only [List.filter_cons] at h
      rw [if_pos (by rfl)] at h
      injection h with h _
      exact h.symm
    subst this
    refine ⟨ha, e, Or.inl (by simp only; omega), fun _ => ⟨ha, x, y, hx, ?_, hne⟩⟩
    simp only
    rw [e]; exact hy

theorem agree_common {a b : List Sample} (h : a.length = b.length) (ha : C87.Agree a b 0 0 a.length) : Common Sample.eq a b := by
  intro t h1 _
  have := of_agree ha t h1
  simpa using this

theorem first_op {a b : List Sample} (h : sameSamples a b = false) :
    ∃ op rest, (opcodes Sample.eq a b).filter (fun x => x.tag != .equal) = op :: rest ∧ C87.Agree a b 0 0 op.i1 ∧ op.i1 = op.j1 ∧
      (op.i1 < a.length ∨ op.i1 < b.length) ∧ (op.tag = .replace → C87.FirstDifference a b op.i1) := by
  have hf := first (script a b) rfl (fun t ht => by omega)
  cases hl : (opcodes Sample.eq a b).filter (fun x => x.tag != .equal) with
  | nil =>
    obtain ⟨h1, h2⟩ := hf.1 hl
    have := same_iff.1 ⟨h1, agree_common h1 h2⟩
    rw [h] at this
    cases this
  | cons op rest => exact ⟨op, rest, rfl, hf.2 op rest hl⟩

theorem ratio_same (a b : List Sample) : ratio Sample.eq a b = 1 ↔ sameSamples a b = true := by
  rw [ratio_one per, same_iff]

theorem told_of {a b : List Sample} (h : sameSamples a b = false) {op : OpCode} {rest : List OpCode}
    (ho : (opcodes Sample.eq a b).filter (fun x => x.tag != .equal) = op :: rest) :
    told Sample.eq a b = match a[op.i1]?, b[op.i1]? with
      | some x, some y => some (.differ op.i1 x y)
      | some x, none => some (.extraA ((a.length : Int) - b.length) op.i1 x)
      | none, some y => some (.extraB ((b.length : Int) - a.length) op.i1 y)
      | none, none => none := by
  unfold told
  rw [if_neg (fun hr => by rw [(ratio_same a b).1 hr] at h; cases h), ho]
  simp only
  cases a[op.i1]? <;> cases b[op.i1]? <;> rfl

theorem agree_le {a b : List Sample} {n : Nat} (h : C87.Agree a b 0 0 n) : n ≤ a.length ∧ n ≤ b.length := by
  cases n with
  | zero => exact ⟨Nat.zero_le _, Nat.zero_le _⟩
  | succ n =>
    have := same_lt (of_agree h n (by omega))
    omega

end C87L

/-- The verdict: the similarity is between 0 and 1, and it is 1 exactly if both have the same number of samples and the samples are
equal one by one. This is what the model of the comparison (C42) takes it to be. -/
theorem C87_verdict (a b : List Sample) :
    (0 ≤ ratio Sample.eq a b ∧ ratio Sample.eq a b ≤ 1) ∧
    (ratio Sample.eq a b = 1 ↔ a.length = b.length ∧ C87.Agree a b 0 0 a.length) ∧
    (ratio Sample.eq a b = 1 ↔ sameSamples a b = true) := by
  refine ⟨ratio_le_one, ?_, C87L.ratio_same a b⟩
  rw [ratio_one C87L.per]
  constructor
  · rintro ⟨h1, h2⟩
    exact ⟨h1, C87L.agree_of (fun t ht => by simpa using h2 t ht (by omega))⟩
  · rintro ⟨h1, h2⟩
    exact ⟨h1, C87L.agree_common h1 h2⟩

/-- There always is a message; it says that they are equal exactly if they are. -/
theorem C87_message (a b : List Sample) :
    ∃ m, told Sample.eq a b = some m ∧ (m = .equal ↔ a.length = b.length ∧ C87.Agree a b 0 0 a.length) := by
  have hv := C87_verdict a b
  cases hs : sameSamples a b with
  | true =>
    have hr := (C87L.ratio_same a b).2 hs
    exact ⟨.equal, by unfold told; rw [if_pos hr], ⟨fun _ => hv.2.1.1 hr, fun _ => rfl⟩⟩
  | false =>
    have hn : ¬(a.length = b.length ∧ C87.Agree a b 0 0 a.length) := by
      intro h
      have := hv.2.2.1 (hv.2.1.2 h)
      rw [hs] at this
      cases this
    obtain ⟨op, rest, ho, h1, h2, h3, h4⟩ := C87L.first_op hs
    rw [C87L.told_of hs ho]
    cases ea : a[op.i1]? with
    | none =>
      cases eb : b[op.i1]? with
      | none =>
        have := List.getElem?_eq_none_iff.1 ea
        have := List.getElem?_eq_none_iff.1 eb
        omega
      | some y => exact ⟨_, rfl, ⟨fun h => by simp at h, fun h => absurd h hn⟩⟩
    | some x =>
      cases eb : b[op.i1]? with
      | none => exact ⟨_, rfl, ⟨fun h => by simp at h, fun h => absurd h hn⟩⟩
      | some y => exact ⟨_, rfl, ⟨fun h => by simp at h, fun h => absurd h hn⟩⟩

/-- If the message names a position then the samples before it agree, and the values are those at that position. It is the first
position that differs exactly if the two values differ. -/
theorem C87_position_partial (a b : List Sample) (i : Nat) (x y : Sample) (h : told Sample.eq a b = some (.differ i x y)) :
    a[i]? = some x ∧ b[i]? = some y ∧ C87.Agree a b 0 0 i ∧ (C87.FirstDifference a b i ↔ x.eq y = false) ∧
    (∀ p, C87.FirstDifference a b p → i ≤ p) := by
  cases hs : sameSamples a b with
  | true =>
    unfold told at h
    rw [if_pos ((C87L.ratio_same a b).2 hs)] at h
    cases h
  | false =>
    obtain ⟨op, rest, ho, h1, h2, h3, h4⟩ := C87L.first_op hs
    rw [C87L.told_of hs ho] at h
    have key : a[i]? = some x ∧ b[i]? = some y ∧ C87.Agree a b 0 0 i := by
      cases ea : a[op.i1]? with
      | none => rw [ea] at h; cases eb : b[op.i1]? <;> rw [eb] at h <;> simp at h
      | some x' =>
        cases eb : b[op.i1]? with
        | none => rw [ea, eb] at h; simp at h
        | some y' =>
          rw [ea, eb] at h
          simp only [Option.some.injEq, Told.differ.injEq] at h
          obtain ⟨e1, e2, e3⟩ := h
          subst e1 e2 e3
          exact ⟨ea, eb, h1⟩
    obtain ⟨k1, k2, k3⟩ := key
    refine ⟨k1, k2, k3, ⟨?_, fun hne => ⟨k3, x, y, k1, k2, hne⟩⟩, ?_⟩
    · rintro ⟨_, x', y', hx, hy, hne⟩
      rw [k1] at hx; rw [k2] at hy
      cases hx; cases hy
      exact hne
    · intro p hp
      obtain ⟨_, x', y', hx, hy, hne⟩ := hp
      by_cases hpi : i ≤ p
      · exact hpi
      · exfalso
        obtain ⟨x'', y'', hx', hy', he⟩ := k3 p (by omega)
        rw [Nat.zero_add] at hx' hy'
        rw [hx] at hx'; rw [hy] at hy'
        cases hx'; cases hy'
        rw [hne] at he
        cases he

/-- If the first change is a replacement then the position named is the first that differs. -/
theorem C87_replacement (a b : List Sample) (op : OpCode) (rest : List OpCode)
    (h : (opcodes Sample.eq a b).filter (fun x => x.tag != .equal) = op :: rest) (hr : op.tag = .replace) :
    C87.FirstDifference a b op.i1 ∧ ∃ x y, told Sample.eq a b = some (.differ op.i1 x y) := by
  have hd := ((C87L.first (C87L.script a b) rfl (fun t ht => by omega)).2 op rest h).2.2.2 hr
  refine ⟨hd, ?_⟩
  have hs : sameSamples a b = false := by
    cases hs : sameSamples a b with
    | false => rfl
    | true =>
      exfalso
      obtain ⟨_, x, y, hx, hy, hne⟩ := hd
      obtain ⟨hl, hc⟩ := C87L.same_iff.2 hs
      have hi := (List.getElem?_eq_some_iff.1 hx).1
      have := hc op.i1 hi (by omega)
      simp only [same, hx, hy, hne] at this
      cases this
  obtain ⟨_, x, y, hx, hy, hne⟩ := hd
  exact ⟨x, y, by rw [C87L.told_of hs h, hx, hy]⟩

/-- The message says that the first has `n` more values, starting with `x` at position `i`, exactly if this is so: all samples of the
second agree with those at the same position of the first, which has `n` more, and `x` is the first of these. -/
theorem C87_more_first (a b : List Sample) (n : Int) (i : Nat) (x : Sample) :
    told Sample.eq a b = some (.extraA n i x) ↔
      C87.Agree a b 0 0 b.length ∧ i = b.length ∧ a[i]? = some x ∧ n = (a.length : Int) - b.length := by
  constructor
  · intro h
    cases hs : sameSamples a b with
    | true =>
      unfold told at h
      rw [if_pos ((C87L.ratio_same a b).2 hs)] at h
      cases h
    | false =>
      obtain ⟨op, rest, ho, h1, h2, h3, h4⟩ := C87L.first_op hs
      rw [C87L.told_of hs ho] at h
      cases ea : a[op.i1]? with
      | none => rw [ea] at h; cases eb : b[op.i1]? <;> rw [eb] at h <;> simp at h
      | some x' =>
        cases eb : b[op.i1]? with
        | some y' => rw [ea, eb] at h; simp at h
        | none =>
          rw [ea, eb] at h
          simp only [Option.some.injEq, Told.extraA.injEq] at h
          obtain ⟨e1, e2, e3⟩ := h
          have hb := List.getElem?_eq_none_iff.1 eb
          have := C87L.agree_le h1
          have e : op.i1 = b.length := by omega
          subst e1 e2 e3
          rw [e] at h1
          exact ⟨h1, e, ea, rfl⟩
  · rintro ⟨ha, hi, hx, hn⟩
    subst hi
    have hlt := (List.getElem?_eq_some_iff.1 hx).1
    have hc : Common Sample.eq a b := by
      intro t _ h2
      have := C87L.of_agree ha t h2
      simpa using this
    have hs : sameSamples a b = false := by
      cases hs : sameSamples a b with
      | false => rfl
      | true =>
        have := (C87L.same_iff.2 hs).1
        omega
    have hops : (opcodes Sample.eq a b).filter (fun x => x.tag != .equal) = [⟨.delete, b.length, a.length, b.length, b.length⟩] := by
      have hm : min a.length b.length = b.length := by omega
      have := found_common C87L.per hc
      rw [hm] at this
      unfold opcodes blocks
      unfold found at this
      rw [this]
      by_cases hz : b.length = 0
      · rw [if_pos hz]
        simp only [List.nil_append, opsFrom, hz]
        simp [show 0 < a.length by omega]
      · rw [if_neg hz]
        simp only [List.singleton_append, opsFrom, Nat.zero_add, Nat.lt_irrefl, false_and, and_false, if_false, if_neg hz, hlt, if_true]
        simp
    rw [C87L.told_of hs hops]
    simp only [hx]
    rw [List.getElem?_eq_none (Nat.le_refl _)]
    simp only [hn]

/-- The same for more values of the second. -/
theorem C87_more_second (a b : List Sample) (n : Int) (i : Nat) (y : Sample) :
    told Sample.eq a b = some (.extraB n i y) ↔
      C87.Agree a b 0 0 a.length ∧ i = a.length ∧ b[i]? = some y ∧ n = (b.length : Int) - a.length := by
  constructor
  · intro h
    cases hs : sameSamples a b with
    | true =>
      unfold told at h
      rw [if_pos ((C87L.ratio_same a b).2 hs)] at h
      cases h
    | false =>
      obtain ⟨op, rest, ho, h1, h2, h3, h4⟩ := C87L.first_op hs
      rw [C87L.told_of hs ho] at h
      cases ea : a[op.i1]? with
      | some x' => rw [ea] at h; cases eb : b[op.i1]? <;> rw [eb] at h <;> simp at h
      | none =>
        cases eb : b[op.i1]? with
        | none => rw [ea, eb] at h; simp at h
        | some y' =>
          rw [ea, eb] at h
          simp only [Option.some.injEq, Told.extraB.injEq] at h
          obtain ⟨e1, e2, e3⟩ := h
          have hb := List.getElem?_eq_none_iff.1 ea
          have := C87L.agree_le h1
          have e : op.i1 = a.length := by omega
          subst e1 e2 e3
          rw [e] at h1
          exact ⟨h1, e, eb, rfl⟩
  · rintro ⟨ha, hi, hx, hn⟩
    subst hi
    have hlt := (List.getElem?_eq_some_iff.1 hx).1
    have hc : Common Sample.eq a b := by
      intro t h1 _
      have := C87L.of_agree ha t h1
      simpa using this
    have hs : sameSamples a b = false := by
      cases hs : sameSamples a b with
      | false => rfl
      | true =>
        have := (C87L.same_iff.2 hs).1
        omega
    have hops : (opcodes Sample.eq a b).filter (fun x => x.tag != .equal) = [⟨.insert, a.length, a.length, a.length, b.length⟩] := by
      have hm : min a.length b.length = a.length := by omega
      have := found_common C87L.per hc
      rw [hm] at this
      unfold opcodes blocks
      unfold found at this
      rw [this]
      by_cases hz : a.length = 0
      · rw [if_pos hz]
        simp only [List.nil_append, opsFrom, hz]
        simp [show 0 < b.length by omega]
      · rw [if_neg hz]
        simp only [List.singleton_append, opsFrom, Nat.zero_add, Nat.lt_irrefl, false_and, and_false, if_false, if_neg hz, hlt, if_true]
        simp
    rw [C87L.told_of hs hops]
    simp only [hx]
    rw [List.getElem?_eq_none (Nat.le_refl _)]
    simp only [hn]

/-- The list of changes turns the first into the second. -/
theorem C87_changes (a b : List Sample) : C87.Script a b 0 0 (opcodes Sample.eq a b) := C87L.script a b

/-- The report below the message: nothing for equal data; otherwise the first changes, at least one and at most four, and "etc" if there
are more. For the first grain the samples of each range are printed. For the second the samples at the range of the *first* are printed,
which are those of the change if both ranges are the same. -/
theorem C87_report_partial (a b : List Sample) :
    (sameSamples a b = true → report Sample.eq a b = ([], false)) ∧
    (sameSamples a b = false →
      (report Sample.eq a b).1.map (fun l => l.op) = (opcodes Sample.eq a b).take 4 ∧
      (report Sample.eq a b).1 ≠ [] ∧
      ((report Sample.eq a b).2 = true ↔ 4 < (opcodes Sample.eq a b).length) ∧
      ∀ l ∈ (report Sample.eq a b).1, l.left = (a.drop l.op.i1).take (l.op.i2 - l.op.i1) ∧
        (l.op.i1 = l.op.j1 → l.op.i2 = l.op.j2 → l.right = (b.drop l.op.j1).take (l.op.j2 - l.op.j1))) := by
  constructor
  · intro h
    unfold report
    rw [(C87L.ratio_same a b).2 h, if_neg (by decide)]
  · intro h
    have hr : ratio Sample.eq a b < 1 := by
      apply lt_of_le_of_ne (C87_verdict a b).1.2
      intro he
      rw [(C87L.ratio_same a b).1 he] at h
      cases h
    obtain ⟨op, rest, ho, _⟩ := C87L.first_op h
    have hne : opcodes Sample.eq a b ≠ [] := by
      intro e
      rw [e] at ho
      simp at ho
    have hm : (report Sample.eq a b).1.map (fun l => l.op) = (opcodes Sample.eq a b).take 4 := by
      unfold report
      rw [if_pos hr]
      simp [List.map_take, List.map_map, Function.comp_def, List.take_take]
    refine ⟨hm, ?_, ?_, ?_⟩
    · intro e
      rw [e] at hm
      cases hops : opcodes Sample.eq a b with
      | nil => exact hne hops
      | cons o l => rw [hops] at hm; simp at hm
    · unfold report
      rw [if_pos hr]
      simp
    · intro l hl
      unfold report at hl
      rw [if_pos hr] at hl
      have hl := List.mem_of_mem_take hl
      rw [List.mem_map] at hl
      obtain ⟨o, _, rfl⟩ := hl
      refine ⟨rfl, ?_⟩
      intro e1 e2
      simp only [cut]
      rw [e1, e2]

/-- One of three samples is changed, the second. The message names the first, and two values that are the same. -/
theorem C87_position_counterexample :
    told Sample.eq [.int 0, .int 0, .int 1] [.int 0, .int 1, .int 1] = some (.differ 0 (.int 0) (.int 0)) ∧
    C87.FirstDifference [.int 0, .int 0, .int 1] [.int 0, .int 1, .int 1] 1 := by
  refine ⟨by decide +kernel, ?_, .int 0, .int 1, rfl, rfl, rfl⟩
  intro t ht
  have : t = 0 := by omega
  subst this
  exact ⟨.int 0, .int 0, rfl, rfl, rfl⟩

/-- The report says of this pair that samples 1 and 2 of the first are equal to samples 0 and 1 of the second, and prints 0, 1 and
1, 1 for them. -/
theorem C87_report_counterexample :
    (⟨⟨.equal, 1, 3, 0, 2⟩, [.int 0, .int 1], [.int 1, .int 1]⟩ : Line Sample) ∈
      (report Sample.eq [.int 0, .int 0, .int 1] [.int 0, .int 1, .int 1]).1 ∧
    ([.int 0, .int 1, .int 1] : List Sample).take 2 = [.int 0, .int 1] := by
  decide +kernel

/-- The similarity depends on the order of the two. -/
theorem C87_similarity_counterexample :
    ratio Sample.eq [.int 1, .int 2, .int 3, .int 4] [.int 3, .int 2, .int 4, .int 1] ≠
      ratio Sample.eq [.int 3, .int 2, .int 4, .int 1] [.int 1, .int 2, .int 3, .int 4] := by
  decide +kernel

/-- The hypotheses of the theorems above: a change in place, a replacement, more samples at the end. -/
example : told Sample.eq [.int 5, .int 6, .int 7] [.int 5, .int 8, .int 7] = some (.differ 1 (.int 6) (.int 8)) := by decide +kernel

example : (opcodes Sample.eq [.int 5, .int 6, .int 7] [.int 5, .int 8, .int 7]).filter (fun x => x.tag != .equal) =
    [⟨.replace, 1, 2, 1, 2⟩] := by decide +kernel

example : told Sample.eq [.int 5, .int 6, .int 7, .int 5] [.int 5, .int 6] = some (.extraA 2 2 (.int 7)) := by decide +kernel

example : told Sample.eq [.int 5] [.int 5, .int 6] = some (.extraB 1 1 (.int 6)) := by decide +kernel

/-- Not a number differs from itself: the message names it. -/
example : told Sample.eq [.flt 4 0x7fc00000] [.flt 4 0x7fc00000] = some (.differ 0 (.flt 4 0x7fc00000) (.flt 4 0x7fc00000)) := by
  decide +kernel

example : sameSamples [.int 5, .int 6] [.int 5, .int 6] = true ∧ sameSamples [.int 5, .int 6] [.int 5, .int 7] = false := by decide

end Verif.Props

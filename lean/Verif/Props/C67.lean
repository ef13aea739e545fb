import Verif.Grain.Pair
import Verif.Props.C57

/-!
# C67: a grain is the pair of its metadata and its data

Length, indices, slices, iteration, `reversed`, `in`, `count` and `index` of a grain are those of the tuple (metadata, data). Two grains
are equal exactly if their metadata are equal and their data have the same content, and equality is an equivalence. `bytes(grain)`, `has_data()`
and `await grain` agree with `grain.data`.

The statement fails for data that is loaded lazily (`IOBytes`), for numpy grains, and for event grains: see the counterexamples.
-/

namespace Verif.Pair

open Verif.Seqs

variable {M : Type} [DecidableEq M]

/-! ## Specification -/

/-- The pair. -/
def pair (env : Env M) (g : Grain M) : List (Item M) := [.dict g.info, .data (g.data env)]

/-- The bytes that data stands for, if it is not an array. -/
def content : Data → Option (List UInt8)
  | .bytes b => some b
  | .buffer b => some b
  | .lazy _ b => some b
  | _ => none

/-- Data that is there: `None`, `bytes`, `bytearray`, `memoryview`. -/
def Solid : Data → Prop
  | .none => True
  | .bytes _ => True
  | .buffer _ => True
  | _ => False

/-- No arrays, and at most one side loaded lazily, the other being `bytes` or nothing. -/
def Comparable (a b : Data) : Prop :=
  (Solid a ∧ Solid b) ∨ ((∃ i x, a = .lazy i x) ∧ ((∃ y, b = .bytes y) ∨ b = .none)) ∨ ((∃ i x, b = .lazy i x) ∧ ((∃ y, a = .bytes y) ∨ a = .none))

/-- Two items of pairs or tuples stand for the same. -/
def SameItem : Item M → Item M → Prop
  | .dict a, .dict b => a = b
  | .data a, .data b => content a = content b
  | _, _ => False

/-- An item whose comparison needs no lazily loaded data and no arrays. -/
def SolidItem : Item M → Prop
  | .dict _ => True
  | .data d => Solid d

/-- The first place of `l` at or after `i` and before `stop` where `p` holds. -/
def IsFirst {T : Type} (p : T → Prop) (l : List T) (start : Nat) (stop : Option Nat) (i : Nat) : Prop :=
  start ≤ i ∧ (∀ s, stop = some s → i < s) ∧ (∃ x, l[i]? = some x ∧ p x) ∧ ∀ j, start ≤ j → j < i → ∀ x, l[j]? = some x → ¬ p x

/-- A bound of `tuple.index`: negative ones count from the end. -/
def fromEnd (n : Nat) (i : Int) : Nat := if i < 0 then (i + n).toNat else i.toNat

/-! ## Proofs -/

theorem of_yes {b : Bool} : Truth.of b = .yes ↔ b = true := by cases b <;> simp [Truth.of]

theorem of_no {b : Bool} : Truth.of b = .no ↔ b = false := by cases b <;> simp [Truth.of]

theorem items_eq (env : Env M) (g : Grain M) : g.items env = pair env g := rfl

/-- Comparison of solid items: decided, by content. -/
theorem itemEq_solid (env : Env M) (x y : Item M) (hx : SolidItem x) (hy : SolidItem y) :
    (itemEq env x y = .yes ∧ SameItem x y) ∨ (itemEq env x y = .no ∧ ¬ SameItem x y) := by
  cases x with
  | dict a =>
    cases y with
    | dict b => by_cases h : a = b <;> simp [itemEq, SameItem, h, Truth.of]
    | data b => cases b <;> simp_all [itemEq, SameItem, SolidItem, Solid]
  | data a =>
    cases y with
    | dict b => cases a <;> simp_all [itemEq, SameItem, SolidItem, Solid]
    | data b =>
      cases a <;> cases b <;> simp_all [itemEq, SameItem, SolidItem, Solid, content, Truth.of]
      all_goals (rename_i u v; by_cases h : u = v <;> simp [h])

theorem itemEq_comparable (env : Env M) (a b : Data) (h : Comparable a b) :
    (itemEq env (.data a) (.data b) = .yes ∧ content a = content b) ∨ (itemEq env (.data a) (.data b) = .no ∧ content a ≠ content b) := by
  rcases h with ⟨h1, h2⟩ | ⟨⟨i, x, rfl⟩, ⟨y, rfl⟩ | rfl⟩ | ⟨⟨i, x, rfl⟩, ⟨y, rfl⟩ | rfl⟩
  · exact itemEq_solid env (.data a) (.data b) h1 h2
  · by_cases h : x = y <;> simp [itemEq, content, Truth.of, h]
  · simp [itemEq, content]
  · by_cases h : y = x <;> simp [itemEq, content, Truth.of, h]
  · simp [itemEq, content]

theorem Comparable.symm {a b : Data} (h : Comparable a b) : Comparable b a := by
  rcases h with ⟨h1, h2⟩ | h | h
  · exact .inl ⟨h2, h1⟩
  · exact .inr (.inr h)
  · exact .inr (.inl h)

/-- The answer of `Sequence.index`, from the places. -/
theorem indexFrom_spec (env : Env M) (g : Grain M) (v : Item M) (hg : SolidItem (.data (g.data env) : Item M)) (hv : SolidItem v)
    (stop : Option Int) (n i : Nat) (hn : 3 ≤ n + i) (hn1 : 1 ≤ n) :
    (∃ k : Nat, g.indexFrom env v stop n i = some (.ok (k : Int)) ∧
        i ≤ k ∧ (∀ s, stop = some s → (k : Int) < s) ∧ (∃ x, (pair env g)[k]? = some x ∧ SameItem x v) ∧
        ∀ j, i ≤ j → j < k → ∀ x, (pair env g)[j]? = some x → ¬ SameItem x v) ∨
      (g.indexFrom env v stop n i = some (.error .value) ∧
        ∀ k : Nat, i ≤ k → (∀ s, stop = some s → (k : Int) < s) → ∀ x, (pair env g)[k]? = some x → ¬ SameItem x v) := by
  induction n generalizing i with
  | zero => omega
  | succ n ih =>
    unfold Grain.indexFrom
    by_cases hs : before stop i = true
    · rw [if_pos hs]
      have hs' : ∀ s, stop = some s → (i : Int) < s := by
        intro s e
        subst e
        simpa [before] using hs
      cases hp : (pair env g)[i]? with
      | none =>
        have hget : g.get env (i : Int) = .error .index := pyGet_none (List.getElem?_eq_none_iff.mp hp)
        rw [hget]
        refine .inr ⟨rfl, ?_⟩
        intro k hk _ x hx
        have : (pair env g).length ≤ k := by
          rw [List.getElem?_eq_none_iff] at hp
          omega
        rw [List.getElem?_eq_none this] at hx
        cases hx
      | some x =>
        have hget : g.get env (i : Int) = .ok x := pyGet_some hp
        rw [hget]
        have hi : i < 2 := by
          have := (List.getElem?_eq_some_iff.mp hp).1
          simpa [pair] using this
        have hx : SolidItem x := by
          match i, hi with
          | 0, _ => simp only [pair, List.getElem?_cons_zero, Option.some.injEq] at hp; subst hp; trivial
          | 1, _ => simp only [pair, List.getElem?_cons_succ, List.getElem?_cons_zero, Option.some.injEq] at hp; subst hp; exact hg
        rcases itemEq_solid env x v hx hv with ⟨e, h⟩ | ⟨e, h⟩
        · refine .inl ⟨i, by simp only [e], by omega, hs', ⟨x, hp, h⟩, ?_⟩
          intro j h1 h2
          omega
        · simp only [e]
          have e1 : ((i : Int) + 1) = ((i + 1 : Nat) : Int) := by omega
          rw [e1]
          rcases ih (i + 1) (by omega) (by omega) with ⟨k, h1, h2, h3, h4, h5⟩ | ⟨h1, h2⟩
          · refine .inl ⟨k, h1, by omega, h3, h4, ?_⟩
            intro j hj hjk y hy
            by_cases hji : j = i
            · subst hji
              rw [hp] at hy
              injection hy with hy
              subst hy
              exact h
            · exact h5 j (by omega) hjk y hy
          · refine .inr ⟨h1, ?_⟩
            intro k hk hks y hy
            by_cases hki : k = i
            · subst hki
              rw [hp] at hy
              injection hy with hy
              subst hy
              exact h
            · exact h2 k (by omega) hks y hy
    · rw [if_neg hs]
      refine .inr ⟨rfl, ?_⟩
      intro k hk hks
      exfalso
      apply hs
      cases stop with
      | none => rfl
      | some s =>
        have := hks s rfl
        simp only [before, decide_eq_true_eq]
        omega

end Verif.Pair

namespace Verif.Props

open Verif.Pair Verif.Seqs

variable {M : Type} [DecidableEq M]

/-- **C67**, the pair: every grain has the length, the items, the slices and the order of the tuple (metadata, data); three steps of an
iterator are enough to see its end. -/
theorem C67_pair (env : Env M) (g : Grain M) :
    g.len = 2 ∧ (∀ n, 3 ≤ n → g.iterFrom env n 0 = some (pair env g)) ∧
      (g.reversed env).toOption = some (pair env g).reverse ∧
      (∀ i : Int, (g.get env i).toOption = if i = 0 ∨ i = -2 then some (.dict g.info) else if i = 1 ∨ i = -1 then some (.data (g.data env))
        else none) ∧
      ∀ k : Slice, if k.step = some 0 then g.getSlice env k = .error .value
        else ∃ r, g.getSlice env k = .ok r ∧ Sliced k (pair env g) r := by
  refine ⟨rfl, ?_, rfl, ?_, ?_⟩
  · intro n hn
    obtain ⟨m, rfl⟩ : ∃ m, n = m + 3 := ⟨n - 3, by omega⟩
    rfl
  · intro i
    unfold Grain.get pyGet
    by_cases h0 : i = 0
    · subst h0; rfl
    by_cases h1 : i = 1
    · subst h1; rfl
    by_cases h2 : i = -1
    · subst h2; rfl
    by_cases h3 : i = -2
    · subst h3; rfl
    have : pyIndex [Item.dict g.info, .data (g.data env)].length i = none := by
      unfold pyIndex
      simp only [List.length_cons, List.length_nil]
      rw [if_neg (by omega), if_neg (by omega)]
    rw [this]
    simp [h0, h1, h2, h3, Except.toOption]
  · intro k
    split
    · rename_i h
      simp only [Grain.getSlice, pyGetSlice, nums_zero h]
    · rename_i h
      obtain ⟨is, h1, h2, h3⟩ := nums_ok k 2 h
      exact ⟨is.filterMap (fun i => (pair env g)[i]?), by simp only [Grain.getSlice, pyGetSlice, List.length_cons, List.length_nil, h1]; rfl,
        is, h2, filterMap_places (pair env g) is h3⟩

/-- **C67**, searching: for data that is there, `in` and `count` look at the two items, and `index` finds the first place in the bounds, or
is `ValueError`. -/
theorem C67_search_partial (env : Env M) (g : Grain M) (hg : Solid (g.data env)) (v : Item M) (hv : SolidItem v) :
    (g.contains env v = .yes ↔ ∃ x ∈ pair env g, SameItem x v) ∧ g.contains env v ≠ .raises ∧
      (∀ [DecidablePred fun x : Item M => SameItem x v],
        g.count env v = some ((pair env g).countP (fun x => decide (SameItem x v)))) ∧
      ∀ (start : Int) (stop : Option Int),
        (∃ i : Nat, g.index env v start stop = some (.ok (i : Int)) ∧
          IsFirst (fun x => SameItem x v) (pair env g) (fromEnd 2 start) (stop.map (fromEnd 2)) i) ∨
        (g.index env v start stop = some (.error .value) ∧
          ¬ ∃ i, IsFirst (fun x => SameItem x v) (pair env g) (fromEnd 2 start) (stop.map (fromEnd 2)) i) := by
  have e1 := itemEq_solid env (.dict g.info) v trivial hv
  have e2 := itemEq_solid env (.data (g.data env)) v hg hv
  refine ⟨?_, ?_, ?_, ?_⟩
  · simp only [Grain.contains, items_eq, pair, containsIn]
    rcases e1 with ⟨e1, h1⟩ | ⟨e1, h1⟩ <;> rcases e2 with ⟨e2, h2⟩ | ⟨e2, h2⟩ <;> simp [e1, e2, h1, h2]
  · simp only [Grain.contains, items_eq, pair, containsIn]
    rcases e1 with ⟨e1, h1⟩ | ⟨e1, h1⟩ <;> rcases e2 with ⟨e2, h2⟩ | ⟨e2, h2⟩ <;> simp [e1, e2]
  · intro _
    simp only [Grain.count, items_eq, pair, countIn]
    rcases e1 with ⟨e1, h1⟩ | ⟨e1, h1⟩ <;> rcases e2 with ⟨e2, h2⟩ | ⟨e2, h2⟩ <;> simp [e1, e2, h1, h2]
  · intro start stop
    have hst : (if start < 0 then max ((g.len : Int) + start) 0 else start) = ((fromEnd 2 start : Nat) : Int) := by
      unfold fromEnd
      have : g.len = 2 := rfl
      split <;> omega
    have hlt : ∀ k : Nat, (∀ s, stop.map (fun s : Int => if s < 0 then s + (g.len : Int) else s) = some s → (k : Int) < s) ↔
        ∀ s, stop.map (fromEnd 2) = some s → k < s := by
      intro k
      have : g.len = 2 := rfl
      cases stop with
      | none => simp
      | some s =>
        simp only [Option.map_some, Option.some.injEq, forall_eq', fromEnd, this]
        split <;> omega
    unfold Grain.index
    simp only [hst]
    have hsp := indexFrom_spec env g v hg hv (stop.map (fun s : Int => if s < 0 then s + (g.len : Int) else s)) 3 (fromEnd 2 start)
      (by omega) (by omega)
    rcases hsp with ⟨k, h1, h2, h3, h4, h5⟩ | ⟨h1, h2⟩
    · exact .inl ⟨k, h1, h2, (hlt k).mp h3, h4, h5⟩
    · refine .inr ⟨h1, ?_⟩
      rintro ⟨i, hi1, hi2, ⟨x, hx, hs⟩, _⟩
      exact h2 i hi1 ((hlt i).mpr hi2) x hx hs

/-- **C67**, equality of grains: the metadata are equal and the data have the same content. It never raises, and `!=` is the opposite. -/
theorem C67_equal_partial (env : Env M) (g h : Grain M) (hc : Comparable (g.data env) (h.data env)) :
    (g.eq env (.grain h) = .yes ↔ g.info = h.info ∧ content (g.data env) = content (h.data env)) ∧
      g.eq env (.grain h) ≠ .raises ∧
      (g.ne env (.grain h) = .yes ↔ ¬ (g.info = h.info ∧ content (g.data env) = content (h.data env))) := by
  have e2 := itemEq_comparable env _ _ hc.symm
  simp only [Grain.ne, Grain.eq, items_eq, pair, tupleEq]
  by_cases hm : h.info = g.info
  · have e1 : itemEq env (.dict h.info) (.dict g.info) = .yes := by simp [itemEq, hm, Truth.of]
    rcases e2 with ⟨e2, h2⟩ | ⟨e2, h2⟩
    · rw [e1, e2]
      simp [h2, hm, Truth.not]
    · rw [e1, e2]
      simp [hm, Truth.not, Ne.symm h2]
  · have e1 : itemEq env (.dict h.info) (.dict g.info) = .no := by simp [itemEq, hm, Truth.of]
    simp [e1, Ne.symm hm, Truth.not]

/-- **C67**, equality with tuples: a grain is equal to the tuple of equal metadata and data, on either side, and to no longer or shorter one;
and it is never equal to a list. -/
theorem C67_tuple_partial (env : Env M) (g : Grain M) (hg : Solid (g.data env)) (l : List (Item M)) (hl : ∀ x ∈ l, SolidItem x) :
    (g.eq env (.tuple l) = .yes ↔ ∃ m d, l = [.dict m, .data d] ∧ g.info = m ∧ content (g.data env) = content d) ∧
      g.eq env (.tuple l) ≠ .raises ∧ g.eq env .other = .no := by
  simp only [Grain.eq, items_eq, pair]
  match l, hl with
  | [], _ => simp [tupleEq]
  | [x], hl =>
    rcases itemEq_solid env (.dict g.info) x trivial (hl x (by simp)) with ⟨e1, _⟩ | ⟨e1, _⟩ <;> simp [tupleEq, e1]
  | x :: y :: z :: l, hl =>
    rcases itemEq_solid env (.dict g.info) x trivial (hl x (by simp)) with ⟨e1, _⟩ | ⟨e1, _⟩ <;>
    rcases itemEq_solid env (.data (g.data env)) y hg (hl y (by simp)) with ⟨e2, _⟩ | ⟨e2, _⟩ <;> simp [tupleEq, e1, e2]
  | [x, y], hl =>
    rcases itemEq_solid env (.dict g.info) x trivial (hl x (by simp)) with ⟨e1, h1⟩ | ⟨e1, h1⟩ <;>
    rcases itemEq_solid env (.data (g.data env)) y hg (hl y (by simp)) with ⟨e2, h2⟩ | ⟨e2, h2⟩ <;>
    cases x <;> cases y <;> simp_all [tupleEq, SameItem]
    exact ⟨_, _, ⟨rfl, rfl⟩, rfl, rfl⟩

/-- **C67**, equality is an equivalence on grains whose data is there. -/
theorem C67_equivalence_partial (env : Env M) :
    (∀ g : Grain M, Solid (g.data env) → g.eq env (.grain g) = .yes) ∧
      (∀ g h : Grain M, Solid (g.data env) → Solid (h.data env) → g.eq env (.grain h) = h.eq env (.grain g)) ∧
      ∀ g h k : Grain M, Solid (g.data env) → Solid (h.data env) → Solid (k.data env) →
        g.eq env (.grain h) = .yes → h.eq env (.grain k) = .yes → g.eq env (.grain k) = .yes := by
  refine ⟨?_, ?_, ?_⟩
  · intro g hg
    exact (C67_equal_partial env g g (.inl ⟨hg, hg⟩)).1.mpr ⟨rfl, rfl⟩
  · intro g h hg hh
    have h1 := C67_equal_partial env g h (.inl ⟨hg, hh⟩)
    have h2 := C67_equal_partial env h g (.inl ⟨hh, hg⟩)
    cases e1 : g.eq env (.grain h) <;> cases e2 : h.eq env (.grain g)
    · rfl
    · have := h2.1.mpr (let x := h1.1.mp e1; ⟨x.1.symm, x.2.symm⟩)
      rw [e2] at this; cases this
    · exact absurd e2 h2.2.1
    · have := h1.1.mpr (let x := h2.1.mp e2; ⟨x.1.symm, x.2.symm⟩)
      rw [e1] at this; cases this
    · rfl
    · exact absurd e2 h2.2.1
    · exact absurd e1 h1.2.1
    · exact absurd e1 h1.2.1
    · rfl
  · intro g h k hg hh hk e1 e2
    have h1 := (C67_equal_partial env g h (.inl ⟨hg, hh⟩)).1.mp e1
    have h2 := (C67_equal_partial env h k (.inl ⟨hh, hk⟩)).1.mp e2
    exact (C67_equal_partial env g k (.inl ⟨hg, hk⟩)).1.mpr ⟨h1.1.trans h2.1, h1.2.trans h2.2⟩

/-- **C67 does not hold of lazily loaded data**: two grains read from files with the same metadata and the same bytes are different, as
long as the objects are different, although both are equal to the grain that holds these bytes. So equality is not transitive. -/
theorem C67_lazy_counterexample (env : Env M) (m : M) (b : List UInt8) (i j : Nat) (h : i ≠ j) :
    let g : Grain M := ⟨.plain, m, .lazy i b⟩
    let g' : Grain M := ⟨.plain, m, .lazy j b⟩
    let s : Grain M := ⟨.plain, m, .bytes b⟩
    content (g.data env) = content (g'.data env) ∧ g.eq env (.grain g') = .no ∧ g.eq env (.grain s) = .yes ∧ s.eq env (.grain g') = .yes := by
  have h' : j ≠ i := fun e => h e.symm
  simp [Grain.eq, items_eq, pair, tupleEq, itemEq, Grain.data, Truth.of, content, h']

/-- Nor is a lazily loaded grain equal to one with the same bytes in a `bytearray` or `memoryview`. -/
theorem C67_buffer_counterexample (env : Env M) (m : M) (b : List UInt8) (i : Nat) :
    let g : Grain M := ⟨.plain, m, .lazy i b⟩
    let g' : Grain M := ⟨.plain, m, .buffer b⟩
    content (g.data env) = content (g'.data env) ∧ g.eq env (.grain g') = .no ∧ g'.eq env (.grain g) = .no := by
  simp [Grain.eq, items_eq, pair, tupleEq, itemEq, Grain.data, Truth.of, content]

/-- **C67 does not hold of numpy grains**: comparing a grain of two or more samples with its deep copy, or any other grain with as many samples
and the same metadata, raises an exception. With other metadata the answer is that they differ. -/
theorem C67_numpy_counterexample (env : Env M) (m m' : M) (i j : Nat) (h : i ≠ j) (l l' : List Int) (hl : 2 ≤ l.length)
    (hl' : l'.length = l.length) :
    let g : Grain M := ⟨.numpy, m, .array i l⟩
    let g' : Grain M := ⟨.numpy, m', .array j l'⟩
    g.eq env (.grain g') = if m = m' then .raises else .no := by
  have h' : j ≠ i := fun e => h e.symm
  have ha : arrayEq env l' l = .raises := by
    unfold arrayEq
    rw [if_pos hl']
    match l', l, hl, hl' with
    | _ :: _ :: _, l, _, _ => rfl
    | [_], l, h1, h2 => simp only [List.length_cons, List.length_nil] at h2; omega
    | [], l, h1, h2 => simp only [List.length_nil] at h2; omega
  by_cases hm : m' = m
  · simp [Grain.eq, items_eq, pair, tupleEq, itemEq, Grain.data, Truth.of, h', hm, ha]
  · have hm' : ¬ m = m' := fun e => hm e.symm
    simp [Grain.eq, items_eq, pair, tupleEq, itemEq, Grain.data, Truth.of, hm, hm']

/-- **C67**, the data: for every grain but event grains, `bytes(grain)` are the bytes of its data, if it has data, and `has_data()` and
`await grain` agree with `grain.data`. -/
theorem C67_bytes_partial (env : Env M) (raw : List Int → List UInt8) (g : Grain M) (hk : g.kind ≠ .event) :
    (∀ b, content (g.data env) = some b → g.toBytes raw = some b) ∧ (∀ i l, g.data env = .array i l → g.toBytes raw = some (raw l)) ∧
      (g.hasData = true ↔ g.data env ≠ .none) ∧ g.awaited env = g.data env := by
  have hd : g.data env = g.stored := by
    unfold Grain.data
    cases hg : g.kind <;> simp_all
  rw [hd]
  refine ⟨?_, ?_, ?_, ?_⟩
  · intro b hb
    unfold Grain.toBytes
    cases hs : g.stored <;> rw [hs] at hb <;> simp_all [content]
  · intro i l h
    simp only [Grain.toBytes, h]
  · simp [Grain.hasData]
  · unfold Grain.awaited
    split
    · exact hd
    · rfl

/-- **C67 does not hold of event grains**: they always have data, the JSON text of their payload, but `has_data()` says they do not,
`await grain` gives `None` and `bytes(grain)` is a `TypeError`. -/
theorem C67_event_counterexample (env : Env M) (raw : List Int → List UInt8) (m : M) :
    let g : Grain M := ⟨.event, m, .none⟩
    content (g.data env) = some (env.json m) ∧ g.hasData = false ∧ g.awaited env = .none ∧ g.toBytes raw = none :=
  ⟨rfl, rfl, rfl, rfl⟩

/-- Nor does it hold of an event grain that was made with an awaitable (`EventGrain.py` 164-165) and has been awaited: `await grain` and
`bytes(grain)` are the bytes that arrived and `has_data()` is true, but they never reach the payload, so that `grain.data` is still the JSON text
of what the metadata had before. -/
theorem C67_event_loaded_counterexample (env : Env M) (raw : List Int → List UInt8) (m : M) (b : List UInt8) :
    let g : Grain M := ⟨.event, m, .bytes b⟩
    g.hasData = true ∧ g.awaited env = .bytes b ∧ g.toBytes raw = some b ∧ content (g.data env) = some (env.json m) :=
  ⟨rfl, rfl, rfl, rfl⟩

/-- A deep copy is equal to the grain, for every grain but event grains, numpy grains and video, audio, coded video and coded audio grains
without data. -/
theorem C67_deepcopy_partial (env : Env M) (g : Grain M) (fills : Bool) (id : Nat) (hk : g.kind ≠ .event)
    (hn : fills = true → g.stored ≠ .none) (ha : ∀ i l, g.stored ≠ .array i l) :
    g.eq env (.grain (g.deepcopy fills id)) = .yes := by
  have hg : g.deepcopy fills id = ⟨g.kind, g.info, g.stored.deepcopy id⟩ := by
    unfold Grain.deepcopy
    rw [if_neg (fun h => hn h.1 h.2)]
  rw [hg]
  have hd : g.data env = g.stored := by
    unfold Grain.data
    cases hg : g.kind <;> simp_all
  have hd' : (⟨g.kind, g.info, g.stored.deepcopy id⟩ : Grain M).data env = g.stored.deepcopy id := by
    unfold Grain.data
    cases hg : g.kind <;> simp_all
  have hc : Comparable g.stored (g.stored.deepcopy id) := by
    cases hs : g.stored with
    | none => exact .inl ⟨trivial, trivial⟩
    | bytes b => exact .inl ⟨trivial, trivial⟩
    | buffer b => exact .inl ⟨trivial, trivial⟩
    | lazy i b => exact .inr (.inl ⟨⟨i, b, rfl⟩, .inl ⟨b, rfl⟩⟩)
    | array i l => exact absurd hs (ha i l)
  refine (C67_equal_partial env g _ (by rw [hd, hd']; exact hc)).1.mpr ⟨rfl, ?_⟩
  rw [hd, hd']
  cases hs : g.stored with
  | array i l => exact absurd hs (ha i l)
  | _ => rfl

/-- **C67 does not hold of copies of grains without data**: a video, audio, coded video or coded audio grain whose data is `None`, because it is
still to be loaded or was set to `None`, differs from its copy, whose data is an empty `bytearray`; `has_data()` of the copy is true. -/
theorem C67_copy_counterexample (env : Env M) (m : M) (id : Nat) :
    let g : Grain M := ⟨.plain, m, .none⟩
    g.eq env (.grain (g.deepcopy true id)) = .no ∧ g.hasData = false ∧ (g.deepcopy true id).hasData = true := by
  refine ⟨?_, rfl, rfl⟩
  simp [Grain.eq, items_eq, pair, tupleEq, itemEq, Grain.deepcopy, Grain.data, Truth.of]

/-- A case: metadata are numbers; a grain with three bytes, and one with the same bytes in a `bytearray`. -/
example : let env : Env Nat := ⟨fun _ => [123, 125], .no, fun _ _ => .no, fun _ _ => .no⟩
    let g : Grain Nat := ⟨.plain, 7, .bytes [1, 2, 3]⟩
    Comparable (g.data env) (.buffer [1, 2, 3]) ∧ Solid (g.data env)
      ∧ g.eq env (.grain ⟨.plain, 7, .buffer [1, 2, 3]⟩) = .yes ∧ g.eq env (.grain ⟨.plain, 8, .buffer [1, 2, 3]⟩) = .no
      ∧ g.contains env (.data (.buffer [1, 2, 3])) = .yes ∧ g.count env (.dict 7) = some 1
      ∧ (g.index env (.data (.bytes [1, 2, 3])) (-1) none).map Except.toOption = some (some 1)
      ∧ (g.getSlice env ⟨none, none, some (-1)⟩).toOption = some [.data (.bytes [1, 2, 3]), .dict 7] := by
  exact ⟨.inl ⟨trivial, trivial⟩, trivial, by decide, by decide, by decide, by decide, by decide, by decide⟩

end Verif.Props

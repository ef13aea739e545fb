import Mathlib.Data.List.Induction
import Verif.Pattern.Generator

/-!
# C46: pattern generator indexing
-/

namespace Verif.Props

open Verif Verif.Pattern

/-- Specification: the elements at places 0, k, 2k, ... -/
def everyNth {T : Type} (k : Nat) (l : List T) : List T := (List.range ((l.length + k - 1) / k)).filterMap (fun j => l[j * k]?)

/-- Specification: the grain a generator gives at a time, from the template as it was when the generator was made. -/
def grainAt {T M : Type} [DecidableEq T] (c : Clock T) (template : Obj M) : Pattern M → T → Option (Obj M)
  | .still, key => if c.snap key = key then some ⟨c.stamp key, c.stamp key, template.body⟩ else none
  | .overlay source draw, key => (grainAt c template source (c.snap key)).map (fun o => { o with body := draw o.origin o.body })

namespace Generator

theorem filterMap_same {α β : Type} {f g : α → Option β} {l : List α} (h : ∀ a ∈ l, f a = g a) : l.filterMap f = l.filterMap g := by
  induction l with
  | nil => rfl
  | cons a l ih =>
    rw [List.filterMap_cons, List.filterMap_cons, h a List.mem_cons_self, ih (fun b hb => h b (List.mem_cons_of_mem _ hb))]

theorem filter_zipIdx {T : Type} (k : Nat) (hk : 0 < k) (l : List T) :
    (l.zipIdx.filter (fun p => p.2 % k = 0)).map (fun p => p.1) = everyNth k l := by
  induction l using List.reverseRecOn with
  | nil =>
    unfold everyNth
    have : (0 + k - 1) / k = 0 := Nat.div_eq_of_lt (by omega)
    simp [this]
  | append_singleton l a ih =>
    rw [List.zipIdx_append, List.filter_append, List.map_append, ih]
    unfold everyNth
    rw [List.length_append, List.length_singleton]
    have hold : ∀ n, n ≤ (l.length + k - 1) / k → (List.range n).filterMap (fun j => (l ++ [a])[j * k]?) =
        (List.range n).filterMap (fun j => l[j * k]?) := by
      intro n hn
      apply filterMap_same
      intro j hj
      rw [List.mem_range] at hj
      have h1 : (j + 1) * k ≤ l.length + k - 1 := by
        rw [← Nat.le_div_iff_mul_le hk]
        omega
      rw [Nat.succ_mul] at h1
      rw [List.getElem?_append_left (by omega)]
    by_cases hd : l.length % k = 0
    · obtain ⟨q, hq⟩ := Nat.dvd_of_mod_eq_zero hd
      have e1 : (l.length + k - 1) / k = q := by
        rw [hq]
        apply Nat.div_eq_of_lt_le
        · rw [Nat.mul_comm q k]; omega
        · rw [Nat.succ_mul, Nat.mul_comm q k]; omega
      have e2 : (l.length + 1 + k - 1) / k = q + 1 := by
        rw [hq]
        apply Nat.div_eq_of_lt_le
        · rw [Nat.succ_mul, Nat.mul_comm q k]; omega
        · rw [Nat.succ_mul, Nat.succ_mul, Nat.mul_comm q k]; omega
      rw [e2, List.range_succ, List.filterMap_append, hold q (by omega), e1]
      congr 1
      have e3 : q * k = l.length := by rw [hq, Nat.mul_comm]
      simp [hd, e3]
    · have e1 : (l.length + 1 + k - 1) / k = (l.length + k - 1) / k := by
        have hdm := Nat.div_add_mod l.length k
        have hlt := Nat.mod_lt l.length hk
        generalize l.length / k = q at hdm
        have a1 : (l.length + k - 1) / k = q + 1 := by
          apply Nat.div_eq_of_lt_le
          · rw [Nat.succ_mul, Nat.mul_comm q k]; omega
          · rw [Nat.succ_mul, Nat.succ_mul, Nat.mul_comm q k]; omega
        have a2 : (l.length + 1 + k - 1) / k = q + 1 := by
          apply Nat.div_eq_of_lt_le
          · rw [Nat.succ_mul, Nat.mul_comm q k]; omega
          · rw [Nat.succ_mul, Nat.succ_mul, Nat.mul_comm q k]; omega
        rw [a1, a2]
      rw [e1, hold _ (Nat.le_refl _)]
      simp [hd]

theorem everyNth_one {T : Type} (l : List T) : everyNth 1 l = l := by
  rw [← filter_zipIdx 1 (by omega)]
  have : (fun (p : T × Nat) => decide (p.2 % 1 = 0)) = fun _ => true := by
    funext p
    simp [Nat.mod_one]
  rw [this, List.filter_eq_self.2 (fun _ _ => rfl)]
  exact List.zipIdx_map_fst 0 l

theorem modify_last {α : Type} (f : α → α) (l : List α) (a : α) : (l ++ [a]).modify l.length f = l ++ [f a] := by
  induction l with
  | nil => rfl
  | cons b l ih =>
    rw [List.cons_append, List.length_cons, List.modify_succ_cons, ih]
    rfl

/-- `get` either leaves the heap or adds one object at its end, and gives what the specification says. -/
theorem get_spec {T M : Type} [DecidableEq T] (c : Clock T) (t : Nat) (p : Pattern M) (key : T) (heap : List (Obj M)) (o : Obj M)
    (ht : heap[t]? = some o) :
    (∃ g, grainAt c o p key = some g ∧ p.get c t key heap = (.grain heap.length, heap ++ [g])) ∨
    (grainAt c o p key = none ∧ p = .still ∧ p.get c t key heap = (.absent, heap)) := by
  have hov : ∀ (p : Pattern M) (key : T), c.snap key = key →
      ∃ g, grainAt c o p key = some g ∧ p.get c t key heap = (.grain heap.length, heap ++ [g]) := by
    intro p
    induction p with
    | still =>
      intro key hk
      refine ⟨⟨c.stamp key, c.stamp key, o.body⟩, ?_, ?_⟩
      · unfold grainAt
        rw [if_pos hk]
      · unfold Pattern.get
        rw [if_pos hk, ht]
    | overlay source draw ih =>
      intro key hk
      obtain ⟨g, h1, h2⟩ := ih (c.snap key) (c.twice key)
      refine ⟨{ g with body := draw g.origin g.body }, ?_, ?_⟩
      · unfold grainAt
        rw [h1]
        rfl
      · unfold Pattern.get
        rw [h2]
        simp only [Prod.mk.injEq, true_and]
        exact modify_last _ _ _
  cases p with
  | still =>
    by_cases hk : c.snap key = key
    · exact Or.inl (hov _ _ hk)
    · right
      refine ⟨?_, rfl, ?_⟩
      · unfold grainAt
        rw [if_neg hk]
      · unfold Pattern.get
        rw [if_neg hk]
  | overlay source draw =>
    left
    obtain ⟨g, h1, h2⟩ := hov (.overlay source draw) (c.snap key) (c.twice key)
    refine ⟨g, ?_, ?_⟩
    · unfold grainAt at h1 ⊢
      rw [c.twice] at h1
      exact h1
    · unfold Pattern.get at h2 ⊢
      rw [c.twice] at h2
      exact h2

/-- The template is the given object, the client does not hold it, and what it holds is in the heap. -/
structure Safe {M : Type} (t : Nat) (o : Obj M) (w : World M) : Prop where
  template : w.heap[t]? = some o
  unheld : t ∉ w.held
  inside : ∀ r ∈ w.held, r < w.heap.length

theorem safe_grow {M : Type} {t : Nat} {o g : Obj M} {w : World M} (h : Safe t o w) : Safe t o ⟨w.heap ++ [g], w.held ++ [w.heap.length]⟩ := by
  have hlt : t < w.heap.length := by
    have := h.template
    rw [List.getElem?_eq_some_iff] at this
    exact this.1
  refine ⟨?_, ?_, ?_⟩
  · rw [List.getElem?_append_left hlt]
    exact h.template
  · intro hm
    rcases List.mem_append.1 hm with hm | hm
    · exact h.unheld hm
    · rw [List.mem_singleton] at hm
      omega
  · intro r hr
    rw [List.length_append, List.length_singleton]
    rcases List.mem_append.1 hr with hr | hr
    · have := h.inside r hr; omega
    · rw [List.mem_singleton] at hr
      omega

theorem safe_act {T M : Type} [DecidableEq T] {c : Clock T} {t : Nat} {o : Obj M} {p : Pattern M} {w : World M} (h : Safe t o w)
    (a : Act T M) : Safe t o (w.act c t p a) := by
  cases a with
  | ask key =>
    simp only [World.act]
    rcases get_spec c t p key w.heap o h.template with ⟨g, _, e⟩ | ⟨_, _, e⟩
    · rw [e]
      exact safe_grow h
    · rw [e]
      exact h
  | write i x =>
    simp only [World.act]
    cases hi : w.held[i]? with
    | none => exact h
    | some r =>
      have hm : r ∈ w.held := List.mem_of_getElem? hi
      have hne : r ≠ t := fun e => h.unheld (e ▸ hm)
      refine ⟨?_, h.unheld, ?_⟩
      · simp only
        rw [List.getElem?_set_ne hne]
        exact h.template
      · intro r' hr'
        simp only
        rw [List.length_set]
        exact h.inside r' hr'

theorem safe_run {T M : Type} [DecidableEq T] {c : Clock T} {t : Nat} {o : Obj M} {p : Pattern M} {w : World M} (h : Safe t o w)
    (as : List (Act T M)) : Safe t o (w.run c t p as) := by
  unfold World.run
  induction as generalizing w with
  | nil => exact h
  | cons a as ih => exact ih (safe_act h a)

end Generator

open Generator

/-- A range with a skip: the positions asked for are those at places 0, |skip|, 2|skip|, ... in order. -/
theorem C46_every_nth {T : Type} (rng : List T) (skip : Int) (h : skip ≠ 0) : positionsOf rng skip = .ok (everyNth skip.natAbs rng) := by
  unfold positionsOf
  by_cases h1 : skip = 1
  · subst h1
    rw [if_pos rfl]
    show Positions.ok rng = Positions.ok (everyNth 1 rng)
    rw [everyNth_one]
  · rw [if_neg h1, if_neg (by omega), ← filter_zipIdx skip.natAbs (by omega)]
    congr 2
    apply List.filter_congr
    intro p _
    have : ((p.2 : Int) % skip = 0) ↔ (p.2 % skip.natAbs = 0) := by
      rw [← Int.dvd_iff_emod_eq_zero, ← Nat.dvd_iff_mod_eq_zero, ← Int.natAbs_dvd, Int.natCast_dvd_natCast]
    exact decide_eq_decide.2 this

example : everyNth 3 [10, 11, 12, 13, 14, 15, 16] = [10, 13, 16] ∧ everyNth 2 [10, 11, 12, 13] = [10, 12] := by decide

/-- The part looked at of an endless range decides the first positions: more of the range adds positions at the end only. -/
theorem C46_endless {T : Type} (a b : List T) (k : Nat) (hk : 0 < k) : everyNth k a <+: everyNth k (a ++ b) := by
  rw [← filter_zipIdx k hk, ← filter_zipIdx k hk, List.zipIdx_append, List.filter_append, List.map_append]
  exact List.prefix_append _ _

/-- A skip of 0 fails at the first grain. -/
theorem C46_zero_counterexample {T : Type} (a : T) (rng : List T) : positionsOf (a :: rng) 0 = .zeroDivision := by
  unfold positionsOf
  rw [if_neg (by omega), if_pos ⟨rfl, by simp⟩]

/-- `generator[start:stop:skip]` with a bounded start: every skip-th position of the range at the generator's own rate. A time as step is the
rate instead. An unbounded start is refused, and a single value is one call of `get`. -/
theorem C46_getitem {T R : Type} (own : R) (values : Option R → List T) :
    (∀ n, n ≠ 0 → getItem own (.slice values true (.skip n)) = .many (.ok (everyNth n.natAbs (values (some own))))) ∧
    getItem own (.slice values true .none) = .many (.ok (values (some own))) ∧
    (∀ r, getItem own (.slice values true (.every r)) = .many (.ok (values (some r)))) ∧
    (∀ step, getItem own (.slice values false step) = .valueError) ∧
    (∀ r, getItem own (.range ⟨true, some r, values⟩) = .many (.ok (values (some r)))) ∧
    getItem own (.range ⟨true, none, values⟩) = .many (.ok (values (some own))) ∧
    (∀ t, getItem own (.value t : Key T R) = .one t) := by
  refine ⟨?_, rfl, fun _ => rfl, fun _ => rfl, fun _ => rfl, rfl, fun _ => rfl⟩
  intro n hn
  show Indexed.many (positionsOf (values (some own)) n) = _
  rw [C46_every_nth _ _ hn]

/-- Copies: whatever the client did before (asking for grains, overwriting grains it got), the grain given for a time is a new object with
the requested timestamps and the content of the template as it was when the generator was made; nothing else in the heap changes. -/
theorem C46_copies {T M : Type} [DecidableEq T] (c : Clock T) (o : Obj M) (p : Pattern M) (as : List (Act T M)) (key : T) (g : Obj M)
    (hg : grainAt c o p key = some g) :
    let w := World.run c 0 p ⟨[o], []⟩ as
    ∃ r, p.get c 0 key w.heap = (.grain r, w.heap ++ [g]) ∧ (w.heap ++ [g])[r]? = some g ∧ r ∉ w.held ∧ r ≠ 0 := by
  intro w
  have hs : Safe 0 o w := safe_run ⟨rfl, by simp, by simp⟩ as
  refine ⟨w.heap.length, ?_, by simp, ?_, ?_⟩
  · rcases get_spec c 0 p key w.heap o hs.template with ⟨g', e, e'⟩ | ⟨e, _⟩
    · rw [hg] at e
      cases e
      exact e'
    · rw [hg] at e
      cases e
  · intro hm
    have := hs.inside _ hm
    omega
  · have := (List.getElem?_eq_some_iff.1 hs.template).1
    omega

/-- The timestamps of a still grain are those asked for; a time which is not one of the generator's has no grain. -/
theorem C46_timestamps {T M : Type} [DecidableEq T] (c : Clock T) (o : Obj M) (key : T) :
    (c.snap key = key → grainAt c o .still key = some ⟨c.stamp key, c.stamp key, o.body⟩) ∧
    (c.snap key ≠ key → grainAt c o .still key = none) := by
  constructor <;> intro h
  · unfold grainAt; rw [if_pos h]
  · unfold grainAt; rw [if_neg h]

/-- Iterating: the grains yielded are those at the positions of the range, in order, without those that do not exist, whatever the client does
with the grains it has got on the way. -/
theorem C46_iterate {T M : Type} [DecidableEq T] (c : Clock T) (o : Obj M) (p : Pattern M) (client : Nat → List (Act T M)) (rng : List T)
    (skip : Int) (h : skip ≠ 0) (before : List (Act T M)) :
    ∃ keys, positionsOf rng skip = .ok keys ∧
      iterate c 0 p client keys (World.run c 0 p ⟨[o], []⟩ before) = ((everyNth skip.natAbs rng).filterMap (grainAt c o p)).map some := by
  refine ⟨_, C46_every_nth rng skip h, ?_⟩
  have hs : Safe 0 o (World.run c 0 p ⟨[o], []⟩ before) := safe_run ⟨rfl, by simp, by simp⟩ before
  generalize World.run c 0 p ⟨[o], []⟩ before = w at hs
  generalize everyNth skip.natAbs rng = keys
  induction keys generalizing w with
  | nil => rfl
  | cons key keys ih =>
    unfold iterate
    rcases get_spec c 0 p key w.heap o hs.template with ⟨g, e1, e2⟩ | ⟨e1, _, e2⟩
    · rw [e2]
      simp only
      rw [ih _ (safe_run (safe_grow hs) (client w.heap.length)), List.filterMap_cons, e1]
      simp
    · rw [e2]
      simp only
      rw [ih _ hs, List.filterMap_cons, e1]

/-- A clock of 25 grains a second for counts of 50 a second. -/
def halfRate : Clock Int := ⟨fun t => t / 2 * 2, fun t => t * 20000000, fun t => by omega⟩

example : (everyNth 2 [0, 1, 2, 3, 4, 5]).filterMap (grainAt halfRate (⟨0, 0, "template"⟩ : Obj String) .still) =
    [⟨0, 0, "template"⟩, ⟨40000000, 40000000, "template"⟩, ⟨80000000, 80000000, "template"⟩] := by decide

/-- A moving bar over a still generator differs from it at times which are not the generator's: the still has no grain there and the overlay
gives the grain of the nearest time, so a range at a higher rate yields repeated grains. -/
theorem C46_overlay_counterexample : (List.filterMap (grainAt halfRate (⟨0, 0, 7⟩ : Obj Nat) .still) [0, 1, 2, 3]).map Obj.origin = [0, 40000000] ∧
    (List.filterMap (grainAt halfRate (⟨0, 0, 7⟩ : Obj Nat) (.overlay .still (fun _ b => b))) [0, 1, 2, 3]).map Obj.origin =
      [0, 0, 40000000, 40000000] := by decide

/-- If the template was the caller's own grain (the constructor of the still generator keeps the reference) its changes show in later grains. -/
theorem C46_template_counterexample :
    let w := World.run halfRate 0 .still (⟨[(⟨0, 0, 7⟩ : Obj Nat)], [0]⟩ : World Nat) [.write 0 ⟨0, 0, 8⟩]
    Pattern.get halfRate 0 .still 2 w.heap = (.grain 1, [⟨0, 0, 8⟩, ⟨40000000, 40000000, 8⟩]) := by decide

end Verif.Props

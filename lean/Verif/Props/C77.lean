import Verif.Compare.Options
import Verif.Props.C43
import Mathlib.Data.List.Forall2

/-!
# C77: Options written as expressions mean what they say
-/

namespace Verif.Props.OptionSpec

open Verif Verif.Compare

variable {P : Type}

/-- The value is an option, and its test never raises. -/
inductive IsOption : OVal → Opt P → Prop where
  | exclude (p : String) : IsOption (.exclude p) (.exclude p)
  | incl (p : String) : IsOption (.incl p) (.incl p)
  | matches (p : String) (m : Int → Option Bool) (t : Int → Bool) : (∀ x, m x = some (t x)) → IsOption (.matches p m) (.diff p t)

/-- The expression makes an option. -/
def Makes (e : OExp) (o : Opt P) : Prop := ∃ v, e.eval = .ok v ∧ IsOption v o

/-- `ExpectedDifference.name OP v` -/
def above (name : String) (op : Cmp) (v : Int) : OExp := .cmp op (.attr .expected name) (.num v)

/-- Names as python has them have no brackets. -/
def Named : OExp → Prop
  | .attr e n => Named e ∧ '[' ∉ n.toList
  | .cmp _ l r => Named l ∧ Named r
  | .chain _ _ l m r => Named l ∧ Named m ∧ Named r
  | .both l r => Named l ∧ Named r
  | .band l r => Named l ∧ Named r
  | .bor l r => Named l ∧ Named r
  | _ => True

/-- What the operators say in words of order. -/
def Says : Cmp → Int → Int → Prop
  | .eq, x, y => x = y
  | .ne, x, y => x ≠ y
  | .lt, x, y => x < y
  | .le, x, y => x ≤ y
  | .gt, x, y => y < x
  | .ge, x, y => y ≤ x

end Verif.Props.OptionSpec

namespace Verif.Props.OptionLemmas

open Verif Verif.Compare OptionSpec CompareSpec

variable {P : Type}

def PathOk (p : String) : Prop := p = "{}" ∨ ∃ n, p = "{}." ++ n ∧ '[' ∉ n.toList

def ValOk : OVal → Prop
  | .expected p => PathOk p
  | .exclude p => PathOk p
  | .incl p => PathOk p
  | .matches p _ => PathOk p
  | _ => True

theorem path_attr {p n : String} (h : PathOk p) (hn : '[' ∉ n.toList) : PathOk (p ++ "." ++ n) := by
  rcases h with rfl | ⟨m, rfl, hm⟩
  · exact .inr ⟨n, by rw [show "{}" ++ "." = "{}." by decide], hn⟩
  · refine .inr ⟨m ++ "." ++ n, by simp only [String.append_assoc], ?_⟩
    simp only [String.toList_append, List.mem_append, not_or]
    exact ⟨⟨hm, by decide⟩, hn⟩

theorem getAttr_ok {n : String} (hn : '[' ∉ n.toList) {v w : OVal} (hv : ValOk v) (h : getAttr n v = .ok w) : ValOk w := by
  cases v <;> simp only [getAttr] at h <;> cases h
  · exact .inr ⟨n, rfl, hn⟩
  · exact .inr ⟨n, rfl, hn⟩
  · exact path_attr hv hn

theorem compareOp_ok {op : Cmp} {x y w : OVal} (hx : ValOk x) (hy : ValOk y) (h : compareOp op x y = .ok w) : ValOk w := by
  cases x <;> cases y <;> simp only [compareOp] at h <;> cases h
  · exact hx
  · exact hy

theorem combineOp_form {x y w : OVal} (h : combineOp x y = .ok w) : ∃ p, x = .expected p ∧ w = .matches p (fun _ => none) := by
  cases x <;> cases y <;> simp only [combineOp] at h <;> try cases h
  rename_i p q m
  by_cases hq : q ≠ p
  · rw [if_pos hq] at h; cases h
  · rw [if_neg hq] at h; cases h; exact ⟨p, rfl, rfl⟩

theorem bind_ok {α β : Type} {x : Except OErr α} {f : α → Except OErr β} {b : β} (h : (x >>= f) = .ok b) :
    ∃ a, x = .ok a ∧ f a = .ok b := by
  cases x with
  | error e => cases h
  | ok a => exact ⟨a, rfl, h⟩

theorem eval_ok (e : OExp) (he : Named e) {v : OVal} (h : e.eval = .ok v) : ValOk v := by
  induction e generalizing v with
  | exclude => cases h; exact trivial
  | incl => cases h; exact trivial
  | expected => cases h; exact .inl rfl
  | num => cases h; exact trivial
  | attr e n ih =>
    obtain ⟨x, hx, h⟩ := bind_ok h
    exact getAttr_ok he.2 (ih he.1 hx) h
  | cmp op l r ihl ihr =>
    obtain ⟨x, hx, h⟩ := bind_ok h
    obtain ⟨y, hy, h⟩ := bind_ok h
    exact compareOp_ok (ihl he.1 hx) (ihr he.2 hy) h
  | chain op op' l m r ihl ihm ihr =>
    obtain ⟨x, hx, h⟩ := bind_ok h
    obtain ⟨y, hy, h⟩ := bind_ok h
    obtain ⟨f, hf, h⟩ := bind_ok h
    by_cases ht : f.truthy = true
    · rw [if_pos ht] at h
      obtain ⟨z, hz, h⟩ := bind_ok h
      exact compareOp_ok (ihm he.2.1 hy) (ihr he.2.2 hz) h
    · rw [if_neg ht] at h
      cases h
      exact compareOp_ok (ihl he.1 hx) (ihm he.2.1 hy) hf
  | both l r ihl ihr =>
    obtain ⟨x, hx, h⟩ := bind_ok h
    by_cases ht : x.truthy = true
    · rw [if_pos ht] at h; exact ihr he.2 h
    · rw [if_neg ht] at h; cases h; exact ihl he.1 hx
  | band l r ihl ihr =>
    obtain ⟨x, hx, h⟩ := bind_ok h
    obtain ⟨y, hy, h⟩ := bind_ok h
    obtain ⟨p, hp, hw⟩ := combineOp_form h
    subst hp hw
    exact show ValOk (.expected p) from ihl he.1 hx
  | bor l r ihl ihr =>
    obtain ⟨x, hx, h⟩ := bind_ok h
    obtain ⟨y, hy, h⟩ := bind_ok h
    obtain ⟨p, hp, hw⟩ := combineOp_form h
    subst hp hw
    exact show ValOk (.expected p) from ihl he.1 hx

theorem test_says (op : Cmp) (x y : Int) : op.test x y = true ↔ Says op x y := by
  cases op <;> simp [Cmp.test, Says]

end Verif.Props.OptionLemmas

namespace Verif.Props

open Verif Verif.Compare OptionSpec OptionLemmas CompareSpec

variable {P V : Type}

/-- `Exclude.name` and `Include.name`. -/
theorem C77_names (name : String) :
    Makes (P := P) (.attr .exclude name) (.exclude ("{}." ++ name)) ∧ Makes (P := P) (.attr .incl name) (.incl ("{}." ++ name)) :=
  ⟨⟨_, rfl, .exclude _⟩, ⟨_, rfl, .incl _⟩⟩

/-- `ExpectedDifference.name OP v` makes an option for that attribute, and so does `v OP ExpectedDifference.name`. The test of the option is
what the expression says, the difference being in the place of `ExpectedDifference.name`. -/
theorem C77_expected (name : String) (op : Cmp) (v : Int) :
    (∃ t, Makes (P := P) (.cmp op (.attr .expected name) (.num v)) (.diff ("{}." ++ name) t) ∧ ∀ x, t x = true ↔ Says op x v) ∧
    (∃ t, Makes (P := P) (.cmp op (.num v) (.attr .expected name)) (.diff ("{}." ++ name) t) ∧ ∀ x, t x = true ↔ Says op v x) := by
  have hp : "{}" ++ "." ++ name = "{}." ++ name := by rw [show "{}" ++ "." = "{}." by decide]
  refine ⟨⟨fun x => op.test x v, ⟨.matches ("{}" ++ "." ++ name) (fun x => some (op.test x v)), rfl, ?_⟩, fun x => test_says op x v⟩,
    ⟨fun x => op.reflected.test x v, ⟨.matches ("{}" ++ "." ++ name) (fun x => some (op.reflected.test x v)), rfl, ?_⟩, fun x => ?_⟩⟩
  · rw [hp]; exact .matches _ _ _ (fun _ => rfl)
  · rw [hp]; exact .matches _ _ _ (fun _ => rfl)
  · rw [test_says]
    cases op <;> simp only [Cmp.reflected, Says]
    · exact eq_comm
    · exact ne_comm

/-- Options made by expressions name attributes of the grain, never something inside a container; the only other one is of
`ExpectedDifference` itself, without an attribute. -/
theorem C77_top_level (e : OExp) (he : Named e) (o : Opt P) (h : Makes e o) :
    (∃ name, o.path = "{}." ++ name ∧ '[' ∉ name.toList) ∨ o.path = "{}" := by
  obtain ⟨v, hv, ho⟩ := h
  have := eval_ok e he hv
  cases ho <;> exact Or.symm this

/-- With several such options for one timestamp, its difference must be as all of them say. -/
theorem C77_window (name : String) (l : List (Cmp × Int)) (hl : l ≠ []) (opts : List (Opt P))
    (ho : List.Forall₂ (fun x o => Makes (above name x.1 x.2) o) l opts) (x y : Int) :
    TimeTest opts name x y ↔ ∀ z ∈ l, Says z.1 (x - y) z.2 := by
  have hp : "{}" ++ "." ++ name = "{}." ++ name := by rw [show "{}" ++ "." = "{}." by decide]
  have form : ∀ z : Cmp × Int, ∀ o : Opt P, Makes (above name z.1 z.2) o →
      ∃ t, o = .diff ("{}." ++ name) t ∧ ∀ d, t d = true ↔ Says z.1 d z.2 := by
    rintro ⟨op, v⟩ o ⟨w, hw, hm⟩
    have hw' : OVal.matches ("{}" ++ "." ++ name) (fun x => some (op.test x v)) = w := by
      have : (above name op v).eval = .ok (.matches ("{}" ++ "." ++ name) (fun x => some (op.test x v))) := rfl
      rw [this] at hw
      injection hw
    subst hw'
    rw [hp] at hm
    cases hm with
    | «matches» p m t ht =>
      refine ⟨t, rfl, fun d => ?_⟩
      have := ht d
      injection this with this
      rw [← this]
      exact test_says op d v
  have all : ∀ (l : List (Cmp × Int)) (opts : List (Opt P)), List.Forall₂ (fun x o => Makes (above name x.1 x.2) o) l opts →
      ((∀ m, Opt.diff ("{}." ++ name) m ∈ opts → m (x - y) = true) ↔ ∀ z ∈ l, Says z.1 (x - y) z.2) := by
    intro l opts h
    induction h with
    | nil => simp
    | @cons z o l opts h _ ih =>
      obtain ⟨t, rfl, ht⟩ := form z o h
      rw [List.forall_mem_cons, ← ih, ← ht]
      constructor
      · intro h; exact ⟨h t (by simp), fun m hm => h m (List.mem_cons_of_mem _ hm)⟩
      · rintro ⟨h1, h2⟩ m hm
        rcases List.mem_cons.1 hm with hm | hm
        · injection hm with _ hm; subst hm; exact h1
        · exact h2 m hm
  have some' : ∃ m, Opt.diff ("{}." ++ name) m ∈ opts := by
    cases ho with
    | nil => exact absurd rfl hl
    | @cons z o l opts h _ =>
      obtain ⟨t, rfl, ht⟩ := form z o h
      exact ⟨t, by simp⟩
  unfold TimeTest
  rw [all l opts ho]
  constructor
  · rintro (⟨h, _⟩ | ⟨_, h⟩)
    · obtain ⟨m, hm⟩ := some'; exact absurd hm (h m)
    · exact h
  · exact fun h => .inr ⟨some', h⟩

/-- In a chain as `lo < ExpectedDifference.name < hi`, and in `… and …`, the first part is lost. -/
theorem C77_chain_counterexample (name : String) (op op' : Cmp) (lo hi : Int) :
    (OExp.chain op op' (.num lo) (.attr .expected name) (.num hi)).eval = (above name op' hi).eval ∧
    (OExp.both (above name op lo) (above name op' hi)).eval = (above name op' hi).eval ∧
    ∃ t, Makes (P := P) (.chain .lt .lt (.num 1) (.attr .expected name) (.num 5)) (.diff ("{}." ++ name) t) ∧ t (-100) = true := by
  refine ⟨rfl, rfl, ?_⟩
  obtain ⟨t, ht, h⟩ := (C77_expected (P := P) name .lt 5).1
  exact ⟨t, ht, (h _).2 (by decide : (-100 : Int) < 5)⟩

/-- No expression with `&` or `|` makes an option: there is an exception at once or whenever the test is made. Two tests cannot be combined
with them in any way. -/
theorem C77_combined_counterexample (l r : OExp) (o : Opt P) :
    ¬ Makes (.band l r) o ∧ ¬ Makes (.bor l r) o ∧
    ∀ name op lo op' hi, (OExp.band (above name op lo) (above name op' hi)).eval = .error .type ∧
      (OExp.bor (above name op lo) (above name op' hi)).eval = .error .type := by
  have key : ∀ v, (∃ x y, l.eval = .ok x ∧ r.eval = .ok y ∧ combineOp x y = .ok v) → ¬ IsOption v o := by
    rintro v ⟨x, y, _, _, h⟩ ho
    obtain ⟨p, _, rfl⟩ := combineOp_form h
    cases ho with
    | «matches» _ _ t ht => cases ht 0
  refine ⟨?_, ?_, fun _ _ _ _ _ => ⟨rfl, rfl⟩⟩
  · rintro ⟨v, hv, ho⟩
    obtain ⟨x, hx, h⟩ := bind_ok hv
    obtain ⟨y, hy, h⟩ := bind_ok h
    exact key v ⟨x, y, hx, hy, h⟩ ho
  · rintro ⟨v, hv, ho⟩
    obtain ⟨x, hx, h⟩ := bind_ok hv
    obtain ⟨y, hy, h⟩ := bind_ok h
    exact key v ⟨x, y, hx, hy, h⟩ ho

/-- A window of differences, written as two options. -/
example : ∃ opts : List (Opt Unit), List.Forall₂ (fun x o => Makes (above "origin_timestamp" x.1 x.2) o) [(.gt, 1), (.lt, 5)] opts ∧
    (TimeTest opts "origin_timestamp" 10 7 ∧ ¬ TimeTest opts "origin_timestamp" 10 10) := by
  obtain ⟨t, ht, _⟩ := (C77_expected (P := Unit) "origin_timestamp" .gt 1).1
  obtain ⟨s, hs, _⟩ := (C77_expected (P := Unit) "origin_timestamp" .lt 5).1
  have h : List.Forall₂ (fun x o => Makes (P := Unit) (above "origin_timestamp" x.1 x.2) o) [(.gt, 1), (.lt, 5)]
      [.diff ("{}." ++ "origin_timestamp") t, .diff ("{}." ++ "origin_timestamp") s] := .cons ht (.cons hs .nil)
  refine ⟨_, h, (C77_window _ _ (by simp) _ h _ _).2 ?_, fun hw => ?_⟩
  · simp [Says]
  · have := (C77_window _ _ (by simp) _ h _ _).1 hw (.gt, 1) (by simp)
    simp [Says] at this

end Verif.Props

import Verif.Compare.Model

/-!
# The matcher that compares data

`DataEqualityComparisonResult`, `comparison/_internal.py` 308-386, with the class `SequenceMatcher` of the standard library module
`difflib` that it uses (`autojunk=True` and no junk function, as there). Elements are compared by `eq`, which is `==` of python: for
floating point numbers it is not reflexive.
-/

namespace Verif.Compare.Matcher

open Verif Verif.Compare

variable {α : Type}

/-- `a[i] == b[j]`, for indices in range. -/
def same (eq : α → α → Bool) (a b : List α) (i j : Nat) : Bool :=
  match a[i]?, b[j]? with
  | some x, some y => eq x y
  | _, _ => false

/-- `__chain_b`: an element is popular if `b` has at least 200 elements and more than one in a hundred, plus one, is equal to it. -/
def popular (eq : α → α → Bool) (b : List α) (x : α) : Bool :=
  decide (200 ≤ b.length) && decide (b.length / 100 + 1 < (b.filter (fun y => eq x y)).length)

/-- `a[i]` is an element that is not popular. -/
def rare (eq : α → α → Bool) (a b : List α) (i : Nat) : Bool :=
  match a[i]? with
  | some x => !popular eq b x
  | none => false

/-- `Match(a, b, size)`. -/
structure Match where
  i : Nat
  j : Nat
  k : Nat
  deriving DecidableEq, Repr

/-- The entries of `b2j.get(a[i])` between `blo` and `bhi`, in order. Popular elements have no entry in `b2j`. -/
def places (eq : α → α → Bool) (a b : List α) (blo bhi i : Nat) : List Nat :=
  (List.range b.length).filter (fun j => rare eq a b i && same eq a b i j && decide (blo ≤ j) && decide (j < bhi))

/-- `j2len.get(j-1, 0)`. -/
def before (j2len : Nat → Nat) (j : Nat) : Nat := if j = 0 then 0 else j2len (j - 1)

/-- The inner loop of `find_longest_match`: `newj2len` and the best match after the places `js`. -/
def scanRow (j2len : Nat → Nat) (i : Nat) : List Nat → (Nat → Nat) → Match → (Nat → Nat) × Match
  | [], new, best => (new, best)
  | j :: js, new, best =>
    let k := before j2len j + 1
    scanRow j2len i js (fun x => if x = j then k else new x) (if k > best.k then ⟨i + 1 - k, j + 1 - k, k⟩ else best)

/-- The outer loop of `find_longest_match`: `n` rows from row `i` on. -/
def scan (eq : α → α → Bool) (a b : List α) (blo bhi : Nat) : Nat → Nat → (Nat → Nat) → Match → Match
  | 0, _, _, best => best
  | n + 1, i, j2len, best =>
    let r := scanRow j2len i (places eq a b blo bhi i) (fun _ => 0) best
    scan eq a b blo bhi n (i + 1) r.1 r.2

/-- The first `while` of `find_longest_match`; the number of turns is at most `i`. -/
def extendLeft (eq : α → α → Bool) (a b : List α) (alo blo : Nat) : Nat → Match → Match
  | 0, m => m
  | f + 1, m =>
    if m.i > alo ∧ m.j > blo ∧ same eq a b (m.i - 1) (m.j - 1) = true then
      extendLeft eq a b alo blo f ⟨m.i - 1, m.j - 1, m.k + 1⟩
    else m

/-- The second `while`; the number of turns is at most the length of `a`. The two that follow it do nothing without junk. -/
def extendRight (eq : α → α → Bool) (a b : List α) (ahi bhi : Nat) : Nat → Match → Match
  | 0, m => m
  | f + 1, m =>
    if m.i + m.k < ahi ∧ m.j + m.k < bhi ∧ same eq a b (m.i + m.k) (m.j + m.k) = true then
      extendRight eq a b ahi bhi f ⟨m.i, m.j, m.k + 1⟩
    else m

/-- `find_longest_match(alo, ahi, blo, bhi)`. -/
def findLongest (eq : α → α → Bool) (a b : List α) (alo ahi blo bhi : Nat) : Match :=
  let m := scan eq a b blo bhi (ahi - alo) alo (fun _ => 0) ⟨alo, blo, 0⟩
  let m := extendLeft eq a b alo blo m.i m
  extendRight eq a b ahi bhi a.length m

/-- The blocks found by `get_matching_blocks` in a range. The code keeps a list of ranges to look at and sorts the blocks found at
the end; here the ranges before and after a block are looked at in order, which gives them sorted. The bound `f` is more than the
number of elements of the range of `a`. -/
def blocksIn (eq : α → α → Bool) (a b : List α) : Nat → Nat → Nat → Nat → Nat → List Match
  | 0, _, _, _, _ => []
  | f + 1, alo, ahi, blo, bhi =>
    let x := findLongest eq a b alo ahi blo bhi
    if x.k = 0 then []
    else
      (if alo < x.i ∧ blo < x.j then blocksIn eq a b f alo x.i blo x.j else []) ++
        x :: (if x.i + x.k < ahi ∧ x.j + x.k < bhi then blocksIn eq a b f (x.i + x.k) ahi (x.j + x.k) bhi else [])

/-- The loop of `get_matching_blocks` that joins adjacent blocks; `c` is `(i1, j1, k1)`. -/
def collapse : Match → List Match → List Match
  | c, [] => if c.k = 0 then [] else [c]
  | c, x :: xs =>
    if c.i + c.k = x.i ∧ c.j + c.k = x.j then collapse ⟨c.i, c.j, c.k + x.k⟩ xs
    else (if c.k = 0 then [] else [c]) ++ collapse x xs

/-- `get_matching_blocks()`. -/
def blocks (eq : α → α → Bool) (a b : List α) : List Match :=
  collapse ⟨0, 0, 0⟩ (blocksIn eq a b (a.length + 1) 0 a.length 0 b.length) ++ [⟨a.length, b.length, 0⟩]

/-- `sum(triple[-1] for triple in self.get_matching_blocks())`. -/
def matches_ (eq : α → α → Bool) (a b : List α) : Nat := ((blocks eq a b).map (fun m => m.k)).sum

/-- `ratio()`. The code divides floating point numbers; for fewer than 2^53 elements the quotient is 1.0 if and only if it is exactly 1. -/
def ratio (eq : α → α → Bool) (a b : List α) : Rat :=
  if a.length + b.length = 0 then 1 else (2 * matches_ eq a b : Nat) / (a.length + b.length : Nat)

inductive Tag where
  | replace
  | delete
  | insert
  | equal
  deriving DecidableEq, Repr

structure OpCode where
  tag : Tag
  i1 : Nat
  i2 : Nat
  j1 : Nat
  j2 : Nat
  deriving DecidableEq, Repr

/-- The loop of `get_opcodes`. -/
def opsFrom : Nat → Nat → List Match → List OpCode
  | _, _, [] => []
  | i, j, m :: ms =>
    (if i < m.i ∧ j < m.j then [⟨.replace, i, m.i, j, m.j⟩]
      else if i < m.i then [⟨.delete, i, m.i, j, m.j⟩]
      else if j < m.j then [⟨.insert, i, m.i, j, m.j⟩] else []) ++
    (if m.k = 0 then [] else [⟨.equal, m.i, m.i + m.k, m.j, m.j + m.k⟩]) ++ opsFrom (m.i + m.k) (m.j + m.k) ms

/-- `get_opcodes()`. -/
def opcodes (eq : α → α → Bool) (a b : List α) : List OpCode := opsFrom 0 0 (blocks eq a b)

/-- The message of a comparison of data that is there on both sides, lines 320-355, without its words and without the similarity. -/
inductive Told (α : Type) where
  /-- "Binary data … are equal" -/
  | equal
  /-- "first different values are a[i] == x and b[i] == y" -/
  | differ (i : Nat) (x y : α)
  /-- "a has n extra values, starting with a[i] = x" -/
  | extraA (n : Int) (i : Nat) (x : α)
  /-- "b has n extra values, starting with b[i] = x" -/
  | extraB (n : Int) (i : Nat) (x : α)
  deriving DecidableEq, Repr

/-- Lines 320-355; `none` is an `IndexError`. -/
def told (eq : α → α → Bool) (a b : List α) : Option (Told α) :=
  if ratio eq a b = 1 then some .equal
  else
    match (opcodes eq a b).filter (fun x => x.tag != .equal) with
    | [] => none
    | op :: _ =>
      match a[op.i1]?, b[op.i1]? with
      | some x, some y => some (.differ op.i1 x y)
      | some x, none => some (.extraA ((a.length : Int) - b.length) op.i1 x)
      | none, some y => some (.extraB ((b.length : Int) - a.length) op.i1 y)
      | none, none => none

/-- A line of the printed report, lines 370-373: what is done with which range, and the samples printed for `a` and for `b`. -/
structure Line (α : Type) where
  op : OpCode
  left : List α
  right : List α
  deriving DecidableEq, Repr

/-- `l[i:j]`. -/
def cut (l : List α) (i j : Nat) : List α := (l.drop i).take (j - i)

/-- Lines 366-384: the lines of the report below the message, and whether "etc ..." follows them. -/
def report (eq : α → α → Bool) (a b : List α) : List (Line α) × Bool :=
  if ratio eq a b < 1 then
    let l := ((opcodes eq a b).take 5).map (fun op => (⟨op, cut a op.i1 op.i2, cut b op.i1 op.i2⟩ : Line α))
    (l.take 4, decide (l.length > 4))
  else ([], false)

end Verif.Compare.Matcher

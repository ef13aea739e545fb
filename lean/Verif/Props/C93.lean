import Verif.Compare.Text
import Verif.Props.C42
import Verif.Props.C76

/-!
# C93: what comparisons say

`msg` of a result names exactly the results that are falsy and whose containers, up to the result asked, are falsy as well: each once, inside
brackets that say which of them are left out of the verdict. `str` has one line for each result. Making the texts raises for keys with braces.
-/

namespace Verif.Props.Said

open Verif Verif.Compare

section
variable {P V : Type}

/-! ## Specification -/

/-- Reading a message from left to right, with the brackets that are open, the innermost first: the texts of single results in it, each with
the brackets around it (`true` for `<IGNORING: … >`). `none` if the brackets do not match. -/
def readBack : List Bool → List Tok → Option (List (List Nat × List Bool))
  | [], [] => some []
  | _ :: _, [] => none
  | st, .own p :: ts => (readBack st ts).map ((p, st) :: ·)
  | st, .opens b :: ts => readBack (b :: st) ts
  | [], .closes _ :: _ => none
  | b' :: st, .closes b :: ts => if b = b' then readBack st ts else none
  | st, .colon :: ts => readBack st ts
  | st, .semi :: ts => readBack st ts

/-- Going down from a result through falsy ones only: whether each of them is excluded, the last one first. -/
def trail : Res P → List Nat → Option (List Bool)
  | _, [] => some []
  | r, i :: s =>
    match r.children[i]? with
    | none => none
    | some c => if c.equal then none else (trail c s).map (· ++ [c.excluded])

/-- The result at a path. -/
def resultAt : Res P → List Nat → Option (Res P)
  | r, [] => some r
  | r, i :: s =>
    match r.children[i]? with
    | none => none
    | some c => resultAt c s

/-- Text in which every brace is doubled. -/
inductive Doubled : List Char → Prop
  | nil : Doubled []
  | left {cs : List Char} : Doubled cs → Doubled ('{' :: '{' :: cs)
  | right {cs : List Char} : Doubled cs → Doubled ('}' :: '}' :: cs)
  | other {c : Char} {cs : List Char} : c ≠ '{' → c ≠ '}' → Doubled cs → Doubled (c :: cs)

/-- Every brace in a key of two dictionaries at the same place in both lists is doubled. -/
def KeysFit (as bs : List (Dict V)) : Prop :=
  ∀ (n : Nat) (d e : Dict V), as[n]? = some d → bs[n]? = some e → ∀ x : String × V, x ∈ d ∨ x ∈ e → Doubled x.1.toList

/-- The items of event grains. -/
def items : Body V → List (Dict V)
  | .event _ _ i => i
  | _ => []

/-! ## Messages -/

mutual
def mentions (p : List Nat) (st : List Bool) : Res P → List (List Nat × List Bool)
  | .mk _ _ _ _ _ cs => (p, st) :: (mparts false p st 0 cs ++ mparts true p st 0 cs)
def mparts (ign : Bool) (p : List Nat) (st : List Bool) : Nat → List (Res P) → List (List Nat × List Bool)
  | _, [] => []
  | i, c :: cs => (if !c.equal && c.excluded == ign then mentions (p ++ [i]) (ign :: st) c else []) ++ mparts ign p st (i + 1) cs
end

/-- The pieces `ts` are read as `ms`, with the brackets `st` open. -/
def Reads (st : List Bool) (ts : List Tok) (ms : List (List Nat × List Bool)) : Prop :=
  ∀ rest, readBack st (ts ++ rest) = (readBack st rest).map (ms ++ ·)

inductive ReadsAll (st : List Bool) : List (List Tok) → List (List Nat × List Bool) → Prop
  | nil : ReadsAll st [] []
  | cons {t ts m ms} : Reads st t m → ReadsAll st ts ms → ReadsAll st (t :: ts) (m ++ ms)

theorem reads_append {st : List Bool} {a b : List Tok} {x y} (ha : Reads st a x) (hb : Reads st b y) : Reads st (a ++ b) (x ++ y) := by
  intro rest
  rw [List.append_assoc, ha, hb, Option.map_map]
  congr 1
  funext z
  simp

theorem reads_nil (st : List Bool) : Reads st [] [] := by
  intro rest
  simp only [List.nil_append]
  cases readBack st rest <;> rfl

theorem reads_semi (st : List Bool) : Reads st [.semi] [] := by
  intro rest
  simp only [List.cons_append, List.nil_append, readBack]
  cases readBack st rest <;> rfl

theorem reads_colon (st : List Bool) : Reads st [.colon] [] := by
  intro rest
  simp only [List.cons_append, List.nil_append, readBack]
  cases readBack st rest <;> rfl

theorem reads_own (st : List Bool) (p : List Nat) : Reads st [.own p] [(p, st)] := by
  intro rest
  simp only [List.cons_append, List.nil_append, readBack]

theorem reads_bracket {st : List Bool} {b : Bool} {t : List Tok} {m} (h : Reads (b :: st) t m) :
    Reads st (.opens b :: (t ++ [.closes b])) m := by
  intro rest
  simp only [List.cons_append, List.append_assoc, List.nil_append]
  rw [readBack, h]
  congr 1
  rw [readBack, if_pos rfl]

theorem readsAll_append {st : List Bool} {a b x y} (ha : ReadsAll st a x) (hb : ReadsAll st b y) : ReadsAll st (a ++ b) (x ++ y) := by
  induction ha with
  | nil => exact hb
  | cons h _ ih => rw [List.append_assoc]; exact .cons h ih

theorem reads_joined {st : List Bool} {a x} (ha : ReadsAll st a x) : Reads st (joined a) x := by
  induction ha with
  | nil => exact reads_nil st
  | @cons t ts m ms h hs ih =>
    cases hs with
    | nil => rw [List.append_nil]; exact h
    | cons h' hs' =>
      rw [joined]
      exact reads_append h (by simpa using reads_append (reads_semi st) ih)

theorem reads_withParts {st : List Bool} {a x} (p : List Nat) (ha : ReadsAll st a x) : Reads st (withParts p a) ((p, st) :: x) := by
  unfold withParts
  split
  · next h =>
    cases ha with
    | nil => exact reads_own st p
    | cons _ _ => simp at h
  · exact reads_append (reads_own st p) (by simpa using reads_append (reads_colon st) (reads_joined ha))

mutual
theorem reads_toks (p : List Nat) (st : List Bool) : (r : Res P) → Reads st (r.toks p) (mentions p st r)
  | .mk i a k o e cs => by
    rw [Res.toks, mentions]
    exact reads_withParts p (readsAll_append (reads_parts false p st 0 cs) (reads_parts true p st 0 cs))
theorem reads_parts (ign : Bool) (p : List Nat) (st : List Bool) : (i : Nat) → (cs : List (Res P)) →
    ReadsAll st (Res.parts ign p i cs) (mparts ign p st i cs)
  | _, [] => by rw [Res.parts, mparts]; exact .nil
  | i, c :: cs => by
    rw [Res.parts, mparts]
    split
    · exact .cons (reads_bracket (reads_toks (p ++ [i]) (ign :: st) c)) (reads_parts ign p st (i + 1) cs)
    · exact reads_parts ign p st (i + 1) cs
end

mutual
theorem mem_mentions (p : List Nat) (st : List Bool) : (r : Res P) → ∀ q l', (q, l') ∈ mentions p st r ↔
    ∃ s l, trail r s = some l ∧ q = p ++ s ∧ l' = l ++ st
  | .mk i a k o e cs => by
    intro q l'
    rw [mentions, List.mem_cons, List.mem_append, mem_mparts false p st 0 cs, mem_mparts true p st 0 cs]
    constructor
    · rintro (h | ⟨j, c, s, l, h1, h2, h3, h4, h5, h6⟩ | ⟨j, c, s, l, h1, h2, h3, h4, h5, h6⟩)
      · injection h with h1 h2
        exact ⟨[], [], rfl, by simp [h1], by simp [h2]⟩
      · refine ⟨j :: s, l ++ [c.excluded], ?_, by simpa using h5, by rw [h6, h3]; simp⟩
        simp [trail, Res.children, h1, h2, h4]
      · refine ⟨j :: s, l ++ [c.excluded], ?_, by simpa using h5, by rw [h6, h3]; simp⟩
        simp [trail, Res.children, h1, h2, h4]
    · rintro ⟨s, l, h, hq, hl⟩
      cases s with
      | nil =>
        simp only [trail, Option.some.injEq] at h
        left
        rw [hq, hl, ← h]; simp
      | cons j s =>
        right
        simp only [trail, Res.children] at h
        cases hc : cs[j]? with
        | none => rw [hc] at h; cases h
        | some c =>
          rw [hc] at h
          simp only at h
          cases he : c.equal with
          | true => rw [he] at h; cases h
          | false =>
            rw [he] at h
            cases ht : trail c s with
            | none => rw [ht] at h; cases h
            | some t =>
              rw [ht] at h
              simp only [Bool.false_eq_true, if_false, Option.map_some, Option.some.injEq] at h
              cases hx : c.excluded with
              | false => exact .inl ⟨j, c, s, t, hc, he, hx, ht, by simpa using hq, by rw [hl, ← h, hx]; simp⟩
              | true => exact .inr ⟨j, c, s, t, hc, he, hx, ht, by simpa using hq, by rw [hl, ← h, hx]; simp⟩
theorem mem_mparts (ign : Bool) (p : List Nat) (st : List Bool) : (i : Nat) → (cs : List (Res P)) → ∀ q l', (q, l') ∈ mparts ign p st i cs ↔
    ∃ (j : Nat) (c : Res P) (s : List Nat) (l : List Bool), cs[j]? = some c ∧ c.equal = false ∧ c.excluded = ign ∧ trail c s = some l ∧
      q = p ++ (i + j) :: s ∧ l' = l ++ ign :: st
  | i, [] => by intro q l'; rw [mparts]; simp
  | i, c :: cs => by
    intro q l'
    rw [mparts, List.mem_append, mem_mparts ign p st (i + 1) cs]
    constructor
    · rintro (h | ⟨j, c', s, l, h1, h2, h3, h4, h5, h6⟩)
      · split at h
        · next hc =>
          simp only [Bool.and_eq_true, Bool.not_eq_true', beq_iff_eq] at hc
          obtain ⟨s, l, h1, h2, h3⟩ := (mem_mentions (p ++ [i]) (ign :: st) c q l').1 h
          exact ⟨0, c, s, l, rfl, hc.1, hc.2, h1, by simpa using h2, h3⟩
        · cases h
      · exact ⟨j + 1, c', s, l, by simpa using h1, h2, h3, h4, by rw [h5]; congr 2; omega, h6⟩
    · rintro ⟨j, c', s, l, h1, h2, h3, h4, h5, h6⟩
      cases j with
      | zero =>
        simp only [List.getElem?_cons_zero, Option.some.injEq] at h1
        subst h1
        left
        rw [if_pos (by simp [h2, h3])]
        exact (mem_mentions (p ++ [i]) (ign :: st) c q l').2 ⟨s, l, h4, by simpa using h5, h6⟩
      | succ j => exact .inr ⟨j, c', s, l, by simpa using h1, h2, h3, h4, by rw [h5]; congr 2; omega, h6⟩
end

mutual
theorem nodup_mentions (p : List Nat) (st : List Bool) : (r : Res P) → ((mentions p st r).map (·.1)).Nodup
  | .mk i a k o e cs => by
    rw [mentions, List.map_cons, List.map_append, List.nodup_cons, List.nodup_append]
    refine ⟨?_, nodup_mparts false p st 0 cs, nodup_mparts true p st 0 cs, ?_⟩
    · intro h
      rw [List.mem_append, List.mem_map, List.mem_map] at h
      rcases h with ⟨⟨q, l'⟩, h, hq⟩ | ⟨⟨q, l'⟩, h, hq⟩ <;>
      · obtain ⟨j, c, s, l, _, _, _, _, h5, _⟩ := (mem_mparts _ p st 0 cs q l').1 h
        simp only at hq
        rw [hq] at h5
        have := congrArg List.length h5
        simp at this
    · intro x hx y hy hxy
      subst hxy
      rw [List.mem_map] at hx hy
      obtain ⟨⟨q, l⟩, h, hq⟩ := hx
      obtain ⟨⟨q', l'⟩, h', hq'⟩ := hy
      obtain ⟨j, c, s, l, h1, _, h3, _, h5, _⟩ := (mem_mparts _ p st 0 cs q l).1 h
      obtain ⟨j', c', s', l', h1', _, h3', _, h5', _⟩ := (mem_mparts _ p st 0 cs q' l').1 h'
      simp only at hq hq'
      have : p ++ (0 + j) :: s = p ++ (0 + j') :: s' := by rw [← h5, ← h5', hq, hq']
      have := (List.append_cancel_left this)
      injection this with e1 e2
      have ej : j = j' := by omega
      subst ej
      rw [h1] at h1'
      injection h1' with e
      rw [← e, h3] at h3'
      cases h3'
theorem nodup_mparts (ign : Bool) (p : List Nat) (st : List Bool) : (i : Nat) → (cs : List (Res P)) →
    ((mparts ign p st i cs).map (·.1)).Nodup
  | i, [] => by rw [mparts]; simp
  | i, c :: cs => by
    rw [mparts, List.map_append, List.nodup_append]
    refine ⟨?_, nodup_mparts ign p st (i + 1) cs, ?_⟩
    · split
      · exact nodup_mentions (p ++ [i]) (ign :: st) c
      · simp
    · intro x hx y hy hxy
      subst hxy
      rw [List.mem_map] at hx hy
      obtain ⟨⟨q, l⟩, h, hq⟩ := hx
      obtain ⟨⟨q', l'⟩, h', hq'⟩ := hy
      simp only at hq hq'
      split at h
      · obtain ⟨s, l, _, h2, _⟩ := (mem_mentions (p ++ [i]) (ign :: st) c q l).1 h
        obtain ⟨j', c', s', l', _, _, _, _, h5', _⟩ := (mem_mparts _ p st (i + 1) cs q' l').1 h'
        have : p ++ i :: s = p ++ (i + 1 + j') :: s' := by rw [← h5', hq', ← hq, h2]; simp
        have := (List.append_cancel_left this)
        injection this with e1 e2
        omega
      · cases h
end

/-! ## Characters -/

theorem text_own (own : List Nat → List Char) (p : List Nat) : Tok.text own (.own p) = own p := rfl
theorem text_semi (own : List Nat → List Char) : Tok.text own .semi = "; ".toList := rfl
theorem text_colon (own : List Nat → List Char) : Tok.text own .colon = ": ".toList := rfl
theorem text_opens (own : List Nat → List Char) (b : Bool) : Tok.text own (.opens b) = if b then "<IGNORING: ".toList else "(".toList := by cases b <;> rfl
theorem text_closes (own : List Nat → List Char) (b : Bool) : Tok.text own (.closes b) = if b then ">".toList else ")".toList := by cases b <;> rfl

theorem joined_text (own : List Nat → List Char) : ∀ ms : List (List Tok),
    (joined ms).flatMap (Tok.text own) = "; ".toList.intercalate (ms.map (fun m => m.flatMap (Tok.text own))) := by
  intro ms
  generalize hsep : "; ".toList = sep
  induction ms with
  | nil => rfl
  | cons m ms ih =>
    cases ms with
    | nil => simp only [joined, List.map_cons, List.map_nil, List.intercalate_singleton]
    | cons n ms =>
      simp only [joined, List.flatMap_append, List.flatMap_cons, ih, List.map_cons, List.intercalate_cons_cons, text_semi, hsep, List.append_assoc]

theorem withParts_text (own : List Nat → List Char) (p : List Nat) (ms : List (List Tok)) :
    (withParts p ms).flatMap (Tok.text own) = own p ++ (if (ms.map (fun m => m.flatMap (Tok.text own))) = [] then [] else
      ": ".toList ++ "; ".toList.intercalate (ms.map (fun m => m.flatMap (Tok.text own)))) := by
  unfold withParts
  cases ms with
  | nil => simp only [List.length_nil, if_true, List.flatMap_cons, List.flatMap_nil, text_own, List.map_nil]
  | cons m ms =>
    rw [if_neg (by simp), List.flatMap_cons, List.flatMap_cons, joined_text, text_own, text_colon, List.map_cons, if_neg (by simp)]

/-- The texts of the results inside the one at `p`. -/
def under (own : List Nat → List Char) (p : List Nat) : List Nat → List Char := fun q => own (p ++ q)

mutual
theorem toks_under (own : List Nat → List Char) (p : List Nat) : (r : Res P) → (q : List Nat) →
    (r.toks (p ++ q)).flatMap (Tok.text own) = (r.toks q).flatMap (Tok.text (under own p))
  | .mk _ _ _ _ _ cs, q => by
    have h1 := parts_under own p false q 0 cs
    have h2 := parts_under own p true q 0 cs
    simp only [Res.toks]
    rw [withParts_text, withParts_text, List.map_append, List.map_append, h1, h2]
    rfl
theorem parts_under (own : List Nat → List Char) (p : List Nat) (ign : Bool) (q : List Nat) : (i : Nat) → (cs : List (Res P)) →
    (Res.parts ign (p ++ q) i cs).map (fun m => m.flatMap (Tok.text own)) = (Res.parts ign q i cs).map (fun m => m.flatMap (Tok.text (under own p)))
  | _, [] => rfl
  | i, c :: cs => by
    have h1 := toks_under own p c (q ++ [i])
    have h2 := parts_under own p ign q (i + 1) cs
    simp only [Res.parts]
    split
    · simp only [List.map_cons, h2, List.flatMap_cons, List.flatMap_append, List.append_assoc, h1]
      simp only [text_opens, text_closes, List.flatMap_nil, List.flatMap_cons]
    · exact h2
end

theorem parts_said (own : List Nat → List Char) (ign : Bool) : ∀ (i : Nat) (cs : List (Res P)),
    (Res.parts ign [] i cs).map (fun m => m.flatMap (Tok.text own)) =
      ((cs.zipIdx i).filter (fun x => !x.1.equal && x.1.excluded == ign)).map (fun x =>
        (if ign then "<IGNORING: ".toList else "(".toList) ++ x.1.msg (fun q => own (x.2 :: q)) ++ (if ign then ">".toList else ")".toList))
  | _, [] => rfl
  | i, c :: cs => by
    have h2 := parts_said own ign (i + 1) cs
    have h1 : (c.toks [i]).flatMap (Tok.text own) = c.msg (fun q => own (i :: q)) := toks_under own [i] c []
    simp only [Res.parts, List.zipIdx_cons, List.filter_cons]
    split
    · simp only [List.map_cons, h2, List.flatMap_cons, List.flatMap_append, List.nil_append, h1, List.flatMap_nil, List.append_nil]
      simp only [text_opens, text_closes, List.append_assoc]
    · exact h2

/-! ## Lines -/

mutual
theorem mem_lines (p : List Nat) : (r : Res P) → ∀ q m, (q, m) ∈ r.lines p ↔ ∃ s c, resultAt r s = some c ∧ q = p ++ s ∧ m = c.mark
  | .mk i a k o e cs => by
    intro q m
    rw [Res.lines, List.mem_cons, mem_childLines p 0 cs]
    constructor
    · rintro (h | ⟨j, c, s, d, h1, h2, h3, h4⟩)
      · injection h with h1 h2
        exact ⟨[], _, rfl, by simp [h1], h2⟩
      · exact ⟨j :: s, d, by simp [resultAt, Res.children, h1, h2], by simpa using h3, h4⟩
    · rintro ⟨s, d, h, hq, hm⟩
      cases s with
      | nil =>
        simp only [resultAt, Option.some.injEq] at h
        left
        rw [hq, hm, ← h]; simp
      | cons j s =>
        right
        simp only [resultAt, Res.children] at h
        cases hc : cs[j]? with
        | none => rw [hc] at h; cases h
        | some c => rw [hc] at h; exact ⟨j, c, s, d, hc, h, by simpa using hq, hm⟩
theorem mem_childLines (p : List Nat) : (i : Nat) → (cs : List (Res P)) → ∀ q m, (q, m) ∈ Res.childLines p i cs ↔
    ∃ (j : Nat) (c : Res P) (s : List Nat) (d : Res P), cs[j]? = some c ∧ resultAt c s = some d ∧ q = p ++ (i + j) :: s ∧ m = d.mark
  | i, [] => by intro q m; rw [Res.childLines]; simp
  | i, c :: cs => by
    intro q m
    rw [Res.childLines, List.mem_append, mem_childLines p (i + 1) cs, mem_lines (p ++ [i]) c]
    constructor
    · rintro (⟨s, d, h1, h2, h3⟩ | ⟨j, c', s, d, h1, h2, h3, h4⟩)
      · exact ⟨0, c, s, d, rfl, h1, by simpa using h2, h3⟩
      · exact ⟨j + 1, c', s, d, by simpa using h1, h2, by rw [h3]; congr 2; omega, h4⟩
    · rintro ⟨j, c', s, d, h1, h2, h3, h4⟩
      cases j with
      | zero =>
        simp only [List.getElem?_cons_zero, Option.some.injEq] at h1
        subst h1
        exact .inl ⟨s, d, h2, by simpa using h3, h4⟩
      | succ j => exact .inr ⟨j, c', s, d, by simpa using h1, h2, by rw [h3]; congr 2; omega, h4⟩
end

mutual
theorem nodup_lines (p : List Nat) : (r : Res P) → ((r.lines p).map (·.1)).Nodup
  | .mk i a k o e cs => by
    rw [Res.lines, List.map_cons, List.nodup_cons]
    refine ⟨?_, nodup_childLines p 0 cs⟩
    intro h
    rw [List.mem_map] at h
    obtain ⟨⟨q, m⟩, h, hq⟩ := h
    obtain ⟨j, c, s, d, _, _, h5, _⟩ := (mem_childLines p 0 cs q m).1 h
    simp only at hq
    rw [hq] at h5
    have := congrArg List.length h5
    simp at this
theorem nodup_childLines (p : List Nat) : (i : Nat) → (cs : List (Res P)) → ((Res.childLines p i cs).map (·.1)).Nodup
  | i, [] => by rw [Res.childLines]; simp
  | i, c :: cs => by
    rw [Res.childLines, List.map_append, List.nodup_append]
    refine ⟨nodup_lines (p ++ [i]) c, nodup_childLines p (i + 1) cs, ?_⟩
    intro x hx y hy hxy
    subst hxy
    rw [List.mem_map] at hx hy
    obtain ⟨⟨q, m⟩, h, hq⟩ := hx
    obtain ⟨⟨q', m'⟩, h', hq'⟩ := hy
    simp only at hq hq'
    obtain ⟨s, d, _, h2, _⟩ := (mem_lines (p ++ [i]) c q m).1 h
    obtain ⟨j', c', s', d', _, _, h5', _⟩ := (mem_childLines p (i + 1) cs q' m').1 h'
    have : p ++ i :: s = p ++ (i + 1 + j') :: s' := by rw [← h5', hq', ← hq, h2]; simp
    have := (List.append_cancel_left this)
    injection this with e1 e2
    omega
end

/-! ## Names -/

theorem formatRest_some_iff (cs : List Char) : (formatRest cs).isSome = true ↔ Doubled cs := by
  induction cs using formatRest.induct with
  | case1 cs ih =>
    rw [formatRest, Option.isSome_map, ih]
    refine ⟨.left, fun h => ?_⟩
    cases h with
    | left h => exact h
    | other h _ _ => exact absurd rfl h
  | case2 cs ih =>
    rw [formatRest, Option.isSome_map, ih]
    refine ⟨.right, fun h => ?_⟩
    cases h with
    | right h => exact h
    | other _ h _ => exact absurd rfl h
  | case3 cs h0 =>
    rw [formatRest]
    · refine ⟨(fun h => by cases h), fun h => ?_⟩
      cases h with
      | left h => exact absurd rfl (h0 _)
      | other h _ _ => exact absurd rfl h
    · exact h0
  | case4 cs h0 =>
    rw [formatRest]
    · refine ⟨(fun h => by cases h), fun h => ?_⟩
      cases h with
      | right h => exact absurd rfl (h0 _)
      | other _ h _ => exact absurd rfl h
    · exact h0
  | case5 c cs h1 h2 h3 h4 ih =>
    rw [formatRest]
    · rw [Option.isSome_map, ih]
      refine ⟨.other ?_ ?_, fun h => ?_⟩
      · intro e; exact h3 e
      · intro e; exact h4 e
      · cases h with
        | left _ => exact absurd rfl h3
        | right _ => exact absurd rfl h4
        | other _ _ h => exact h
    all_goals assumption
  | case6 => exact ⟨fun _ => .nil, fun _ => rfl⟩

theorem doubled_left {cs : List Char} : Doubled ('{' :: '{' :: cs) ↔ Doubled cs := by
  refine ⟨fun h => ?_, .left⟩
  cases h with
  | left h => exact h
  | other h _ _ => exact absurd rfl h

theorem doubled_right {cs : List Char} : Doubled ('}' :: '}' :: cs) ↔ Doubled cs := by
  refine ⟨fun h => ?_, .right⟩
  cases h with
  | right h => exact h
  | other _ h _ => exact absurd rfl h

theorem doubled_other {c : Char} (h1 : c ≠ '{') (h2 : c ≠ '}') {cs : List Char} : Doubled (c :: cs) ↔ Doubled cs := by
  refine ⟨fun h => ?_, .other h1 h2⟩
  cases h with
  | left _ => exact absurd rfl h1
  | right _ => exact absurd rfl h2
  | other _ _ h => exact h

theorem not_doubled_left {cs : List Char} (h0 : ∀ ds, cs ≠ '{' :: ds) : ¬ Doubled ('{' :: cs) := by
  intro h
  cases h with
  | left h => exact absurd rfl (h0 _)
  | other h _ _ => exact absurd rfl h

theorem not_doubled_right {cs : List Char} (h0 : ∀ ds, cs ≠ '}' :: ds) : ¬ Doubled ('}' :: cs) := by
  intro h
  cases h with
  | right h => exact absurd rfl (h0 _)
  | other _ h _ => exact absurd rfl h

/-- Two texts with one character that is no brace between them. -/
theorem doubled_between {c : Char} (h1 : c ≠ '{') (h2 : c ≠ '}') (k ys : List Char) : Doubled (k ++ c :: ys) ↔ Doubled k ∧ Doubled ys := by
  induction k using formatRest.induct with
  | case1 cs ih => simp only [List.cons_append, doubled_left, ih]
  | case2 cs ih => simp only [List.cons_append, doubled_right, ih]
  | case3 cs h0 =>
    rw [List.cons_append]
    refine ⟨fun h => absurd h (not_doubled_left ?_), fun h => absurd h.1 (not_doubled_left fun ds e => h0 ds e)⟩
    intro ds e
    cases cs with
    | nil => simp only [List.nil_append, List.cons.injEq] at e; exact h1 e.1
    | cons d cs => simp only [List.cons_append, List.cons.injEq] at e; exact h0 cs (by rw [e.1])
  | case4 cs h0 =>
    rw [List.cons_append]
    refine ⟨fun h => absurd h (not_doubled_right ?_), fun h => absurd h.1 (not_doubled_right fun ds e => h0 ds e)⟩
    intro ds e
    cases cs with
    | nil => simp only [List.nil_append, List.cons.injEq] at e; exact h2 e.1
    | cons d cs => simp only [List.cons_append, List.cons.injEq] at e; exact h0 cs (by rw [e.1])
  | case5 d cs _ _ h3 h4 ih =>
    rw [List.cons_append, doubled_other (fun e => h3 e) (fun e => h4 e), doubled_other (fun e => h3 e) (fun e => h4 e), ih]
  | case6 => rw [List.nil_append, doubled_other h1 h2]; exact ⟨fun h => ⟨.nil, h⟩, fun h => h.2⟩

/-- Text without braces. -/
def Plain (xs : List Char) : Prop := '{' ∉ xs ∧ '}' ∉ xs

instance (xs : List Char) : Decidable (Plain xs) := inferInstanceAs (Decidable (_ ∧ _))

theorem doubled_plain {xs : List Char} (h : Plain xs) (ys : List Char) : Doubled (xs ++ ys) ↔ Doubled ys := by
  induction xs with
  | nil => rfl
  | cons c xs ih =>
    obtain ⟨h1, h2⟩ := h
    rw [List.mem_cons, not_or] at h1 h2
    rw [List.cons_append, doubled_other (fun e => h1.1 e.symm) (fun e => h2.1 e.symm), ih ⟨h1.2, h2.2⟩]

theorem plain_doubled {xs : List Char} (h : Plain xs) : Doubled xs := by
  have := (doubled_plain h []).2 .nil
  rwa [List.append_nil] at this

theorem plain_nat (n : Nat) : Plain (toString n).toList := by
  have h : ∀ c ∈ (toString n).toList, c.isDigit = true := by
    intro c hc
    rw [Nat.toString_eq_repr, Nat.toList_repr] at hc
    exact Nat.isDigit_of_mem_toDigits (by decide) (by decide) hc
  exact ⟨fun h0 => absurd (h _ h0) (by decide), fun h0 => absurd (h _ h0) (by decide)⟩

/-- The identifier of an item formats. -/
def Fits (s : String) : Prop := (format ['a'] s.toList).isSome = true

theorem fits_field {s : String} (rest : List Char) (h : s.toList = '{' :: '}' :: rest) : Fits s ↔ Doubled rest := by
  unfold Fits
  rw [h, format, Option.isSome_map, formatRest_some_iff]

theorem fits_item (base : String) (rest : List Char) (h : base.toList = '{' :: '}' :: rest) (hr : Plain rest) (n : Nat) :
    Fits (itemIdent base n) := by
  have e : (itemIdent base n).toList = '{' :: '}' :: (rest ++ ("[".toList ++ ((toString n).toList ++ "]".toList))) := by
    simp only [itemIdent, String.toList_append, h, List.cons_append, List.append_assoc]
  rw [fits_field _ e, doubled_plain hr, doubled_plain (by decide), doubled_plain (plain_nat n)]
  exact plain_doubled (by decide)

theorem fits_key (base : String) (rest : List Char) (h : base.toList = '{' :: '}' :: rest) (hr : Plain rest) (n : Nat) (k : String) :
    Fits (keyIdent (itemIdent base n) k) ↔ Doubled k.toList := by
  have e : (keyIdent (itemIdent base n) k).toList =
      '{' :: '}' :: (rest ++ ("[".toList ++ ((toString n).toList ++ ("]['".toList ++ (k.toList ++ "']".toList))))) := by
    have : "]['".toList = "]".toList ++ "['".toList := by decide
    simp only [keyIdent, itemIdent, String.toList_append, h, List.cons_append, List.append_assoc, this]
  rw [fits_field _ e, doubled_plain hr, doubled_plain (by decide), doubled_plain (plain_nat n), doubled_plain (by decide)]
  have e2 : "']".toList = '\'' :: "]".toList := by decide
  rw [e2, doubled_between (by decide) (by decide)]
  exact ⟨fun h => h.1, fun h => ⟨h, plain_doubled (by decide)⟩⟩

theorem allFormat_iff (cs : List (Res P)) : Res.allFormat cs = true ↔ ∀ c ∈ cs, c.formats = true := by
  induction cs with
  | nil => simp [Res.allFormat]
  | cons c cs ih => simp [Res.allFormat, ih]

theorem plainRes_formats (i : String) (a : Option String) (k : Option Key) (o : List (Opt P)) (e : Bool) :
    (plainRes i a k o e).formats = true ↔ Fits i := by
  unfold plainRes Fits
  rw [Res.formats]

theorem diffRes_formats (i : String) (a : Option String) (k : Option Key) (o : List (Opt P)) (x y : Int) :
    (diffRes i a k o x y).formats = true ↔ Fits i := by
  unfold diffRes Fits
  rw [Res.formats]

theorem container_formats (i : String) (a : Option String) (k : Option Key) (o : List (Opt P)) (cs : List (Res P)) (hi : Fits i) :
    (containerRes i a k o cs).formats = true ↔ ∀ c ∈ cs, c.formats = true := by
  unfold containerRes
  cases cs with
  | nil => rw [Res.formats]; exact ⟨fun _ => by simp, fun _ => hi⟩
  | cons c cs => rw [Res.formats, Bool.and_eq_true, allFormat_iff]; simp

theorem mapping_formats (veq : V → V → Bool) (o : List (Opt P)) (base : String) (rest : List Char) (h : base.toList = '{' :: '}' :: rest)
    (hr : Plain rest) (n : Nat) (key : Option Key) (d e : Dict V) :
    (mapping veq o (itemIdent base n) key d e).formats = true ↔ ∀ x : String × V, x ∈ d ∨ x ∈ e → Doubled x.1.toList := by
  unfold mapping
  rw [container_formats _ _ _ _ _ (fits_item base rest h hr n)]
  have fk := fits_key base rest h hr n
  constructor
  · intro hc
    have hd : ∀ x ∈ d, Doubled x.1.toList := by
      intro x hx
      rw [← fk]
      cases hg : e.get? x.1 with
      | some v =>
        refine (plainRes_formats _ none (some (.name x.1)) o (veq x.2 v)).1 (hc _ ?_)
        refine List.mem_append_left _ (List.mem_append_left _ (List.mem_filterMap.2 ⟨x, hx, ?_⟩))
        rw [hg]; rfl
      | none =>
        refine (plainRes_formats _ none (some (.name x.1)) o false).1 (hc _ ?_)
        refine List.mem_append_left _ (List.mem_append_right _ (List.mem_map.2 ⟨x, ?_, rfl⟩))
        rw [List.mem_filter, hg]; exact ⟨hx, rfl⟩
    rintro x (hx | hx)
    · exact hd x hx
    · cases hg : d.get? x.1 with
      | some v =>
        unfold Dict.get? at hg
        rw [Option.map_eq_some_iff] at hg
        obtain ⟨y, hy, _⟩ := hg
        have h1 := List.mem_of_find?_eq_some hy
        have h2 := List.find?_some hy
        simp only [beq_iff_eq] at h2
        rw [← h2]
        exact hd y h1
      | none =>
        rw [← fk]
        refine (plainRes_formats _ none (some (.name x.1)) o false).1 (hc _ ?_)
        refine List.mem_append_right _ (List.mem_map.2 ⟨x, ?_, rfl⟩)
        rw [List.mem_filter, hg]; exact ⟨hx, rfl⟩
  · intro hk c hc
    rw [List.mem_append, List.mem_append, List.mem_filterMap, List.mem_map, List.mem_map] at hc
    rcases hc with (⟨x, hx, hc⟩ | ⟨x, hx, hc⟩) | ⟨x, hx, hc⟩
    · rw [Option.map_eq_some_iff] at hc
      obtain ⟨v, _, rfl⟩ := hc
      exact (plainRes_formats ..).2 ((fk _).2 (hk x (.inl hx)))
    · rw [← hc]
      exact (plainRes_formats ..).2 ((fk _).2 (hk x (.inl (List.mem_filter.1 hx).1)))
    · rw [← hc]
      exact (plainRes_formats ..).2 ((fk _).2 (hk x (.inr (List.mem_filter.1 hx).1)))

theorem ordered_formats {α : Type} (item : String → Option Key → α → α → Res P) (base : String) (rest : List Char)
    (h : base.toList = '{' :: '}' :: rest) (hr : Plain rest) (hl : Fits ("len(" ++ base ++ ")")) (a : Option String) (o : List (Opt P))
    (as bs : List α) :
    (ordered item base a o as bs).formats = true ↔
      ∀ (n : Nat) (x y : α), as[n]? = some x → bs[n]? = some y → (item (itemIdent base n) (some (.idx n)) x y).formats = true := by
  have hb : Fits base := (fits_field rest h).2 (plain_doubled hr)
  unfold ordered
  rw [container_formats _ _ _ _ _ hb]
  constructor
  · intro hc n x y hx hy
    refine hc _ (List.mem_cons_of_mem _ (List.mem_append_left _ (List.mem_append_left _ (List.mem_map.2 ⟨((x, y), n), ?_, rfl⟩))))
    rw [List.mem_iff_getElem?]
    refine ⟨n, ?_⟩
    rw [List.getElem?_zipIdx, (List.getElem?_zip_eq_some (z := (x, y))).2 ⟨hx, hy⟩]
    simp
  · intro hk c hc
    rw [List.mem_cons, List.mem_append, List.mem_append, List.mem_map, List.mem_map, List.mem_map] at hc
    rcases hc with rfl | (⟨⟨⟨x, y⟩, n⟩, hx, rfl⟩ | ⟨x, hx, rfl⟩) | ⟨x, hx, rfl⟩
    · exact (plainRes_formats ..).2 hl
    · rw [List.mk_mem_zipIdx_iff_getElem?] at hx
      obtain ⟨h1, h2⟩ := List.getElem?_zip_eq_some.1 hx
      exact hk n x y h1 h2
    · exact (plainRes_formats ..).2 (fits_item base rest h hr _)
    · exact (plainRes_formats ..).2 (fits_item base rest h hr _)

theorem keysFit_nil_left (bs : List (Dict V)) : KeysFit [] bs := by intro n d e h; cases h

theorem keysFit_nil_right (as : List (Dict V)) : KeysFit as [] := by intro n d e _ h; cases h

theorem dicts_format (veq : V → V → Bool) (base : String) (rest : List Char) (h : base.toList = '{' :: '}' :: rest) (hr : Plain rest)
    (hl : Fits ("len(" ++ base ++ ")")) (a : Option String) (o : List (Opt P)) (as bs : List (Dict V)) :
    (ordered (mapping veq o) base a o as bs).formats = true ↔ KeysFit as bs := by
  rw [ordered_formats _ base rest h hr hl]
  constructor
  · intro h0 n d e hd he x hx
    exact (mapping_formats veq o base rest h hr n _ d e).1 (h0 n d e hd he) x hx
  · intro h0 n d e hd he
    exact (mapping_formats veq o base rest h hr n _ d e).2 (h0 n d e hd he)

theorem common_formats (env : Env P V) (o l : List (Opt P)) (a b : Grain V) :
    (∀ c ∈ commonRes env o l a b, c.formats = true) ↔ KeysFit a.timelabels b.timelabels := by
  unfold commonRes
  simp only [List.forall_mem_cons, eqRes, plainRes_formats, diffRes_formats]
  rw [dicts_format env.veq "{}.timelabels" ".timelabels".toList (by decide) (by decide) (by unfold Fits; decide +kernel)]
  constructor
  · intro h; exact h.2.2.2.2.2.2.2.2.2.1
  · intro h
    refine ⟨?_, ?_, ?_, ?_, ?_, ?_, ?_, ?_, ?_, h, by simp⟩ <;> (unfold Fits; decide +kernel)

theorem data_fits : Fits "{}.data" := by unfold Fits; decide +kernel

theorem dataRes_formats {at' : Option String} {o : List (Opt P)} {c : Code} {x y : Option Bytes} {d : Res P}
    (h : dataRes "{}.data" at' o c x y = some d) : d.formats = true := by
  unfold dataRes at h
  cases x with
  | none =>
    cases y with
    | none => simp only [Option.some.injEq] at h; rw [← h]; exact (plainRes_formats ..).2 data_fits
    | some y =>
      rw [Option.map_eq_some_iff] at h
      obtain ⟨_, _, rfl⟩ := h
      exact (plainRes_formats ..).2 data_fits
  | some x =>
    cases y with
    | none =>
      rw [Option.map_eq_some_iff] at h
      obtain ⟨_, _, rfl⟩ := h
      exact (plainRes_formats ..).2 data_fits
    | some y =>
      simp only [Option.bind_eq_some_iff, Option.map_eq_some_iff] at h
      obtain ⟨_, _, _, _, rfl⟩ := h
      exact (plainRes_formats ..).2 data_fits

theorem psnrRes_formats {env : Env P V} {o : List (Opt P)} {a b : Grain V} {d : Res P} (h : psnrRes env o a b = some d) :
    d.formats = true := by
  unfold psnrRes at h
  split at h
  · injection h with h; rw [← h]; exact (plainRes_formats ..).2 data_fits
  · split at h
    · cases h
    · injection h with h; rw [← h]; exact (plainRes_formats ..).2 data_fits
    · injection h with h; rw [← h]; exact (plainRes_formats ..).2 data_fits

theorem mediaData_formats {env : Env P V} {o : List (Opt P)} {c : Code} {a b : Grain V} {d : Res P} (h : mediaData env o c a b = some d) :
    d.formats = true := by
  unfold mediaData at h
  split at h
  · exact dataRes_formats h
  · exact psnrRes_formats h

theorem incomparable_formats (o : List (Opt P)) : (incomparable o).formats = true := (plainRes_formats ..).2 data_fits

theorem body_formats (env : Env P V) (o : List (Opt P)) (a b : Grain V) :
    ((∀ c ∈ (bodyRes env o a b).1, c.formats = true) ↔ KeysFit (items a.body) (items b.body)) ∧
      ∀ d, (bodyRes env o a b).2 = some (some d) → d.formats = true := by
  have hn : ∀ (P' : Prop), P' → ∀ as : List (Dict V), (P' ↔ KeysFit as []) := fun P' hp as => ⟨fun _ => keysFit_nil_right as, fun _ => hp⟩
  have hm : ∀ (P' : Prop), P' → ∀ bs : List (Dict V), (P' ↔ KeysFit [] bs) := fun P' hp bs => ⟨fun _ => keysFit_nil_left bs, fun _ => hp⟩
  unfold bodyRes
  split
  · next hx hy =>
    rw [hx, hy]
    refine ⟨?_, fun d h => by cases h⟩
    simp only [List.forall_mem_cons, eqRes, plainRes_formats, items]
    rw [dicts_format env.veq "{}.event_data" ".event_data".toList (by decide) (by decide) (by unfold Fits; decide +kernel)]
    refine ⟨fun h => h.2.2.1, fun h => ⟨?_, ?_, h, by simp⟩⟩ <;> (unfold Fits; decide +kernel)
  · next hx hy =>
    rw [hx, hy]
    refine ⟨hn _ ?_ _, fun d h => ?_⟩
    · simp only [List.forall_mem_cons, eqRes, plainRes_formats]
      refine ⟨?_, ?_, ?_, ?_, by simp⟩ <;> (unfold Fits; decide +kernel)
    · simp only [Option.some.injEq] at h
      split at h
      · exact mediaData_formats h
      · injection h with h; rw [← h]; exact incomparable_formats o
  · next hx hy =>
    rw [hx, hy]
    refine ⟨hn _ ?_ _, fun d h => ?_⟩
    · simp only [List.forall_mem_cons, eqRes, plainRes_formats]
      refine ⟨?_, ?_, ?_, ?_, ?_, ?_, by simp⟩ <;> (unfold Fits; decide +kernel)
    · simp only [Option.some.injEq] at h
      split at h
      · exact dataRes_formats h
      · injection h with h; rw [← h]; exact incomparable_formats o
  · next hx hy =>
    rw [hx, hy]
    refine ⟨hn _ ?_ _, fun d h => ?_⟩
    · simp only [List.forall_mem_cons, eqRes, plainRes_formats]
      refine ⟨?_, ?_, ?_, ?_, by simp⟩ <;> (unfold Fits; decide +kernel)
    · simp only [Option.some.injEq] at h
      split at h
      · exact mediaData_formats h
      · injection h with h; rw [← h]; exact incomparable_formats o
  · next hx hy =>
    rw [hx, hy]
    refine ⟨hn _ ?_ _, fun d h => ?_⟩
    · simp only [List.forall_mem_cons, eqRes, plainRes_formats]
      refine ⟨?_, ?_, ?_, ?_, ?_, ?_, ?_, ?_, ?_, by simp⟩
      · unfold Fits; decide +kernel
      · unfold Fits; decide +kernel
      · unfold Fits; decide +kernel
      · unfold Fits; decide +kernel
      · unfold Fits; decide +kernel
      · unfold Fits; decide +kernel
      · unfold Fits; decide +kernel
      · unfold Fits; decide +kernel
      · rw [ordered_formats _ "{}.unit_offsets" ".unit_offsets".toList (by decide) (by decide) (by unfold Fits; decide +kernel)]
        intro n x y _ _
        exact (diffRes_formats ..).2 (fits_item "{}.unit_offsets" ".unit_offsets".toList (by decide) (by decide) n)
    · simp only [Option.some.injEq] at h
      split at h
      · exact dataRes_formats h
      · injection h with h; rw [← h]; exact incomparable_formats o
  · next hx hy =>
    rw [hx, hy]
    refine ⟨hn _ (by simp) _, fun d h => ?_⟩
    simp only [Option.some.injEq] at h
    split at h
    · exact dataRes_formats h
    · injection h with h; rw [← h]; exact incomparable_formats o
  · next h1 _ _ _ _ _ =>
    refine ⟨?_, fun d h => ?_⟩
    · have : items a.body = [] ∨ items b.body = [] := by
        cases ha : a.body with
        | event t p i =>
          cases hb : b.body with
          | event t' p' i' => exact (h1 _ _ _ _ _ _ ha hb).elim
          | _ => exact .inr rfl
        | _ => exact .inl rfl
      rcases this with h | h <;> rw [h]
      · exact hm _ (by simp) _
      · exact hn _ (by simp) _
    · simp only [Option.some.injEq] at h
      rw [← h]; exact incomparable_formats o

theorem compare_formats (env : Env P V) (opts : List (Opt P)) (a b : Grain V) (k : Option Key) {r : Res P}
    (h : compareGrain env opts a b k = some r) :
    r.formats = true ↔ KeysFit a.timelabels b.timelabels ∧ KeysFit (items a.body) (items b.body) := by
  obtain ⟨ds, hr, hd⟩ := Verif.Props.ReportLemmas.children_form env opts a b k h
  obtain ⟨hb, hb'⟩ := body_formats env (withDefault opts) a b
  rw [hr, container_formats _ _ _ _ _ (by unfold Fits; decide +kernel), ← common_formats env (withDefault opts)
    (lengthOpts (withDefault opts) a b) a b, ← hb]
  simp only [List.mem_append]
  constructor
  · intro h0; exact ⟨fun c hc => h0 c (.inl hc), fun c hc => h0 c (.inr (.inl hc))⟩
  · rintro ⟨h1, h2⟩ c (hc | hc | hc)
    · exact h1 c hc
    · exact h2 c hc
    · exact hb' c (hd c hc)

end

end Verif.Props.Said

namespace Verif.Props

open Verif Verif.Compare Said

section
variable {P V : Type}

/-- **C93**, the characters of a message: the text of the result itself; then, if there are falsy results just inside it, a colon and their messages,
separated by semicolons, first those that count, in parentheses, then those that are excluded, said to be ignored. -/
theorem C93_text (own : List Nat → List Char) (r : Res P) :
    let inside := fun ign => (r.children.zipIdx.filter (fun x => !x.1.equal && x.1.excluded == ign)).map (fun x =>
      (if ign then "<IGNORING: ".toList else "(".toList) ++ x.1.msg (fun q => own (x.2 :: q)) ++ (if ign then ">".toList else ")".toList))
    r.msg own = own [] ++ (if inside false ++ inside true = [] then [] else ": ".toList ++ "; ".toList.intercalate (inside false ++ inside true)) := by
  obtain ⟨i, a, k, o, e, cs⟩ := r
  intro inside
  unfold Res.msg
  simp only [Res.toks]
  rw [withParts_text, List.map_append, parts_said, parts_said]
  rfl

/-- Reading a message finds matching brackets, each result at most once, and it finds the text of a result exactly if that result and the ones
around it, up to the one asked, are falsy. The brackets around it say which of them are excluded. -/
theorem C93_message (r : Res P) :
    ∃ ms, readBack [] (r.toks []) = some ms ∧ (ms.map (·.1)).Nodup ∧ ∀ q st, (q, st) ∈ ms ↔ trail r q = some st := by
  refine ⟨mentions [] [] r, ?_, nodup_mentions [] [] r, ?_⟩
  · have := reads_toks [] [] r []
    rw [List.append_nil] at this
    rw [this, readBack]
    simp
  · intro q st
    rw [mem_mentions]
    constructor
    · rintro ⟨s, l, h1, h2, h3⟩
      rw [List.nil_append] at h2
      rw [List.append_nil] at h3
      rw [h2, h3, h1]
    · intro h; exact ⟨q, st, h, by simp, by simp⟩

/-- The printed report has one line for each result, with its sign. -/
theorem C93_report (r : Res P) :
    ((r.lines []).map (·.1)).Nodup ∧ ∀ q m, (q, m) ∈ r.lines [] ↔ ∃ c, resultAt r q = some c ∧ m = c.mark := by
  refine ⟨nodup_lines [] r, fun q m => ?_⟩
  rw [mem_lines]
  constructor
  · rintro ⟨s, c, h1, h2, h3⟩
    rw [List.nil_append] at h2
    rw [h2]; exact ⟨c, h1, h3⟩
  · rintro ⟨c, h1, h2⟩
    exact ⟨q, c, h1, by simp, h2⟩

/-- The message of a comparison of grains names an attribute without ignoring it exactly if the verdict is that they differ. -/
theorem C93_verdict (env : Env P V) (opts : List (Opt P)) (a b : Grain V) (k : Option Key) {r : Res P}
    (h : compareGrain env opts a b k = some r) {ms : List (List Nat × List Bool)} (hm : readBack [] (r.toks []) = some ms) :
    r.equal = false ↔ ∃ i, ([i], [false]) ∈ ms := by
  obtain ⟨ms', h1, _, h2⟩ := C93_message r
  rw [hm] at h1
  injection h1 with h1
  subst h1
  obtain ⟨ds, hr, _⟩ := Verif.Props.ReportLemmas.children_form env opts a b k h
  have he : r.equal = r.children.all Res.passes := by rw [hr]; rfl
  rw [he, ← Bool.not_eq_true, List.all_eq_true]
  constructor
  · intro h0
    obtain ⟨c, hc⟩ := Classical.not_forall.1 h0
    rw [Classical.not_imp] at hc
    obtain ⟨hc, hp⟩ := hc
    obtain ⟨i, hi⟩ := List.mem_iff_getElem?.1 hc
    refine ⟨i, (h2 _ _).2 ?_⟩
    unfold Res.passes at hp
    simp only [Bool.or_eq_true, not_or, Bool.not_eq_true] at hp
    simp [trail, hi, hp.1, hp.2]
  · rintro ⟨i, hi⟩ h0
    have := (h2 _ _).1 hi
    simp only [trail] at this
    cases hc : r.children[i]? with
    | none => rw [hc] at this; cases this
    | some c =>
      rw [hc] at this
      simp only at this
      have hp := h0 c (List.mem_of_getElem? hc)
      unfold Res.passes at hp
      cases he : c.equal with
      | true => rw [he] at this; cases this
      | false =>
        rw [he] at this hp
        simp only [Bool.false_eq_true, if_false, Option.map_some, List.nil_append, Option.some.injEq, List.cons.injEq, and_true] at this
        rw [this] at hp
        cases hp

/-- `result.name`, if there is one, is named in the message exactly if it is falsy, as ignored exactly if it is excluded. -/
theorem C93_attribute (r c : Res P) (name : String) (hc : r.subAttr name = some c) {ms : List (List Nat × List Bool)}
    (hm : readBack [] (r.toks []) = some ms) :
    ∃ i : Nat, r.children[i]? = some c ∧ ∀ st, ([i], st) ∈ ms ↔ c.equal = false ∧ st = [c.excluded] := by
  obtain ⟨ms', h1, _, h2⟩ := C93_message r
  rw [hm] at h1
  injection h1 with h1
  subst h1
  obtain ⟨i, hi⟩ := List.mem_iff_getElem?.1 (List.mem_of_find?_eq_some hc)
  refine ⟨i, hi, fun st => ?_⟩
  rw [h2]
  cases he : c.equal with
  | true => simp [trail, hi, he]
  | false => simp [trail, hi, he, eq_comm]

/-- The comparison with its texts raises exactly where the one without them does, or if a key that is reported has a brace that is not doubled.
Otherwise it gives the same result. -/
theorem C93_raises (env : Env P V) (opts : List (Opt P)) (a b : Grain V) (k : Option Key) :
    (compareGrainText env opts a b k = none ↔ compareGrain env opts a b k = none ∨
      ¬ (KeysFit a.timelabels b.timelabels ∧ KeysFit (items a.body) (items b.body))) ∧
    ∀ r, compareGrainText env opts a b k = some r → compareGrain env opts a b k = some r := by
  unfold compareGrainText
  cases h : compareGrain env opts a b k with
  | none => exact ⟨⟨fun _ => .inl rfl, fun _ => rfl⟩, fun r h => by cases h⟩
  | some r =>
    have hf := compare_formats env opts a b k h
    rw [← hf]
    cases hr : r.formats with
    | true => simp [hr]
    | false => simp [hr]

/-- Without braces in the keys of the dictionaries, the texts make no difference. -/
theorem C93_plain_keys (env : Env P V) (opts : List (Opt P)) (a b : Grain V) (k : Option Key)
    (hk : ∀ d ∈ a.timelabels ++ b.timelabels ++ (items a.body ++ items b.body), ∀ x ∈ d, '{' ∉ x.1.toList ∧ '}' ∉ x.1.toList) :
    compareGrainText env opts a b k = compareGrain env opts a b k := by
  have h1 : KeysFit a.timelabels b.timelabels := by
    intro n d e hd he x hx
    rcases hx with hx | hx
    · exact plain_doubled (hk d (by simp [List.mem_of_getElem? hd]) x hx)
    · exact plain_doubled (hk e (by simp [List.mem_of_getElem? he]) x hx)
  have h2 : KeysFit (items a.body) (items b.body) := by
    intro n d e hd he x hx
    rcases hx with hx | hx
    · exact plain_doubled (hk d (by simp [List.mem_of_getElem? hd]) x hx)
    · exact plain_doubled (hk e (by simp [List.mem_of_getElem? he]) x hx)
  unfold compareGrainText
  cases h : compareGrain env opts a b k with
  | none => rfl
  | some r => simp only; rw [if_pos ((compare_formats env opts a b k h).2 ⟨h1, h2⟩)]

end

/-! ### Examples -/

def C93_event : Grain Nat :=
  { C76_grain with data := none, body := .event [97] [98] [[("path", 1), ("a{b}", 2)], [("{{x}}", 3)]] }

/-- A grain with braces in a key of an item cannot be compared, even with itself; doubled braces do no harm. -/
theorem C93_braces_counterexample :
    compareGrainText C76_env [] C93_event C93_event = none ∧
    (compareGrain C76_env [] C93_event C93_event).map Res.equal = some true ∧
    (compareGrainText C76_env [] C93_event { C93_event with body := .event [97] [98] [] }).map Res.equal = some false ∧
    format ['a'] "{}.event_data[1]['{{x}}']".toList = some "a.event_data[1]['{x}']".toList := by
  refine ⟨?_, ?_, ?_, ?_⟩
  · have h : (compareGrainText C76_env [] C93_event C93_event).isNone = true := by decide +kernel
    exact Option.isNone_iff_eq_none.1 h
  · decide +kernel
  · decide +kernel
  · decide +kernel

/-- The message of a truthy result can name attributes that are the same: data that is excluded is not compared, and is named as ignored. -/
theorem C93_same_named_counterexample :
    ∃ r, compareGrainText C76_env [.exclude "{}.data"] C76_grain C76_grain = some r ∧ r.equal = true ∧
      r.toks [] = [.own [], .colon, .opens true, .own [14], .closes true] ∧
      (r.children[14]?).bind Res.attr = some "data" := by
  refine ⟨_, rfl, ?_⟩
  decide +kernel

/-- Two grains that differ in the rate, the creation timestamp and a key of a time label. -/
example : ∃ r, compareGrainText C76_env [] C76_grain
      { C76_grain with rate := 50, creation := 1, timelabels := [[("tag", 1), ("other", 3)]] } = some r ∧ r.equal = false ∧
    r.toks [] = [.own [], .colon, .opens false, .own [3], .closes false, .semi,
      .opens false, .own [9], .colon, .opens false, .own [9, 1], .colon, .opens false, .own [9, 1, 1], .closes false, .semi,
        .opens false, .own [9, 1, 2], .closes false, .closes false, .closes false, .semi,
      .opens true, .own [8], .closes true] ∧
    readBack [] (r.toks []) = some [([], []), ([3], [false]), ([9], [false]), ([9, 1], [false, false]), ([9, 1, 1], [false, false, false]),
      ([9, 1, 2], [false, false, false]), ([8], [true])] ∧
    (r.lines []).length = 21 ∧ ([9, 1, 0], Mark.tick) ∈ r.lines [] ∧ ([8], Mark.circle) ∈ r.lines [] := by
  refine ⟨_, rfl, ?_⟩
  decide +kernel

/-- The text of a message. -/
example : ∃ r, compareGrainText C76_env [] C76_grain { C76_grain with rate := 50, creation := 1 } = some r ∧
    r.msg (fun p => if p = [] then "Grains do not match".toList else if p = [3] then "rate".toList else "creation".toList) =
      "Grains do not match: (rate); <IGNORING: creation>".toList := by
  refine ⟨_, rfl, ?_⟩
  decide +kernel

end Verif.Props

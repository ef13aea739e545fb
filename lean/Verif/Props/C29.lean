import Verif.Grain.Views

/-!
# C29: time labels and unit offsets are lists
-/

namespace Verif.Props

open Verif Verif.Views

/-- Operations on a list. -/
inductive LOp (α : Type) where
  | get (i : Int) | set (i : Int) (v : α) | del (i : Int) | insert (i : Int) (v : α) | append (v : α)
  | pop (i : Int) | len | iter | extend (vs : List α) | clear | reverse | index (v : α) | remove (v : α)
  | assign (vs : List α) | getSlice (s : PyList.Slice) | delSlice (s : PyList.Slice)
  | setSlice (s : PyList.Slice) (vs : List α)
  /-- `x.l = x.l` -/
  | assignSelf
  /-- `x.l += vs` -/
  | iadd (vs : List α)

/-- What the caller gets. -/
inductive Res (α : Type) where
  | unit | val (v : α) | list (l : List α) | nat (n : Nat) | error (e : PyErr)
  deriving DecidableEq, Repr

def Res.of {α β : Type} (f : β → Res α) : Except PyErr β → Res α
  | .ok x => f x
  | .error e => .error e

/-- Keeping the old list if an operation raises. -/
def orOld {α : Type} (l : List α) : Except PyErr (List α) → List α
  | .ok l => l
  | .error _ => l

/-- **The specification**: a python list. -/
def listStep {α : Type} [DecidableEq α] (l : List α) : LOp α → Res α × List α
  | .get i => (Res.of .val (PyList.get l i), l)
  | .set i v => (Res.of (fun _ => .unit) (PyList.set l i v), orOld l (PyList.set l i v))
  | .del i => (Res.of (fun _ => .unit) (PyList.del l i), orOld l (PyList.del l i))
  | .insert i v => (.unit, PyList.insert l i v)
  | .append v => (.unit, l ++ [v])
  | .pop i => (Res.of .val (PyList.get l i), orOld l (PyList.del l i))
  | .len => (.nat l.length, l)
  | .iter => (.list l, l)
  | .extend vs => (.unit, l ++ vs)
  | .clear => (.unit, [])
  | .reverse => (.unit, l.reverse)
  | .index v => (match l.findIdx? (fun x => x == v) with | some k => .nat k | none => .error .value, l)
  | .remove v => if v ∈ l then (.unit, l.erase v) else (.error .value, l)
  | .assign vs => (.unit, vs)
  | .getSlice s => (Res.of .list (PyList.getSlice l s), l)
  | .delSlice s => (Res.of (fun _ => .unit) (PyList.delSlice l s), orOld l (PyList.delSlice l s))
  | .setSlice s vs => (Res.of (fun _ => .unit) (PyList.setSlice l s vs), orOld l (PyList.setSlice l s vs))
  | .assignSelf => (.unit, l)
  | .iadd vs => (.unit, l ++ vs)

def listRun {α : Type} [DecidableEq α] : List α → List (LOp α) → List (Res α) × List α
  | l, [] => ([], l)
  | l, op :: ops =>
    let (r, l) := listStep l op
    let (rs, l) := listRun l ops
    (r :: rs, l)

/-- The view classes. -/
def viewStep {α : Type} [DecidableEq α] (c : Cls α) (s : Key α) : LOp α → Res α × Key α
  | .get i => let (r, s) := getitem c s i; (Res.of .val r, s)
  | .set i v => let (r, s) := setitem c s i v; (Res.of (fun _ => .unit) r, s)
  | .del i => let (r, s) := delitem s i; (Res.of (fun _ => .unit) r, s)
  | .insert i v => (.unit, insert c s i v)
  | .append v => (.unit, append c s v)
  | .pop i => let (r, s) := pop c s i; (Res.of .val r, s)
  | .len => (.nat (len s), s)
  | .iter => let (l, s) := iter c s; (.list l, s)
  | .extend vs => (.unit, extend c s vs)
  | .clear => (.unit, clear c s)
  | .reverse => let (r, s) := reverse c s; (Res.of (fun _ => .unit) r, s)
  | .index v => let (r, s) := index c s v; (Res.of .nat r, s)
  | .remove v => let (r, s) := remove c s v; (Res.of (fun _ => .unit) r, s)
  | .assign vs => (.unit, assign c vs)
  | .getSlice sl => let (r, s) := getSlice c s sl; (Res.of .list r, s)
  | .delSlice sl => let (r, s) := delSlice s sl; (Res.of (fun _ => .unit) r, s)
  | .setSlice sl vs => let (r, s) := setSlice c s sl vs; (Res.of (fun _ => .unit) r, s)
  | .assignSelf => (.unit, assignSelf c s)
  | .iadd vs => (.unit, iadd c s vs)

def viewRun {α : Type} [DecidableEq α] (c : Cls α) : Key α → List (LOp α) → List (Res α) × Key α
  | s, [] => ([], s)
  | s, op :: ops =>
    let (r, s) := viewStep c s op
    let (rs, s) := viewRun c s ops
    (r :: rs, s)

/-- Values given to a view are completed first (time labels) or taken as they are. -/
def normOp {α : Type} (c : Cls α) : LOp α → LOp α
  | .set i v => .set i (c.norm v)
  | .insert i v => .insert i (c.norm v)
  | .append v => .append (c.norm v)
  | .extend vs => .extend (vs.map c.norm)
  | .assign vs => .assign (vs.map c.norm)
  | .iadd vs => .iadd (vs.map c.norm)
  | .setSlice s vs => .setSlice s (vs.map c.norm)
  | op => op

/-- The list a view stands for: an absent key is the empty list, stored labels are completed. -/
def listOf {α : Type} (c : Cls α) (s : Key α) : List α := (s.getD []).map c.norm

/-- Where the classes keep their promise: slices of nonempty lists, no slice assignment for time labels, and
no assigning of a time label view to itself. -/
def Fine {α : Type} (c : Cls α) (l : List α) : LOp α → Prop
  | .getSlice _ | .delSlice _ => l ≠ []
  | .setSlice _ _ => l ≠ [] ∧ c.labels = false
  | .assignSelf | .iadd _ => c.labels = false
  | _ => True

def FineRun {α : Type} [DecidableEq α] (c : Cls α) : List α → List (LOp α) → Prop
  | _, [] => True
  | l, op :: ops => Fine c l op ∧ FineRun c (listStep l (normOp c op)).2 ops

/-- The laws of the two classes. -/
structure Cls.Ok {α : Type} (c : Cls α) : Prop where
  idem : ∀ x, c.norm (c.norm x) = c.norm x
  ident : c.labels = false → ∀ x, c.norm x = x

section
variable {α : Type} {c : Cls α}

theorem pos_lt {n : Nat} {i : Int} {k : Nat} (h : PyList.pos n i = some k) : k < n := by
  unfold PyList.pos at h
  generalize (if i < 0 then i + (n : Int) else i) = j at h
  simp only at h
  by_cases hj : 0 ≤ j ∧ j < n
  · rw [if_pos hj] at h; injection h with h; subst h; omega
  · rw [if_neg hj] at h; cases h

theorem pos_nat {n k : Nat} (h : k < n) : PyList.pos n k = some k := by
  unfold PyList.pos
  have h1 : ¬ ((k : Int) < 0) := by omega
  simp only [h1, if_false]
  rw [if_pos (by omega)]
  rfl

theorem pos_nat_none {n k : Nat} (h : n ≤ k) : PyList.pos n k = none := by
  unfold PyList.pos
  have h1 : ¬ ((k : Int) < 0) := by omega
  simp only [h1, if_false]
  rw [if_neg (by omega)]

theorem get_map (f : α → α) (l : List α) (i : Int) :
    PyList.get (l.map f) i = (PyList.get l i).map f := by
  unfold PyList.get
  rw [List.length_map]
  cases PyList.pos l.length i with
  | none => rfl
  | some k =>
    simp only [Option.bind_some, List.getElem?_map]
    cases l[k]? <;> rfl

theorem set_map (f : α → α) (l : List α) (i : Int) (v : α) :
    PyList.set (l.map f) i (f v) = (PyList.set l i v).map (List.map f) := by
  unfold PyList.set
  rw [List.length_map]
  cases PyList.pos l.length i with
  | none => rfl
  | some k => simp only [Except.map, List.map_set]

theorem eraseIdx_map' (f : α → α) (l : List α) (k : Nat) : (l.map f).eraseIdx k = (l.eraseIdx k).map f := by
  rw [List.eraseIdx_eq_take_drop_succ, List.eraseIdx_eq_take_drop_succ, List.map_append, List.map_take, List.map_drop]

theorem del_map (f : α → α) (l : List α) (i : Int) :
    PyList.del (l.map f) i = (PyList.del l i).map (List.map f) := by
  unfold PyList.del
  rw [List.length_map]
  cases PyList.pos l.length i with
  | none => rfl
  | some k => simp only [Except.map]; rw [eraseIdx_map']

theorem insert_map (f : α → α) (l : List α) (i : Int) (v : α) :
    PyList.insert (l.map f) i (f v) = (PyList.insert l i v).map f := by
  unfold PyList.insert
  rw [List.length_map, List.map_append, List.map_cons, List.map_take, List.map_drop]

theorem listOf_none : listOf c none = [] := rfl
theorem listOf_some (l : List α) : listOf c (some l) = l.map c.norm := rfl

theorem listOf_dropEmpty (l : List α) : listOf c (dropEmpty l) = l.map c.norm := by
  unfold dropEmpty
  split
  · rename_i h; rw [List.length_eq_zero_iff] at h; subst h; rfl
  · rfl

theorem len_listOf (s : Key α) : len s = (listOf c s).length := by
  cases s with
  | none => rfl
  | some l => simp [len, listOf]

theorem get_nil (i : Int) : PyList.get ([] : List α) i = .error .index := by
  unfold PyList.get
  cases h : PyList.pos 0 i with
  | none => simp [h]
  | some k => exact absurd (pos_lt h) (by omega)

theorem getitem_ok (hc : Cls.Ok c) (s : Key α) (i : Int) :
    (getitem c s i).1 = PyList.get (listOf c s) i ∧ listOf c (getitem c s i).2 = listOf c s := by
  cases s with
  | none => exact ⟨(get_nil i).symm, rfl⟩
  | some l =>
    simp only [getitem, listOf_some, get_map]
    cases hg : PyList.get l i with
    | error e => exact ⟨rfl, rfl⟩
    | ok x =>
      refine ⟨rfl, ?_⟩
      simp only
      unfold PyList.get at hg
      unfold PyList.set
      cases hp : PyList.pos l.length i with
      | none => rw [hp] at hg; cases hg
      | some k =>
        rw [hp] at hg
        simp only [Option.bind_some] at hg
        cases hk : l[k]? with
        | none => rw [hk] at hg; cases hg
        | some y =>
          rw [hk] at hg
          injection hg with hg
          subst hg
          simp only [listOf_some, List.map_set, hc.idem]
          apply List.ext_getElem?
          intro j
          rw [List.getElem?_set]
          split
          · rename_i hj
            subst hj
            rw [if_pos (by rw [List.length_map]; exact pos_lt hp), List.getElem?_map, hk]
            rfl
          · rfl

theorem setitem_ok (hc : Cls.Ok c) (s : Key α) (i : Int) (v : α) :
    (setitem c s i v).1 = (PyList.set (listOf c s) i (c.norm v)).map (fun _ => ()) ∧
      listOf c (setitem c s i v).2 = orOld (listOf c s) (PyList.set (listOf c s) i (c.norm v)) := by
  cases s with
  | none =>
    have h : PyList.set ([] : List α) i (c.norm v) = .error .index := by
      unfold PyList.set
      cases h : PyList.pos ([] : List α).length i with
      | none => rfl
      | some k => exact absurd (pos_lt h) (by simp)
    simp only [setitem, listOf_none, h]
    exact ⟨rfl, rfl⟩
  | some l =>
    have h := set_map c.norm l i (c.norm v)
    rw [hc.idem] at h
    simp only [setitem, listOf_some, h]
    cases PyList.set l i (c.norm v) with
    | error e => exact ⟨rfl, rfl⟩
    | ok l' => exact ⟨rfl, rfl⟩

theorem delitem_ok (s : Key α) (i : Int) :
    (delitem s i).1 = (PyList.del (listOf c s) i).map (fun _ => ()) ∧
      listOf c (delitem s i).2 = orOld (listOf c s) (PyList.del (listOf c s) i) := by
  cases s with
  | none =>
    have h : PyList.del ([] : List α) i = .error .index := by
      unfold PyList.del
      cases h : PyList.pos ([] : List α).length i with
      | none => rfl
      | some k => exact absurd (pos_lt h) (by simp)
    simp only [delitem, listOf_none, h]
    exact ⟨rfl, rfl⟩
  | some l =>
    simp only [delitem, listOf_some, del_map]
    cases PyList.del l i with
    | error e => exact ⟨rfl, rfl⟩
    | ok l' => exact ⟨rfl, listOf_dropEmpty l'⟩

theorem insert_ok (hc : Cls.Ok c) (s : Key α) (i : Int) (v : α) :
    listOf c (insert c s i v) = PyList.insert (listOf c s) i (c.norm v) := by
  have h := fun l => insert_map c.norm l i (c.norm v)
  simp only [hc.idem] at h
  cases s with
  | none => simp only [Views.insert, listOf_some, listOf_none, ← h]; rfl
  | some l => simp only [Views.insert, listOf_some, ← h]

theorem insert_len (l : List α) (v : α) : PyList.insert l l.length v = l ++ [v] := by
  unfold PyList.insert PyList.insertPos
  have h1 : ¬ ((l.length : Int) < 0) := by omega
  simp only [h1, if_false, Int.toNat_natCast, Nat.min_self, List.take_length, List.drop_length]

theorem append_ok (hc : Cls.Ok c) (s : Key α) (v : α) :
    listOf c (append c s v) = listOf c s ++ [c.norm v] := by
  unfold append
  rw [insert_ok hc, len_listOf (c := c), insert_len]

theorem extend_ok (hc : Cls.Ok c) (vs : List α) (s : Key α) :
    listOf c (extend c s vs) = listOf c s ++ vs.map c.norm := by
  unfold extend
  induction vs generalizing s with
  | nil => simp
  | cons v vs ih => rw [List.foldl_cons, ih, append_ok hc, List.map_cons, List.append_assoc]; rfl

theorem get_nat (l : List α) (i : Nat) : PyList.get l i = match l[i]? with | some x => .ok x | none => .error .index := by
  unfold PyList.get
  by_cases h : i < l.length
  · rw [pos_nat h]; rfl
  · rw [pos_nat_none (by omega), List.getElem?_eq_none (by omega)]; rfl

theorem iterFrom_ok (hc : Cls.Ok c) (fuel i : Nat) (s : Key α) (h : (listOf c s).length < fuel + i) :
    (Views.iterFrom c fuel i s).1 = (listOf c s).drop i ∧ listOf c (Views.iterFrom c fuel i s).2 = listOf c s := by
  induction fuel generalizing i s with
  | zero => exact ⟨by rw [List.drop_eq_nil_of_le (by omega)]; rfl, rfl⟩
  | succ fuel ih =>
    have hg := getitem_ok hc s i
    rw [Views.iterFrom]
    rw [get_nat] at hg
    by_cases hi : i < (listOf c s).length
    · rw [List.getElem?_eq_getElem hi] at hg
      cases hr : getitem c s i with
      | mk r s' =>
        rw [hr] at hg
        simp only at hg
        rw [hg.1]
        simp only
        have := ih (i + 1) s' (by rw [hg.2]; omega)
        rw [this.1, this.2, hg.2, ← List.drop_eq_getElem_cons hi]
        exact ⟨rfl, rfl⟩
    · rw [List.getElem?_eq_none (by omega)] at hg
      cases hr : getitem c s i with
      | mk r s' =>
        rw [hr] at hg
        simp only at hg
        rw [hg.1]
        simp only
        rw [List.drop_eq_nil_of_le (by omega)]
        exact ⟨rfl, hg.2⟩

theorem iter_ok (hc : Cls.Ok c) (s : Key α) :
    (Views.iter c s).1 = listOf c s ∧ listOf c (Views.iter c s).2 = listOf c s := by
  unfold Views.iter
  have := iterFrom_ok hc (len s + 1) 0 s (by rw [← len_listOf]; omega)
  rw [List.drop_zero] at this
  exact this

theorem get_del (l : List α) (i : Int) (e : PyErr) (h : PyList.get l i = .error e) : PyList.del l i = .error e := by
  unfold PyList.get at h
  unfold PyList.del
  cases hp : PyList.pos l.length i with
  | none => rw [hp] at h; injection h with h; subst h; rfl
  | some k =>
    rw [hp] at h
    simp only [Option.bind_some, List.getElem?_eq_getElem (pos_lt hp)] at h
    cases h

theorem get_del_ok (l : List α) (i : Int) (x : α) (h : PyList.get l i = .ok x) : ∃ l', PyList.del l i = .ok l' := by
  unfold PyList.get at h
  unfold PyList.del
  cases hp : PyList.pos l.length i with
  | none => rw [hp] at h; cases h
  | some k => exact ⟨_, rfl⟩

theorem pop_ok (hc : Cls.Ok c) (s : Key α) (i : Int) :
    (Views.pop c s i).1 = PyList.get (listOf c s) i ∧
      listOf c (Views.pop c s i).2 = orOld (listOf c s) (PyList.del (listOf c s) i) := by
  have hg := getitem_ok hc s i
  unfold Views.pop
  cases hr : getitem c s i with
  | mk r s' =>
    rw [hr] at hg
    simp only at hg
    cases r with
    | error e =>
      simp only
      rw [get_del _ _ _ hg.1.symm]
      exact ⟨hg.1, hg.2⟩
    | ok x =>
      simp only
      obtain ⟨l', hl'⟩ := get_del_ok _ _ _ hg.1.symm
      have hd := delitem_ok (c := c) s' i
      rw [hg.2, hl'] at hd
      cases hr2 : delitem s' i with
      | mk r2 s2 =>
        rw [hr2] at hd
        simp only [Except.map] at hd
        rw [hd.1]
        simp only
        rw [hl']
        exact ⟨hg.1, hd.2⟩

theorem clearLoop_ok (hc : Cls.Ok c) (fuel : Nat) (s : Key α) (h : (listOf c s).length < fuel) :
    listOf c (clearLoop c fuel s) = [] := by
  induction fuel generalizing s with
  | zero => omega
  | succ fuel ih =>
    have hp := pop_ok hc s (-1)
    rw [clearLoop]
    cases hr : Views.pop c s (-1) with
    | mk r s' =>
      rw [hr] at hp
      simp only at hp
      by_cases he : listOf c s = []
      · rw [he, get_nil] at hp
        rw [hp.1]
        simp only
        rw [hp.2]
        have : PyList.del ([] : List α) (-1) = .error .index := get_del _ _ _ (get_nil _)
        rw [this]
        rfl
      · have hpos : 0 < (listOf c s).length := List.length_pos_iff.2 he
        have hx : PyList.pos (listOf c s).length (-1) = some ((listOf c s).length - 1) := by
          unfold PyList.pos
          simp only [show ((-1 : Int) < 0) from by omega, if_true]
          rw [if_pos (by omega)]
          congr 1
          omega
        have hget : PyList.get (listOf c s) (-1) = .ok ((listOf c s)[(listOf c s).length - 1]) := by
          unfold PyList.get
          rw [hx]
          simp only [Option.bind_some]
          rw [List.getElem?_eq_getElem (by omega)]
        have hdel : PyList.del (listOf c s) (-1) = .ok ((listOf c s).eraseIdx ((listOf c s).length - 1)) := by
          unfold PyList.del
          rw [hx]
        rw [hp.1, hget]
        simp only
        apply ih
        rw [hp.2, hdel]
        simp only [orOld]
        rw [List.length_eraseIdx_of_lt (by omega)]
        omega

theorem set_nat (l : List α) (i : Nat) (h : i < l.length) (v : α) : PyList.set l i v = .ok (l.set i v) := by
  unfold PyList.set
  rw [pos_nat h]

theorem norm_of_mem (hc : Cls.Ok c) (s : Key α) (x : α) (h : x ∈ listOf c s) : c.norm x = x := by
  unfold listOf at h
  rw [List.mem_map] at h
  obtain ⟨y, _, rfl⟩ := h
  exact hc.idem y

theorem swapAt_ok (hc : Cls.Ok c) (s : Key α) (i j : Nat) (hi : i < (listOf c s).length) (hj : j < (listOf c s).length) :
    (swapAt c s i j).1 = .ok () ∧
      listOf c (swapAt c s i j).2 = ((listOf c s).set i (listOf c s)[j]).set j (listOf c s)[i] := by
  generalize hl : listOf c s = l at hi hj
  have g1 := getitem_ok hc s j
  rw [hl, get_nat, List.getElem?_eq_getElem hj] at g1
  unfold swapAt
  cases h1 : getitem c s j with
  | mk r1 s1 =>
    rw [h1] at g1
    simp only at g1
    rw [g1.1]
    simp only
    have g2 := getitem_ok hc s1 i
    rw [g1.2, get_nat, List.getElem?_eq_getElem hi] at g2
    cases h2 : getitem c s1 i with
    | mk r2 s2 =>
      rw [h2] at g2
      simp only at g2
      rw [g2.1]
      simp only
      have n1 : c.norm l[j] = l[j] := norm_of_mem hc s _ (by rw [hl]; exact List.getElem_mem hj)
      have n2 : c.norm l[i] = l[i] := norm_of_mem hc s _ (by rw [hl]; exact List.getElem_mem hi)
      have g3 := setitem_ok hc s2 i l[j]
      rw [g2.2, n1, set_nat _ _ hi] at g3
      cases h3 : setitem c s2 i l[j] with
      | mk r3 s3 =>
        rw [h3] at g3
        simp only [Except.map, orOld] at g3
        rw [g3.1]
        simp only
        have g4 := setitem_ok hc s3 j l[i]
        rw [g3.2, n2, set_nat _ _ (by rw [List.length_set]; exact hj)] at g4
        exact g4

/-- After `i` turns of the loop the outer `i` elements on both sides have changed places. -/
def halfReversed (l : List α) (i : Nat) (m : List α) : Prop :=
  m.length = l.length ∧ ∀ (k : Nat) (_ : k < l.length),
    m[k]? = if k < i ∨ l.length - i ≤ k then l[l.length - 1 - k]? else l[k]?

theorem reverseLoop_ok (hc : Cls.Ok c) (l : List α) (k i : Nat) (s : Key α) (hk : i + k = l.length / 2)
    (h : halfReversed l i (listOf c s)) :
    (reverseLoop c l.length k i s).1 = .ok () ∧ halfReversed l (l.length / 2) (listOf c (reverseLoop c l.length k i s).2) := by
  induction k generalizing i s with
  | zero => rw [reverseLoop]; rw [← hk]; exact ⟨rfl, h⟩
  | succ k ih =>
    rw [reverseLoop]
    have hi : i < (listOf c s).length := by rw [h.1]; omega
    have hj : l.length - i - 1 < (listOf c s).length := by rw [h.1]; omega
    have hs := swapAt_ok hc s i (l.length - i - 1) hi hj
    cases hr : swapAt c s i (l.length - i - 1) with
    | mk r s' =>
      rw [hr] at hs
      simp only at hs
      rw [hs.1]
      simp only
      apply ih (i + 1) s' (by omega)
      rw [hs.2]
      have e1 := h.2 i (by omega)
      have e2 := h.2 (l.length - i - 1) (by omega)
      rw [if_neg (by omega)] at e1 e2
      rw [List.getElem?_eq_getElem hi] at e1
      rw [List.getElem?_eq_getElem hj] at e2
      refine ⟨by simp only [List.length_set]; exact h.1, fun q hq => ?_⟩
      rw [List.getElem?_set]
      split
      · rename_i hqj
        subst hqj
        rw [if_pos (by rw [List.length_set]; exact hj), if_pos (by omega), e1]
        congr 1
        omega
      · rw [List.getElem?_set]
        split
        · rename_i hqi
          subst hqi
          rw [if_pos (by omega), e2]
          congr 1
          omega
        · rw [h.2 q hq]
          by_cases hc2 : q < i ∨ l.length - i ≤ q
          · rw [if_pos hc2, if_pos (by omega)]
          · rw [if_neg hc2, if_neg (by omega)]

theorem reverse_ok (hc : Cls.Ok c) (s : Key α) :
    (Views.reverse c s).1 = .ok () ∧ listOf c (Views.reverse c s).2 = (listOf c s).reverse := by
  unfold Views.reverse
  rw [len_listOf (c := c)]
  have := reverseLoop_ok hc (listOf c s) ((listOf c s).length / 2) 0 s (by omega)
    ⟨rfl, fun k hk => by rw [if_neg (by omega)]⟩
  refine ⟨this.1, ?_⟩
  apply List.ext_getElem?
  intro k
  by_cases hk : k < (listOf c s).length
  · rw [this.2.2 k hk, List.getElem?_reverse hk]
    by_cases hc2 : k < (listOf c s).length / 2 ∨ (listOf c s).length - (listOf c s).length / 2 ≤ k
    · rw [if_pos hc2]
    · rw [if_neg hc2]; congr 1; omega
  · rw [List.getElem?_eq_none (by rw [this.2.1]; omega), List.getElem?_eq_none (by rw [List.length_reverse]; omega)]

variable [DecidableEq α]

theorem findIdx_erase (l : List α) (v : α) :
    (match l.findIdx? (fun x => x == v) with
      | some k => (Res.unit, l.eraseIdx k)
      | none => (Res.error .value, l)) = (if v ∈ l then ((Res.unit : Res α), l.erase v) else (.error .value, l)) := by
  induction l with
  | nil => rfl
  | cons a l ih =>
    rw [List.findIdx?_cons]
    by_cases h : a == v
    · rw [if_pos h]
      have h' : a = v := by simpa using h
      subst h'
      simp
    · rw [if_neg h]
      have h' : a ≠ v := by simpa using h
      have hm : (v ∈ a :: l) ↔ v ∈ l := by
        rw [List.mem_cons]; constructor
        · rintro (rfl | h2)
          · exact absurd rfl h'
          · exact h2
        · exact .inr
      rw [List.erase_cons_tail (by simpa using h')]
      cases hf : l.findIdx? (fun x => x == v) with
      | none =>
        rw [hf] at ih
        by_cases hv : v ∈ l
        · rw [if_pos hv] at ih; cases ih
        · rw [if_neg (by rw [hm]; exact hv)]; rfl
      | some k =>
        rw [hf] at ih
        by_cases hv : v ∈ l
        · rw [if_pos hv] at ih
          injection ih with _ ih
          rw [if_pos (hm.2 hv)]
          simp only [Option.map_some, List.eraseIdx_cons_succ, ih]
        · rw [if_neg hv] at ih; cases ih

theorem zipIdx_filter_map (f : α → α) (p : Nat → Bool) (l : List α) (n : Nat) :
    (((l.map f).zipIdx n).filter (fun q => p q.2)).map Prod.fst =
      (((l.zipIdx n).filter (fun q => p q.2)).map Prod.fst).map f := by
  induction l generalizing n with
  | nil => rfl
  | cons a l ih =>
    rw [List.map_cons, List.zipIdx_cons, List.zipIdx_cons, List.filter_cons, List.filter_cons]
    simp only
    cases p n with
    | true => simp only [if_true, List.map_cons, ih]
    | false => simp only [Bool.false_eq_true, if_false, ih]

theorem map_ident (hc : Cls.Ok c) (h : c.labels = false) (l : List α) : l.map c.norm = l := by
  rw [show c.norm = id from funext (hc.ident h), List.map_id]

theorem listOf_idem (hc : Cls.Ok c) (s : Key α) : (listOf c s).map c.norm = listOf c s := by
  unfold listOf
  rw [List.map_map]
  congr 1
  funext x
  exact hc.idem x

theorem assignSelf_ok (hc : Cls.Ok c) (h : c.labels = false) (s : Key α) : listOf c (assignSelf c s) = listOf c s := by
  unfold assignSelf
  rw [h]
  simp only [Bool.false_eq_true, if_false]
  split
  · rename_i h0
    rw [len_listOf (c := c), List.length_eq_zero_iff] at h0
    rw [h0]; rfl
  · rw [listOf_some, (iter_ok hc s).1, listOf_idem hc]

/-- One operation on the view is the same operation on the list it stands for. -/
theorem viewStep_ok (hc : Cls.Ok c) (s : Key α) (op : LOp α) (hf : Fine c (listOf c s) op) :
    (viewStep c s op).1 = (listStep (listOf c s) (normOp c op)).1 ∧
      listOf c (viewStep c s op).2 = (listStep (listOf c s) (normOp c op)).2 := by
  cases op with
  | get i =>
    have := getitem_ok hc s i
    simp only [viewStep, normOp, listStep, this.1, this.2]
    exact ⟨trivial, trivial⟩
  | set i v =>
    have := setitem_ok hc s i v
    simp only [viewStep, normOp, listStep, this.1, this.2]
    exact ⟨by cases PyList.set (listOf c s) i (c.norm v) <;> rfl, trivial⟩
  | del i =>
    have := delitem_ok (c := c) s i
    simp only [viewStep, normOp, listStep, this.1, this.2]
    exact ⟨by cases PyList.del (listOf c s) i <;> rfl, trivial⟩
  | insert i v => exact ⟨rfl, insert_ok hc s i v⟩
  | append v => exact ⟨rfl, append_ok hc s v⟩
  | pop i =>
    have := pop_ok hc s i
    simp only [viewStep, normOp, listStep, this.1, this.2]
    exact ⟨trivial, trivial⟩
  | len => exact ⟨by simp only [viewStep, normOp, listStep, len_listOf (c := c)], rfl⟩
  | iter =>
    have := iter_ok hc s
    simp only [viewStep, normOp, listStep, this.1, this.2]
    exact ⟨trivial, trivial⟩
  | extend vs => exact ⟨rfl, extend_ok hc vs s⟩
  | clear =>
    refine ⟨rfl, ?_⟩
    show listOf c (Views.clear c s) = []
    unfold Views.clear
    exact clearLoop_ok hc _ _ (by rw [← len_listOf]; omega)
  | reverse =>
    have := reverse_ok hc s
    simp only [viewStep, normOp, listStep, this.1, this.2]
    exact ⟨rfl, trivial⟩
  | index v =>
    have := iter_ok hc s
    simp only [viewStep, normOp, listStep, Views.index, this.1]
    cases (listOf c s).findIdx? (fun x => x == v) with
    | none => exact ⟨rfl, this.2⟩
    | some k => exact ⟨rfl, this.2⟩
  | remove v =>
    have := iter_ok hc s
    have hfe := findIdx_erase (listOf c s) v
    simp only [viewStep, normOp, listStep, Views.remove, Views.index, this.1]
    cases hk : (listOf c s).findIdx? (fun x => x == v) with
    | none =>
      rw [hk] at hfe
      simp only at hfe ⊢
      rw [← hfe]
      exact ⟨rfl, this.2⟩
    | some k =>
      rw [hk] at hfe
      simp only at hfe ⊢
      rw [← hfe]
      have hd := delitem_ok (c := c) (Views.iter c s).2 k
      have hlt : k < (listOf c s).length := (List.findIdx?_eq_some_iff_getElem.1 hk).1
      rw [this.2] at hd
      have : PyList.del (listOf c s) k = .ok ((listOf c s).eraseIdx k) := by
        unfold PyList.del; rw [pos_nat hlt]
      rw [this] at hd
      rw [hd.1, hd.2]
      exact ⟨rfl, rfl⟩
  | assign vs =>
    refine ⟨rfl, ?_⟩
    show listOf c (Views.assign c vs) = vs.map c.norm
    unfold Views.assign
    cases hl : c.labels with
    | true => rw [if_pos rfl, extend_ok hc]; rfl
    | false =>
      simp only [Bool.false_eq_true, if_false]
      split
      · rename_i h0; rw [List.length_eq_zero_iff] at h0; subst h0; rfl
      · rfl
  | getSlice sl =>
    cases s with
    | none => exact absurd rfl hf
    | some l =>
      refine ⟨?_, rfl⟩
      simp only [viewStep, normOp, listStep, Views.getSlice, PyList.getSlice, listOf_some, List.length_map]
      cases PyList.Slice.indices sl l.length with
      | error e => rfl
      | ok ks =>
        simp only [Except.map, Res.of]
        congr 1
        rw [List.map_filterMap]
        congr 1
        funext k
        rw [List.getElem?_map]
  | delSlice sl =>
    cases s with
    | none => exact absurd rfl hf
    | some l =>
      simp only [viewStep, normOp, listStep, Views.delSlice, PyList.delSlice, listOf_some, List.length_map]
      cases PyList.Slice.indices sl l.length with
      | error e => exact ⟨rfl, rfl⟩
      | ok ks =>
        simp only [Except.map, Res.of, orOld]
        refine ⟨trivial, ?_⟩
        rw [listOf_dropEmpty]
        exact (zipIdx_filter_map c.norm (fun k => !ks.contains k) l 0).symm
  | setSlice sl vs =>
    cases s with
    | none => exact absurd rfl hf.1
    | some l =>
      simp only [viewStep, normOp, listStep, Views.setSlice, hf.2, Bool.false_eq_true, if_false, listOf_some,
        map_ident hc hf.2]
      cases PyList.setSlice l sl vs with
      | error e => exact ⟨rfl, map_ident hc hf.2 l⟩
      | ok l' => exact ⟨rfl, map_ident hc hf.2 l'⟩
  | assignSelf => exact ⟨rfl, assignSelf_ok hc hf s⟩
  | iadd vs =>
    refine ⟨rfl, ?_⟩
    show listOf c (Views.iadd c s vs) = listOf c s ++ vs.map c.norm
    unfold Views.iadd
    rw [assignSelf_ok hc hf, extend_ok hc]

/-- **C29**: over any sequence of operations, the view gives the same results, with the same exceptions, as a
python list, whether the key is in the metadata or not, and stands for the same list at the end. -/
theorem C29_partial (hc : Cls.Ok c) (s : Key α) (ops : List (LOp α)) (hf : FineRun c (listOf c s) ops) :
    (viewRun c s ops).1 = (listRun (listOf c s) (ops.map (normOp c))).1 ∧
      listOf c (viewRun c s ops).2 = (listRun (listOf c s) (ops.map (normOp c))).2 := by
  induction ops generalizing s with
  | nil => exact ⟨rfl, rfl⟩
  | cons op ops ih =>
    have h := viewStep_ok hc s op hf.1
    have := ih (viewStep c s op).2 (by rw [h.2]; exact hf.2)
    simp only [viewRun, listRun, List.map_cons]
    rw [h.2] at this
    exact ⟨by rw [h.1, this.1], this.2⟩

end

/-! ## The two classes -/

/-- A time label dictionary: each field may be missing (`none`). -/
structure Label where
  tag : Option String
  frames : Option Int
  rateNum : Option Int
  rateDen : Option Int
  drop : Option Bool
  deriving DecidableEq, Repr

/-- `TIMELABEL.__init__`, lines 551-566: missing fields are filled in. -/
def Label.complete (l : Label) : Label :=
  ⟨some (l.tag.getD ""), some (l.frames.getD 0), some (l.rateNum.getD 0), some (l.rateDen.getD 1),
    some (l.drop.getD false)⟩

def timelabels : Cls Label := ⟨Label.complete, true⟩
def unitOffsets : Cls Int := ⟨id, false⟩

theorem timelabels_ok : Cls.Ok timelabels := ⟨fun _ => rfl, fun h => nomatch h⟩
theorem unitOffsets_ok : Cls.Ok unitOffsets := ⟨fun _ => rfl, fun _ _ => rfl⟩

/-- **C29** for time labels. -/
theorem C29_timelabels (s : Key Label) (ops : List (LOp Label)) (hf : FineRun timelabels (listOf timelabels s) ops) :
    (viewRun timelabels s ops).1 = (listRun ((s.getD []).map Label.complete) (ops.map (normOp timelabels))).1 :=
  (C29_partial timelabels_ok s ops hf).1

/-- **C29** for unit offsets: a list of integers, nothing is completed. -/
theorem C29_unit_offsets (s : Key Int) (ops : List (LOp Int)) (hf : FineRun unitOffsets (s.getD []) ops) :
    (viewRun unitOffsets s ops).1 = (listRun (s.getD []) ops).1 := by
  have e : ∀ ops : List (LOp Int), ops.map (normOp unitOffsets) = ops := by
    intro ops
    conv => rhs; rw [← List.map_id ops]
    congr 1
    funext op
    cases op <;> simp [normOp, unitOffsets]
  have e2 : listOf unitOffsets s = s.getD [] := by unfold listOf; exact List.map_id _
  have := (C29_partial unitOffsets_ok s ops (by rw [e2]; exact hf)).1
  rw [e, e2] at this
  exact this

def lbl (n : Int) : Label := ⟨some "t", some n, none, none, none⟩

/-- Emptying and refilling, negative indices, both ends out of range, reversing. -/
example :
    let ops : List (LOp Label) := [.get 0, .append (lbl 1), .insert (-5) (lbl 2), .append (lbl 3), .reverse, .get (-1),
      .get 3, .pop 0, .delSlice ⟨some 0, none, some 2⟩, .len, .del 0, .len, .get (-1), .del 0, .append (lbl 9), .iter]
    FineRun timelabels (listOf timelabels none) ops ∧ (viewRun timelabels none ops).1 =
      [.error .index, .unit, .unit, .unit, .unit, .val (lbl 2).complete, .error .index, .val (lbl 3).complete, .unit,
        .nat 1, .unit, .nat 0, .error .index, .error .index, .unit, .list [(lbl 9).complete]] := by
  refine ⟨?_, by decide +kernel⟩
  simp only [FineRun, Fine, true_and, and_true]
  decide +kernel

/-- **C29 fails**: a slice of an empty list is an `IndexError`. -/
theorem C29_slice_counterexample :
    (viewRun unitOffsets none [.getSlice ⟨none, none, none⟩, .delSlice ⟨none, none, none⟩]).1 =
        [.error .index, .error .index] ∧
      (listRun ([] : List Int) [.getSlice ⟨none, none, none⟩, .delSlice ⟨none, none, none⟩]).1 =
        [.list [], .unit] := by decide +kernel

/-- **C29 fails**: assigning to a slice of the time labels is a `TypeError`. -/
theorem C29_setSlice_counterexample :
    (viewRun timelabels none [.append (lbl 1), .setSlice ⟨some 0, some 1, none⟩ [lbl 2]]).1 =
        [.unit, .error .type] ∧
      (listRun [] [.append (lbl 1), .setSlice ⟨some 0, some 1, none⟩ [lbl 2]]).1 = [.unit, .unit] := by decide +kernel

/-- **C29 fails**: `grain.timelabels += [x]` (or assigning `grain.timelabels` to itself) loses every label,
the new one too. -/
theorem C29_iadd_counterexample :
    (viewRun timelabels none [.append (lbl 1), .append (lbl 2), .iadd [lbl 3], .len]).1 = [.unit, .unit, .unit, .nat 0] ∧
      (listRun [] [.append (lbl 1), .append (lbl 2), .iadd [lbl 3], .len]).1 = [.unit, .unit, .unit, .nat 3] := by
  decide +kernel

/-- For every time label list and every right hand side. -/
theorem C29_iadd_loses (s : Key Label) (vs : List Label) : listOf timelabels (Views.iadd timelabels s vs) = [] := by
  unfold Views.iadd assignSelf
  rw [if_pos (c := timelabels.labels = true) rfl, extend_ok timelabels_ok, (iter_ok timelabels_ok _).1]
  rfl

end Verif.Props

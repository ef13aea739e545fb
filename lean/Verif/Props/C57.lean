import Verif.Grain.Seqs

/-!
# C57: the list-like attributes of grains behave like lists

`timelabels`, `unit_offsets` and `components` can be used like python lists: every method with an integer index, and every method
that comes from `MutableSequence`, does what the list method does, and slices do, with any step, where the list is there. Where that fails
(assigning the time labels of a grain to itself, `+=` on time labels, slices of missing lists, assigning to slices) there are counterexamples.
-/

namespace Verif.Seqs

variable {S T : Type}

/-- The five methods do what the methods of python lists do, on the list `abs s`, where values are put into normal form by `norm`
when they are stored. -/
structure Refines (P : Prim S T) (abs : S → List T) (norm : T → T) : Prop where
  normal : ∀ s v, v ∈ abs s → norm v = v
  len : ∀ s, P.len s = (abs s).length
  get : ∀ s i, P.get s i = pyGet (abs s) i
  set : ∀ s i v, (P.set s i v).map abs = pySet (abs s) i (norm v)
  del : ∀ s i, (P.del s i).map abs = pyDel (abs s) i
  insert : ∀ s i v, abs (P.insert s i v) = pyInsert (abs s) i (norm v)

theorem pyIndex_nat (n i : Nat) : pyIndex n (i : Int) = if i < n then some i else none := by
  unfold pyIndex
  by_cases h : i < n
  · rw [if_pos h, if_pos ⟨by omega, by omega⟩]; simp
  · rw [if_neg h, if_neg (by omega), if_neg (by omega)]

theorem pyGet_nat (l : List T) (i : Nat) : pyGet l (i : Int) = match l[i]? with | none => .error .index | some v => .ok v := by
  unfold pyGet
  rw [pyIndex_nat]
  by_cases h : i < l.length
  · rw [if_pos h]; rfl
  · rw [if_neg h, List.getElem?_eq_none (by omega)]

theorem pyGet_some {l : List T} {i : Nat} {v : T} (h : l[i]? = some v) : pyGet l (i : Int) = .ok v := by
  rw [pyGet_nat, h]

theorem pyGet_none {l : List T} {i : Nat} (h : l.length ≤ i) : pyGet l (i : Int) = .error .index := by
  rw [pyGet_nat, List.getElem?_eq_none h]

theorem pySet_nat {l : List T} {i : Nat} (h : i < l.length) (v : T) : pySet l (i : Int) v = .ok (l.set i v) := by
  unfold pySet
  rw [pyIndex_nat, if_pos h]

theorem pyDel_nat {l : List T} {i : Nat} (h : i < l.length) : pyDel l (i : Int) = .ok (l.eraseIdx i) := by
  unfold pyDel
  rw [pyIndex_nat, if_pos h]

theorem findIdx_idxOf [DecidableEq T] (v : T) :
    ∀ l : List T, l.findIdx? (fun w => decide (w = v)) = if v ∈ l then some (l.idxOf v) else none := by
  intro l
  induction l with
  | nil => rfl
  | cons w l ih =>
    rw [List.findIdx?_cons, ih, List.idxOf_cons]
    by_cases h : w = v
    · simp [h]
    · have h' : ¬ v = w := fun e => h e.symm
      simp only [h, decide_false, Bool.false_eq_true, if_false, List.mem_cons, h', false_or, beq_eq_false_iff_ne.mpr h, cond_false]
      split <;> rfl

theorem map_eraseIdx {U : Type} (f : T → U) : ∀ (l : List T) (k : Nat), (l.map f).eraseIdx k = (l.eraseIdx k).map f := by
  intro l
  induction l with
  | nil => intro k; rfl
  | cons v l ih =>
    intro k
    cases k with
    | zero => rfl
    | succ k => simp [ih]

theorem map_ok {E α β : Type} {f : α → β} {x : Except E α} {b : β} (h : x.map f = .ok b) : ∃ a, x = .ok a ∧ f a = b := by
  cases x with
  | error e => cases h
  | ok a => cases h; exact ⟨a, rfl, rfl⟩

theorem map_error {E α β : Type} {f : α → β} {x : Except E α} {e : E} (h : x.map f = .error e) : x = .error e := by
  cases x with
  | error e' => cases h; rfl
  | ok a => cases h

namespace Refines

variable {P : Prim S T} {abs : S → List T} {norm : T → T} (R : Refines P abs norm)
include R

theorem iterFrom_eq (s : S) :
    ∀ (n i : Nat), i ≤ (abs s).length → (abs s).length < i + n → iterFrom P n s i = some ((abs s).drop i) := by
  intro n
  induction n with
  | zero => intro i _ h; omega
  | succ n ih =>
    intro i _ h
    unfold iterFrom
    rw [R.get]
    by_cases hi : i < (abs s).length
    · rw [pyGet_some (List.getElem?_eq_getElem hi)]
      simp only []
      rw [ih (i + 1) (by omega) (by omega), Option.map_some, List.drop_eq_getElem_cons hi]
    · rw [pyGet_none (by omega), List.drop_eq_nil_of_le (by omega)]

theorem iter_eq (s : S) (n : Nat) (h : (abs s).length < n) : iter P n s = some (abs s) := by
  unfold iter
  rw [R.iterFrom_eq s n 0 (by omega) (by omega), List.drop_zero]

theorem append_eq (s : S) (v : T) : abs (append P s v) = abs s ++ [norm v] := by
  unfold append
  rw [R.insert, R.len]
  unfold pyInsert
  have : pyPlace (abs s).length ((abs s).length : Nat) = (abs s).length := by
    unfold pyPlace
    rw [if_neg (by omega)]
    simp
  rw [this, List.take_length, List.drop_length]

theorem extend_eq : ∀ (vs : List T) (s : S), abs (extend P s vs) = abs s ++ vs.map norm := by
  intro vs
  induction vs with
  | nil => intro s; simp [extend]
  | cons v vs ih =>
    intro s
    have := ih (append P s v)
    unfold extend at this ⊢
    rw [List.foldl_cons, this, R.append_eq]
    simp

theorem del_ok {s : S} {i : Int} {l : List T} (h : pyDel (abs s) i = .ok l) : ∃ s', P.del s i = .ok s' ∧ abs s' = l :=
  map_ok ((R.del s i).trans h)

theorem pop_eq (s : S) (i : Int) :
    (pop P s i).map (fun x => (x.1, abs x.2)) =
      match pyIndex (abs s).length i with
      | none => .error .index
      | some k => match (abs s)[k]? with
        | none => .error .index
        | some v => .ok (v, (abs s).eraseIdx k) := by
  unfold pop
  rw [R.get]
  unfold pyGet
  cases hk : pyIndex (abs s).length i with
  | none => rfl
  | some k =>
    simp only []
    cases hv : (abs s)[k]? with
    | none => rfl
    | some v =>
      simp only []
      have hd : pyDel (abs s) i = .ok ((abs s).eraseIdx k) := by unfold pyDel; rw [hk]
      obtain ⟨s', h1, h2⟩ := R.del_ok hd
      rw [h1, ← h2]
      rfl

theorem index_eq [DecidableEq T] (s : S) (v : T) :
    ∀ (n i : Nat), i ≤ (abs s).length → (abs s).length < i + n →
      indexFrom P n s v i = some (match ((abs s).drop i).findIdx? (fun w => w = v) with
        | none => .error .value
        | some k => .ok (i + k)) := by
  intro n
  induction n with
  | zero => intro i _ h; omega
  | succ n ih =>
    intro i _ h
    unfold indexFrom
    rw [R.get]
    by_cases hi : i < (abs s).length
    · rw [pyGet_some (List.getElem?_eq_getElem hi), List.drop_eq_getElem_cons hi, List.findIdx?_cons]
      simp only []
      by_cases hv : (abs s)[i] = v
      · simp [hv]
      · rw [if_neg hv, ih (i + 1) (by omega) (by omega)]
        simp only [hv, decide_false, Bool.false_eq_true, if_false]
        cases ((abs s).drop (i + 1)).findIdx? (fun w => decide (w = v)) with
        | none => rfl
        | some k => simp only [Option.map_some]; rw [show i + 1 + k = i + (k + 1) by omega]
    · rw [pyGet_none (by omega), List.drop_eq_nil_of_le (by omega)]
      rfl

theorem remove_eq [DecidableEq T] (s : S) (v : T) (n : Nat) (h : (abs s).length < n) :
    (remove P n s v).map (fun r => r.map abs) = some (if v ∈ abs s then .ok ((abs s).erase v) else .error .value) := by
  unfold remove
  rw [R.index_eq s v n 0 (by omega) (by omega), List.drop_zero]
  cases hf : (abs s).findIdx? (fun w => decide (w = v)) with
  | none =>
    have : v ∉ abs s := by
      intro hm
      rw [List.findIdx?_eq_none_iff] at hf
      have := hf v hm
      simp at this
    rw [if_neg this]
    rfl
  | some k =>
    simp only [Nat.zero_add, Option.map_some]
    obtain ⟨hk, hkv, hlt⟩ := List.findIdx?_eq_some_iff_getElem.mp hf
    have hkv' : (abs s)[k] = v := by simpa using hkv
    have hmem : v ∈ abs s := hkv' ▸ List.getElem_mem hk
    rw [if_pos hmem, R.del, pyDel_nat hk]
    congr 2
    rw [List.erase_eq_eraseIdx_of_idxOf]
    rw [findIdx_idxOf, if_pos hmem] at hf
    exact Option.some.inj hf

theorem clear_eq : ∀ (n : Nat) (s : S), (abs s).length < n → ∃ s', clear P n s = some s' ∧ abs s' = [] := by
  intro n
  induction n with
  | zero => intro s h; omega
  | succ n ih =>
    intro s h
    unfold clear
    have hp := R.pop_eq s (-1)
    by_cases h0 : (abs s).length = 0
    · have : pyIndex (abs s).length (-1) = none := by
        unfold pyIndex
        rw [if_neg (by omega), if_neg (by omega)]
      rw [this] at hp
      rw [map_error hp]
      exact ⟨s, rfl, List.length_eq_zero_iff.mp h0⟩
    · have : pyIndex (abs s).length (-1) = some ((abs s).length - 1) := by
        unfold pyIndex
        rw [if_neg (by omega), if_pos (by omega)]
        congr 1
        omega
      rw [this] at hp
      simp only [] at hp
      rw [List.getElem?_eq_getElem (by omega)] at hp
      obtain ⟨x, hx, he⟩ := map_ok hp
      rw [hx]
      have hl : (abs x.2).length < n := by
        have : abs x.2 = (abs s).eraseIdx ((abs s).length - 1) := (Prod.mk.inj he).2
        rw [this, List.length_eraseIdx_of_lt (by omega)]
        omega
      exact ih x.2 hl

theorem set_ok {s : S} {i : Nat} (hi : i < (abs s).length) (v : T) :
    ∃ s', P.set s (i : Nat) v = .ok s' ∧ abs s' = (abs s).set i (norm v) :=
  map_ok ((R.set s i v).trans (pySet_nat hi _))

theorem reverseFrom_eq (n : Nat) :
    ∀ (k : Nat) (s : S) (i : Nat), (abs s).length = n → i + k ≤ n / 2 →
      ∃ s', reverseFrom P n k s i = .ok s' ∧ (abs s').length = n ∧
        ∀ j, j < n → (abs s')[j]? = if (i ≤ j ∧ j < i + k) ∨ (n - i - k ≤ j ∧ j < n - i) then (abs s)[n - 1 - j]? else (abs s)[j]? := by
  intro k
  induction k with
  | zero =>
    intro s i hl hi
    refine ⟨s, rfl, hl, ?_⟩
    intro j hj
    rw [if_neg (by omega)]
  | succ k ih =>
    intro s i hl hi
    have hi1 : i < (abs s).length := by omega
    have hi2 : n - i - 1 < (abs s).length := by omega
    unfold reverseFrom swap
    rw [R.get, pyGet_some (List.getElem?_eq_getElem hi2)]
    simp only []
    rw [R.get, pyGet_some (List.getElem?_eq_getElem hi1)]
    simp only []
    obtain ⟨s1, h1, a1⟩ := R.set_ok hi1 (abs s)[n - i - 1]
    rw [h1]
    simp only []
    rw [R.normal s _ (List.getElem_mem hi2)] at a1
    have hl1 : (abs s1).length = n := by rw [a1, List.length_set, hl]
    obtain ⟨s2, h2, a2⟩ := R.set_ok (s := s1) (i := n - i - 1) (by omega) (abs s)[i]
    rw [h2]
    simp only []
    rw [R.normal s _ (List.getElem_mem hi1)] at a2
    have hl2 : (abs s2).length = n := by rw [a2, List.length_set, hl1]
    obtain ⟨s3, h3, hl3, a3⟩ := ih s2 (i + 1) hl2 (by omega)
    refine ⟨s3, h3, hl3, ?_⟩
    have get2 : ∀ j, j < n → (abs s2)[j]? = if j = i ∨ j = n - i - 1 then (abs s)[n - 1 - j]? else (abs s)[j]? := by
      intro j hj
      rw [a2]
      by_cases hj2 : n - i - 1 = j
      · subst hj2
        rw [List.getElem?_set_self (by omega), if_pos (.inr rfl), show n - 1 - (n - i - 1) = i by omega, List.getElem?_eq_getElem hi1]
      · rw [List.getElem?_set_ne hj2, a1]
        by_cases hj1 : i = j
        · subst hj1
          rw [List.getElem?_set_self hi1, if_pos (.inl rfl), show n - 1 - i = n - i - 1 by omega, List.getElem?_eq_getElem hi2]
        · rw [List.getElem?_set_ne hj1, if_neg (by omega)]
    intro j hj
    rw [a3 j hj]
    by_cases hc : (i + 1 ≤ j ∧ j < i + 1 + k) ∨ (n - (i + 1) - k ≤ j ∧ j < n - (i + 1))
    · rw [if_pos hc, if_pos (by omega), get2 _ (by omega), if_neg (by omega)]
    · rw [if_neg hc, get2 j hj]
      by_cases hj1 : j = i ∨ j = n - i - 1
      · rw [if_pos hj1, if_pos (by omega)]
      · rw [if_neg hj1, if_neg (by omega)]

theorem reverse_eq (s : S) : (reverse P s).map abs = .ok (abs s).reverse := by
  unfold reverse
  rw [R.len]
  obtain ⟨s', h1, h2, h3⟩ := R.reverseFrom_eq (abs s).length ((abs s).length / 2) s 0 rfl (by omega)
  rw [h1]
  show Except.ok (abs s') = _
  congr 1
  apply List.ext_getElem? 
  intro j
  by_cases hj : j < (abs s).length
  · rw [h3 j hj, List.getElem?_reverse hj]
    by_cases hc : (0 ≤ j ∧ j < 0 + (abs s).length / 2) ∨ ((abs s).length - 0 - (abs s).length / 2 ≤ j ∧ j < (abs s).length - 0)
    · rw [if_pos hc]
    · rw [if_neg hc, show (abs s).length - 1 - j = j by omega]
  · rw [List.getElem?_eq_none (by omega), List.getElem?_eq_none (by simp; omega)]

theorem reversed_eq (s : S) : reversed P s = (abs s).reverse.map .ok := by
  unfold reversed
  rw [R.len, List.map_reverse, List.map_reverse]
  congr 1
  apply List.ext_getElem?
  intro j
  rw [List.getElem?_map, List.getElem?_map]
  by_cases hj : j < (abs s).length
  · rw [List.getElem?_range hj, List.getElem?_eq_getElem hj]
    simp only [Option.map_some]
    rw [R.get, pyGet_some (List.getElem?_eq_getElem hj)]
  · rw [List.getElem?_eq_none (by simp; omega), List.getElem?_eq_none (by omega)]
    rfl

/-- Fetching values while appending them never ends. -/
theorem extendView_none : ∀ (n : Nat) (s : S) (i : Nat), i < (abs s).length → extendView P n s i = none := by
  intro n
  induction n with
  | zero => intro s i _; rfl
  | succ n ih =>
    intro s i hi
    unfold extendView
    rw [R.get, pyGet_some (List.getElem?_eq_getElem hi)]
    simp only []
    apply ih
    rw [R.append_eq]
    simp
    exact hi

end Refines

/-! ## The three attributes -/

theorem fill_fill (l : Label) : fill (fill l) = fill l := rfl

theorem map_set (f : T → T) (l : List T) (k : Nat) (v : T) : (l.set k v).map f = (l.map f).set k (f v) := List.map_set ..

/-- What is seen of the time labels. -/
def seenLabels (s : Option (List Label)) : List Label := (s.getD []).map fill

/-- What is seen of the unit offsets. -/
def seenOffsets (s : Option (List Int)) : List Int := s.getD []

theorem pyIndex_zero (i : Int) : pyIndex 0 i = none := by
  unfold pyIndex
  rw [if_neg (by omega), if_neg (by omega)]

theorem pyGet_nil (i : Int) : pyGet ([] : List T) i = .error .index := by
  unfold pyGet
  rw [show ([] : List T).length = 0 from rfl, pyIndex_zero]

theorem pySet_nil (i : Int) (v : T) : pySet ([] : List T) i v = .error .index := by
  unfold pySet
  rw [show ([] : List T).length = 0 from rfl, pyIndex_zero]

theorem pyDel_nil (i : Int) : pyDel ([] : List T) i = .error .index := by
  unfold pyDel
  rw [show ([] : List T).length = 0 from rfl, pyIndex_zero]

theorem pyIndex_lt {n : Nat} {i : Int} {k : Nat} (h : pyIndex n i = some k) : k < n := by
  unfold pyIndex at h
  split at h
  · cases h; omega
  · split at h
    · cases h; omega
    · cases h

theorem insert_map (f : T → T) (l : List T) (i : Int) (v : T) : (pyInsert l i v).map f = pyInsert (l.map f) i (f v) := by
  simp [pyInsert, List.map_take, List.map_drop]

theorem labels_refines : Refines labels seenLabels fill where
  normal s v h := by
    obtain ⟨w, _, rfl⟩ := List.mem_map.mp h
    rfl
  len s := by cases s <;> simp [labels, seenLabels]
  get s i := by
    cases s with
    | none => exact (pyGet_nil i).symm
    | some l =>
      simp only [labels, seenLabels, Option.getD_some]
      unfold pyGet
      rw [List.length_map]
      cases hk : pyIndex l.length i with
      | none => rfl
      | some k =>
        simp only [List.getElem?_map]
        cases l[k]? with
        | none => rfl
        | some v => rfl
  set s i v := by
    cases s with
    | none => exact (pySet_nil i _).symm
    | some l =>
      simp only [labels, seenLabels, Option.getD_some]
      unfold pySet
      rw [List.length_map]
      cases hk : pyIndex l.length i with
      | none => rfl
      | some k =>
        show Except.ok ((l.set k (fill v)).map fill) = _
        rw [List.map_set]
        rfl
  del s i := by
    cases s with
    | none => exact (pyDel_nil i).symm
    | some l =>
      simp only [labels, seenLabels, Option.getD_some]
      unfold pyDel
      rw [List.length_map]
      cases hk : pyIndex l.length i with
      | none => rfl
      | some k =>
        show Except.ok (((if (l.eraseIdx k).length = 0 then none else some (l.eraseIdx k)).getD []).map fill) = _
        congr 1
        rw [map_eraseIdx]
        by_cases h0 : (l.eraseIdx k).length = 0
        · rw [if_pos h0, List.length_eq_zero_iff.mp h0]; rfl
        · rw [if_neg h0]; rfl
  insert s i v := by
    cases s with
    | none => exact insert_map fill [] i (fill v)
    | some l => exact insert_map fill l i (fill v)

theorem offsets_refines : Refines offsets seenOffsets id where
  normal _ _ _ := rfl
  len s := by cases s <;> simp [offsets, seenOffsets]
  get s i := by
    cases s with
    | none => exact (pyGet_nil i).symm
    | some l => rfl
  set s i v := by
    cases s with
    | none => exact (pySet_nil i _).symm
    | some l =>
      simp only [offsets, seenOffsets, Option.getD_some]
      unfold pySet
      cases hk : pyIndex l.length i with
      | none => rfl
      | some k => rfl
  del s i := by
    cases s with
    | none => exact (pyDel_nil i).symm
    | some l =>
      simp only [offsets, seenOffsets, Option.getD_some]
      unfold pyDel
      cases hk : pyIndex l.length i with
      | none => rfl
      | some k =>
        show Except.ok ((if (l.eraseIdx k).length = 0 then none else some (l.eraseIdx k)).getD []) = _
        congr 1
        by_cases h0 : (l.eraseIdx k).length = 0
        · rw [if_pos h0, List.length_eq_zero_iff.mp h0]; rfl
        · rw [if_neg h0]; rfl
  insert s i v := by
    cases s with
    | none => rfl
    | some l => rfl

theorem comps_refines : Refines comps id id where
  normal _ _ _ := rfl
  len _ := rfl
  get _ _ := rfl
  set s i v := by show (pySet s i v).map id = pySet s i v; cases pySet s i v <;> rfl
  del s i := by show (pyDel s i).map id = pyDel s i; cases pyDel s i <;> rfl
  insert _ _ _ := rfl

/-! ## Slices, from the documentation of python

"The slice of s from i to j with step k is defined as the sequence of items with index x = i + n*k such that 0 <= n < (j-i)/k. The indices are
i, i+k, i+2*k and so on, stopping when j is reached (but never including j). When k is positive, i and j are reduced to len(s) if they are
greater. When k is negative, i and j are reduced to len(s) - 1 if they are greater. If i or j are omitted or None, they become end values (which
end depends on the sign of k). If i or j is negative, the index is relative to the end of sequence s." -/

/-- A bound that was given, kept within the sequence. -/
def edge (n : Nat) (step i : Int) : Int :=
  let j := if i < 0 then i + n else i
  if 0 < step then max 0 (min j n) else max (-1) (min j (n - 1))

/-- Where a slice begins. -/
def first (k : Slice) (n : Nat) : Int :=
  match k.start with
  | some i => edge n (k.step.getD 1) i
  | none => if 0 < k.step.getD 1 then 0 else n - 1

/-- Where a slice ends: the first place that does not belong to it. -/
def last (k : Slice) (n : Nat) : Int :=
  match k.stop with
  | some i => edge n (k.step.getD 1) i
  | none => if 0 < k.step.getD 1 then n else -1

/-- `is`: the places of the slice `k` of a list of length `n`, in order. -/
def Picks (k : Slice) (n : Nat) (is : List Nat) : Prop :=
  k.step ≠ some 0 ∧ ∀ m : Nat, is[m]?.map (fun i : Nat => (i : Int)) =
    if (if 0 < k.step.getD 1 then first k n + m * k.step.getD 1 < last k n else last k n < first k n + m * k.step.getD 1)
    then some (first k n + m * k.step.getD 1) else none

/-- `r` is the slice of `l`. -/
def Sliced {T : Type} (k : Slice) (l r : List T) : Prop :=
  ∃ is, Picks k l.length is ∧ r.length = is.length ∧ ∀ (m i : Nat), is[m]? = some i → ∃ v, l[i]? = some v ∧ r[m]? = some v

/-- `r` is what is left of `l` without the slice. -/
def Deleted {T : Type} (k : Slice) (l r : List T) : Prop :=
  ∃ is, Picks k l.length is ∧ r = (l.zipIdx.filter (fun p => decide (p.2 ∉ is))).map Prod.fst

/-- `r` is `l` with the values `vs` in the places of the slice. -/
def Stored {T : Type} (k : Slice) (l vs r : List T) : Prop :=
  ∃ is, Picks k l.length is ∧ r.length = l.length ∧ (∀ (m i : Nat) (v : T), is[m]? = some i → vs[m]? = some v → r[i]? = some v) ∧
    ∀ i : Nat, i ∉ is → r[i]? = l[i]?

/-! ### Proofs -/

theorem Picks.unique {k : Slice} {n : Nat} {is js : List Nat} (h : Picks k n is) (h' : Picks k n js) : js = is := by
  apply List.ext_getElem?
  intro m
  have h1 := h.2 m
  have h2 := h'.2 m
  rw [← h1] at h2
  clear h1
  cases h3 : js[m]? <;> cases h4 : is[m]? <;> rw [h3, h4] at h2 <;> simp at h2
  · rw [Int.ofNat_inj.mp h2]

theorem step_ne {k : Slice} (h : ¬ k.step = some 0) : k.step.getD 1 ≠ 0 := by
  cases hk : k.step with
  | none => simp
  | some d => rw [hk] at h; simpa using h

theorem Picks.nodup {k : Slice} {n : Nat} {is : List Nat} (h : Picks k n is) : is.Nodup := by
  rw [List.Nodup, List.pairwise_iff_getElem]
  intro i j hi' hj hij he'
  have he : is[i]? = is[j]? := by rw [List.getElem?_eq_getElem hi', List.getElem?_eq_getElem hj, he']
  have h1 := h.2 i
  have h2 := h.2 j
  have hd := step_ne h.1
  rw [← he, h1] at h2
  have h3 : ∃ x, is[j]? = some x := ⟨_, List.getElem?_eq_getElem hj⟩
  obtain ⟨x, hx⟩ := h3
  rw [he, hx, Option.map_some] at h1
  rw [← h1] at h2
  generalize k.step.getD 1 = d at *
  have e : ∀ (c : Prop) [Decidable c] (y : Int), some (x : Int) = (if c then some y else none) → y = x := by
    intro c _ y h
    by_cases hc : c
    · rw [if_pos hc] at h; injection h with h; exact h.symm
    · rw [if_neg hc] at h; cases h
  have e1 := e _ _ h1
  have e2 := e _ _ h2
  have e3 : ((j : Int) - i) * d = 0 := by rw [Int.sub_mul]; omega
  rcases Int.mul_eq_zero.mp e3 with e | e
  · omega
  · exact hd e

theorem bound_edge (n : Nat) (d i : Int) (hd : d ≠ 0) : bound n d i = edge n d i := by
  unfold bound edge
  by_cases h : i < 0 <;> by_cases h' : d < 0 <;> simp only [h, h', if_true, if_false] <;> split <;> split <;> omega

theorem indices_ok (k : Slice) (n : Nat) (h : ¬ k.step = some 0) :
    k.indices n = .ok (first k n, last k n, k.step.getD 1) := by
  have hd := step_ne h
  unfold Slice.indices first last
  simp only [if_neg hd]
  congr 2
  · cases k.start with
    | none => simp only; split <;> split <;> omega
    | some i => exact bound_edge n _ i hd
  · congr 1
    cases k.stop with
    | none => simp only; split <;> split <;> omega
    | some i => exact bound_edge n _ i hd

theorem lt_rangeLen (a b d : Int) (hd : d ≠ 0) (m : Nat) :
    m < rangeLen a b d ↔ if 0 < d then a + m * d < b else b < a + m * d := by
  unfold rangeLen
  by_cases h : 0 < d
  · simp only [if_pos h]
    by_cases hab : a < b
    · rw [if_pos hab]
      have : m < ((b - a - 1) / d + 1).toNat ↔ (m : Int) ≤ (b - a - 1) / d := by omega
      rw [this, Int.le_ediv_iff_mul_le h]
      omega
    · rw [if_neg hab]
      have : 0 ≤ (m : Int) * d := Int.mul_nonneg (by omega) (by omega)
      omega
  · simp only [if_neg h]
    by_cases hab : b < a
    · rw [if_pos hab]
      have : m < ((a - b - 1) / (-d) + 1).toNat ↔ (m : Int) ≤ (a - b - 1) / (-d) := by omega
      rw [this, Int.le_ediv_iff_mul_le (by omega), Int.mul_neg]
      omega
    · rw [if_neg hab]
      have : 0 ≤ (m : Int) * (-d) := Int.mul_nonneg (by omega) (by omega)
      rw [Int.mul_neg] at this
      omega

theorem first_bounds (k : Slice) (n : Nat) :
    (0 < k.step.getD 1 → 0 ≤ first k n ∧ last k n ≤ n) ∧ (¬ 0 < k.step.getD 1 → -1 ≤ last k n ∧ first k n ≤ n - 1) := by
  unfold first last edge
  constructor <;> intro h <;> simp only [h, if_true, if_false] <;> cases k.start <;> cases k.stop <;> constructor <;> simp only <;> omega

theorem nums_zero {k : Slice} {n : Nat} (h : k.step = some 0) : k.nums n = .error .value := by
  simp [Slice.nums, Slice.indices, h]

theorem nums_ok (k : Slice) (n : Nat) (h : ¬ k.step = some 0) : ∃ is, k.nums n = .ok is ∧ Picks k n is ∧ ∀ i ∈ is, i < n := by
  have hd := step_ne h
  have hb := first_bounds k n
  refine ⟨(pyRange (first k n) (last k n) (k.step.getD 1)).map Int.toNat, by simp only [Slice.nums, indices_ok k n h], ⟨h, ?_⟩, ?_⟩
  · intro m
    have hm := lt_rangeLen (first k n) (last k n) _ hd m
    simp only [pyRange, List.map_map, List.getElem?_map]
    generalize k.step.getD 1 = d at *
    by_cases hr : m < rangeLen (first k n) (last k n) d
    · rw [if_pos (hm.mp hr), List.getElem?_range hr]
      simp only [Option.map_some, Function.comp_apply, Option.some.injEq]
      have hin := hm.mp hr
      apply Int.toNat_of_nonneg
      by_cases hp : 0 < d
      · have : 0 ≤ (m : Int) * d := Int.mul_nonneg (by omega) (by omega)
        have := hb.1 hp
        omega
      · rw [if_neg hp] at hin
        have := hb.2 hp
        omega
    · rw [if_neg (fun x => hr (hm.mpr x)), List.getElem?_eq_none (by simpa using hr)]
      rfl
  · intro i hi
    simp only [pyRange, List.map_map, List.mem_map, List.mem_range, Function.comp_apply] at hi
    obtain ⟨m, hr, rfl⟩ := hi
    have hin := (lt_rangeLen (first k n) (last k n) _ hd m).mp hr
    generalize k.step.getD 1 = d at *
    by_cases hp : 0 < d
    · rw [if_pos hp] at hin
      have : 0 ≤ (m : Int) * d := Int.mul_nonneg (by omega) (by omega)
      have := hb.1 hp
      omega
    · rw [if_neg hp] at hin
      have : 0 ≤ (m : Int) * (-d) := Int.mul_nonneg (by omega) (by omega)
      rw [Int.mul_neg] at this
      have := hb.2 hp
      omega

theorem filterMap_places (l : List T) (is : List Nat) (h : ∀ i ∈ is, i < l.length) :
    (is.filterMap (fun i => l[i]?)).length = is.length ∧
      ∀ (m i : Nat), is[m]? = some i → ∃ v, l[i]? = some v ∧ (is.filterMap (fun i => l[i]?))[m]? = some v := by
  induction is with
  | nil => simp
  | cons j is ih =>
    obtain ⟨h1, h2⟩ := ih (fun i hi => h i (List.mem_cons_of_mem _ hi))
    have hj : l[j]? = some (l[j]'(h j List.mem_cons_self)) := List.getElem?_eq_getElem _
    rw [List.filterMap_cons, hj]
    simp only [List.length_cons, h1, true_and]
    intro m i hi
    cases m with
    | zero => simp only [List.getElem?_cons_zero, Option.some.injEq] at hi; subst hi; exact ⟨_, hj, by simp⟩
    | succ m => simpa using h2 m i (by simpa using hi)

theorem fm_congr {A B : Type} {f g : A → Option B} {l : List A} (h : ∀ x ∈ l, f x = g x) : l.filterMap f = l.filterMap g := by
  induction l with
  | nil => rfl
  | cons a l ih =>
    rw [List.filterMap_cons, List.filterMap_cons, h a List.mem_cons_self, ih (fun x hx => h x (List.mem_cons_of_mem _ hx))]

theorem without_from (l : List T) (is : List Nat) (o : Nat) :
    (List.range' o l.length).filterMap (fun i => if i ∈ is then none else l[i - o]?) =
      ((l.zipIdx o).filter (fun p => decide (p.2 ∉ is))).map Prod.fst := by
  induction l generalizing o with
  | nil => rfl
  | cons a l ih =>
    rw [List.length_cons, List.range'_succ, List.filterMap_cons, List.zipIdx_cons, List.filter_cons]
    have h : (List.range' (o + 1) l.length).filterMap (fun i => if i ∈ is then none else (a :: l)[i - o]?) =
        (List.range' (o + 1) l.length).filterMap (fun i => if i ∈ is then none else l[i - (o + 1)]?) := by
      apply fm_congr
      intro i hi
      rw [List.mem_range'_1] at hi
      have : i - o = (i - (o + 1)) + 1 := by omega
      rw [this, List.getElem?_cons_succ]
    rw [h, ih (o + 1)]
    by_cases ho : o ∈ is <;> simp [ho]

theorem without_places (l : List T) (is : List Nat) :
    (List.range l.length).filterMap (fun i => if i ∈ is then none else l[i]?) =
      (l.zipIdx.filter (fun p => decide (p.2 ∉ is))).map Prod.fst := by
  have := without_from l is 0
  rw [← List.range_eq_range'] at this
  simpa using this

theorem storeAt_stored (l : List T) (is : List Nat) (vs : List T) (hn : is.Nodup) (h : ∀ i ∈ is, i < l.length)
    (hv : vs.length = is.length) :
    (storeAt l is vs).length = l.length ∧ (∀ (m i : Nat) (v : T), is[m]? = some i → vs[m]? = some v → (storeAt l is vs)[i]? = some v) ∧
      ∀ i : Nat, i ∉ is → (storeAt l is vs)[i]? = l[i]? := by
  induction is generalizing l vs with
  | nil => cases vs <;> simp [storeAt]
  | cons j is ih =>
    cases vs with
    | nil => cases hv
    | cons w vs =>
      obtain ⟨hj, hn⟩ := List.nodup_cons.mp hn
      obtain ⟨h1, h2, h3⟩ := ih (l.set j w) vs hn (fun i hi => by rw [List.length_set]; exact h i (List.mem_cons_of_mem _ hi))
        (by simpa using hv)
      rw [List.length_set] at h1
      refine ⟨h1, ?_, ?_⟩
      · intro m i v hi hw
        cases m with
        | zero =>
          simp only [List.getElem?_cons_zero, Option.some.injEq] at hi hw
          subst hi hw
          rw [storeAt, h3 j hj, List.getElem?_set_self (h j List.mem_cons_self)]
        | succ m => exact h2 m i v (by simpa using hi) (by simpa using hw)
      · intro i hi
        rw [List.mem_cons, not_or] at hi
        rw [storeAt, h3 i hi.2, List.getElem?_set_ne (fun e => hi.1 e.symm)]

theorem part_stored {l vs : List T} {k : Slice} {is : List Nat} (hd : k.step.getD 1 = 1) (h : Picks k l.length is)
    (hv : vs.length = is.length) :
    (l.take (first k l.length).toNat ++ vs ++ l.drop (max (first k l.length) (last k l.length)).toNat).length = l.length ∧
      (∀ (m i : Nat) (v : T), is[m]? = some i → vs[m]? = some v →
        (l.take (first k l.length).toNat ++ vs ++ l.drop (max (first k l.length) (last k l.length)).toNat)[i]? = some v) ∧
      ∀ i : Nat, i ∉ is →
        (l.take (first k l.length).toNat ++ vs ++ l.drop (max (first k l.length) (last k l.length)).toNat)[i]? = l[i]? := by
  have hb := (first_bounds k l.length).1 (by omega)
  have hf : first k l.length ≤ l.length := by
    unfold first edge
    simp only [hd]
    cases k.start <;> simp only <;> omega
  have hp := h.2
  simp only [hd, Int.mul_one, show (0 : Int) < 1 from by omega, if_true] at hp
  generalize first k l.length = a at *
  generalize last k l.length = b at *
  have hlen : (is.length : Int) = max a b - a := by
    have h1 : ∀ m : Nat, m < is.length ↔ a + m < b := by
      intro m
      have := hp m
      by_cases hm : m < is.length
      · rw [List.getElem?_eq_getElem hm] at this
        constructor
        · intro _
          by_cases hx : a + m < b
          · exact hx
          · rw [if_neg hx] at this; cases this
        · intro _; exact hm
      · rw [List.getElem?_eq_none (by omega)] at this
        constructor
        · intro x; exact absurd x hm
        · intro x; rw [if_pos x] at this; cases this
    by_cases hab : a < b
    · have h2 := h1 (b - a).toNat
      have h3 := h1 ((b - a).toNat - 1)
      omega
    · have h2 := h1 0
      omega
  have hval : ∀ m i : Nat, is[m]? = some i → (i : Int) = a + m := by
    intro m i hi
    have := hp m
    rw [hi] at this
    split at this
    · simpa using this
    · cases this
  refine ⟨?_, ?_, ?_⟩
  · simp only [List.length_append, List.length_take, List.length_drop]
    omega
  · intro m i v hi hw
    have e := hval m i hi
    have hm : m < vs.length := by
      rw [hv]
      by_cases x : m < is.length
      · exact x
      · rw [List.getElem?_eq_none (by omega)] at hi; cases hi
    rw [List.append_assoc, List.getElem?_append_right (by simp only [List.length_take]; omega),
      List.getElem?_append_left (by simp only [List.length_take]; omega)]
    rw [← hw]
    congr 1
    simp only [List.length_take]
    omega
  · intro i hi
    have hni : ∀ m, m < is.length → (i : Int) ≠ a + m := by
      intro m hm e
      apply hi
      have e2 := hval m _ (List.getElem?_eq_getElem hm)
      have : i = is[m] := by omega
      rw [this]
      exact List.getElem_mem hm
    by_cases hlt : (i : Int) < a
    · rw [List.append_assoc, List.getElem?_append_left (by simp only [List.length_take]; omega), List.getElem?_take_of_lt (by omega)]
    · have hge : max a b ≤ i := by
        by_cases x : (i : Int) < max a b
        · exact absurd (by omega) (hni ((i : Int) - a).toNat (by omega))
        · omega
      rw [List.getElem?_append_right (by simp only [List.length_append, List.length_take]; omega), List.getElem?_drop]
      congr 1
      simp only [List.length_append, List.length_take]
      omega

theorem assignEach_storeAt (l : List Comp) (is : List Nat) (vs : List Comp) (h : vs.length = is.length) :
    assignEach l is vs = (storeAt l is vs, none) := by
  induction is generalizing l vs with
  | nil => cases vs with
    | nil => rfl
    | cons v vs => cases h
  | cons i is ih =>
    cases vs with
    | nil => cases h
    | cons v vs =>
      simp only [List.length_cons, Nat.add_right_cancel_iff] at h
      simp only [assignEach, storeAt]
      exact ih (l.set i v) vs h

end Verif.Seqs

namespace Verif.Props

open Verif.Seqs

/-! ## Specification -/

/-- A list-like object, of which `seen` is seen, is a python list: each method gives the value or error that the method of the list
`seen s` gives, and leaves the object as that leaves the list. Values are put into the form `norm` when they are stored. For the
methods that loop: they end. -/
structure ListLike {S T : Type} [DecidableEq T] (P : Prim S T) (seen : S → List T) (norm : T → T) : Prop where
  len : ∀ s, P.len s = (seen s).length
  getitem : ∀ s i, P.get s i = pyGet (seen s) i
  setitem : ∀ s i v, (P.set s i v).map seen = pySet (seen s) i (norm v)
  delitem : ∀ s i, (P.del s i).map seen = pyDel (seen s) i
  insert : ∀ s i v, seen (P.insert s i v) = pyInsert (seen s) i (norm v)
  iter : ∀ s, ∃ n, iter P n s = some (seen s)
  reversed : ∀ s, reversed P s = (seen s).reverse.map .ok
  contains : ∀ s v, ∃ n, contains P n s v = some (decide (v ∈ seen s))
  count : ∀ s v, ∃ n, count P n s v = some ((seen s).count v)
  index : ∀ s v, ∃ n, indexFrom P n s v 0 = some (if v ∈ seen s then .ok ((seen s).idxOf v) else .error .value)
  append : ∀ s v, seen (append P s v) = seen s ++ [norm v]
  extend : ∀ s vs, seen (extend P s vs) = seen s ++ vs.map norm
  extendSelf : ∀ s, ∃ n, (extendSelf P n s).map seen = some (seen s ++ seen s)
  pop : ∀ s i, (pop P s i).map (fun x => (x.1, seen x.2)) =
    (match pyGet (seen s) i, pyDel (seen s) i with
      | .ok v, .ok l => .ok (v, l)
      | _, _ => .error .index)
  remove : ∀ s v, ∃ n, (remove P n s v).map (fun r => r.map seen) =
    some (if v ∈ seen s then .ok ((seen s).erase v) else .error .value)
  clear : ∀ s, ∃ n, (clear P n s).map seen = some []
  reverse : ∀ s, (reverse P s).map seen = .ok (seen s).reverse


theorem listLike_of_refines {S T : Type} [DecidableEq T] {P : Prim S T} {seen : S → List T} {norm : T → T}
    (R : Refines P seen norm) : ListLike P seen norm where
  len := R.len
  getitem := R.get
  setitem := R.set
  delitem := R.del
  insert := R.insert
  iter s := ⟨_, R.iter_eq s _ (Nat.lt_succ_self _)⟩
  reversed := R.reversed_eq
  contains s v := ⟨_, by
    unfold Seqs.contains
    rw [R.iter_eq s _ (Nat.lt_succ_self _), Option.map_some, Option.some.injEq, Bool.eq_iff_iff]
    simp⟩
  count s v := ⟨_, by
    unfold Seqs.count
    rw [R.iter_eq s _ (Nat.lt_succ_self _), Option.map_some, Option.some.injEq, List.count_eq_length_filter]
    rfl⟩
  index s v := ⟨(seen s).length + 1, by
    rw [R.index_eq s v _ 0 (by omega) (by omega), List.drop_zero, findIdx_idxOf]
    by_cases h : v ∈ seen s
    · simp [h]
    · simp [h]⟩
  append := R.append_eq
  extend s vs := R.extend_eq vs s
  extendSelf s := ⟨_, by
    unfold Seqs.extendSelf
    rw [R.iter_eq s _ (Nat.lt_succ_self _), Option.map_some, Option.map_some, R.extend_eq]
    congr 2
    conv => rhs; rw [← List.map_id (seen s)]
    exact List.map_congr_left (fun v hv => R.normal s v hv)⟩
  pop s i := by
    rw [R.pop_eq]
    unfold pyGet pyDel
    cases pyIndex (seen s).length i with
    | none => rfl
    | some k =>
      simp only []
      cases (seen s)[k]? with
      | none => rfl
      | some v => rfl
  remove s v := ⟨_, R.remove_eq s v _ (Nat.lt_succ_self _)⟩
  clear s := by
    obtain ⟨s', h1, h2⟩ := R.clear_eq _ s (Nat.lt_succ_self _)
    exact ⟨_, by rw [h1, Option.map_some, h2]⟩
  reverse := R.reverse_eq

/-- **C57**, the python lists that the attributes are compared with: `l[i]`, `l[i] = v`, `del l[i]` and `l.insert(i, v)`
count from the start for `i` not negative and from the end otherwise. The first three raise for places that are not in the
list, the last one takes the nearest place. -/
theorem C57_python_lists {T : Type} (a b : List T) (v w : T) :
    (pyGet (a ++ v :: b) a.length = .ok v ∧ pyGet (a ++ v :: b) (-(b.length + 1)) = .ok v) ∧
    (pySet (a ++ v :: b) a.length w = .ok (a ++ w :: b) ∧ pySet (a ++ v :: b) (-(b.length + 1)) w = .ok (a ++ w :: b)) ∧
    (pyDel (a ++ v :: b) a.length = .ok (a ++ b) ∧ pyDel (a ++ v :: b) (-(b.length + 1)) = .ok (a ++ b)) ∧
    (pyInsert (a ++ b) a.length v = a ++ v :: b ∧ (b ≠ [] → pyInsert (a ++ b) (-b.length) v = a ++ v :: b)) ∧
    (∀ i : Int, (i < -a.length ∨ (a.length : Int) ≤ i) →
      pyGet a i = .error .index ∧ pySet a i v = .error .index ∧ pyDel a i = .error .index) ∧
    (∀ i : Int, i < -a.length → pyInsert a i v = v :: a) ∧
    (∀ i : Int, (a.length : Int) ≤ i → pyInsert a i v = a ++ [v]) := by
  have i1 : pyIndex (a ++ v :: b).length a.length = some a.length := by
    rw [pyIndex_nat, if_pos (by simp)]
  have i2 : pyIndex (a ++ v :: b).length (-(b.length + 1)) = some a.length := by
    unfold pyIndex
    simp only [List.length_append, List.length_cons]
    rw [if_neg (by omega), if_pos (by omega)]
    congr 1
    omega
  have i3 : ∀ i : Int, (i < -a.length ∨ (a.length : Int) ≤ i) → pyIndex a.length i = none := by
    intro i hi
    unfold pyIndex
    rw [if_neg (by omega), if_neg (by omega)]
  refine ⟨⟨?_, ?_⟩, ⟨?_, ?_⟩, ⟨?_, ?_⟩, ⟨?_, ?_⟩, ?_, ?_, ?_⟩
  · unfold pyGet; rw [i1]; simp
  · unfold pyGet; rw [i2]; simp
  · unfold pySet; rw [i1]; simp
  · unfold pySet; rw [i2]; simp
  · unfold pyDel; rw [i1]; simp [List.eraseIdx_append_of_length_le]
  · unfold pyDel; rw [i2]; simp [List.eraseIdx_append_of_length_le]
  · have p : pyPlace (a ++ b).length a.length = a.length := by
      unfold pyPlace
      rw [if_neg (by omega), List.length_append]
      omega
    unfold pyInsert; rw [p]; simp
  · intro hb
    have hb' : 0 < b.length := List.length_pos_iff.2 hb
    have p : pyPlace (a ++ b).length (-b.length) = a.length := by
      unfold pyPlace
      rw [if_pos (by omega), List.length_append]
      omega
    unfold pyInsert; rw [p]; simp
  · intro i hi
    unfold pyGet pySet pyDel
    rw [i3 i hi]
    exact ⟨rfl, rfl, rfl⟩
  · intro i hi
    have p : pyPlace a.length i = 0 := by
      unfold pyPlace
      rw [if_pos (by omega)]
      omega
    unfold pyInsert; rw [p]; simp
  · intro i hi
    have p : pyPlace a.length i = a.length := by
      unfold pyPlace
      rw [if_neg (by omega)]
      omega
    unfold pyInsert; rw [p]; simp

/-- Before the last two of five, counted from the end, and far before the start. -/
example : pyInsert [1, 2, 3, 4, 5] (-2) 9 = [1, 2, 3, 9, 4, 5] ∧ pyInsert [1, 2, 3] (-7) 9 = [9, 1, 2, 3] := by decide

/-- **C57.** The time labels of a grain are a list; dictionaries put in get the missing parts filled in. -/
theorem C57_timelabels : ListLike labels seenLabels fill := listLike_of_refines labels_refines

/-- **C57.** The unit offsets of a coded video grain are a list. -/
theorem C57_unit_offsets : ListLike offsets seenOffsets id := listLike_of_refines offsets_refines

/-- **C57.** The components of a video grain are a list. -/
theorem C57_components : ListLike comps id id := listLike_of_refines comps_refines

/-- **C57.** Of a time label that is filled in the program sees every part: those it gave as it gave them, and for those it left out the
empty tag, the count zero, the rate zero over one and no drop frames. -/
theorem C57_filled (l : Label) :
    (∀ t, (fill l).tag = some t ↔ l.tag = some t ∨ l.tag = none ∧ t = "") ∧
    (∀ n, (fill l).count = some n ↔ l.count = some n ∨ l.count = none ∧ n = 0) ∧
    (∀ n, (fill l).rateNum = some n ↔ l.rateNum = some n ∨ l.rateNum = none ∧ n = 0) ∧
    (∀ n, (fill l).rateDen = some n ↔ l.rateDen = some n ∨ l.rateDen = none ∧ n = 1) ∧
    (∀ b, (fill l).drop = some b ↔ l.drop = some b ∨ l.drop = none ∧ b = false) := by
  obtain ⟨t, c, n, d, b⟩ := l
  unfold fill
  refine ⟨fun x => ?_, fun x => ?_, fun x => ?_, fun x => ?_, fun x => ?_⟩
  · cases t <;> simp [eq_comm]
  · cases c <;> simp [eq_comm]
  · cases n <;> simp [eq_comm]
  · cases d <;> simp [eq_comm]
  · cases b <;> simp [eq_comm]

/-- **C57.** Assigning a list of time labels leaves exactly those, with missing parts filled in, and adding one adds it. -/
theorem C57_assign_labels_partial (s : Option (List Label)) (vs : List Label) :
    seenLabels (assignLabels s vs) = vs.map fill := by
  unfold assignLabels
  rw [C57_timelabels.extend]
  rfl

theorem C57_add_label (s : Option (List Label)) (tag : String) (count num den : Int) (drop : Bool) :
    seenLabels (addLabel s tag count num den drop) = seenLabels s ++ [⟨some tag, some count, some num, some den, some drop⟩] :=
  C57_timelabels.append s _

/-- **C57.** Assigning unit offsets leaves exactly those; assigning a grain's own offsets changes nothing; `+=` appends. -/
theorem C57_assign_offsets (s : Option (List Int)) (vs : List Int) :
    seenOffsets (assignOffsets s vs) = vs
      ∧ (∃ n, (assignOffsetsView n s).map seenOffsets = some (seenOffsets s))
      ∧ (∃ n, (iaddOffsets n s vs).map seenOffsets = some (seenOffsets s ++ vs)) := by
  have view : ∀ s, ∃ n, (assignOffsetsView n s).map seenOffsets = some (seenOffsets s) := by
    intro s
    obtain ⟨n, hn⟩ := C57_unit_offsets.iter s
    refine ⟨n, ?_⟩
    unfold assignOffsetsView
    by_cases h : offsets.len s = 0
    · rw [if_pos h]
      rw [C57_unit_offsets.len, List.length_eq_zero_iff] at h
      rw [h]
      rfl
    · rw [if_neg h, hn]
      rfl
  refine ⟨?_, view s, ?_⟩
  · unfold assignOffsets
    by_cases h : vs.length = 0
    · rw [if_pos h, List.length_eq_zero_iff.mp h]; rfl
    · rw [if_neg h]; rfl
  · obtain ⟨n, hn⟩ := view (Seqs.extend offsets s vs)
    refine ⟨n, ?_⟩
    unfold iaddOffsets
    rw [hn, C57_unit_offsets.extend, List.map_id]

/-- **C57 does not hold of assigning time labels to themselves**: `g.timelabels = g.timelabels` removes all of them, for every
grain. -/
theorem C57_self_assign_counterexample (s : Option (List Label)) : ∃ n, (assignLabelsView n s).map seenLabels = some [] :=
  ⟨1, rfl⟩

/-- **C57 does not hold of `+=` on time labels**: `g.timelabels += labels` leaves a grain without time labels, whatever it had
and whatever is added. -/
theorem C57_iadd_counterexample (s : Option (List Label)) (vs : List Label) : ∃ n, (iaddLabels n s vs).map seenLabels = some [] :=
  ⟨1, rfl⟩

/-- `g.timelabels.extend(g.timelabels)` never ends if there are any. -/
theorem C57_extend_view_counterexample (s : Option (List Label)) (h : seenLabels s ≠ []) (n : Nat) :
    extendView labels n s 0 = none :=
  labels_refines.extendView_none n s 0 (List.length_pos_iff.mpr h)

/-- Slices of time labels are slices of the list, for every step, if the grain has a list of time labels; a step of zero is an error. -/
theorem C57_label_slice_partial (l : List Label) (k : Slice) :
    if k.step = some 0 then labelsGetSlice (some l) k = .error .value ∧ labelsDelSlice (some l) k = .error .value
    else (∃ r, labelsGetSlice (some l) k = .ok r ∧ Sliced k (seenLabels (some l)) r) ∧
      ∃ s, labelsDelSlice (some l) k = .ok s ∧ Deleted k (seenLabels (some l)) (seenLabels s) := by
  have hl : (seenLabels (some l)).length = l.length := by simp [seenLabels]
  split
  · rename_i h
    constructor
    · simp only [labelsGetSlice, nums_zero h]
    · simp only [labelsDelSlice, pyDelSlice, nums_zero h]
  · rename_i h
    obtain ⟨is, h1, h2, h3⟩ := nums_ok k l.length h
    constructor
    · refine ⟨is.filterMap (fun i => l[i]?.map fill), by simp only [labelsGetSlice, h1], is, by rw [hl]; exact h2, ?_⟩
      have := filterMap_places (seenLabels (some l)) is (by rw [hl]; exact h3)
      simpa only [seenLabels, Option.getD_some, List.getElem?_map] using this
    · have h4 := without_places l is
      refine ⟨if ((List.range l.length).filterMap (fun i => if i ∈ is then none else l[i]?)).length = 0 then none else some ((List.range l.length).filterMap (fun i => if i ∈ is then none else l[i]?)),
        by simp only [labelsDelSlice, pyDelSlice, h1], is, by rw [hl]; exact h2, ?_⟩
      rw [h4]
      have h5 : ∀ l' : List Label, seenLabels (if l'.length = 0 then none else some l') = l'.map fill := by
        intro l'
        cases l' <;> simp [seenLabels]
      rw [h5]
      simp only [seenLabels, Option.getD_some, List.zipIdx_map, List.filter_map, List.map_map]
      rfl

/-- Slices of unit offsets are slices of the list, if the grain has unit offsets: reading, deleting, and assigning. -/
theorem C57_offset_slice_partial (l : List Int) (k : Slice) (vs : List Int) :
    if k.step = some 0 then
      offsetsGetSlice (some l) k = .error .value ∧ offsetsDelSlice (some l) k = .error .value ∧
        offsetsSetSlice (some l) k vs = .error .value
    else (∃ r, offsetsGetSlice (some l) k = .ok r ∧ Sliced k (seenOffsets (some l)) r) ∧
      (∃ s, offsetsDelSlice (some l) k = .ok s ∧ Deleted k (seenOffsets (some l)) (seenOffsets s)) ∧
      ((∃ is, Picks k l.length is ∧ vs.length = is.length) →
        ∃ s, offsetsSetSlice (some l) k vs = .ok s ∧ Stored k (seenOffsets (some l)) vs (seenOffsets s)) ∧
      (k.step.getD 1 = 1 → ∃ s, offsetsSetSlice (some l) k vs = .ok s ∧
        seenOffsets s = l.take (first k l.length).toNat ++ vs ++ l.drop (max (first k l.length) (last k l.length)).toNat) := by
  split
  · rename_i h
    refine ⟨?_, ?_, ?_⟩
    · simp only [offsetsGetSlice, pyGetSlice, nums_zero h]
    · simp only [offsetsDelSlice, pyDelSlice, nums_zero h]
    · simp [offsetsSetSlice, pySetSlice, Slice.indices, h]
  · rename_i h
    obtain ⟨is, h1, h2, h3⟩ := nums_ok k l.length h
    refine ⟨?_, ?_, ?_, ?_⟩
    · exact ⟨is.filterMap (fun i => l[i]?), by simp only [offsetsGetSlice, pyGetSlice, h1], is, h2, filterMap_places l is h3⟩
    · refine ⟨if ((List.range l.length).filterMap (fun i => if i ∈ is then none else l[i]?)).length = 0 then none else some ((List.range l.length).filterMap (fun i => if i ∈ is then none else l[i]?)),
        by simp only [offsetsDelSlice, pyDelSlice, h1], is, h2, ?_⟩
      rw [without_places l is]
      have h5 : ∀ l' : List Int, seenOffsets (if l'.length = 0 then none else some l') = l' := by
        intro l'
        cases l' <;> simp [seenOffsets]
      rw [h5]
      rfl
    · rintro ⟨js, hj, hv⟩
      have hjs : js = is := h2.unique hj
      subst hjs
      by_cases hd : k.step.getD 1 = 1
      · refine ⟨some (l.take (first k l.length).toNat ++ vs ++ l.drop (max (first k l.length) (last k l.length)).toNat),
          by simp only [offsetsSetSlice, pySetSlice, indices_ok k l.length h, hd, if_true], js, h2, ?_⟩
        exact part_stored hd h2 hv
      · refine ⟨some (storeAt l js vs),
          by simp only [offsetsSetSlice, pySetSlice, indices_ok k l.length h, if_neg hd, h1, if_pos hv], js, h2, ?_⟩
        exact storeAt_stored l js vs h2.nodup h3 hv
    · intro hd
      exact ⟨some (l.take (first k l.length).toNat ++ vs ++ l.drop (max (first k l.length) (last k l.length)).toNat),
        by simp only [offsetsSetSlice, pySetSlice, indices_ok k l.length h, hd, if_true], rfl⟩

/-- Slices of components are slices of the list: reading, deleting, and assigning as many values as there are places. -/
theorem C57_component_slice_partial (l : List Comp) (k : Slice) (vs : List Comp) :
    if k.step = some 0 then
      compsGetSlice l k = .error .value ∧ compsDelSlice l k = .error .value ∧ compsSetSlice l k vs = (l, some .value)
    else (∃ r, compsGetSlice l k = .ok r ∧ Sliced k l r) ∧ (∃ r, compsDelSlice l k = .ok r ∧ Deleted k l r) ∧
      ((∃ is, Picks k l.length is ∧ vs.length = is.length) →
        ∃ r, compsSetSlice l k vs = (r, none) ∧ Stored k l vs r) := by
  split
  · rename_i h
    refine ⟨?_, ?_, ?_⟩
    · simp only [compsGetSlice, nums_zero h]
    · simp only [compsDelSlice, pyDelSlice, nums_zero h]
    · simp only [compsSetSlice, nums_zero h]
  · rename_i h
    obtain ⟨is, h1, h2, h3⟩ := nums_ok k l.length h
    refine ⟨?_, ?_, ?_⟩
    · exact ⟨is.filterMap (fun i => l[i]?), by simp only [compsGetSlice, h1], is, h2, filterMap_places l is h3⟩
    · refine ⟨((List.range l.length).filterMap (fun i => if i ∈ is then none else l[i]?)), by simp only [compsDelSlice, pyDelSlice, h1], is, h2, ?_⟩
      rw [without_places l is]
    · rintro ⟨js, hj, hv⟩
      have hjs : js = is := h2.unique hj
      subst hjs
      refine ⟨storeAt l js vs, ?_, js, h2, storeAt_stored l js vs h2.nodup h3 hv⟩
      simp only [compsSetSlice, h1]
      exact assignEach_storeAt l js vs hv

/-- For a grain without time labels every slice of them is an error, and assigning to a slice always is. -/
theorem C57_label_slice_counterexample :
    labelsGetSlice none ⟨none, none, none⟩ = .error .index ∧
      ∀ s k vs, ∃ e, labelsSetSlice s k vs = .error e :=
  ⟨rfl, fun s _ _ => by cases s <;> exact ⟨_, rfl⟩⟩

/-- For a grain without unit offsets every slice of them is an error, where an empty list gives an empty list, and `offsets[:] = values`
does not set them. -/
theorem C57_offset_slice_counterexample (k : Slice) (vs : List Int) :
    offsetsGetSlice none k = .error .index ∧ offsetsSetSlice none k vs = .error .index ∧
      (k.step ≠ some 0 → ∃ r, pyGetSlice (seenOffsets none) k = .ok r ∧ r = []) := by
  refine ⟨rfl, rfl, fun h => ?_⟩
  obtain ⟨is, h1, h2, h3⟩ := nums_ok k 0 h
  refine ⟨is.filterMap (fun i => ([] : List Int)[i]?), by simp only [seenOffsets, Option.getD_none, pyGetSlice, List.length_nil, h1], ?_⟩
  simp

/-- With fewer values it is an error, where a list would become shorter, and with more values the others are dropped, where a list
would become longer. -/
theorem C57_component_slice_counterexample :
    ∃ (a b : Comp), (⟨none, none, none⟩ : Slice).nums 2 = .ok [0, 1] ∧ (assignEach [a, b] [0, 1] [b]).2 = some .stop
      ∧ assignEach [a, b] [0, 1] [b, a, a] = ([b, a], none) ∧ a ≠ b :=
  ⟨⟨0, 1, 1, 1, 1⟩, ⟨1, 1, 1, 1, 1⟩, rfl, by decide, by decide, by decide⟩

/-- A case: three labels, one without count and rate. -/
example : let s := assignLabels none [⟨some "a", some 1, some 25, some 1, some false⟩, ⟨some "b", none, none, none, none⟩]
    seenLabels s = [⟨some "a", some 1, some 25, some 1, some false⟩, ⟨some "b", some 0, some 0, some 1, some false⟩]
      ∧ ((reverse labels s).map seenLabels).toOption = some (seenLabels s).reverse
      ∧ ((pop labels s (-1)).map (fun x => (x.1.tag, x.2.map List.length))).toOption = some (some "b", some 1)
      ∧ (remove labels 3 s ⟨some "a", some 1, some 25, some 1, some false⟩).map (fun r => (r.map seenLabels).toOption)
        = some (some [⟨some "b", some 0, some 0, some 1, some false⟩]) := by
  decide

/-- Slices with negative steps, with bounds counted from the end, and assigned ones. -/
example : (offsetsGetSlice (some [10, 20, 30, 40, 50]) ⟨none, none, some (-2)⟩).toOption = some [50, 30, 10]
    ∧ (offsetsGetSlice (some [10, 20, 30, 40, 50]) ⟨some (-2), some 0, some (-1)⟩).toOption = some [40, 30, 20]
    ∧ (offsetsDelSlice (some [10, 20, 30, 40, 50]) ⟨none, none, some 2⟩).toOption = some (some [20, 40])
    ∧ (offsetsSetSlice (some [10, 20, 30, 40, 50]) ⟨some 1, some (-1), none⟩ [7]).toOption = some (some [10, 7, 50])
    ∧ (offsetsSetSlice (some [10, 20, 30, 40, 50]) ⟨none, none, some (-2)⟩ [1, 2, 3]).toOption = some (some [3, 20, 2, 40, 1]) := by
  decide

/-- Deleting the last unit offset leaves a grain without the entry, which is an empty list. -/
example : (offsets.del (some [3]) 0).toOption = some none ∧ offsets.len none = 0 ∧ (offsets.get none 0).toOption = none
    ∧ offsets.insert none 5 7 = some [7] := by
  decide

end Verif.Props

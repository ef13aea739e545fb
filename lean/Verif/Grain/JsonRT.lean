import Verif.Grain.Json

/-!
# `json.loads` inverts `json.dumps`
-/

namespace Verif.Json

/-! ## Strings -/

theorem hexVal_hexDigit : ∀ n, n < 16 → hexVal (hexDigit n) = some n := by decide

theorem hex4_uEsc (n : Nat) (h : n < 65536) :
    hex4 (hexDigit (n / 4096 % 16)) (hexDigit (n / 256 % 16)) (hexDigit (n / 16 % 16)) (hexDigit (n % 16)) = some n := by
  unfold hex4
  rw [hexVal_hexDigit _ (Nat.mod_lt _ (by omega)), hexVal_hexDigit _ (Nat.mod_lt _ (by omega)),
    hexVal_hexDigit _ (Nat.mod_lt _ (by omega)), hexVal_hexDigit _ (Nat.mod_lt _ (by omega))]
  show some _ = some n
  congr 1
  omega

/-- What the reader sees of a written character. -/
def units (c : Nat) : List (Bool × Nat) :=
  if c = 34 ∨ c = 92 ∨ c = 10 ∨ c = 13 ∨ c = 9 ∨ c = 12 ∨ c = 8 ∨ (32 ≤ c ∧ c ≤ 126) then [(false, c)]
  else if c < 0x10000 then [(true, c)]
  else [(true, 0xD800 + (c - 0x10000) / 1024), (true, 0xDC00 + (c - 0x10000) % 1024)]

theorem scanStr_uEsc (n : Nat) (h : n < 65536) (t : Str) :
    scanStr (uEsc n ++ t) = (scanStr t).map (fun p => ((true, n) :: p.1, p.2)) := by
  unfold uEsc
  simp only [List.cons_append, List.nil_append]
  rw [scanStr, hex4_uEsc n h]

theorem scanStr_plain (c : Nat) (h1 : 32 ≤ c) (h2 : c ≠ 34) (h3 : c ≠ 92) (t : Str) :
    scanStr (c :: t) = (scanStr t).map (fun p => ((false, c) :: p.1, p.2)) := by
  rw [scanStr.eq_def]
  split
  · rename_i h; cases h
  · rename_i h; injection h with h; exact absurd h h2
  · rename_i h; injection h with h; exact absurd h h3
  · rename_i h; injection h with h; exact absurd h h3
  · rename_i h
    injection h with ha hb
    subst ha hb
    rw [if_neg (by omega)]

theorem scanStr_short (c d n : Nat) (h : unesc c = some n) (hd : c ≠ 117) (t : Str) (he : n = d) :
    scanStr (92 :: c :: t) = (scanStr t).map (fun p => ((false, d) :: p.1, p.2)) := by
  subst he
  rw [scanStr.eq_def]
  split
  · rename_i h; cases h
  · rename_i h; injection h with h; cases h
  · rename_i h; injection h with _ h; injection h with h; exact absurd h hd
  · rename_i h'
    injection h' with _ h'
    injection h' with ha hb
    subst ha hb
    rw [h]
  · rename_i h1 h2 h3 h'
    injection h' with ha hb
    exact absurd hb.symm (h3 _ _ ha.symm)

theorem scanStr_esc (c : Nat) (hc : c < 0x110000) (t : Str) :
    scanStr (escChar c ++ t) = (scanStr t).map (fun p => (units c ++ p.1, p.2)) := by
  unfold escChar units
  by_cases h1 : c = 34
  · subst h1; exact scanStr_short 34 34 34 rfl (by decide) t rfl
  by_cases h2 : c = 92
  · subst h2; exact scanStr_short 92 92 92 rfl (by decide) t rfl
  by_cases h3 : c = 10
  · subst h3; exact scanStr_short 110 10 10 rfl (by decide) t rfl
  by_cases h4 : c = 13
  · subst h4; exact scanStr_short 114 13 13 rfl (by decide) t rfl
  by_cases h5 : c = 9
  · subst h5; exact scanStr_short 116 9 9 rfl (by decide) t rfl
  by_cases h6 : c = 12
  · subst h6; exact scanStr_short 102 12 12 rfl (by decide) t rfl
  by_cases h7 : c = 8
  · subst h7; exact scanStr_short 98 8 8 rfl (by decide) t rfl
  rw [if_neg h1, if_neg h2, if_neg h3, if_neg h4, if_neg h5, if_neg h6, if_neg h7]
  by_cases h8 : 32 ≤ c ∧ c ≤ 126
  · rw [if_pos h8, if_pos (by omega)]
    exact scanStr_plain c h8.1 h1 h2 t
  · rw [if_neg h8, if_neg (c := c = 34 ∨ _) (by omega)]
    by_cases h9 : c < 0x10000
    · rw [if_pos h9, if_pos h9]
      exact scanStr_uEsc c h9 t
    · rw [if_neg h9, if_neg h9, List.append_assoc, scanStr_uEsc _ (by omega), scanStr_uEsc _ (by omega), Option.map_map]
      rfl

theorem scanStr_all (s : Str) (h : ∀ c ∈ s, c < 0x110000) (t : Str) :
    scanStr (s.flatMap escChar ++ 34 :: t) = some (s.flatMap units, t) := by
  induction s with
  | nil => rw [List.flatMap_nil, List.nil_append, scanStr]; rfl
  | cons c s ih =>
    rw [List.flatMap_cons, List.append_assoc, scanStr_esc c (h c (List.mem_cons_self ..)),
      ih (fun x hx => h x (List.mem_cons_of_mem _ hx)), List.flatMap_cons]
    rfl

theorem Str.Wf.lt {s : Str} (h : Str.Wf s) : ∀ c ∈ s, c < 0x110000 := by
  induction s with
  | nil => intro c hc; cases hc
  | cons a s ih =>
    cases s with
    | nil =>
      intro c hc
      rw [List.mem_singleton] at hc
      subst hc
      exact h
    | cons b r =>
      intro c hc
      rcases List.mem_cons.1 hc with rfl | hc
      · exact h.1
      · exact ih h.2.2 c hc

theorem Str.Wf.tail {a : Nat} {s : Str} (h : Str.Wf (a :: s)) : Str.Wf s := by
  cases s with
  | nil => trivial
  | cons b r => exact h.2.2

theorem joinSur_single (e : Bool) (a : Nat) (l : List (Bool × Nat))
    (h : ∀ p ∈ l.head?, ¬(isHigh a = true ∧ isLow p.2 = true)) : joinSur ((e, a) :: l) = a :: joinSur l := by
  cases l with
  | nil => rw [joinSur, joinSur]
  | cons p r =>
    obtain ⟨eb, b⟩ := p
    have := h (eb, b) rfl
    rw [joinSur, if_neg]
    intro hc
    simp only [Bool.and_eq_true] at hc
    exact this ⟨hc.1.2, hc.2⟩

theorem units_head (c : Nat) (hc : c < 0x110000) : ∃ e r, units c = e :: r ∧ (isLow e.2 = true → e.2 = c) := by
  unfold units
  split
  · exact ⟨_, _, rfl, fun _ => rfl⟩
  · split
    · exact ⟨_, _, rfl, fun _ => rfl⟩
    · refine ⟨_, _, rfl, fun h => ?_⟩
      exfalso
      simp only [isLow, Bool.and_eq_true, decide_eq_true_eq] at h
      omega

theorem joinSur_units (s : Str) (h : Str.Wf s) : joinSur (s.flatMap units) = s := by
  induction s with
  | nil => rw [List.flatMap_nil, joinSur]
  | cons a s ih =>
    have ha := h.lt a (List.mem_cons_self ..)
    have hhead : ∀ p ∈ (s.flatMap units).head?, ¬(isHigh a = true ∧ isLow p.2 = true) := by
      intro p hp
      cases s with
      | nil => cases hp
      | cons b r =>
        obtain ⟨e, r', h1, h2⟩ := units_head b (h.lt b (by simp))
        rw [List.flatMap_cons, h1, List.cons_append, List.head?_cons] at hp
        cases hp
        rintro ⟨h3, h4⟩
        rw [h2 h4] at h4
        exact h.2.1 ⟨h3, h4⟩
    have ih' := ih h.tail
    rw [List.flatMap_cons]
    revert hhead ih'
    generalize s.flatMap units = l
    intro hhead ih'
    unfold units
    split
    · rw [List.singleton_append, joinSur_single _ _ _ hhead, ih']
    · split
      · rw [List.singleton_append, joinSur_single _ _ _ hhead, ih']
      · rename_i h1 h2
        simp only [List.cons_append, List.nil_append]
        rw [joinSur, if_pos]
        · rw [ih']
          have he : 0x10000 + (0xD800 + (a - 0x10000) / 1024 - 0xD800) * 1024 + (0xDC00 + (a - 0x10000) % 1024 - 0xDC00) = a := by
            omega
          rw [he]
        · simp only [isHigh, isLow, Bool.and_eq_true, decide_eq_true_eq, true_and]
          omega

theorem readStr_dump (s : Str) (h : Str.Wf s) (t : Str) : readStr (s.flatMap escChar ++ 34 :: t) = some (s, t) := by
  unfold readStr
  rw [scanStr_all s h.lt, Option.map_some, joinSur_units s h]

/-! ## Numbers -/

theorem natDigits_spec (n : Nat) : Digits (natDigits n) ∧ digitsVal (natDigits n) = n ∧
    (natDigits n = [48] ∨ (natDigits n).head? ≠ some 48) := by
  induction n using Nat.strongRecOn with
  | _ n ih =>
    rw [natDigits]
    by_cases h : n < 10
    · rw [if_pos h]
      refine ⟨⟨by simp, fun c hc => ?_⟩, ?_, ?_⟩
      · rw [List.mem_singleton] at hc
        subst hc
        simp only [isDigit, Bool.and_eq_true, decide_eq_true_eq]
        omega
      · simp only [digitsVal, List.foldl_cons, List.foldl_nil]
        omega
      · by_cases h0 : n = 0
        · subst h0; exact .inl rfl
        · refine .inr ?_
          rw [List.head?_cons]
          intro he
          injection he with he
          omega
    · rw [if_neg h]
      obtain ⟨h1, h2, h3⟩ := ih (n / 10) (by omega)
      refine ⟨⟨by simp, fun c hc => ?_⟩, ?_, ?_⟩
      · rcases List.mem_append.1 hc with hc | hc
        · exact h1.2 c hc
        · rw [List.mem_singleton] at hc
          subst hc
          simp only [isDigit, Bool.and_eq_true, decide_eq_true_eq]
          omega
      · unfold digitsVal at h2 ⊢
        rw [List.foldl_append, h2]
        simp only [List.foldl_cons, List.foldl_nil]
        omega
      · refine .inr ?_
        rcases h3 with h3 | h3
        · exfalso
          rw [h3] at h2
          have : digitsVal [48] = 0 := rfl
          omega
        · cases hn : natDigits (n / 10) with
          | nil => exact absurd hn h1.1
          | cons a r => rw [hn] at h3; exact h3

/-- What may follow a number. -/
def Delim (r : Str) : Prop := ∀ c ∈ r.head?, isDigit c = false ∧ c ≠ 46 ∧ c ≠ 101 ∧ c ≠ 69

def NoDigit (r : Str) : Prop := ∀ c ∈ r.head?, isDigit c = false

theorem takeWhile_digits (d r : Str) (hd : ∀ c ∈ d, isDigit c = true) (hr : NoDigit r) :
    (d ++ r).takeWhile isDigit = d ∧ (d ++ r).dropWhile isDigit = r := by
  induction d with
  | nil =>
    cases r with
    | nil => exact ⟨rfl, rfl⟩
    | cons c r =>
      have := hr c rfl
      simp only [List.nil_append, List.takeWhile_cons, List.dropWhile_cons, this]
      exact ⟨rfl, rfl⟩
  | cons a d ih =>
    have h1 := hd a (List.mem_cons_self ..)
    have h2 := ih (fun c hc => hd c (List.mem_cons_of_mem _ hc))
    simp only [List.cons_append, List.takeWhile_cons, List.dropWhile_cons, h1, if_true]
    exact ⟨by rw [h2.1], h2.2⟩

theorem readIntPart_ok (d r : Str) (hd : Digits d) (hl : d = [48] ∨ d.head? ≠ some 48) (hr : NoDigit r) :
    readIntPart (d ++ r) = some (d, r) := by
  cases d with
  | nil => exact absurd rfl hd.1
  | cons a d =>
    rw [List.cons_append, readIntPart]
    have ha := hd.2 a (List.mem_cons_self ..)
    rcases hl with hl | hl
    · injection hl with h1 h2
      subst h1 h2
      rfl
    · rw [List.head?_cons] at hl
      have h48 : a ≠ 48 := fun h => hl (by rw [h])
      rw [if_neg h48]
      simp only [isDigit, Bool.and_eq_true, decide_eq_true_eq] at ha
      rw [if_pos (by omega)]
      have := takeWhile_digits d r (fun c hc => hd.2 c (List.mem_cons_of_mem _ hc)) hr
      rw [this.1, this.2]

theorem readFrac_some (d r : Str) (hd : Digits d) (hr : NoDigit r) : readFrac (46 :: (d ++ r)) = (some d, r) := by
  cases d with
  | nil => exact absurd rfl hd.1
  | cons a d =>
    rw [List.cons_append, readFrac, if_pos (hd.2 a (List.mem_cons_self ..))]
    have := takeWhile_digits d r (fun c hc => hd.2 c (List.mem_cons_of_mem _ hc)) hr
    rw [this.1, this.2]

theorem readFrac_none (r : Str) (hr : ∀ c ∈ r.head?, c ≠ 46) : readFrac r = (none, r) := by
  unfold readFrac
  split
  · exact absurd rfl (hr 46 rfl)
  · rfl

theorem readExp_none (r : Str) (hr : ∀ c ∈ r.head?, c ≠ 101 ∧ c ≠ 69) : readExp r = (none, r) := by
  cases r with
  | nil => rfl
  | cons c r =>
    have := hr c rfl
    unfold readExp
    simp only
    rw [if_neg (by omega)]

theorem readExp_unsigned (e : Nat) (he : e = 101 ∨ e = 69) (d r : Str) (hd : Digits d) (hr : NoDigit r) :
    readExp (e :: (d ++ r)) = (some (e, none, d), r) := by
  cases d with
  | nil => exact absurd rfl hd.1
  | cons a d =>
    have := takeWhile_digits d r (fun c hc => hd.2 c (List.mem_cons_of_mem _ hc)) hr
    rw [List.cons_append]
    unfold readExp
    simp only
    rw [if_pos he]
    rw [if_pos (hd.2 a (List.mem_cons_self ..)), this.1, this.2]

theorem readExp_signed (e g : Nat) (he : e = 101 ∨ e = 69) (hg : g = 45 ∨ g = 43) (d r : Str) (hd : Digits d)
    (hr : NoDigit r) : readExp (e :: g :: (d ++ r)) = (some (e, some g, d), r) := by
  cases d with
  | nil => exact absurd rfl hd.1
  | cons a d =>
    have := takeWhile_digits d r (fun c hc => hd.2 c (List.mem_cons_of_mem _ hc)) hr
    have hgd : ¬ isDigit g = true := by rcases hg with rfl | rfl <;> decide
    rw [List.cons_append]
    unfold readExp
    simp only
    rw [if_pos he]
    rw [if_neg hgd, if_pos hg, if_pos (hd.2 a (List.mem_cons_self ..)), this.1, this.2]

theorem readNum_of {neg : Bool} {i t : Str} {x : Num} (hd : Digits i) (hl : i = [48] ∨ i.head? ≠ some 48) (ht : NoDigit t)
    {r1 r2 : Str} (h1 : readFrac t = (x.frac, r1)) (h2 : readExp r1 = (x.exp, r2)) (hx : x.neg = neg) (hi : x.int = i) :
    readNum ((if neg then [45] else []) ++ (i ++ t)) = some (x, r2) := by
  have hhead : ((if neg then [45] else []) ++ (i ++ t)).head? = some 45 ↔ neg = true := by
    cases neg with
    | true => simp
    | false =>
      cases i with
      | nil => exact absurd rfl hd.1
      | cons a i =>
        have := hd.2 a (List.mem_cons_self ..)
        simp only [isDigit, Bool.and_eq_true, decide_eq_true_eq] at this
        simp only [Bool.false_eq_true, if_false, List.nil_append, List.cons_append, List.head?_cons, Option.some.injEq,
          iff_false]
        omega
  have hb : (((if neg then [45] else []) ++ (i ++ t) : Str).head? == some 45) = neg := by
    cases neg with
    | true => exact beq_iff_eq.2 (hhead.2 rfl)
    | false =>
      cases hq : (((if false = true then [45] else []) ++ (i ++ t) : Str).head? == some 45) with
      | false => rfl
      | true => exact absurd (hhead.1 (beq_iff_eq.1 hq)) (by decide)
  unfold readNum
  simp only [hb]
  have htl : (if neg = true then ((if neg = true then [45] else []) ++ (i ++ t) : Str).tail
      else (if neg = true then [45] else []) ++ (i ++ t)) = i ++ t := by
    cases neg <;> rfl
  rw [htl, readIntPart_ok i t hd hl ht]
  simp only [h1, h2]
  obtain ⟨a, b, c, d⟩ := x
  simp only at hx hi
  subst hx hi
  rfl

theorem Delim.noDigit {r : Str} (h : Delim r) : NoDigit r := fun c hc => (h c hc).1

theorem readNum_int (n : Int) (r : Str) (hr : Delim r) :
    ∃ x, readNum (dumpInt n ++ r) = some (x, r) ∧ numVal x = .int n := by
  obtain ⟨h1, h2, h3⟩ := natDigits_spec n.natAbs
  have key : ∀ neg : Bool, readNum ((if neg then [45] else []) ++ (natDigits n.natAbs ++ r)) =
      some (⟨neg, natDigits n.natAbs, none, none⟩, r) := fun neg =>
    readNum_of h1 h3 hr.noDigit (x := ⟨neg, natDigits n.natAbs, none, none⟩)
      (readFrac_none r (fun c hc => (hr c hc).2.1)) (readExp_none r (fun c hc => (hr c hc).2.2)) rfl rfl
  unfold dumpInt
  by_cases hn : n < 0
  · rw [if_pos hn]
    refine ⟨_, key true, ?_⟩
    simp only [numVal, h2, if_true]
    congr 1
    omega
  · rw [if_neg hn]
    refine ⟨_, key false, ?_⟩
    simp only [numVal, h2, Bool.false_eq_true, if_false]
    congr 1
    omega

theorem numVal_float (x : Num) (h : x.frac ≠ none ∨ x.exp ≠ none) : numVal x = .flt x := by
  unfold numVal
  cases hf : x.frac with
  | some f => rfl
  | none =>
    cases he : x.exp with
    | some e => rfl
    | none =>
      rcases h with h | h
      · exact absurd hf h
      · exact absurd he h

theorem readNum_flt (x : Num) (hx : x.Wf) (r : Str) (hr : Delim r) :
    readNum (dumpNum x ++ r) = some (x, r) := by
  have hassoc : dumpNum x ++ r = (if x.neg then [45] else []) ++ (x.int ++ (dumpFrac x.frac ++ (dumpExp x.exp ++ r))) := by
    unfold dumpNum
    simp only [List.append_assoc]
  rw [hassoc]
  -- the exponent
  have hexp : ∃ t, dumpExp x.exp ++ r = t ∧ readExp t = (x.exp, r) ∧ NoDigit t ∧ ∀ c ∈ t.head?, c ≠ 46 := by
    refine ⟨_, rfl, ?_⟩
    cases he : x.exp with
    | none =>
      exact ⟨readExp_none r (fun c hc => (hr c hc).2.2), hr.noDigit, fun c hc => (hr c hc).2.1⟩
    | some p =>
      obtain ⟨e, g, d⟩ := p
      obtain ⟨h1, h2, h3⟩ := hx.exp e g d he
      have hh : ∀ c ∈ some e, isDigit c = false ∧ c ≠ 46 := by
        intro c hc
        cases hc
        rcases h1 with rfl | rfl <;> decide
      cases g with
      | none => exact ⟨readExp_unsigned e h1 d r h2 hr.noDigit, fun c hc => (hh c hc).1, fun c hc => (hh c hc).2⟩
      | some g => exact ⟨readExp_signed e g h1 (h3 g rfl) d r h2 hr.noDigit, fun c hc => (hh c hc).1, fun c hc => (hh c hc).2⟩
  obtain ⟨t, ht, h1, h2, h3⟩ := hexp
  have hfrac : NoDigit (dumpFrac x.frac ++ t) ∧ readFrac (dumpFrac x.frac ++ t) = (x.frac, t) := by
    cases hf : x.frac with
    | none => exact ⟨h2, readFrac_none t h3⟩
    | some f =>
      refine ⟨?_, readFrac_some f t (hx.frac f hf) h2⟩
      intro c hc
      cases hc
      decide
  rw [ht]
  exact readNum_of hx.int hx.lead hfrac.1 hfrac.2 h1 rfl rfl

/-! ## Values -/

def isWs (c : Nat) : Prop := c = 32 ∨ c = 9 ∨ c = 10 ∨ c = 13

theorem skipWs_of {c : Nat} {r : Str} (h : ¬ isWs c) : skipWs (c :: r) = c :: r := by
  rw [skipWs]; exact if_neg h

/-- How a written value begins. -/
def Start (c : Nat) : Prop := c = 34 ∨ c = 123 ∨ c = 91 ∨ c = 110 ∨ c = 116 ∨ c = 102 ∨ c = 45 ∨ isDigit c = true

theorem Start.plain {c : Nat} (h : Start c) : ¬ isWs c ∧ c ≠ 93 ∧ c ≠ 125 := by
  unfold Start isDigit at h
  simp only [Bool.and_eq_true, decide_eq_true_eq] at h
  unfold isWs
  omega

theorem digits_start {s : Str} (h : Digits s) : ∃ c r, s = c :: r ∧ isDigit c = true := by
  cases s with
  | nil => exact absurd rfl h.1
  | cons c r => exact ⟨c, r, rfl, h.2 c (List.mem_cons_self ..)⟩

theorem dumpInt_start (n : Int) : ∃ c r, dumpInt n = c :: r ∧ (c = 45 ∨ isDigit c = true) := by
  unfold dumpInt
  obtain ⟨c, r, h1, h2⟩ := digits_start (natDigits_spec n.natAbs).1
  split
  · exact ⟨_, _, rfl, .inl rfl⟩
  · exact ⟨c, r, h1, .inr h2⟩

theorem dumpNum_start (x : Num) (hx : x.Wf) : ∃ c r, dumpNum x = c :: r ∧ (c = 45 ∨ isDigit c = true) := by
  unfold dumpNum
  obtain ⟨c, r, h1, h2⟩ := digits_start hx.int
  split
  · exact ⟨_, _, rfl, .inl rfl⟩
  · exact ⟨c, _, by rw [h1]; rfl, .inr h2⟩

theorem dumps_start (v : J) (hv : v.Wf) : ∃ c r, dumps v = c :: r ∧ Start c := by
  cases v with
  | null => exact ⟨_, _, by rw [dumps], by unfold Start; omega⟩
  | bool b => cases b <;> exact ⟨_, _, by rw [dumps], by unfold Start; omega⟩
  | int n =>
    obtain ⟨c, r, h1, h2⟩ := dumpInt_start n
    refine ⟨c, r, by rw [dumps, h1], ?_⟩
    rcases h2 with h2 | h2
    · unfold Start; omega
    · unfold Start; simp only [h2, or_true]
  | flt x =>
    rw [J.Wf] at hv
    obtain ⟨c, r, h1, h2⟩ := dumpNum_start x hv
    refine ⟨c, r, by rw [dumps, h1], ?_⟩
    rcases h2 with h2 | h2
    · unfold Start; omega
    · unfold Start; simp only [h2, or_true]
  | str s => exact ⟨_, _, by rw [dumps, dumpStr], by unfold Start; omega⟩
  | arr l => exact ⟨_, _, by rw [dumps], by unfold Start; omega⟩
  | obj l => exact ⟨_, _, by rw [dumps], by unfold Start; omega⟩

theorem readVal_number (f c : Nat) (r : Str) (h : c = 45 ∨ isDigit c = true) :
    readVal (f + 1) (c :: r) = (readNum (c :: r)).map (fun p => (numVal p.1, p.2)) := by
  have hc : c = 45 ∨ (48 ≤ c ∧ c ≤ 57) := by
    unfold isDigit at h
    simp only [Bool.and_eq_true, decide_eq_true_eq] at h
    exact h
  rw [readVal.eq_def]
  simp only
  split
  · rename_i h; injection h with h; omega
  · rename_i h; injection h with h; omega
  · rename_i h; injection h with h; omega
  · rename_i h; injection h with h; omega
  · rename_i h; injection h with h; omega
  · rename_i h; injection h with h; omega
  · rfl

mutual
/-- The depth of calls that reading a written value takes. -/
def need : J → Nat
  | .arr l => 1 + needElems l
  | .obj l => 1 + needMembers l
  | _ => 1
def needElems : List J → Nat
  | [] => 0
  | x :: xs => 1 + need x + needElems xs
def needMembers : List (Str × J) → Nat
  | [] => 0
  | (_, x) :: xs => 1 + need x + needMembers xs
end

theorem dictSet_new (d : List (Str × J)) (k : Str) (v : J) (h : k ∉ d.map Prod.fst) : dictSet d k v = d ++ [(k, v)] := by
  induction d with
  | nil => rfl
  | cons p d ih =>
    obtain ⟨k', v'⟩ := p
    rw [List.map_cons, List.mem_cons, not_or] at h
    rw [dictSet, if_neg (fun he => h.1 he.symm), ih h.2, List.cons_append]

theorem dictOfPairs_nodup (l : List (Str × J)) (h : (l.map Prod.fst).Nodup) : dictOfPairs l = l := by
  have key : ∀ (l d : List (Str × J)), ((d ++ l).map Prod.fst).Nodup →
      l.foldl (fun d p => dictSet d p.1 p.2) d = d ++ l := by
    intro l
    induction l with
    | nil => intro d _; rw [List.foldl_nil, List.append_nil]
    | cons p l ih =>
      intro d hd
      rw [List.foldl_cons, dictSet_new, ih]
      · rw [List.append_assoc]; rfl
      · rw [List.append_assoc]; exact hd
      · intro hm
        rw [List.map_append, List.nodup_append] at hd
        exact hd.2.2 _ hm _ (List.mem_map.2 ⟨p, List.mem_cons_self .., rfl⟩) rfl
  exact key l [] h

theorem delim_of {c : Nat} {r : Str} (h : c = 44 ∨ c = 93 ∨ c = 125) : Delim (c :: r) := by
  intro x hx
  cases hx
  rcases h with rfl | rfl | rfl <;> decide

theorem dumpElems_head (x : J) (xs : List J) (hx : x.Wf) (t : Str) :
    ∃ c r, dumpElems (x :: xs) ++ t = c :: r ∧ Start c := by
  obtain ⟨c, r, h1, h2⟩ := dumps_start x hx
  exact ⟨c, _, by rw [dumpElems, h1]; rfl, h2⟩

theorem dumpMembers_head (p : Str × J) (xs : List (Str × J)) (t : Str) :
    ∃ r, dumpMembers (p :: xs) ++ t = 34 :: r := by
  obtain ⟨k, x⟩ := p
  exact ⟨_, by rw [dumpMembers, dumpStr]; rfl⟩

mutual
theorem readVal_dumps (v : J) (hv : v.Wf) (f : Nat) (hf : need v ≤ f) (r : Str) (hr : Delim r) :
    readVal f (dumps v ++ r) = some (v, r) := by
  match f, v, hv, hf with
  | 0, .null, _, hf | 0, .bool _, _, hf | 0, .int _, _, hf | 0, .flt _, _, hf | 0, .str _, _, hf | 0, .arr _, _, hf
  | 0, .obj _, _, hf => simp only [need] at hf; omega
  | f + 1, .null, _, _ => rw [dumps]; rfl
  | f + 1, .bool true, _, _ => rw [dumps]; rfl
  | f + 1, .bool false, _, _ => rw [dumps]; rfl
  | f + 1, .int n, _, _ =>
    obtain ⟨c, t, h1, h2⟩ := dumpInt_start n
    obtain ⟨x, h3, h4⟩ := readNum_int n r hr
    rw [dumps]
    rw [h1, List.cons_append] at h3 ⊢
    rw [readVal_number f c _ h2, h3, Option.map_some, h4]
  | f + 1, .flt x, hv, _ =>
    rw [J.Wf] at hv
    obtain ⟨c, t, h1, h2⟩ := dumpNum_start x hv
    have h3 := readNum_flt x hv r hr
    rw [dumps]
    rw [h1, List.cons_append] at h3 ⊢
    rw [readVal_number f c _ h2, h3, Option.map_some, numVal_float x hv.float]
  | f + 1, .str s, hv, _ =>
    rw [J.Wf] at hv
    rw [dumps, dumpStr, List.cons_append, List.append_assoc, List.singleton_append, readVal, readStr_dump s hv]
    rfl
  | f + 1, .arr [], _, _ => rw [dumps, dumpElems]; rfl
  | f + 1, .arr (x :: xs), hv, hf =>
    rw [J.Wf] at hv
    rw [need] at hf
    have hx : x.Wf := by rw [elemsWf] at hv; exact hv.1
    have ih := readElems_dumps x xs hv f (by omega) r
    obtain ⟨c, t, h1, h2⟩ := dumpElems_head x xs hx (93 :: r)
    rw [dumps, List.cons_append, List.append_assoc, List.singleton_append, readVal]
    rw [h1] at ih ⊢
    rw [skipWs_of h2.plain.1]
    split
    · rename_i h; injection h with h; exact absurd h h2.plain.2.1
    · rw [ih]; rfl
  | f + 1, .obj [], _, _ => rw [dumps, dumpMembers]; rfl
  | f + 1, .obj (p :: xs), hv, hf =>
    rw [J.Wf] at hv
    rw [need] at hf
    have ih := readMembers_dumps p xs hv.2 f (by omega) r
    obtain ⟨t, h1⟩ := dumpMembers_head p xs (125 :: r)
    rw [dumps, List.cons_append, List.append_assoc, List.singleton_append, readVal]
    rw [h1] at ih ⊢
    rw [skipWs_of (by unfold isWs; omega)]
    simp only
    rw [ih, Option.map_some, dictOfPairs_nodup _ hv.1]

theorem readElems_dumps (x : J) (xs : List J) (hv : elemsWf (x :: xs)) (f : Nat) (hf : needElems (x :: xs) ≤ f) (r : Str) :
    readElems f (dumpElems (x :: xs) ++ 93 :: r) = some (x :: xs, r) := by
  rw [elemsWf] at hv
  rw [needElems] at hf
  match f, xs, hv, hf with
  | 0, _, _, hf => omega
  | f + 1, [], hv, hf =>
    have ih := readVal_dumps x hv.1 f (by omega) (93 :: r) (delim_of (by omega))
    rw [dumpElems, List.isEmpty_nil, if_pos rfl, List.append_nil, readElems, ih]
    rfl
  | f + 1, y :: ys, hv, hf =>
    have ih := readVal_dumps x hv.1 f (by omega) (44 :: 32 :: (dumpElems (y :: ys) ++ 93 :: r)) (delim_of (by omega))
    have ih2 := readElems_dumps y ys hv.2 f (by omega) r
    have hy : y.Wf := by have := hv.2; rw [elemsWf] at this; exact this.1
    obtain ⟨c, t, h1, h2⟩ := dumpElems_head y ys hy (93 :: r)
    rw [dumpElems, if_neg (by simp), List.append_assoc, List.cons_append, List.cons_append, readElems, ih]
    rw [h1] at ih2 ⊢
    simp only
    rw [skipWs_of (by unfold isWs; omega)]
    simp only
    rw [skipWs, if_pos (.inl rfl), skipWs_of h2.plain.1, ih2]
    rfl

theorem readMembers_dumps (p : Str × J) (xs : List (Str × J)) (hv : membersWf (p :: xs)) (f : Nat)
    (hf : needMembers (p :: xs) ≤ f) (r : Str) :
    readMembers f (dumpMembers (p :: xs) ++ 125 :: r) = some (p :: xs, r) := by
  match p with
  | (k, x) =>
  rw [membersWf] at hv
  rw [needMembers] at hf
  obtain ⟨c, t, h1, h2⟩ := dumps_start x hv.2.1
  match f, xs, hv, hf with
  | 0, _, _, hf => omega
  | f + 1, [], hv, hf =>
    have ih := readVal_dumps x hv.2.1 f (by omega) (125 :: r) (delim_of (by omega))
    rw [dumpMembers, List.isEmpty_nil, if_pos rfl, List.append_nil, dumpStr]
    simp only [List.cons_append, List.append_assoc, List.nil_append]
    rw [readMembers, readStr_dump k hv.1]
    simp only
    rw [skipWs_of (by unfold isWs; omega)]
    simp only
    rw [skipWs, if_pos (.inl rfl)]
    rw [h1, List.cons_append] at ih ⊢
    rw [skipWs_of h2.plain.1, ih]
    rfl
  | f + 1, q :: ys, hv, hf =>
    have ih := readVal_dumps x hv.2.1 f (by omega) (44 :: 32 :: (dumpMembers (q :: ys) ++ 125 :: r)) (delim_of (by omega))
    have ih2 := readMembers_dumps q ys hv.2.2 f (by omega) r
    obtain ⟨t2, h3⟩ := dumpMembers_head q ys (125 :: r)
    rw [dumpMembers, if_neg (by simp), dumpStr]
    simp only [List.cons_append, List.append_assoc, List.nil_append]
    rw [readMembers, readStr_dump k hv.1]
    simp only
    rw [skipWs_of (by unfold isWs; omega)]
    simp only
    rw [skipWs, if_pos (.inl rfl)]
    rw [h1, List.cons_append] at ih ⊢
    rw [skipWs_of h2.plain.1, ih]
    rw [h3] at ih2 ⊢
    simp only
    rw [skipWs_of (by unfold isWs; omega)]
    simp only
    rw [skipWs, if_pos (.inl rfl), skipWs_of (by unfold isWs; omega), ih2]
    rfl
end

mutual
theorem need_le (v : J) (hv : v.Wf) : need v ≤ (dumps v).length := by
  match v, hv with
  | .null, _ => rw [need, dumps] <;> simp
  | .bool true, _ => rw [need, dumps] <;> simp
  | .bool false, _ => rw [need, dumps] <;> simp
  | .int n, hv =>
    obtain ⟨c, r, h, _⟩ := dumps_start (.int n) hv
    rw [h]; simp [need]
  | .flt n, hv =>
    obtain ⟨c, r, h, _⟩ := dumps_start (.flt n) hv
    rw [h]; simp [need]
  | .str n, hv =>
    obtain ⟨c, r, h, _⟩ := dumps_start (.str n) hv
    rw [h]; simp [need]
  | .arr l, hv =>
    rw [J.Wf] at hv
    have := needElems_le l hv
    rw [need, dumps, List.length_cons, List.length_append, List.length_singleton]
    omega
  | .obj l, hv =>
    rw [J.Wf] at hv
    have := needMembers_le l hv.2
    rw [need, dumps, List.length_cons, List.length_append, List.length_singleton]
    omega

/-- One more than the text is long is enough, for the last element. -/
theorem needElems_le (l : List J) (hv : elemsWf l) : needElems l ≤ (dumpElems l).length + 1 := by
  match l, hv with
  | [], _ => rw [needElems]; omega
  | [x], hv =>
    rw [elemsWf] at hv
    have := need_le x hv.1
    rw [needElems, needElems, dumpElems, List.isEmpty_nil, if_pos rfl, List.append_nil]
    omega
  | x :: y :: ys, hv =>
    rw [elemsWf] at hv
    have h1 := need_le x hv.1
    have h2 := needElems_le (y :: ys) hv.2
    rw [needElems, dumpElems, if_neg (by simp), List.length_append, List.length_cons, List.length_cons]
    omega

theorem needMembers_le (l : List (Str × J)) (hv : membersWf l) : needMembers l ≤ (dumpMembers l).length + 1 := by
  match l, hv with
  | [], _ => rw [needMembers]; omega
  | [(k, x)], hv =>
    rw [membersWf] at hv
    have := need_le x hv.2.1
    rw [needMembers, needMembers, dumpMembers, List.isEmpty_nil, if_pos rfl, List.append_nil, List.length_append,
      List.length_cons, List.length_cons]
    omega
  | (k, x) :: q :: ys, hv =>
    rw [membersWf] at hv
    have h1 := need_le x hv.2.1
    have h2 := needMembers_le (q :: ys) hv.2.2
    rw [needMembers, dumpMembers, if_neg (by simp)]
    simp only [List.length_append, List.length_cons]
    omega
end

/-- `json.loads(json.dumps(v)) == v`. -/
theorem loads_dumps (v : J) (hv : v.Wf) : loads (dumps v) = some v := by
  obtain ⟨c, r, h1, h2⟩ := dumps_start v hv
  have h3 : skipWs (dumps v) = dumps v := by rw [h1, skipWs_of h2.plain.1]
  have h4 := readVal_dumps v hv ((dumps v).length + 1) (by have := need_le v hv; omega) [] (fun c hc => by cases hc)
  rw [List.append_nil] at h4
  unfold loads
  rw [h3, h4]
  simp only
  rw [if_pos (by rw [skipWs])]

/-! ## The text is ASCII -/

theorem ascii_hex (n : Nat) (h : n < 16) : hexDigit n < 128 := by unfold hexDigit; split <;> omega

theorem ascii_uEsc (n : Nat) : ∀ c ∈ uEsc n, c < 128 := by
  intro c hc
  unfold uEsc at hc
  simp only [List.mem_cons, List.mem_nil_iff, or_false] at hc
  rcases hc with rfl | rfl | rfl | rfl | rfl | rfl
  · omega
  · omega
  all_goals exact ascii_hex _ (Nat.mod_lt _ (by omega))

theorem ascii_escChar (x : Nat) : ∀ c ∈ escChar x, c < 128 := by
  unfold escChar
  repeat' split
  all_goals first
    | exact ascii_uEsc _
    | (intro c hc
       simp only [List.mem_cons, List.mem_nil_iff, or_false] at hc
       omega)
    | (intro c hc
       rcases List.mem_append.1 hc with hc | hc <;> exact ascii_uEsc _ c hc)

theorem ascii_dumpStr (s : Str) : ∀ c ∈ dumpStr s, c < 128 := by
  intro c hc
  unfold dumpStr at hc
  rcases List.mem_cons.1 hc with rfl | hc
  · omega
  rcases List.mem_append.1 hc with hc | hc
  · obtain ⟨x, _, hx⟩ := List.mem_flatMap.1 hc
    exact ascii_escChar x c hx
  · rw [List.mem_singleton] at hc; omega

theorem ascii_digits {s : Str} (h : Digits s) : ∀ c ∈ s, c < 128 := by
  intro c hc
  have := h.2 c hc
  simp only [isDigit, Bool.and_eq_true, decide_eq_true_eq] at this
  omega

theorem ascii_dumpInt (n : Int) : ∀ c ∈ dumpInt n, c < 128 := by
  have h := ascii_digits (natDigits_spec n.natAbs).1
  unfold dumpInt
  split
  · intro c hc
    rcases List.mem_cons.1 hc with rfl | hc
    · omega
    · exact h c hc
  · exact h

theorem ascii_dumpNum (x : Num) (hx : x.Wf) : ∀ c ∈ dumpNum x, c < 128 := by
  intro c hc
  unfold dumpNum at hc
  rcases List.mem_append.1 hc with hc | hc
  · split at hc
    · rw [List.mem_singleton] at hc; omega
    · cases hc
  rcases List.mem_append.1 hc with hc | hc
  · exact ascii_digits hx.int c hc
  rcases List.mem_append.1 hc with hc | hc
  · cases hf : x.frac with
    | none => rw [hf] at hc; cases hc
    | some f =>
      rw [hf, dumpFrac] at hc
      rcases List.mem_cons.1 hc with rfl | hc
      · omega
      · exact ascii_digits (hx.frac f hf) c hc
  · cases he : x.exp with
    | none => rw [he] at hc; cases hc
    | some p =>
      obtain ⟨e, g, d⟩ := p
      obtain ⟨h1, h2, h3⟩ := hx.exp e g d he
      rw [he] at hc
      cases g with
      | none =>
        rw [dumpExp] at hc
        rcases List.mem_cons.1 hc with rfl | hc
        · omega
        · exact ascii_digits h2 c hc
      | some g =>
        have := h3 g rfl
        rw [dumpExp] at hc
        rcases List.mem_cons.1 hc with rfl | hc
        · omega
        rcases List.mem_cons.1 hc with rfl | hc
        · omega
        · exact ascii_digits h2 c hc

mutual
theorem ascii_dumps (v : J) (hv : v.Wf) : ∀ c ∈ dumps v, c < 128 := by
  match v, hv with
  | .null, _ => rw [dumps]; decide
  | .bool true, _ => rw [dumps]; decide
  | .bool false, _ => rw [dumps]; decide
  | .int n, _ => rw [dumps]; exact ascii_dumpInt n
  | .flt x, hv => rw [J.Wf] at hv; rw [dumps]; exact ascii_dumpNum x hv
  | .str s, _ => rw [dumps]; exact ascii_dumpStr s
  | .arr l, hv =>
    rw [J.Wf] at hv
    have := ascii_elems l hv
    rw [dumps]
    intro c hc
    rcases List.mem_cons.1 hc with rfl | hc
    · omega
    rcases List.mem_append.1 hc with hc | hc
    · exact this c hc
    · rw [List.mem_singleton] at hc; omega
  | .obj l, hv =>
    rw [J.Wf] at hv
    have := ascii_members l hv.2
    rw [dumps]
    intro c hc
    rcases List.mem_cons.1 hc with rfl | hc
    · omega
    rcases List.mem_append.1 hc with hc | hc
    · exact this c hc
    · rw [List.mem_singleton] at hc; omega

theorem ascii_elems (l : List J) (hv : elemsWf l) : ∀ c ∈ dumpElems l, c < 128 := by
  match l, hv with
  | [], _ => rw [dumpElems]; intro c hc; cases hc
  | x :: xs, hv =>
    rw [elemsWf] at hv
    have h1 := ascii_dumps x hv.1
    have h2 := ascii_elems xs hv.2
    rw [dumpElems]
    intro c hc
    rcases List.mem_append.1 hc with hc | hc
    · exact h1 c hc
    · split at hc
      · cases hc
      · rcases List.mem_cons.1 hc with rfl | hc
        · omega
        rcases List.mem_cons.1 hc with rfl | hc
        · omega
        · exact h2 c hc

theorem ascii_members (l : List (Str × J)) (hv : membersWf l) : ∀ c ∈ dumpMembers l, c < 128 := by
  match l, hv with
  | [], _ => rw [dumpMembers]; intro c hc; cases hc
  | (k, x) :: xs, hv =>
    rw [membersWf] at hv
    have h1 := ascii_dumps x hv.2.1
    have h2 := ascii_members xs hv.2.2
    rw [dumpMembers]
    intro c hc
    rcases List.mem_append.1 hc with hc | hc
    · exact ascii_dumpStr k c hc
    rcases List.mem_cons.1 hc with rfl | hc
    · omega
    rcases List.mem_cons.1 hc with rfl | hc
    · omega
    rcases List.mem_append.1 hc with hc | hc
    · exact h1 c hc
    · split at hc
      · cases hc
      · rcases List.mem_cons.1 hc with rfl | hc
        · omega
        rcases List.mem_cons.1 hc with rfl | hc
        · omega
        · exact h2 c hc
end

end Verif.Json

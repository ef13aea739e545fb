import Verif.Grain.Heap

/-!
# C56: copies of grains

A deep copy of a grain looks the same as the grain, whatever is inside, and shares no object with it: whatever a program does to
the copy cannot be seen in the grain, and the other way round. A shallow copy shares everything inside the outer dictionary.
-/

namespace Verif.Heap

open Verif

variable {A : Type}

/-! ## Observation and reachability -/

/-- `r` can be reached from `v` by following references. -/
inductive Reach (h : Heap A) : Val A → Nat → Prop
  | here (r : Nat) : Reach h (.ref r) r
  | child {r : Nat} {o : Obj A} {v : Val A} {x : Nat} (ho : h[r]? = some o) (hv : v ∈ o.children) (hx : Reach h v x) :
      Reach h (.ref r) x

theorem at_mem {o : Obj A} {a : Acc} {v : Val A} (h : o.at a = some v) : v ∈ o.children := by
  cases o with
  | dict kvs =>
    cases a with
    | key k =>
      simp only [Obj.at, Option.map_eq_some_iff] at h
      obtain ⟨p, hp, rfl⟩ := h
      exact List.mem_map_of_mem (List.mem_of_find?_eq_some hp)
    | idx i => simp [Obj.at] at h
  | list vs =>
    cases a with
    | key k => simp [Obj.at] at h
    | idx i => exact List.mem_of_getElem? (i := i) (by simpa [Obj.at, Obj.children] using h)
  | buf bs => cases a <;> simp [Obj.at] at h

/-- Two heaps that agree on all that can be reached from a value show the same. -/
theorem look_congr {h h' : Heap A} :
    ∀ (p : List Acc) (v : Val A), (∀ r, Reach h v r → h'[r]? = h[r]?) → look h' v p = look h v p := by
  intro p
  induction p with
  | nil =>
    intro v hv
    cases v with
    | atom a => simp [look]
    | ref r => simp [look, hv r (.here r)]
  | cons a p ih =>
    intro v hv
    cases v with
    | atom a => simp [look]
    | ref r =>
      simp only [look, hv r (.here r)]
      cases ho : h[r]? with
      | none => rfl
      | some o =>
        simp only []
        cases hat : o.at a with
        | none => rfl
        | some w => exact ih w (fun x hx => hv x (.child ho (at_mem hat) hx))

/-! ## What `deep` keeps -/

/-- Values related by a renaming of references. -/
def Rel (m : Nat → Option Nat) : Val A → Val A → Prop
  | .atom a, w => w = .atom a
  | .ref r, w => ∃ r', m r = some r' ∧ w = .ref r'

/-- Lists of related values. -/
inductive RelL (m : Nat → Option Nat) : List (Val A) → List (Val A) → Prop
  | nil : RelL m [] []
  | cons {v w : Val A} {vs ws : List (Val A)} (h : Rel m v w) (t : RelL m vs ws) : RelL m (v :: vs) (w :: ws)

theorem RelL.length {m : Nat → Option Nat} {vs ws : List (Val A)} (h : RelL m vs ws) : ws.length = vs.length := by
  induction h with
  | nil => rfl
  | cons _ _ ih => simp [ih]

theorem Rel.mono {m m' : Nat → Option Nat} (hm : ∀ r x, m r = some x → m' r = some x) {v w : Val A} (h : Rel m v w) :
    Rel m' v w := by
  cases v with
  | atom a => exact h
  | ref r => obtain ⟨r', h1, h2⟩ := h; exact ⟨r', hm _ _ h1, h2⟩

theorem RelL.mono {m m' : Nat → Option Nat} (hm : ∀ r x, m r = some x → m' r = some x) {vs ws : List (Val A)}
    (h : RelL m vs ws) : RelL m' vs ws := by
  induction h with
  | nil => exact .nil
  | cons h _ ih => exact .cons (h.mono hm) ih

/-- The copy of `r` is finished: it is filled with the copies of the contents of `r`. -/
def Done (h0 : Heap A) (s : St A) (r r' : Nat) : Prop :=
  ∃ o vs, h0[r]? = some o ∧ RelL s.memo o.children vs ∧ s.heap[r']? = some (o.refill vs)

/-- No reference leads to nothing: python has no dangling references. -/
def Closed (h : Heap A) : Prop :=
  ∀ (r : Nat) (o : Obj A), h[r]? = some o → ∀ x, Val.ref x ∈ o.children → x < h.length

/-- A value that refers to an object there is. -/
def Bound (h : Heap A) (v : Val A) : Prop := ∀ x, v = .ref x → x < h.length

/-- What holds while a deep copy of objects in `h0` is going on; `O` are the copies begun and not finished. -/
structure Inv (h0 : Heap A) (O : List Nat) (s : St A) : Prop where
  pre : ∀ r, r < h0.length → s.heap[r]? = h0[r]?
  len : h0.length ≤ s.heap.length
  img : ∀ r r', s.memo r = some r' → h0.length ≤ r' ∧ r' < s.heap.length
  dom : ∀ r r', s.memo r = some r' → r < h0.length
  done : ∀ r r', s.memo r = some r' → r ∈ O ∨ Done h0 s r r'
  inj : ∀ r1 r2 r', s.memo r1 = some r' → s.memo r2 = some r' → r1 = r2
  cover : ∀ r', h0.length ≤ r' → r' < s.heap.length → ∃ r, s.memo r = some r'

/-- What a step leaves alone. -/
structure Ext (h0 : Heap A) (s s' : St A) : Prop where
  memo : ∀ r x, s.memo r = some x → s'.memo r = some x
  heap : ∀ r, r < s.heap.length → s'.heap[r]? = s.heap[r]?
  len : s.heap.length ≤ s'.heap.length

theorem Ext.refl {h0 : Heap A} (s : St A) : Ext h0 s s := ⟨fun _ _ h => h, fun _ _ => rfl, Nat.le_refl _⟩

theorem Ext.trans {h0 : Heap A} {s s' s'' : St A} (a : Ext h0 s s') (b : Ext h0 s' s'') : Ext h0 s s'' :=
  ⟨fun r x h => b.memo r x (a.memo r x h), fun r h => (b.heap r (Nat.lt_of_lt_of_le h a.len)).trans (a.heap r h),
    Nat.le_trans a.len b.len⟩

/-- What one copying function is to do. -/
def Good (h0 : Heap A) (f : St A → Val A → Option (Val A × St A)) : Prop :=
  ∀ O s v w s', Inv h0 O s → Bound h0 v → f s v = some (w, s') → Inv h0 O s' ∧ Ext h0 s s' ∧ Rel s'.memo v w

theorem each_good {h0 : Heap A} {f : St A → Val A → Option (Val A × St A)} (hf : Good h0 f) :
    ∀ (vs : List (Val A)) (O : List Nat) (s : St A) (ws : List (Val A)) (s' : St A),
      Inv h0 O s → (∀ v ∈ vs, Bound h0 v) → eachVal f s vs = some (ws, s') → Inv h0 O s' ∧ Ext h0 s s' ∧ RelL s'.memo vs ws := by
  intro vs
  induction vs with
  | nil =>
    intro O s ws s' hi hb he
    simp only [eachVal, Option.some.injEq, Prod.mk.injEq] at he
    obtain ⟨rfl, rfl⟩ := he
    exact ⟨hi, .refl _, .nil⟩
  | cons v vs ih =>
    intro O s ws s' hi hb he
    simp only [eachVal] at he
    cases h1 : f s v with
    | none => rw [h1] at he; cases he
    | some x =>
      obtain ⟨w, s1⟩ := x
      rw [h1] at he
      simp only [] at he
      cases h2 : eachVal f s1 vs with
      | none => rw [h2] at he; cases he
      | some y =>
        obtain ⟨ws', s2⟩ := y
        rw [h2] at he
        simp only [Option.some.injEq, Prod.mk.injEq] at he
        obtain ⟨rfl, rfl⟩ := he
        obtain ⟨i1, e1, r1⟩ := hf O s v w s1 hi (hb v (List.mem_cons_self ..)) h1
        obtain ⟨i2, e2, r2⟩ := ih O s1 ws' s2 i1 (fun x hx => hb x (List.mem_cons_of_mem _ hx)) h2
        exact ⟨i2, e1.trans e2, .cons (r1.mono e2.memo) r2⟩

/-- The state in which the contents of `r` are copied. -/
def enter (s : St A) (r : Nat) : St A := ⟨s.heap ++ [.list []], fun x => if x = r then some s.heap.length else s.memo x⟩

theorem enter_good {h0 : Heap A} {O : List Nat} {s : St A} {r : Nat} (hi : Inv h0 O s) (hr : r < h0.length)
    (hm : s.memo r = none) : Inv h0 (r :: O) (enter s r) ∧ Ext h0 s (enter s r) := by
  generalize hs1 : enter s r = s1
  have hh1 : s1.heap = s.heap ++ [.list []] := by rw [← hs1]; rfl
  have hl1 : s1.heap.length = s.heap.length + 1 := by rw [hh1]; simp
  have hm1 : ∀ x, s1.memo x = if x = r then some s.heap.length else s.memo x := by intro x; rw [← hs1]; rfl
  have hm1r : s1.memo r = some s.heap.length := by rw [hm1, if_pos rfl]
  have hm1n : ∀ x, x ≠ r → s1.memo x = s.memo x := by intro x hx; rw [hm1, if_neg hx]
  have hlt : ∀ x x', s.memo x = some x' → x' < s.heap.length := fun x x' h => (hi.img x x' h).2
  have hg1 : ∀ x, x < s.heap.length → s1.heap[x]? = s.heap[x]? := by
    intro x hx
    rw [hh1, List.getElem?_append_left hx]
  have e1 : Ext h0 s s1 := by
    refine ⟨?_, hg1, by omega⟩
    intro x x' hx
    by_cases hxr : x = r
    · subst hxr; rw [hm] at hx; cases hx
    · rw [hm1n x hxr]; exact hx
  have i1 : Inv h0 (r :: O) s1 := by
    refine ⟨?_, ?_, ?_, ?_, ?_, ?_, ?_⟩
    · intro x hx
      rw [hg1 x (Nat.lt_of_lt_of_le hx hi.len)]; exact hi.pre x hx
    · have := hi.len; omega
    · intro x x' hx
      by_cases hxr : x = r
      · subst hxr; rw [hm1r] at hx; cases hx; exact ⟨hi.len, by omega⟩
      · rw [hm1n x hxr] at hx
        have := hi.img x x' hx
        omega
    · intro x x' hx
      by_cases hxr : x = r
      · subst hxr; exact hr
      · rw [hm1n x hxr] at hx; exact hi.dom x x' hx
    · intro x x' hx
      by_cases hxr : x = r
      · subst hxr; exact .inl (List.mem_cons_self ..)
      · rw [hm1n x hxr] at hx
        rcases hi.done x x' hx with h | ⟨o', vs', h1, h2, h3⟩
        · exact .inl (List.mem_cons_of_mem _ h)
        · exact .inr ⟨o', vs', h1, h2.mono e1.memo, (hg1 x' (hlt x x' hx)).trans h3⟩
    · intro x1 x2 x' h1 h2
      by_cases hx1 : x1 = r
      · by_cases hx2 : x2 = r
        · rw [hx1, hx2]
        · rw [hx1, hm1r] at h1
          rw [hm1n x2 hx2] at h2
          cases h1
          exact absurd (hlt x2 _ h2) (Nat.lt_irrefl _)
      · by_cases hx2 : x2 = r
        · rw [hx2, hm1r] at h2
          rw [hm1n x1 hx1] at h1
          cases h2
          exact absurd (hlt x1 _ h1) (Nat.lt_irrefl _)
        · rw [hm1n x1 hx1] at h1
          rw [hm1n x2 hx2] at h2
          exact hi.inj x1 x2 x' h1 h2
    · intro x' h1 h2
      by_cases hx : x' = s.heap.length
      · exact ⟨r, by rw [hx]; exact hm1r⟩
      · obtain ⟨x, h⟩ := hi.cover x' h1 (by omega)
        exact ⟨x, e1.memo _ _ h⟩

  exact ⟨i1, e1⟩

theorem deep_good {h0 : Heap A} (hc : Closed h0) : ∀ n, Good h0 (deep n) := by
  intro n
  induction n with
  | zero =>
    intro O s v w s' hi hb he
    cases v with
    | atom a =>
      simp only [deep, Option.some.injEq, Prod.mk.injEq] at he
      obtain ⟨rfl, rfl⟩ := he
      exact ⟨hi, .refl _, rfl⟩
    | ref r => simp [deep] at he
  | succ n ih =>
    intro O s v w s' hi hb he
    cases v with
    | atom a =>
      simp only [deep, Option.some.injEq, Prod.mk.injEq] at he
      obtain ⟨rfl, rfl⟩ := he
      exact ⟨hi, .refl _, rfl⟩
    | ref r =>
      simp only [deep] at he
      cases hm : s.memo r with
      | some r' =>
        rw [hm] at he
        simp only [Option.some.injEq, Prod.mk.injEq] at he
        obtain ⟨rfl, rfl⟩ := he
        exact ⟨hi, .refl _, r', hm, rfl⟩
      | none =>
        rw [hm] at he
        simp only [] at he
        cases ho : s.heap[r]? with
        | none => rw [ho] at he; cases he
        | some o =>
          rw [ho] at he
          simp only [] at he
          have hr : r < h0.length := hb r rfl
          have ho0 : h0[r]? = some o := by rw [← hi.pre r hr]; exact ho
          generalize hs1 : (⟨s.heap ++ [.list []], fun x => if x = r then some s.heap.length else s.memo x⟩ : St A) = s1 at he
          have hs1' : enter s r = s1 := hs1
          obtain ⟨i1, e1⟩ := enter_good hi hr hm
          rw [hs1'] at i1 e1
          have hl1 : s1.heap.length = s.heap.length + 1 := by rw [← hs1]; simp
          have hm1r : s1.memo r = some s.heap.length := by rw [← hs1]; simp
          cases h2 : eachVal (deep n) s1 o.children with
          | none => rw [h2] at he; cases he
          | some y =>
            obtain ⟨vs, s2⟩ := y
            rw [h2] at he
            simp only [Option.some.injEq, Prod.mk.injEq] at he
            obtain ⟨rfl, rfl⟩ := he
            have hbs : ∀ v ∈ o.children, Bound h0 v := by
              intro v hv x hx
              subst hx
              exact hc r o ho0 x hv
            obtain ⟨i2, e2, r2⟩ := each_good ih o.children (r :: O) s1 vs s2 i1 hbs h2
            have hm2r : s2.memo r = some s.heap.length := e2.memo _ _ hm1r
            have hl2 : s.heap.length < s2.heap.length := by have := e2.len; omega
            have hset : ∀ x, x ≠ s.heap.length → (s2.heap.set s.heap.length (o.refill vs))[x]? = s2.heap[x]? := by
              intro x hx
              rw [List.getElem?_set_ne (fun h => hx h.symm)]
            refine ⟨⟨?_, ?_, ?_, ?_, ?_, ?_, ?_⟩, ⟨?_, ?_, ?_⟩, ⟨_, hm2r, rfl⟩⟩
            · intro x hx
              show (s2.heap.set _ _)[x]? = _
              rw [hset x (by have := hi.len; omega)]
              exact i2.pre x hx
            · show h0.length ≤ (s2.heap.set _ _).length
              rw [List.length_set]; exact i2.len
            · intro x x' hx
              show _ ∧ x' < (s2.heap.set _ _).length
              rw [List.length_set]; exact i2.img x x' hx
            · exact i2.dom
            · intro x x' hx
              by_cases hxr : x = r
              · subst hxr
                have : some x' = some s.heap.length := by rw [← hm2r]; exact hx.symm
                cases this
                right
                refine ⟨o, vs, ho0, r2, ?_⟩
                show (s2.heap.set _ _)[s.heap.length]? = _
                rw [List.getElem?_set_self hl2]
              · rcases i2.done x x' hx with h | ⟨o', vs', h1, h2', h3⟩
                · rcases List.mem_cons.mp h with h | h
                  · exact absurd h hxr
                  · exact .inl h
                · right
                  refine ⟨o', vs', h1, h2', ?_⟩
                  show (s2.heap.set _ _)[x']? = _
                  rw [hset x' ?_]
                  · exact h3
                  · intro hx'
                    subst hx'
                    exact hxr (i2.inj x r _ hx hm2r)
            · exact i2.inj
            · intro x' h1 h2'
              have h3 : x' < s2.heap.length := by
                have : x' < (s2.heap.set s.heap.length (o.refill vs)).length := h2'
                rwa [List.length_set] at this
              exact i2.cover x' h1 h3
            · exact fun x x' hx => e2.memo _ _ (e1.memo _ _ hx)
            · intro x hx
              show (s2.heap.set _ _)[x]? = _
              rw [hset x (by omega), e2.heap x (by omega), e1.heap x hx]
            · show s.heap.length ≤ (s2.heap.set _ _).length
              rw [List.length_set]; omega

/-! ## The whole copy -/

theorem start_inv (h : Heap A) : Inv h [] ⟨h, fun _ => none⟩ :=
  ⟨fun _ _ => rfl, Nat.le_refl _, by simp, by simp, by simp, by simp,
    fun r' h1 h2 => absurd (show r' < h.length from h2) (by omega)⟩

theorem refill_children {m : Nat → Option Nat} {o : Obj A} {vs : List (Val A)} (h : RelL m o.children vs) :
    (o.refill vs).children = vs := by
  cases o with
  | dict kvs =>
    have hl := h.length
    simp only [Obj.children, List.length_map] at hl
    simp only [Obj.refill, Obj.children]
    rw [List.map_snd_zip]
    simp only [List.length_map]
    omega
  | list ws => rfl
  | buf bs => cases h; rfl

theorem refill_shape {m : Nat → Option Nat} {o : Obj A} {vs : List (Val A)} (h : RelL m o.children vs) :
    (o.refill vs).shape = o.shape := by
  have hl := h.length
  cases o with
  | dict kvs =>
    simp only [Obj.children, List.length_map] at hl
    simp only [Obj.refill, Obj.shape]
    rw [List.map_fst_zip]
    simp only [List.length_map]
    omega
  | list ws => simp only [Obj.children] at hl; simp only [Obj.refill, Obj.shape, hl]
  | buf bs => rfl

theorem find_zip {m : Nat → Option Nat} (k : String) :
    ∀ (kvs : List (String × Val A)) (vs : List (Val A)), RelL m (kvs.map Prod.snd) vs →
      match (kvs.find? (fun p => p.1 == k)).map Prod.snd with
      | none => ((((kvs.map Prod.fst).zip vs).find? (fun p => p.1 == k)).map Prod.snd) = none
      | some v => ∃ w, ((((kvs.map Prod.fst).zip vs).find? (fun p => p.1 == k)).map Prod.snd) = some w ∧ Rel m v w := by
  intro kvs
  induction kvs with
  | nil => intro vs h; simp
  | cons p kvs ih =>
    intro vs h
    cases h with
    | cons hv ht =>
      rename_i w ws
      simp only [List.map_cons, List.zip_cons_cons, List.find?_cons]
      cases hp : p.1 == k with
      | true => exact ⟨w, rfl, hv⟩
      | false => exact ih ws ht

theorem get_rel {m : Nat → Option Nat} : ∀ (i : Nat) (vs ws : List (Val A)), RelL m vs ws →
      match vs[i]? with
      | none => ws[i]? = none
      | some v => ∃ w, ws[i]? = some w ∧ Rel m v w := by
  intro i vs
  induction vs generalizing i with
  | nil => intro ws h; cases h; simp
  | cons v vs ih =>
    intro ws h
    cases h with
    | cons hv ht =>
      rename_i w ws
      cases i with
      | zero => exact ⟨w, rfl, hv⟩
      | succ i => simpa using ih i ws ht

theorem refill_at {m : Nat → Option Nat} {o : Obj A} {vs : List (Val A)} (h : RelL m o.children vs) (a : Acc) :
    match o.at a with
    | none => (o.refill vs).at a = none
    | some v => ∃ w, (o.refill vs).at a = some w ∧ Rel m v w := by
  cases o with
  | dict kvs =>
    cases a with
    | key k => exact find_zip k kvs vs h
    | idx i => rfl
  | list ws =>
    cases a with
    | key k => rfl
    | idx i => exact get_rel i ws vs h
  | buf bs => cases a <;> rfl

/-- The value at the end of a path. -/
def follow (h : Heap A) : Val A → List Acc → Option (Val A)
  | v, [] => some v
  | .atom _, _ :: _ => none
  | .ref r, a :: p =>
    match h[r]? with
    | none => none
    | some o =>
      match o.at a with
      | none => none
      | some v => follow h v p
termination_by _ p => p.length

theorem follow_rel {h0 : Heap A} {s : St A} (hi : Inv h0 [] s) :
    ∀ (p : List Acc) (v w : Val A), Rel s.memo v w →
      match follow h0 v p with
      | none => follow s.heap w p = none
      | some v' => ∃ w', follow s.heap w p = some w' ∧ Rel s.memo v' w' := by
  intro p
  induction p with
  | nil => intro v w h; simp only [follow]; exact ⟨w, rfl, h⟩
  | cons a p ih =>
    intro v w h
    cases v with
    | atom x => have : w = .atom x := h; subst this; simp [follow]
    | ref r =>
      obtain ⟨r', hm, rfl⟩ := h
      rcases hi.done r r' hm with h | ⟨o, vs, h1, h2, h3⟩
      · cases h
      · simp only [follow, h1, h3]
        have hat := refill_at h2 a
        cases ha : o.at a with
        | none => rw [ha] at hat; simp only [] at hat; rw [hat]
        | some v =>
          rw [ha] at hat
          obtain ⟨w, hw, hr⟩ := hat
          rw [hw]
          exact ih v w hr

theorem look_follow (h : Heap A) : ∀ (p : List Acc) (v : Val A), look h v p = (follow h v p).bind (fun w => look h w []) := by
  intro p
  induction p with
  | nil => intro v; simp [follow]
  | cons a p ih =>
    intro v
    cases v with
    | atom x => simp [look, follow]
    | ref r =>
      simp only [look, follow]
      cases h[r]? with
      | none => rfl
      | some o =>
        simp only []
        cases o.at a with
        | none => rfl
        | some v => exact ih v

theorem look_rel {h0 : Heap A} {s : St A} (hi : Inv h0 [] s) (p : List Acc) (v w : Val A) (h : Rel s.memo v w) :
    look s.heap w p = look h0 v p := by
  rw [look_follow s.heap, look_follow h0]
  have hf := follow_rel hi p v w h
  cases hv : follow h0 v p with
  | none => rw [hv] at hf; simp only [] at hf; rw [hf]; rfl
  | some v' =>
    rw [hv] at hf
    obtain ⟨w', hw, hr⟩ := hf
    rw [hw]
    show look s.heap w' [] = look h0 v' []
    cases v' with
    | atom x => have : w' = .atom x := hr; subst this; simp [look]
    | ref r =>
      obtain ⟨r', hm, rfl⟩ := hr
      rcases hi.done r r' hm with h | ⟨o, vs, h1, h2, h3⟩
      · cases h
      · simp [look, h1, h3, refill_shape h2]

theorem RelL.mem {m : Nat → Option Nat} {vs ws : List (Val A)} (h : RelL m vs ws) {w : Val A} (hw : w ∈ ws) :
    ∃ v ∈ vs, Rel m v w := by
  induction h with
  | nil => cases hw
  | cons hv _ ih =>
    rcases List.mem_cons.mp hw with rfl | h
    · exact ⟨_, List.mem_cons_self .., hv⟩
    · obtain ⟨v, h1, h2⟩ := ih h; exact ⟨v, List.mem_cons_of_mem _ h1, h2⟩

theorem new_children {h0 : Heap A} {s : St A} (hi : Inv h0 [] s) {r : Nat} {o : Obj A} (hr : h0.length ≤ r)
    (ho : s.heap[r]? = some o) {x : Nat} (hx : .ref x ∈ o.children) : h0.length ≤ x ∧ x < s.heap.length := by
  obtain ⟨hl, _⟩ := List.getElem?_eq_some_iff.mp ho
  obtain ⟨r0, hm⟩ := hi.cover r hr hl
  rcases hi.done r0 r hm with h | ⟨o', vs, h1, h2, h3⟩
  · cases h
  · rw [ho] at h3
    cases h3
    rw [refill_children h2] at hx
    obtain ⟨v, _, hv⟩ := h2.mem hx
    cases v with
    | atom a => cases hv
    | ref y =>
      obtain ⟨y', hy, he⟩ := hv
      cases he
      exact hi.img y _ hy

theorem closed_after {h0 : Heap A} {s : St A} (hc : Closed h0) (hi : Inv h0 [] s) : Closed s.heap := by
  intro r o ho x hx
  by_cases hr : r < h0.length
  · rw [hi.pre r hr] at ho
    exact Nat.lt_of_lt_of_le (hc r o ho x hx) hi.len
  · exact (new_children hi (Nat.le_of_not_lt hr) ho hx).2

theorem reach_new {h0 : Heap A} {s : St A} (hi : Inv h0 [] s) {v : Val A} {x : Nat} (h : Reach s.heap v x) :
    (∀ y, v = .ref y → h0.length ≤ y) → h0.length ≤ x := by
  induction h with
  | here r => intro hv; exact hv r rfl
  | child ho hv _ ih =>
    intro hr
    apply ih
    intro y hy
    subst hy
    exact (new_children hi (hr _ rfl) ho hv).1

theorem reach_lt {h : Heap A} (hc : Closed h) {v : Val A} {x : Nat} (hr : Reach h v x) (hb : Bound h v) : x < h.length := by
  induction hr with
  | here r => exact hb r rfl
  | child ho hv _ ih =>
    apply ih
    intro y hy
    subst hy
    exact hc _ _ ho y hv

theorem reach_congr {h h' : Heap A} {v : Val A} {x : Nat} (hr : Reach h' v x) :
    (∀ r, Reach h v r → h'[r]? = h[r]?) → Reach h v x := by
  induction hr with
  | here r => intro _; exact .here r
  | child ho hv _ ih =>
    intro hag
    have ho' := ho
    rw [hag _ (.here _)] at ho'
    exact .child ho' hv (ih (fun r h => hag r (.child ho' hv h)))

/-- One deep copy, from the outside. -/
theorem deep_spec {h : Heap A} (hc : Closed h) {n : Nat} {v w : Val A} {s : St A} (hb : Bound h v)
    (hd : deep n ⟨h, fun _ => none⟩ v = some (w, s)) :
    Inv h [] s ∧ Rel s.memo v w ∧ Closed s.heap ∧ Bound s.heap w ∧ (∀ y, w = .ref y → h.length ≤ y) := by
  obtain ⟨hi, _, hr⟩ := deep_good hc n [] _ v w s (start_inv h) hb hd
  refine ⟨hi, hr, closed_after hc hi, ?_, ?_⟩
  · intro y hy
    subst hy
    cases v with
    | atom a => cases hr
    | ref r => obtain ⟨r', hm, he⟩ := hr; cases he; exact (hi.img r _ hm).2
  · intro y hy
    subst hy
    cases v with
    | atom a => cases hr
    | ref r => obtain ⟨r', hm, he⟩ := hr; cases he; exact (hi.img r _ hm).1

/-! ## Enough depth -/

/-- No chain of references from `v` has more than `n` objects. -/
def Fits (h : Heap A) : Nat → Val A → Prop
  | _, .atom _ => True
  | 0, .ref _ => False
  | n + 1, .ref r => ∃ o, h[r]? = some o ∧ ∀ v ∈ o.children, Fits h n v

theorem fits_congr {h h' : Heap A} :
    ∀ (n : Nat) (v : Val A), Fits h n v → (∀ x, Reach h v x → h'[x]? = h[x]?) → Fits h' n v := by
  intro n
  induction n with
  | zero => intro v hf _; cases v with
    | atom a => trivial
    | ref r => exact hf.elim
  | succ n ih =>
    intro v hf hag
    cases v with
    | atom a => trivial
    | ref r =>
      obtain ⟨o, ho, hch⟩ := hf
      exact ⟨o, by rw [hag r (.here r)]; exact ho, fun c hc => ih c (hch c hc) (fun x hx => hag x (.child ho hc hx))⟩

theorem each_some {h0 : Heap A} {n : Nat} (hc : Closed h0)
    (ih : ∀ (O : List Nat) (s : St A) (v : Val A), Inv h0 O s → Fits h0 n v → ∃ w s', deep n s v = some (w, s')) :
    ∀ (vs : List (Val A)) (O : List Nat) (s : St A), Inv h0 O s → (∀ v ∈ vs, Bound h0 v) → (∀ v ∈ vs, Fits h0 n v) →
      ∃ ws s', eachVal (deep n) s vs = some (ws, s') := by
  intro vs
  induction vs with
  | nil => intro O s _ _ _; exact ⟨[], s, rfl⟩
  | cons v vs ihv =>
    intro O s hi hb hf
    obtain ⟨w, s1, h1⟩ := ih O s v hi (hf v (List.mem_cons_self ..))
    have i1 := (deep_good hc n O s v w s1 hi (hb v (List.mem_cons_self ..)) h1).1
    obtain ⟨ws, s2, h2⟩ := ihv O s1 i1 (fun x hx => hb x (List.mem_cons_of_mem _ hx)) (fun x hx => hf x (List.mem_cons_of_mem _ hx))
    exact ⟨w :: ws, s2, by simp only [eachVal, h1, h2]⟩

theorem deep_some {h0 : Heap A} (hc : Closed h0) :
    ∀ (n : Nat) (O : List Nat) (s : St A) (v : Val A), Inv h0 O s → Fits h0 n v → ∃ w s', deep n s v = some (w, s') := by
  intro n
  induction n with
  | zero =>
    intro O s v hi hf
    cases v with
    | atom a => exact ⟨.atom a, s, by simp only [deep]⟩
    | ref r => exact hf.elim
  | succ n ih =>
    intro O s v hi hf
    cases v with
    | atom a => exact ⟨.atom a, s, by simp only [deep]⟩
    | ref r =>
      obtain ⟨o, ho, hch⟩ := hf
      obtain ⟨hr, _⟩ := List.getElem?_eq_some_iff.mp ho
      have hos : s.heap[r]? = some o := by rw [hi.pre r hr]; exact ho
      simp only [deep]
      cases hm : s.memo r with
      | some r' => exact ⟨_, _, rfl⟩
      | none =>
        simp only [hos]
        have hb : ∀ v ∈ o.children, Bound h0 v := fun v hv x hx => hc r o ho x (hx ▸ hv)
        obtain ⟨ws, s2, h2⟩ := each_some hc ih o.children (r :: O) (enter s r) (enter_good hi hr hm).1 hb hch
        rw [show (⟨s.heap ++ [.list []], fun x => if x = r then some s.heap.length else s.memo x⟩ : St A) = enter s r from rfl, h2]
        exact ⟨_, _, rfl⟩

end Verif.Heap

namespace Verif.Props

open Verif Verif.Heap

variable {A : Type}

/-! ## Specification -/

/-- What a program gets hold of that has the values `vs`. -/
def reached (h : Heap A) (vs : List (Val A)) (x : Nat) : Prop := ∃ v ∈ vs, Reach h v x

/-- What a program can do that holds the objects `S`, in any number of steps: make objects that refer to objects it holds, and
replace the contents of objects it holds, again by values it holds. Assigning to a key, appending, deleting and writing bytes are
such replacements. -/
inductive Runs (h : Heap A) (S : Nat → Prop) : Heap A → (Nat → Prop) → Prop
  | start : Runs h S h S
  | alloc {h1 : Heap A} {S1 : Nat → Prop} (before : Runs h S h1 S1) (o : Obj A) (ho : ∀ x, .ref x ∈ o.children → S1 x) :
      Runs h S (h1 ++ [o]) (fun x => S1 x ∨ x = h1.length)
  | write {h1 : Heap A} {S1 : Nat → Prop} (before : Runs h S h1 S1) (r : Nat) (hr : S1 r) (o : Obj A)
      (ho : ∀ x, .ref x ∈ o.children → S1 x) : Runs h S (h1.set r o) S1

/-- What a program reads from objects it holds, it holds. -/
theorem runs_closed {h h' : Heap A} {S S' : Nat → Prop} (hr : Runs h S h' S')
    (hS : ∀ (r : Nat) (o : Obj A), S r → h[r]? = some o → ∀ x, .ref x ∈ o.children → S x) :
    ∀ (r : Nat) (o : Obj A), S' r → h'[r]? = some o → ∀ x, .ref x ∈ o.children → S' x := by
  induction hr with
  | start => exact hS
  | alloc _ o ho ih =>
    rename_i h1 S1 _
    intro r o' hr ho' x hx
    by_cases hlt : r < h1.length
    · rw [List.getElem?_append_left hlt] at ho'
      rcases hr with hr | hr
      · exact .inl (ih r o' hr ho' x hx)
      · omega
    · by_cases he : r = h1.length
      · subst he
        simp at ho'
        subst ho'
        exact .inl (ho x hx)
      · rw [List.getElem?_eq_none (by simp; omega)] at ho'
        cases ho'
  | write _ r hr o ho ih =>
    intro r' o' hr' ho' x hx
    by_cases he : r = r'
    · subst he
      rw [List.getElem?_set_self'] at ho'
      simp only [Option.map_eq_map, Option.map_eq_some_iff, Function.const] at ho'
      obtain ⟨_, _, rfl⟩ := ho'
      exact ho x hx
    · rw [List.getElem?_set_ne he] at ho'
      exact ih r' o' hr' ho' x hx

theorem runs_frame {h h' : Heap A} {S S' : Nat → Prop} (hr : Runs h S h' S') :
    h.length ≤ h'.length ∧ (∀ x, S' x → S x ∨ h.length ≤ x) ∧ (∀ x, x < h.length → ¬ S x → h'[x]? = h[x]?) := by
  induction hr with
  | start => exact ⟨Nat.le_refl _, fun x hx => .inl hx, fun x _ _ => rfl⟩
  | alloc _ o ho ih =>
    obtain ⟨h1, h2, h3⟩ := ih
    refine ⟨by simp; omega, ?_, ?_⟩
    · rintro x (hx | hx)
      · exact h2 x hx
      · right; omega
    · intro x hx hs
      rw [List.getElem?_append_left (by omega)]
      exact h3 x hx hs
  | write _ r hr o ho ih =>
    obtain ⟨h1, h2, h3⟩ := ih
    refine ⟨by simp; omega, h2, ?_⟩
    intro x hx hs
    rw [List.getElem?_set_ne]
    · exact h3 x hx hs
    · intro he
      subst he
      rcases h2 _ hr with h | h
      · exact hs h
      · omega

/-- **C56.** A program cannot change what is seen of a value if it holds nothing that the value leads to. -/
theorem C56_frame {h h' : Heap A} {S S' : Nat → Prop} (hc : Closed h) {v : Val A} (hb : Bound h v) (hr : Runs h S h' S')
    (hd : ∀ x, Reach h v x → ¬ S x) (p : List Acc) : look h' v p = look h v p :=
  look_congr p v (fun x hx => (runs_frame hr).2.2 x (reach_lt hc hx hb) (hd x hx))

/-- The data is one that the constructor of the class replaces: `None`, for all classes but `Grain`. -/
def Filled (fill : A → Bool) (v : Val A) : Prop := ∃ a, v = .atom a ∧ fill a = true

/-- What deep copies of the metadata and the data of a grain come to. -/
theorem parts_facts {h h' : Heap A} (hc : Closed h) {g : GObj A} {m' d' : Val A} (hm : Bound h g.info) (hdat : Bound h g.data) {n : Nat}
    (hd : deepParts n h g = some ((m', d'), h')) :
    (∀ p, look h' m' p = look h g.info p) ∧ (∀ p, look h' d' p = look h g.data p) ∧ (∀ a, d' = .atom a ↔ g.data = .atom a)
      ∧ (∀ x, x < h.length → h'[x]? = h[x]?) ∧ h.length ≤ h'.length ∧ Closed h' ∧ Bound h' m' ∧ Bound h' d'
      ∧ (∀ x, Reach h' m' x → h.length ≤ x) ∧ (∀ x, Reach h' d' x → h.length ≤ x)
      ∧ (∀ x, Reach h' m' x → ¬ Reach h' d' x) := by
  unfold deepParts at hd
  cases h1 : deep n ⟨h, fun _ => none⟩ g.info with
  | none => rw [h1] at hd; cases hd
  | some y =>
    obtain ⟨m, s⟩ := y
    rw [h1] at hd
    simp only [] at hd
    cases h2 : deep n ⟨s.heap, fun _ => none⟩ g.data with
    | none => rw [h2] at hd; cases hd
    | some z =>
      obtain ⟨d, s'⟩ := z
      rw [h2] at hd
      simp only [Option.some.injEq, Prod.mk.injEq] at hd
      obtain ⟨⟨rfl, rfl⟩, rfl⟩ := hd
      obtain ⟨i1, r1, c1, b1, n1⟩ := deep_spec hc hm h1
      have hdat1 : Bound s.heap g.data := fun x hx => Nat.lt_of_lt_of_le (hdat x hx) i1.len
      obtain ⟨i2, r2, c2, b2, n2⟩ := deep_spec c1 hdat1 h2
      have agree : ∀ x, Reach s.heap m x → s'.heap[x]? = s.heap[x]? := fun x hx => i2.pre x (reach_lt c1 hx b1)
      have rm : ∀ x, Reach s'.heap m x → Reach s.heap m x := fun x hx => reach_congr hx agree
      refine ⟨?_, ?_, ?_, ?_, Nat.le_trans i1.len i2.len, c2, fun x hx => Nat.lt_of_lt_of_le (b1 x hx) i2.len, b2, ?_, ?_, ?_⟩
      · intro p
        rw [look_congr p m agree]
        exact look_rel i1 p g.info m r1
      · intro p
        show look s'.heap d p = _
        rw [look_rel i2 p g.data d r2]
        exact look_congr p g.data (fun x hx => i1.pre x (reach_lt hc hx hdat))
      · intro a
        cases hg : g.data with
        | atom b => rw [hg] at r2; rw [show d = .atom b from r2]
        | ref r => rw [hg] at r2; obtain ⟨r', _, rfl⟩ := r2; simp
      · intro x hx
        rw [i2.pre x (Nat.lt_of_lt_of_le hx i1.len), i1.pre x hx]
      · intro x hx
        exact reach_new i1 (rm x hx) n1
      · intro x hx
        exact Nat.le_trans i1.len (reach_new i2 hx n2)
      · intro x hx hx'
        have := reach_lt c1 (rm x hx) b1
        have := reach_new i2 hx' n2
        omega

/-- A heap with one more buffer. -/
theorem closed_push {h : Heap A} (hc : Closed h) (b : Bytes) : Closed (h ++ [.buf b]) := by
  intro r o ho x hx
  by_cases hr : r < h.length
  · rw [List.getElem?_append_left hr] at ho
    have := hc r o ho x hx
    simp; omega
  · have hlt := (List.getElem?_eq_some_iff.mp ho).1
    have : r = h.length := by simp at hlt; omega
    subst this
    rw [List.getElem?_concat_length] at ho
    cases ho
    simp [Obj.children] at hx

/-- What a deep copy of a grain comes to. -/
theorem deepcopy_facts {fill : A → Bool} {h h' : Heap A} (hc : Closed h) {g g' : GObj A} (hm : Bound h g.info) (hdat : Bound h g.data)
    {n : Nat} (hd : deepcopyGrain fill n h g = some (g', h')) :
    (∀ p, look h' g'.info p = look h g.info p) ∧ (¬ Filled fill g.data → ∀ p, look h' g'.data p = look h g.data p)
      ∧ (Filled fill g.data → look h' g'.data [] = some (.buf [])) ∧ g'.pending = false
      ∧ (∀ x, x < h.length → h'[x]? = h[x]?) ∧ h.length ≤ h'.length ∧ Closed h' ∧ Bound h' g'.info ∧ Bound h' g'.data
      ∧ (∀ x, Reach h' g'.info x → h.length ≤ x) ∧ (∀ x, Reach h' g'.data x → h.length ≤ x)
      ∧ (∀ x, Reach h' g'.info x → ¬ Reach h' g'.data x) := by
  unfold deepcopyGrain at hd
  cases hp : deepParts n h g with
  | none => rw [hp] at hd; cases hd
  | some y =>
    obtain ⟨⟨m, d⟩, s⟩ := y
    rw [hp] at hd
    simp only [Option.map_some, Option.some.injEq] at hd
    obtain ⟨f1, f2, f3, f4, f5, f6, f7, f8, f9, f10, f11⟩ := parts_facts hc hm hdat hp
    cases d with
    | ref r =>
      simp only [make, Prod.mk.injEq] at hd
      obtain ⟨rfl, rfl⟩ := hd
      refine ⟨f1, fun _ => f2, ?_, rfl, f4, f5, f6, f7, f8, f9, f10, f11⟩
      rintro ⟨a, ha, _⟩
      cases (f3 a).mpr ha
    | atom a =>
      have ha := (f3 a).mp rfl
      by_cases hf : fill a = true
      · simp only [make, hf, if_true, Prod.mk.injEq] at hd
        obtain ⟨rfl, rfl⟩ := hd
        have agree : ∀ x, x < s.length → (s ++ [Obj.buf []])[x]? = s[x]? := fun x hx => List.getElem?_append_left hx
        have rm : ∀ x, Reach (s ++ [Obj.buf []]) m x → Reach s m x := fun x hx =>
          reach_congr hx (fun y hy => agree y (reach_lt f6 hy f7))
        have rd : ∀ x, Reach (s ++ [Obj.buf []]) (.ref s.length) x → x = s.length := by
          intro x hx
          cases hx with
          | here => rfl
          | child ho hv _ =>
            rw [List.getElem?_concat_length] at ho
            cases ho
            simp [Obj.children] at hv
        refine ⟨?_, fun hn => absurd ⟨a, ha, hf⟩ hn, fun _ => ?_, rfl, ?_, ?_, closed_push f6 [], ?_, ?_, ?_, ?_, ?_⟩
        · intro p
          rw [← f1 p]
          exact look_congr p m (fun x hx => agree x (reach_lt f6 hx f7))
        · show look (s ++ [Obj.buf []]) (.ref s.length) [] = _
          simp [look, Obj.shape]
        · intro x hx
          rw [agree x (by omega)]
          exact f4 x hx
        · simp; omega
        · intro x hx
          have := f7 x hx
          simp; omega
        · intro x hx
          cases hx
          simp
        · intro x hx
          exact f9 x (rm x hx)
        · intro x hx
          rw [rd x hx]
          exact f5
        · intro x hx hx'
          have := reach_lt f6 (rm x hx) f7
          have := rd x hx'
          omega
      · simp only [make, hf, Prod.mk.injEq, Bool.false_eq_true, if_false] at hd
        obtain ⟨rfl, rfl⟩ := hd
        refine ⟨f1, fun _ => f2, ?_, rfl, f4, f5, f6, f7, f8, f9, f10, f11⟩
        rintro ⟨b, hb, hb'⟩
        rw [ha] at hb
        cases hb
        exact absurd hb' hf

/-- **C56.** A deep copy of a grain shows the same metadata and data as the grain, along every path of keys and indices, and
making it changes no object that was there. No load is pending. Data that is `None` becomes an empty `bytearray`, if the class of the grain
does that to `None`. -/
theorem C56_deepcopy_equal_partial {fill : A → Bool} {h h' : Heap A} (hc : Closed h) {g g' : GObj A} (hm : Bound h g.info)
    (hdat : Bound h g.data) {n : Nat} (hd : deepcopyGrain fill n h g = some (g', h')) :
    (∀ p, look h' g'.info p = look h g.info p) ∧ (¬ Filled fill g.data → ∀ p, look h' g'.data p = look h g.data p)
      ∧ (Filled fill g.data → look h' g'.data [] = some (.buf []))
      ∧ (∀ v, Bound h v → ∀ p, look h' v p = look h v p) ∧ g'.pending = false := by
  obtain ⟨a, b, b', c, d, _⟩ := deepcopy_facts hc hm hdat hd
  exact ⟨a, b, b', fun v hv p => look_congr p v (fun x hx => d x (reach_lt hc hx hv)), c⟩

/-- **C56.** Whatever a program does that has the copy only, everything that was there before the copy still looks the same. -/
theorem C56_deepcopy_original_safe {fill : A → Bool} {h h' h2 : Heap A} {S2 : Nat → Prop} (hc : Closed h) {g g' : GObj A}
    (hm : Bound h g.info) (hdat : Bound h g.data) {n : Nat} (hd : deepcopyGrain fill n h g = some (g', h'))
    (hr : Runs h' (reached h' [g'.info, g'.data]) h2 S2) (v : Val A) (hv : Bound h v) (p : List Acc) :
    look h2 v p = look h v p := by
  obtain ⟨_, _, _, _, d, l, c', _, _, n1, n2, _⟩ := deepcopy_facts hc hm hdat hd
  have agree : ∀ x, Reach h v x → h'[x]? = h[x]? := fun x hx => d x (reach_lt hc hx hv)
  rw [C56_frame c' (fun x hx => Nat.lt_of_lt_of_le (hv x hx) l) hr ?_ p, look_congr p v agree]
  rintro x hx ⟨w, hw, hrw⟩
  have h1 := reach_lt hc (reach_congr hx agree) hv
  simp only [List.mem_cons, List.not_mem_nil, or_false] at hw
  rcases hw with rfl | rfl
  · have := n1 x hrw; omega
  · have := n2 x hrw; omega

/-- **C56.** Whatever a program does that has any of the objects there were before the copy was made, the original among them,
the copy keeps looking as the original did when it was copied. -/
theorem C56_deepcopy_copy_safe {fill : A → Bool} {h h' h2 : Heap A} {S2 : Nat → Prop} (hc : Closed h) {g g' : GObj A}
    (hm : Bound h g.info) (hdat : Bound h g.data) {n : Nat} (hd : deepcopyGrain fill n h g = some (g', h')) (vs : List (Val A))
    (hvs : ∀ v ∈ vs, Bound h v) (hr : Runs h' (reached h' vs) h2 S2) (p : List Acc) :
    look h2 g'.info p = look h' g'.info p ∧ look h2 g'.data p = look h' g'.data p := by
  obtain ⟨_, _, _, _, d, l, c', b1, b2, n1, n2, _⟩ := deepcopy_facts hc hm hdat hd
  have old : ∀ x, reached h' vs x → x < h.length := by
    rintro x ⟨v, hv, hx⟩
    exact reach_lt hc (reach_congr hx (fun x hx => d x (reach_lt hc hx (hvs v hv)))) (hvs v hv)
  constructor
  · rw [C56_frame c' b1 hr ?_ p]
    intro x hx hs
    have := n1 x hx; have := old x hs; omega
  · rw [C56_frame c' b2 hr ?_ p]
    intro x hx hs
    have := n2 x hx; have := old x hs; omega

/-- **C56.** Deep copying keeps the sharing inside the metadata: two paths lead to one object in the copy exactly if they do in the
original. -/
theorem C56_deepcopy_identity {h : Heap A} (hc : Closed h) {v w : Val A} {s : St A} (hb : Bound h v) {n : Nat}
    (hd : deep n ⟨h, fun _ => none⟩ v = some (w, s)) (p q : List Acc) {r1 r2 : Nat}
    (h1 : follow h v p = some (.ref r1)) (h2 : follow h v q = some (.ref r2)) :
    ∃ x1 x2, follow s.heap w p = some (.ref x1) ∧ follow s.heap w q = some (.ref x2) ∧ (x1 = x2 ↔ r1 = r2) := by
  obtain ⟨hi, hr, _⟩ := deep_spec hc hb hd
  have f1 := follow_rel hi p v w hr
  have f2 := follow_rel hi q v w hr
  rw [h1] at f1
  rw [h2] at f2
  obtain ⟨_, f1, x1, m1, rfl⟩ := f1
  obtain ⟨_, f2, x2, m2, rfl⟩ := f2
  refine ⟨x1, x2, f1, f2, ?_, ?_⟩
  · rintro rfl; exact hi.inj r1 r2 x1 m1 m2
  · rintro rfl; rw [m1] at m2; cases m2; rfl

/-- **C56.** A deep copy is made whenever no chain of references in the grain is longer than python's recursion limit allows. -/
theorem C56_deepcopy_succeeds (fill : A → Bool) {h : Heap A} (hc : Closed h) {g : GObj A} (hm : Bound h g.info) (hdat : Bound h g.data) {n : Nat}
    (f1 : Fits h n g.info) (f2 : Fits h n g.data) : ∃ g' h', deepcopyGrain fill n h g = some (g', h') := by
  obtain ⟨m, s, h1⟩ := deep_some hc n [] _ g.info (start_inv h) f1
  obtain ⟨i1, _, c1, _⟩ := deep_spec hc hm h1
  have f2' : Fits s.heap n g.data := fits_congr n g.data f2 (fun x hx => i1.pre x (reach_lt hc hx hdat))
  obtain ⟨d, s', h2⟩ := deep_some c1 n [] _ g.data (start_inv s.heap) f2'
  exact ⟨(make fill s'.heap m d).1, (make fill s'.heap m d).2, by simp only [deepcopyGrain, deepParts, h1, h2]; rfl⟩

/-! ## Shallow copies -/

/-- What a shallow copy of an object comes to. -/
theorem shallow_facts {h s : Heap A} (hc : Closed h) {v m : Val A} (hv : Bound h v) (hs : shallow h v = some (m, s)) :
    (∀ p, look s m p = look h v p) ∧ (∀ w, Bound h w → (∀ p, look s w p = look h w p) ∧ Bound s w) ∧ Closed s ∧ Bound s m := by
  have app : ∀ (o : Obj A) (v : Val A), Bound h v → ∀ p, look (h ++ [o]) v p = look h v p := fun o v hv p =>
    look_congr p v (fun x hx => List.getElem?_append_left (reach_lt hc hx hv))
  unfold shallow at hs
  cases v with
  | atom a =>
    cases hs
    exact ⟨fun p => rfl, fun w hw => ⟨fun _ => rfl, hw⟩, hc, hv⟩
  | ref r =>
    simp only [Option.map_eq_some_iff] at hs
    obtain ⟨o, ho, he⟩ := hs
    cases he
    refine ⟨?_, fun w hw => ⟨app o w hw, fun x hx => by have := hw x hx; simp; omega⟩, ?_, fun x hx => by cases hx; simp⟩
    · intro p
      cases p with
      | nil => simp [look, ho]
      | cons a p =>
        simp only [look, ho, List.getElem?_concat_length]
        cases hat : o.at a with
        | none => rfl
        | some v => exact app o v (fun x hx => hc r o ho x (hx ▸ at_mem hat)) p
    · intro r' o' ho' x hx
      by_cases hr : r' < h.length
      · rw [List.getElem?_append_left hr] at ho'
        have := hc r' o' ho' x hx
        simp; omega
      · have hlt := (List.getElem?_eq_some_iff.mp ho').1
        have : r' = h.length := by simp at hlt; omega
        subst this
        rw [List.getElem?_concat_length] at ho'
        cases ho'
        have := hc r o ho x hx
        simp; omega

/-- What `GrainFactory` adds to the objects there are: an empty `bytearray`, or nothing. -/
theorem make_facts (fill : A → Bool) (h : Heap A) (m d : Val A) :
    (make fill h m d).1.info = m ∧ (make fill h m d).1.pending = false ∧ (¬ Filled fill d → make fill h m d = (⟨m, d, false⟩, h))
      ∧ (Filled fill d → make fill h m d = (⟨m, .ref h.length, false⟩, h ++ [.buf []]))
      ∧ ∀ x, x < h.length → (make fill h m d).2[x]? = h[x]? := by
  cases d with
  | ref r =>
    refine ⟨rfl, rfl, fun _ => rfl, ?_, fun _ _ => rfl⟩
    rintro ⟨a, ha, _⟩
    cases ha
  | atom a =>
    by_cases hf : fill a = true
    · refine ⟨by simp [make, hf], by simp [make, hf], fun hn => absurd ⟨a, rfl, hf⟩ hn, fun _ => by simp [make, hf], fun x hx => ?_⟩
      simp only [make, hf, if_true]
      exact List.getElem?_append_left hx
    · refine ⟨by simp [make, hf], by simp [make, hf], fun _ => by simp [make, hf], ?_, fun x _ => by simp [make, hf]⟩
      rintro ⟨b, hb, hb'⟩
      cases hb
      exact absurd hb' hf

/-- **C56.** A shallow copy of a grain shows the same metadata and has the same data object, and making it changes nothing. `None` is
replaced as in deep copies. -/
theorem C56_copy_equal_partial {fill : A → Bool} {h h' : Heap A} (hc : Closed h) {g g' : GObj A} (hm : Bound h g.info)
    (hd : copyGrain fill h g = some (g', h')) :
    (∀ p, look h' g'.info p = look h g.info p) ∧ (¬ Filled fill g.data → g'.data = g.data)
      ∧ (Filled fill g.data → look h' g'.data [] = some (.buf [])) ∧ (∀ v, Bound h v → ∀ p, look h' v p = look h v p)
      ∧ g'.pending = false := by
  unfold copyGrain at hd
  cases hs : shallow h g.info with
  | none => rw [hs] at hd; cases hd
  | some y =>
    obtain ⟨m, s⟩ := y
    rw [hs] at hd
    simp only [Option.map_some, Option.some.injEq] at hd
    obtain ⟨s1, s2, s3, s4⟩ := shallow_facts hc hm hs
    obtain ⟨k1, k2, k3, k4, k5⟩ := make_facts fill s m g.data
    rw [hd] at k1 k2 k3 k4 k5
    have more : ∀ (v : Val A), Bound s v → ∀ p, look h' v p = look s v p := fun v hv p =>
      look_congr p v (fun x hx => k5 x (reach_lt s3 hx hv))
    refine ⟨?_, ?_, ?_, ?_, k2⟩
    · intro p
      rw [k1, ← s1 p]
      exact more m s4 p
    · intro hf
      exact congrArg (fun x => x.1.data) (k3 hf)
    · intro hf
      have := k4 hf
      simp only [Prod.mk.injEq] at this
      rw [this.1, this.2]
      simp [look, Obj.shape]
    · intro v hv p
      rw [← (s2 v hv).1 p]
      exact more v (s2 v hv).2 p

/-- **C56.** A shallow copy shares everything inside the outer dictionary: as long as neither outer dictionary is changed, the two
grains look the same below it, whatever happens to the objects inside. -/
theorem C56_copy_shares {fill : A → Bool} {h h' h2 : Heap A} {g g' : GObj A} (hd : copyGrain fill h g = some (g', h')) {r r' : Nat}
    (hg : g.info = .ref r) (hg' : g'.info = .ref r') (k1 : h2[r]? = h'[r]?) (k2 : h2[r']? = h'[r']?) (a : Acc) (p : List Acc) :
    look h2 g'.info (a :: p) = look h2 g.info (a :: p) := by
  unfold copyGrain shallow at hd
  rw [hg] at hd
  simp only [Option.map_map, Option.map_eq_some_iff, Function.comp] at hd
  obtain ⟨o, ho, he⟩ := hd
  have hr : r < h.length := (List.getElem?_eq_some_iff.mp ho).1
  obtain ⟨e1, _, _, _, e5⟩ := make_facts fill (h ++ [o]) (.ref h.length) g.data
  rw [he] at e1 e5
  have e1 : g'.info = .ref h.length := e1
  have e5 : ∀ x, x < (h ++ [o]).length → h'[x]? = (h ++ [o])[x]? := e5
  rw [e1] at hg'
  cases hg'
  rw [e5 _ (by simp; omega), List.getElem?_append_left hr, ho] at k1
  rw [e5 _ (by simp), List.getElem?_concat_length] at k2
  rw [hg, e1]
  simp only [look, k1, k2]

/-- **C56.** What is done to the outer dictionary of a shallow copy is not seen elsewhere. -/
theorem C56_copy_outer {fill : A → Bool} {h h' : Heap A} (hc : Closed h) {g g' : GObj A} (hd : copyGrain fill h g = some (g', h'))
    {r' : Nat} {r : Nat} (hg : g.info = .ref r) (hg' : g'.info = .ref r') (o : Obj A) (v : Val A) (hv : Bound h v) (p : List Acc) :
    look (h'.set r' o) v p = look h v p := by
  unfold copyGrain shallow at hd
  rw [hg] at hd
  simp only [Option.map_map, Option.map_eq_some_iff, Function.comp] at hd
  obtain ⟨o', ho, he⟩ := hd
  obtain ⟨e1, _, _, _, e5⟩ := make_facts fill (h ++ [o']) (.ref h.length) g.data
  rw [he] at e1 e5
  have e1 : g'.info = .ref h.length := e1
  have e5 : ∀ x, x < (h ++ [o']).length → h'[x]? = (h ++ [o'])[x]? := e5
  rw [e1] at hg'
  cases hg'
  apply look_congr
  intro x hx
  have hlt := reach_lt hc hx hv
  rw [List.getElem?_set_ne (by omega), e5 _ (by simp; omega), List.getElem?_append_left hlt]

/-! ## A grain -/

namespace C56

/-- The objects of a grain with one time label and its data in a buffer. -/
def heap0 : Heap String := [
  .dict [("@_ns", .atom "urn:x-ipstudio:ns:0.1"), ("grain", .ref 1)],
  .dict [("grain_type", .atom "empty"), ("origin_timestamp", .atom "0:0"), ("rate", .ref 2), ("timelabels", .ref 3)],
  .dict [("numerator", .atom "25"), ("denominator", .atom "1")],
  .list [.ref 4],
  .dict [("tag", .atom "tc"), ("timelabel", .ref 5)],
  .dict [("frames_since_midnight", .atom "7")],
  .buf [1, 2, 3]]

def grain0 : GObj String := ⟨.ref 0, .ref 6, false⟩

/-- The data that the constructors of video, audio, coded video and coded audio grains replace: `None`. -/
def noneVideo (a : String) : Bool := a == "None"

/-- The way to the origin timestamp. -/
def toOrigin : List Acc := [.key "grain", .key "origin_timestamp"]

theorem closed0 : Closed heap0 := by
  intro r o ho x hx
  have hr : r < 7 := (List.getElem?_eq_some_iff.mp ho).1
  have : r = 0 ∨ r = 1 ∨ r = 2 ∨ r = 3 ∨ r = 4 ∨ r = 5 ∨ r = 6 := by omega
  rcases this with rfl | rfl | rfl | rfl | rfl | rfl | rfl <;> cases ho <;> simp [Obj.children] at hx <;>
    simp [heap0] <;> omega

end C56

open C56

/-- The hypotheses are met, and copying works. -/
example : Closed heap0 ∧ Bound heap0 grain0.info ∧ Bound heap0 grain0.data ∧ Fits heap0 5 grain0.info ∧ Fits heap0 5 grain0.data
    ∧ (deepcopyGrain noneVideo 5 heap0 grain0).map (fun x => (x.1, x.2.length)) = some (⟨.ref 7, .ref 13, false⟩, 14) := by
  refine ⟨closed0, ?_, ?_, ?_, ?_, by decide +kernel⟩
  · rintro x h; cases h; decide
  · rintro x h; cases h; decide
  · simp [Fits, heap0, grain0, Obj.children]
  · simp [Fits, heap0, grain0, Obj.children]

/-- Setting the origin timestamp of the deep copy: seen in the copy only. -/
example : ((deepcopyGrain noneVideo 5 heap0 grain0).bind (fun x => (setInner x.2 x.1 "origin_timestamp" (.atom "9:0")).map (fun h =>
    (look h x.1.info toOrigin, look h grain0.info toOrigin)))) = some (some (.atom "9:0"), some (.atom "0:0")) := by
  decide +kernel

/-- **C56 does not hold of `copy`**: setting the origin timestamp of a shallow copy changes the original. -/
theorem C56_copy_counterexample : ∃ (h h' h2 : Heap String) (g g' : GObj String), Closed h ∧ copyGrain noneVideo h g = some (g', h')
    ∧ setInner h' g' "origin_timestamp" (.atom "9:0") = some h2
    ∧ look h g.info toOrigin = some (.atom "0:0") ∧ look h2 g.info toOrigin = some (.atom "9:0") := by
  refine ⟨heap0, heap0 ++ [.dict [("@_ns", .atom "urn:x-ipstudio:ns:0.1"), ("grain", .ref 1)]], _, grain0, ⟨.ref 7, .ref 6, false⟩,
    closed0, by decide +kernel, rfl, by decide +kernel, by decide +kernel⟩

/-- Two grains made from one dictionary are one as far as metadata goes. -/
theorem C56_made_counterexample : ∃ (h h2 : Heap String) (g1 g2 : GObj String), g1 = (make noneVideo h (.ref 0) (.atom "a")).1
    ∧ g2 = (make noneVideo h (.ref 0) (.atom "b")).1
    ∧ setInner h g2 "origin_timestamp" (.atom "9:0") = some h2
    ∧ look h g1.info toOrigin = some (.atom "0:0") ∧ look h2 g1.info toOrigin = some (.atom "9:0") :=
  ⟨heap0, _, _, _, rfl, rfl, rfl, by decide +kernel, by decide +kernel⟩

/-- A pending load is not copied: the copy of a video grain whose data is not there yet is a grain that has an empty `bytearray` for
data, and nothing to load; so is the copy of a video grain whose data was set to `None`. -/
theorem C56_pending_counterexample : ∃ (h h' h2 : Heap String) (g g' g2 : GObj String), g.pending = true
    ∧ deepcopyGrain noneVideo 5 h g = some (g', h') ∧ copyGrain noneVideo h g = some (g2, h2) ∧ g'.pending = false ∧ g2.pending = false
    ∧ look h g.data [] = some (.atom "None") ∧ look h' g'.data [] = some (.buf []) ∧ look h2 g2.data [] = some (.buf []) :=
  ⟨heap0, _, _, ⟨.ref 0, .atom "None", true⟩, _, _, rfl, rfl, rfl, rfl, rfl, by decide +kernel, by decide +kernel, by decide +kernel⟩

/-- A time label appended to another grain's list keeps sharing its count, rate and drop-frame flag with the first grain, and not
its tag. Here the list at 3 gets its own label again: changing the count of one changes the other, changing the tag does not. -/
theorem C56_label_counterexample : ∃ (h h1 h2 h3 : Heap String), appendLabel h 3 (.ref 4) = some h1
    ∧ (∃ r, follow h1 (.ref 3) [.idx 1, .key "timelabel"] = some r ∧ store h1 r "frames_since_midnight" (.atom "8") = some h2)
    ∧ look h (.ref 3) [.idx 0, .key "timelabel", .key "frames_since_midnight"] = some (.atom "7")
    ∧ look h2 (.ref 3) [.idx 0, .key "timelabel", .key "frames_since_midnight"] = some (.atom "8")
    ∧ (∃ r, follow h1 (.ref 3) [.idx 1] = some r ∧ store h1 r "tag" (.atom "other") = some h3)
    ∧ look h3 (.ref 3) [.idx 0, .key "tag"] = some (.atom "tc") ∧ look h3 (.ref 3) [.idx 1, .key "tag"] = some (.atom "other") :=
  ⟨heap0, _, _, _, rfl, ⟨.ref 5, by decide +kernel, rfl⟩, by decide +kernel, by decide +kernel, ⟨.ref 7, by decide +kernel, rfl⟩,
    by decide +kernel, by decide +kernel⟩

end Verif.Props

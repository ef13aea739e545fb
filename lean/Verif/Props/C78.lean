import Verif.Props.C43

/-!
# Comparing in the other order, and through a third grain: C78
-/

namespace Verif.Props.OrderSpec

open Verif Verif.Cog Verif.Compare CompareSpec

variable {P V : Type}

/-- What a comparison answers: `none` for an exception, otherwise whether the grains are equal. -/
def Answer (env : Env P V) (opts : List (Opt P)) (a b : Grain V) : Option Bool := (compareGrain env opts a b).map Res.equal

/-- The option to use when the two grains are swapped: an expected difference is one of the opposite sign. -/
def swapped : Opt P → Opt P
  | .diff p m => .diff p (fun d => m (-d))
  | o => o

/-- Only `Exclude` and `Include`. -/
def Selects (opts : List (Opt P)) : Prop := ∀ o ∈ opts, ∃ p, o = .exclude p ∨ o = .incl p

/-- No requirement on the signal to noise ratio. -/
def NoRatio (opts : List (Opt P)) : Prop := ∀ p m, Opt.psnr p m ∉ opts

/-- The type and the format of grains are compared. -/
def KeepsFormat (opts : List (Opt P)) : Prop :=
  ¬ Asked opts "grain_type" ∧ ¬ Asked opts "cog_frame_format" ∧ ¬ Asked opts "cog_audio_format"

end Verif.Props.OrderSpec

namespace Verif.Props.OrderLemmas

open Verif Verif.Cog Verif.Compare CompareSpec CompareLemmas OrderSpec

variable {P V : Type}

theorem dictSame_symm {veq : V → V → Bool} (hs : ∀ x y, veq x y = true → veq y x = true) {a b : Dict V} (h : DictSame veq a b) :
    DictSame veq b a := by
  intro k
  rcases h k with ⟨h1, h2⟩ | ⟨x, y, h1, h2, h3⟩
  · exact .inl ⟨h2, h1⟩
  · exact .inr ⟨y, x, h2, h1, hs x y h3⟩

theorem dictSame_trans {veq : V → V → Bool} (ht : ∀ x y z, veq x y = true → veq y z = true → veq x z = true) {a b c : Dict V}
    (h : DictSame veq a b) (h' : DictSame veq b c) : DictSame veq a c := by
  intro k
  rcases h k with ⟨h1, h2⟩ | ⟨x, y, h1, h2, h3⟩ <;> rcases h' k with ⟨h4, h5⟩ | ⟨u, v, h4, h5, h6⟩
  · exact .inl ⟨h1, h5⟩
  · rw [h2] at h4; cases h4
  · rw [h2] at h4; cases h4
  · rw [h2] at h4
    cases h4
    exact .inr ⟨x, v, h1, h5, ht x y v h3 h6⟩

theorem listSame_symm {α : Type} {R : α → α → Prop} (hs : ∀ x y, R x y → R y x) {a b : List α} (h : ListSame R a b) : ListSame R b a :=
  ⟨h.1.symm, fun i x y hx hy => hs y x (h.2 i y x hy hx)⟩

theorem listSame_trans {α : Type} {R : α → α → Prop} (ht : ∀ x y z, R x y → R y z → R x z) {a b c : List α} (h : ListSame R a b)
    (h' : ListSame R b c) : ListSame R a c := by
  refine ⟨h.1.trans h'.1, fun i x z hx hz => ?_⟩
  have hi : i < b.length := by
    rw [← h.1]
    exact (List.getElem?_eq_some_iff.1 hx).1
  have hy : b[i]? = some b[i] := List.getElem?_eq_getElem hi
  exact ht x b[i] z (h.2 i x _ hx hy) (h'.2 i _ z hy hz)

theorem sample_symm (u v : Sample) (h : Sample.eq u v = true) : Sample.eq v u = true := by
  cases u <;> cases v <;> simp only [Sample.eq, Bool.false_eq_true, Bool.and_eq_true, Bool.or_eq_true, beq_iff_eq] at *
  · exact h.symm
  · obtain ⟨⟨⟨h1, h2⟩, h3⟩, h4⟩ := h
    refine ⟨⟨⟨h1.symm, h3⟩, h2⟩, ?_⟩
    rcases h4 with h4 | h4
    · exact .inl h4.symm
    · exact .inr ⟨h4.2, h4.1⟩

theorem sample_trans (u v w : Sample) (h : Sample.eq u v = true) (h' : Sample.eq v w = true) : Sample.eq u w = true := by
  cases u <;> cases v <;> cases w <;>
    simp only [Sample.eq, Bool.false_eq_true, Bool.and_eq_true, Bool.or_eq_true, beq_iff_eq] at *
  · exact h.trans h'
  · obtain ⟨⟨⟨h1, h2⟩, h3⟩, h4⟩ := h
    obtain ⟨⟨⟨k1, k2⟩, k3⟩, k4⟩ := h'
    subst h1 k1
    refine ⟨⟨⟨rfl, h2⟩, k3⟩, ?_⟩
    rcases h4 with h4 | h4 <;> rcases k4 with k4 | k4
    · exact .inl (h4.trans k4)
    · subst h4; exact .inr k4
    · subst k4; exact .inr h4
    · exact .inr ⟨h4.1, k4.2⟩

theorem dataSame_symm {c : Code} {x y : Option Bytes} (h : DataSame c x y) : DataSame c y x := by
  cases x <;> cases y
  · trivial
  · exact h
  · exact h
  · obtain ⟨s, t, hs, ht, hl⟩ := h
    exact ⟨t, s, ht, hs, listSame_symm sample_symm hl⟩

theorem dataSame_trans {c : Code} {x y z : Option Bytes} (h : DataSame c x y) (h' : DataSame c y z) : DataSame c x z := by
  cases x <;> cases y <;> cases z <;> first | trivial | exact h.elim | exact h'.elim | skip
  obtain ⟨s, t, hs, ht, hl⟩ := h
  obtain ⟨t', u, ht', hu, hl'⟩ := h'
  rw [ht] at ht'
  cases ht'
  exact ⟨s, u, hs, hu, listSame_trans sample_trans hl hl'⟩

/-! ### Options for the other order -/

theorem mem_swapped_exclude (opts : List (Opt P)) (p : String) : Opt.exclude p ∈ opts.map swapped ↔ Opt.exclude p ∈ opts := by
  rw [List.mem_map]
  constructor
  · rintro ⟨o, ho, h⟩
    cases o <;> simp only [swapped, reduceCtorEq, Opt.exclude.injEq] at h
    subst h
    exact ho
  · intro h
    exact ⟨_, h, rfl⟩

theorem mem_swapped_incl (opts : List (Opt P)) (p : String) : Opt.incl p ∈ opts.map swapped ↔ Opt.incl p ∈ opts := by
  rw [List.mem_map]
  constructor
  · rintro ⟨o, ho, h⟩
    cases o <;> simp only [swapped, reduceCtorEq, Opt.incl.injEq] at h
    subst h
    exact ho
  · intro h
    exact ⟨_, h, rfl⟩

theorem mem_swapped_psnr (opts : List (Opt P)) (p : String) (m : P → Bool) :
    Opt.psnr p m ∈ opts.map swapped ↔ Opt.psnr p m ∈ opts := by
  rw [List.mem_map]
  constructor
  · rintro ⟨o, ho, h⟩
    cases o <;> simp only [swapped, reduceCtorEq, Opt.psnr.injEq] at h
    obtain ⟨h1, h2⟩ := h
    subst h1 h2
    exact ho
  · intro h
    exact ⟨_, h, rfl⟩

theorem mem_swapped_diff (opts : List (Opt P)) (p : String) (m : Int → Bool) :
    Opt.diff p m ∈ opts.map swapped ↔ ∃ m', Opt.diff p m' ∈ opts ∧ m = fun d => m' (-d) := by
  rw [List.mem_map]
  constructor
  · rintro ⟨o, ho, h⟩
    cases o <;> simp only [swapped, reduceCtorEq, Opt.diff.injEq] at h
    obtain ⟨h1, h2⟩ := h
    subst h1
    exact ⟨_, ho, h2.symm⟩
  · rintro ⟨m', h, hm⟩
    exact ⟨_, h, by rw [hm]; rfl⟩

theorem timeTest_swapped (opts : List (Opt P)) (name : String) (x y : Int) :
    TimeTest (opts.map swapped) name y x ↔ TimeTest opts name x y := by
  simp only [TimeTest, mem_swapped_diff]
  have he : (∃ m m', Opt.diff ("{}." ++ name) m' ∈ opts ∧ m = fun d => m' (-d)) ↔ ∃ m, Opt.diff ("{}." ++ name) m ∈ opts := by
    constructor
    · rintro ⟨_, m', h, _⟩
      exact ⟨m', h⟩
    · rintro ⟨m, h⟩
      exact ⟨_, m, h, rfl⟩
  have hn : (∀ m, ¬ ∃ m', Opt.diff ("{}." ++ name) m' ∈ opts ∧ m = fun d => m' (-d)) ↔ ∀ m, Opt.diff ("{}." ++ name) m ∉ opts := by
    constructor
    · intro h m hm
      exact h _ ⟨m, hm, rfl⟩
    · rintro h _ ⟨m', hm, _⟩
      exact h m' hm
  have ha : (∀ m, (∃ m', Opt.diff ("{}." ++ name) m' ∈ opts ∧ m = fun d => m' (-d)) → m (y - x) = true) ↔
      ∀ m, Opt.diff ("{}." ++ name) m ∈ opts → m (x - y) = true := by
    have hxy : -(y - x) = x - y := by omega
    constructor
    · intro h m hm
      have := h _ ⟨m, hm, rfl⟩
      rwa [hxy] at this
    · rintro h _ ⟨m', hm, rfl⟩
      show m' (-(y - x)) = true
      rw [hxy]
      exact h m' hm
  rw [he, hn, ha, eq_comm (a := y)]

theorem asked_swapped (opts : List (Opt P)) (name : String) : Asked (opts.map swapped) name ↔ Asked opts name := by
  simp only [Asked, mem_swapped_exclude]

theorem excluded_swapped (opts : List (Opt P)) (a b : Grain V) (name : String) :
    Excluded (opts.map swapped) b a name ↔ Excluded opts a b name := by
  simp only [Excluded, asked_swapped, mem_swapped_incl]
  constructor <;> rintro (h | h | ⟨h1, h2, h3, h4⟩)
  · exact .inl h
  · exact .inr (.inl h)
  · exact .inr (.inr ⟨h1, h3, h2, h4⟩)
  · exact .inl h
  · exact .inr (.inl h)
  · exact .inr (.inr ⟨h1, h3, h2, h4⟩)

theorem mediaTest_plain (env : Env P V) {opts : List (Opt P)} (hr : NoRatio opts) (c : Code) (a b : Grain V) :
    MediaTest env opts c a b ↔ DataSame c a.data b.data := by
  constructor
  · rintro (⟨_, h⟩ | ⟨⟨m, h⟩, _⟩)
    · exact h
    · exact absurd h (hr _ m)
  · intro h
    exact .inl ⟨hr _, h⟩

theorem noRatio_swapped {opts : List (Opt P)} (hr : NoRatio opts) : NoRatio (opts.map swapped) :=
  fun p m h => hr p m ((mem_swapped_psnr opts p m).1 h)

theorem topLevel_swapped {opts : List (Opt P)} (ho : TopLevel opts) : TopLevel (opts.map swapped) := by
  intro o h
  obtain ⟨o', h', rfl⟩ := List.mem_map.1 h
  obtain ⟨n, hn, hb⟩ := ho o' h'
  refine ⟨n, ?_, hb⟩
  rw [← hn]
  cases o' <;> rfl

/-! ### Attributes in the other order -/

/-- The same names in the same order, and what holds in the first list holds in the second. -/
inductive Match : List (String × Prop) → List (String × Prop) → Prop
  | nil : Match [] []
  | cons {n : String} {p q : Prop} {l m : List (String × Prop)} : (p → q) → Match l m → Match ((n, p) :: l) ((n, q) :: m)

theorem Match.append {l m l' m' : List (String × Prop)} (h : Match l m) (h' : Match l' m') : Match (l ++ l') (m ++ m') := by
  induction h with
  | nil => exact h'
  | cons hp _ ih => exact .cons hp ih

theorem Match.all {E : String → Prop} {l m : List (String × Prop)} (h : Match l m) (ha : ∀ x ∈ l, E x.1 ∨ x.2) :
    ∀ x ∈ m, E x.1 ∨ x.2 := by
  induction h with
  | nil => intro x hx; cases hx
  | @cons n p q l m hp _ ih =>
    intro x hx
    rcases List.mem_cons.1 hx with rfl | hx
    · exact (ha (n, p) (by simp)).imp id hp
    · exact ih (fun y hy => ha y (List.mem_cons_of_mem _ hy)) x hx

theorem common_match (env : Env P V) (hs : ∀ x y, env.veq x y = true → env.veq y x = true) (opts : List (Opt P)) (a b : Grain V) :
    Match (commonAttrs env opts a b) (commonAttrs env (opts.map swapped) b a) :=
  .cons Eq.symm (.cons Eq.symm (.cons Eq.symm (.cons Eq.symm (.cons Eq.symm (.cons Eq.symm
    (.cons (timeTest_swapped opts _ _ _).2 (.cons (timeTest_swapped opts _ _ _).2 (.cons (timeTest_swapped opts _ _ _).2
      (.cons (listSame_symm (fun _ _ => dictSame_symm hs)) .nil)))))))))

theorem media_match (env : Env P V) {opts : List (Opt P)} (hr : NoRatio opts) (code : Nat → Code) (f f' : Nat) (a b : Grain V)
    (h : f = f' → MediaTest env opts (code f) a b) (he : f' = f) : MediaTest env (opts.map swapped) (code f') b a := by
  subst he
  rw [mediaTest_plain env (noRatio_swapped hr)]
  exact dataSame_symm ((mediaTest_plain env hr _ a b).1 (h rfl))

theorem data_match {α : Type} (x y : α) (a b : Grain V) (h : x = y → DataSame (.int 1) a.data b.data) (he : y = x) :
    DataSame (.int 1) b.data a.data := dataSame_symm (h he.symm)

theorem type_match (env : Env P V) (hs : ∀ x y, env.veq x y = true → env.veq y x = true) {opts : List (Opt P)} (hr : NoRatio opts)
    (a b : Grain V) : Match (typeAttrs env opts a b) (typeAttrs env (opts.map swapped) b a) := by
  unfold typeAttrs
  cases a.body <;> cases b.body <;> try exact .nil
  case event.event =>
    exact .cons Eq.symm (.cons Eq.symm (.cons (listSame_symm (fun _ _ => dictSame_symm hs)) .nil))
  case audio.audio =>
    exact .cons Eq.symm (.cons Eq.symm (.cons Eq.symm (.cons Eq.symm (.cons (media_match env hr audioCode _ _ a b) .nil))))
  case codedAudio.codedAudio =>
    exact .cons Eq.symm (.cons Eq.symm (.cons Eq.symm (.cons Eq.symm (.cons Eq.symm (.cons Eq.symm
      (.cons (data_match _ _ a b) .nil))))))
  case video.video =>
    exact .cons Eq.symm (.cons Eq.symm (.cons Eq.symm (.cons Eq.symm (.cons (media_match env hr videoCode _ _ a b) .nil))))
  case codedVideo.codedVideo =>
    exact .cons Eq.symm (.cons Eq.symm (.cons Eq.symm (.cons Eq.symm (.cons Eq.symm (.cons Eq.symm (.cons Eq.symm
      (.cons Eq.symm (.cons Eq.symm (.cons (data_match _ _ a b) .nil)))))))))
  case plain.plain => exact .cons (data_match _ _ a b) .nil

theorem dataCode_symm (a b : Grain V) : dataCode a b = dataCode b a := by
  unfold dataCode
  cases a.body <;> cases b.body <;> try rfl
  case audio.audio f _ _ _ f' _ _ _ =>
    by_cases h : f = f'
    · subst h; rfl
    · simp only; rw [if_neg h, if_neg (Ne.symm h)]
  case codedAudio.codedAudio f _ _ _ _ _ f' _ _ _ _ _ => simp only [eq_comm (a := f)]
  case video.video f _ _ _ f' _ _ _ =>
    by_cases h : f = f'
    · subst h; rfl
    · simp only; rw [if_neg h, if_neg (Ne.symm h)]
  case codedVideo.codedVideo f _ _ _ _ _ _ _ _ f' _ _ _ _ _ _ _ _ => simp only [eq_comm (a := f)]
  case plain.plain n n' => simp only [eq_comm (a := n)]

theorem raises_symm (env : Env P V) {opts : List (Opt P)} (hr : NoRatio opts) (a b : Grain V)
    (h : compareGrain env opts a b = none) : compareGrain env (opts.map swapped) b a = none := by
  rw [C42_raises env _ (fun m => noRatio_swapped hr _ m)]
  obtain ⟨c, hc, hn⟩ := (C42_raises env _ (fun m => hr _ m) a b).1 h
  exact ⟨c, by rw [dataCode_symm, hc], fun h => hn ⟨h.2, h.1⟩⟩

theorem equal_symm (env : Env P V) (hs : ∀ x y, env.veq x y = true → env.veq y x = true) {opts : List (Opt P)} (ho : TopLevel opts)
    (hr : NoRatio opts) (a b : Grain V) (ha : Wf a) (hb : Wf b) {r r' : Res P} (h : compareGrain env opts a b = some r)
    (h' : compareGrain env (opts.map swapped) b a = some r') (he : r.equal = true) : r'.equal = true := by
  rw [C43_verdict env _ (topLevel_swapped ho) b a hb ha r' h']
  have h0 := (C43_verdict env opts ho a b ha hb r h).1 he
  intro x hx
  rw [excluded_swapped]
  exact ((common_match env hs opts a b).append (type_match env hs hr a b)).all h0 x hx

theorem swapped_swapped (opts : List (Opt P)) : (opts.map swapped).map swapped = opts := by
  rw [List.map_map]
  conv => rhs; rw [← List.map_id opts]
  refine List.map_congr_left ?_
  intro o _
  cases o with
  | diff p m => simp only [Function.comp, swapped, Int.neg_neg, id]
  | _ => rfl

/-! ### Three grains -/

/-- The same names in the same order, and what holds in the first two lists holds in the third. -/
inductive Three : List (String × Prop) → List (String × Prop) → List (String × Prop) → Prop
  | nil : Three [] [] []
  | cons {n : String} {p q r : Prop} {k l m : List (String × Prop)} :
      (p → q → r) → Three k l m → Three ((n, p) :: k) ((n, q) :: l) ((n, r) :: m)

theorem Three.append {k l m k' l' m' : List (String × Prop)} (h : Three k l m) (h' : Three k' l' m') :
    Three (k ++ k') (l ++ l') (m ++ m') := by
  induction h with
  | nil => exact h'
  | cons hp _ ih => exact .cons hp ih

theorem Three.all {E : String → Prop} {k l m : List (String × Prop)} (h : Three k l m) (ha : ∀ x ∈ k, E x.1 ∨ x.2)
    (hb : ∀ x ∈ l, E x.1 ∨ x.2) : ∀ x ∈ m, E x.1 ∨ x.2 := by
  induction h with
  | nil => intro x hx; cases hx
  | @cons n p q r k l m hp _ ih =>
    intro x hx
    rcases List.mem_cons.1 hx with rfl | hx
    · rcases ha (n, p) (by simp) with h | h
      · exact .inl h
      rcases hb (n, q) (by simp) with h' | h'
      · exact .inl h'
      exact .inr (hp h h')
    · exact ih (fun y hy => ha y (List.mem_cons_of_mem _ hy)) (fun y hy => hb y (List.mem_cons_of_mem _ hy)) x hx

theorem timeTest_plain {opts : List (Opt P)} (hsel : Selects opts) (name : String) (x y : Int) : TimeTest opts name x y ↔ x = y := by
  have hn : ∀ m, Opt.diff ("{}." ++ name) m ∉ opts := by
    intro m hm
    obtain ⟨p, h | h⟩ := hsel _ hm <;> cases h
  constructor
  · rintro (⟨_, h⟩ | ⟨⟨m, h⟩, _⟩)
    · exact h
    · exact absurd h (hn m)
  · intro h
    exact .inl ⟨hn, h⟩

theorem selects_noRatio {opts : List (Opt P)} (hsel : Selects opts) : NoRatio opts := by
  intro p m hm
  obtain ⟨p, h | h⟩ := hsel _ hm <;> cases h

theorem time_three {opts : List (Opt P)} (hsel : Selects opts) (name : String) (x y z : Int) (h : TimeTest opts name x y)
    (h' : TimeTest opts name y z) : TimeTest opts name x z := by
  rw [timeTest_plain hsel] at *
  exact h.trans h'

theorem common_three (env : Env P V) (ht : ∀ x y z, env.veq x y = true → env.veq y z = true → env.veq x z = true)
    {opts : List (Opt P)} (hsel : Selects opts) (a b c : Grain V) :
    Three (commonAttrs env opts a b) (commonAttrs env opts b c) (commonAttrs env opts a c) :=
  .cons Eq.trans (.cons Eq.trans (.cons Eq.trans (.cons Eq.trans (.cons Eq.trans (.cons Eq.trans
    (.cons (time_three hsel _ _ _ _) (.cons (time_three hsel _ _ _ _) (.cons (time_three hsel _ _ _ _)
      (.cons (listSame_trans (R := DictSame env.veq) (fun _ _ _ h h' => dictSame_trans ht h h')) .nil)))))))))

/-- The formats of two grains of the same type are the same. -/
def SameFormat (a b : Grain V) : Prop :=
  match a.body, b.body with
  | .event .., .event .. => True
  | .audio f .., .audio f' .. => f = f'
  | .codedAudio f .., .codedAudio f' .. => f = f'
  | .video f .., .video f' .. => f = f'
  | .codedVideo f .., .codedVideo f' .. => f = f'
  | .plain n, .plain n' => n = n'
  | _, _ => False

theorem media_three (env : Env P V) {opts : List (Opt P)} (hsel : Selects opts) (code : Nat → Code) (f f' f'' : Nat) (a b c : Grain V)
    (he : f = f') (he' : f' = f'') (h : f = f' → MediaTest env opts (code f) a b) (h' : f' = f'' → MediaTest env opts (code f') b c)
    (_ : f = f'') : MediaTest env opts (code f) a c := by
  subst he he'
  rw [mediaTest_plain env (selects_noRatio hsel)] at *
  exact dataSame_trans (h rfl) (h' rfl)

theorem data_three {α : Type} (x y z : α) (a b c : Grain V) (he : x = y) (he' : y = z) (h : x = y → DataSame (.int 1) a.data b.data)
    (h' : y = z → DataSame (.int 1) b.data c.data) (_ : x = z) : DataSame (.int 1) a.data c.data := dataSame_trans (h he) (h' he')

theorem type_three (env : Env P V) (ht : ∀ x y z, env.veq x y = true → env.veq y z = true → env.veq x z = true)
    {opts : List (Opt P)} (hsel : Selects opts) (a b c : Grain V) (hab : SameFormat a b) (hbc : SameFormat b c) :
    Three (typeAttrs env opts a b) (typeAttrs env opts b c) (typeAttrs env opts a c) := by
  unfold SameFormat at hab hbc
  unfold typeAttrs
  cases ha : a.body <;> cases hb : b.body <;> simp only [ha, hb] at hab <;> cases hc : c.body <;> simp only [hb, hc] at hbc
  case event.event.event =>
    exact .cons Eq.trans (.cons Eq.trans (.cons (listSame_trans (R := DictSame env.veq) (fun _ _ _ h h' => dictSame_trans ht h h')) .nil))
  case audio.audio.audio =>
    exact .cons Eq.trans (.cons Eq.trans (.cons Eq.trans (.cons Eq.trans
      (.cons (media_three env hsel audioCode _ _ _ a b c hab hbc) .nil))))
  case codedAudio.codedAudio.codedAudio =>
    exact .cons Eq.trans (.cons Eq.trans (.cons Eq.trans (.cons Eq.trans (.cons Eq.trans (.cons Eq.trans
      (.cons (data_three _ _ _ a b c hab hbc) .nil))))))
  case video.video.video =>
    exact .cons Eq.trans (.cons Eq.trans (.cons Eq.trans (.cons Eq.trans
      (.cons (media_three env hsel videoCode _ _ _ a b c hab hbc) .nil))))
  case codedVideo.codedVideo.codedVideo =>
    exact .cons Eq.trans (.cons Eq.trans (.cons Eq.trans (.cons Eq.trans (.cons Eq.trans (.cons Eq.trans (.cons Eq.trans
      (.cons Eq.trans (.cons Eq.trans (.cons (data_three _ _ _ a b c hab hbc) .nil)))))))))
  case plain.plain.plain => exact .cons (data_three _ _ _ a b c hab hbc) .nil

/-- Grains found equal have the same type and format, unless that was excluded. -/
theorem sameFormat_of_equal (env : Env P V) {opts : List (Opt P)} (hk : KeepsFormat opts) (a b : Grain V) (ha : Wf a) (hb : Wf b)
    (h : ∀ x ∈ attrs env opts a b, Excluded opts a b x.1 ∨ x.2) : SameFormat a b ∧ a.body.type = b.body.type := by
  have hne : ∀ n, n ≠ "creation_timestamp" → n ≠ "length" → ¬ Asked opts n → ¬ Excluded opts a b n := by
    rintro n h1 h2 h3 (h | ⟨h, _⟩ | ⟨h, _⟩)
    · exact h3 h
    · exact h1 h
    · exact h2 h
  have ht : a.body.type = b.body.type := by
    rcases h ("grain_type", a.body.type = b.body.type) (by simp [attrs, commonAttrs]) with h | h
    · exact absurd h (hne "grain_type" (by decide) (by decide) hk.1)
    · exact h
  refine ⟨?_, ht⟩
  have hv : ∀ p, ("cog_frame_format", p) ∈ attrs env opts a b → p := by
    intro p hp
    exact (h _ hp).resolve_left (hne "cog_frame_format" (by decide) (by decide) hk.2.1)
  have hau : ∀ p, ("cog_audio_format", p) ∈ attrs env opts a b → p := by
    intro p hp
    exact (h _ hp).resolve_left (hne "cog_audio_format" (by decide) (by decide) hk.2.2)
  have hna := ha.name
  have hnb := hb.name
  unfold SameFormat
  unfold attrs typeAttrs at hv hau
  cases hA : a.body <;> cases hB : b.body <;> simp only [hA, hB, Body.type] at ht hv hau <;>
    first
    | exact ht
    | exact absurd ht (by decide)
    | exact absurd ht.symm (fun h => hna _ hA (by simp [← h]))
    | exact absurd ht (fun h => hnb _ hB (by simp [← h]))
    | trivial
    | exact hv _ (List.mem_append_right _ (List.mem_cons_self ..))
    | exact hau _ (List.mem_append_right _ (List.mem_cons_self ..))

theorem dataCode_three (a b c : Grain V) (hab : SameFormat a b) (hbc : SameFormat b c) :
    dataCode a c = dataCode a b ∧ dataCode a c = dataCode b c := by
  unfold SameFormat at hab hbc
  unfold dataCode
  cases ha : a.body <;> cases hb : b.body <;> simp only [ha, hb] at hab <;> cases hc : c.body <;> simp only [hb, hc] at hbc <;>
    first
    | (subst hab hbc; exact ⟨rfl, rfl⟩)
    | exact ⟨rfl, rfl⟩

theorem excluded_types {opts : List (Opt P)} {a b c d : Grain V} (ha : a.body.type = c.body.type) (hb : b.body.type = d.body.type)
    (n : String) : Excluded opts a b n ↔ Excluded opts c d n := by
  unfold Excluded
  rw [ha, hb]

theorem answer_true {env : Env P V} {opts : List (Opt P)} {a b : Grain V} :
    Answer env opts a b = some true ↔ ∃ r, compareGrain env opts a b = some r ∧ r.equal = true := by
  unfold Answer
  cases compareGrain env opts a b <;> simp

end Verif.Props.OrderLemmas

namespace Verif.Props

open Verif Verif.Cog Verif.Compare CompareSpec CompareLemmas OrderSpec OrderLemmas

variable {P V : Type}

/-- Comparing in the other order raises exactly when the comparison raises, and gives the same answer, when expected differences are
turned round. -/
theorem C78_symmetric (env : Env P V) (hs : ∀ x y, env.veq x y = true → env.veq y x = true) (opts : List (Opt P)) (ho : TopLevel opts)
    (hr : NoRatio opts) (a b : Grain V) (ha : Wf a) (hb : Wf b) :
    Answer env (opts.map swapped) b a = Answer env opts a b := by
  unfold Answer
  cases h : compareGrain env opts a b with
  | none => rw [raises_symm env hr a b h]
  | some r =>
    cases h' : compareGrain env (opts.map swapped) b a with
    | none =>
      have := raises_symm env (noRatio_swapped hr) b a h'
      rw [swapped_swapped, h] at this
      cases this
    | some r' =>
      have h1 := equal_symm env hs ho hr a b ha hb h h'
      have h2 := equal_symm env hs (topLevel_swapped ho) (noRatio_swapped hr) b a hb ha h' (by rw [swapped_swapped]; exact h)
      simp only [Option.map_some, Option.some.injEq]
      exact Bool.eq_iff_iff.2 ⟨h2, h1⟩

/-- With nothing but exclusions and inclusions the order does not matter at all. -/
theorem C78_swap (env : Env P V) (hs : ∀ x y, env.veq x y = true → env.veq y x = true) (opts : List (Opt P)) (ho : TopLevel opts)
    (hsel : Selects opts) (a b : Grain V) (ha : Wf a) (hb : Wf b) : Answer env opts b a = Answer env opts a b := by
  have : opts.map swapped = opts := by
    conv => rhs; rw [← List.map_id opts]
    refine List.map_congr_left ?_
    intro o h
    obtain ⟨p, rfl | rfl⟩ := hsel o h <;> rfl
  rw [← C78_symmetric env hs opts ho (selects_noRatio hsel) a b ha hb, this]

/-- What is equal to an equal grain is equal, as long as the type and the format are among what is compared. -/
theorem C78_transitive (env : Env P V) (ht : ∀ x y z, env.veq x y = true → env.veq y z = true → env.veq x z = true)
    (opts : List (Opt P)) (ho : TopLevel opts) (hsel : Selects opts) (hk : KeepsFormat opts) (a b c : Grain V) (ha : Wf a) (hb : Wf b)
    (hc : Wf c) (hab : Answer env opts a b = some true) (hbc : Answer env opts b c = some true) : Answer env opts a c = some true := by
  obtain ⟨r, hr, he⟩ := answer_true.1 hab
  obtain ⟨r', hr', he'⟩ := answer_true.1 hbc
  have h1 := (C43_verdict env opts ho a b ha hb r hr).1 he
  have h2 := (C43_verdict env opts ho b c hb hc r' hr').1 he'
  obtain ⟨hf, hty⟩ := sameFormat_of_equal env hk a b ha hb h1
  obtain ⟨hf', hty'⟩ := sameFormat_of_equal env hk b c hb hc h2
  rw [answer_true]
  cases h : compareGrain env opts a c with
  | none =>
    obtain ⟨k, hk, hn⟩ := (C42_raises env opts (fun m => selects_noRatio hsel _ m) a c).1 h
    obtain ⟨hd, hd'⟩ := dataCode_three a b c hf hf'
    have hab' : Aligned k a.data ∧ Aligned k b.data := by
      refine Classical.byContradiction (fun hx => ?_)
      have := (C42_raises env opts (fun m => selects_noRatio hsel _ m) a b).2 ⟨k, by rw [← hd, hk], hx⟩
      rw [hr] at this
      cases this
    have hbc' : Aligned k b.data ∧ Aligned k c.data := by
      refine Classical.byContradiction (fun hx => ?_)
      have := (C42_raises env opts (fun m => selects_noRatio hsel _ m) b c).2 ⟨k, by rw [← hd', hk], hx⟩
      rw [hr'] at this
      cases this
    exact absurd ⟨hab'.1, hbc'.2⟩ hn
  | some s =>
    refine ⟨s, rfl, ?_⟩
    rw [C43_verdict env opts ho a c ha hc s h]
    have h3 : ∀ x ∈ attrs env opts a b, Excluded opts a c x.1 ∨ x.2 := fun x hx => (h1 x hx).imp (excluded_types rfl hty' _).1 id
    have h4 : ∀ x ∈ attrs env opts b c, Excluded opts a c x.1 ∨ x.2 := fun x hx => (h2 x hx).imp (excluded_types hty.symm rfl _).1 id
    exact ((common_three env ht hsel a b c).append (type_three env ht hsel a b c hf hf')).all h3 h4

/-- The same for two sequences compared pairwise: the answer in the other order is the same … -/
theorem C78_sequences_swap (env : Env P V) (hs : ∀ x y, env.veq x y = true → env.veq y x = true) (opts : List (Opt P))
    (ho : TopLevel opts) (hr : NoRatio opts) (as bs : List (Grain V)) (ha : ∀ a ∈ as, Wf a) (hb : ∀ b ∈ bs, Wf b) :
    (compareGrains env (opts.map swapped) false bs as).map IterRes.equal = (compareGrains env opts false as bs).map IterRes.equal := by
  have hpair : ∀ (i : Nat) (a b : Grain V), as[i]? = some a → bs[i]? = some b →
      (compareGrain env (opts.map swapped) b a).map Res.equal = (compareGrain env opts a b).map Res.equal := fun i a b hi hj =>
    C78_symmetric env hs opts ho hr a b (ha a (List.mem_of_getElem? hi)) (hb b (List.mem_of_getElem? hj))
  have hnone : compareGrains env (opts.map swapped) false bs as = none ↔ compareGrains env opts false as bs = none := by
    rw [C44_raises, C44_raises]
    constructor
    · rintro ⟨i, b, a, hi, hj, h, hall⟩
      refine ⟨i, a, b, hj, hi, ?_, ?_⟩
      · have := hpair i a b hj hi
        rw [h, Option.map_none] at this
        exact Option.map_eq_none_iff.1 this.symm
      · intro j x y hlt hx hy
        rw [← hpair j x y hx hy]
        exact hall j y x hlt hy hx
    · rintro ⟨i, a, b, hi, hj, h, hall⟩
      refine ⟨i, b, a, hj, hi, ?_, ?_⟩
      · have := hpair i a b hi hj
        rw [h, Option.map_none] at this
        exact Option.map_eq_none_iff.1 this
      · intro j x y hlt hx hy
        rw [hpair j y x hy hx]
        exact hall j y x hlt hy hx
  cases h : compareGrains env opts false as bs with
  | none => rw [hnone.2 h]
  | some r =>
    cases h' : compareGrains env (opts.map swapped) false bs as with
    | none => rw [hnone.1 h'] at h; cases h
    | some r' =>
      simp only [Option.map_some, Option.some.injEq]
      refine Bool.eq_iff_iff.2 ?_
      rw [C44_verdict env opts false as bs r h, C44_verdict env _ false bs as r' h']
      constructor
      · rintro ⟨hl, hall⟩
        exact ⟨hl.symm, fun i a b hi hj => by rw [← hpair i a b hi hj]; exact hall i b a hj hi⟩
      · rintro ⟨hl, hall⟩
        exact ⟨hl.symm, fun i b a hi hj => by rw [hpair i a b hj hi]; exact hall i a b hj hi⟩

/-! ### Examples and counterexamples -/

open CompareSample

theorem OrderLemmas.format_selects : TopLevel [(Opt.exclude "{}.format" : Opt Nat)] ∧ Selects [(Opt.exclude "{}.format" : Opt Nat)] := by
  constructor
  · intro o h
    rw [List.mem_singleton] at h
    subst h
    exact ⟨"format", by decide, by decide⟩
  · intro o h
    rw [List.mem_singleton] at h
    subst h
    exact ⟨_, .inl rfl⟩

/-- With the format left out, two different grains are equal to a third one: data of different formats is not compared. -/
theorem C78_format_counterexample :
    TopLevel [(Opt.exclude "{}.format" : Opt Nat)] ∧ Selects [(Opt.exclude "{}.format" : Opt Nat)] ∧
      verdict [.exclude "{}.format"] (s16 [1, 2]) (s24 [3, 4]) = some true ∧
      verdict [.exclude "{}.format"] (s24 [3, 4]) (s16 [5, 6]) = some true ∧
      verdict [.exclude "{}.format"] (s16 [1, 2]) (s16 [5, 6]) = some false :=
  ⟨format_selects.1, format_selects.2, by decide +kernel⟩

/-- An expected difference has a direction. -/
theorem C78_difference_counterexample :
    verdict [.diff "{}.origin_timestamp" (fun d => d == 5)] { event with origin := 15 } event = some true ∧
      verdict [.diff "{}.origin_timestamp" (fun d => d == 5)] event { event with origin := 15 } = some false ∧
      verdict ([.diff "{}.origin_timestamp" (fun d => d == 5)].map swapped) event { event with origin := 15 } = some true := by
  decide +kernel

example : Answer env ([] : List (Opt Nat)) (s16 [1, 2]) { s16 [1, 2] with creation := 5 } = some true ∧
    Answer env [] { s16 [1, 2] with creation := 5 } { s16 [1, 2] with creation := 6 } = some true ∧
    Answer env [] (s16 [1, 2, 3]) (s16 [1, 2]) = none ∧ Answer env [] (s16 [1, 2]) (s16 [1, 2, 3]) = none ∧
    KeepsFormat ([] : List (Opt Nat)) ∧ Selects ([] : List (Opt Nat)) ∧ TopLevel ([] : List (Opt Nat)) ∧ Wf (s16 [1, 2]) := by
  refine ⟨by decide +kernel, by decide +kernel, by decide +kernel, by decide +kernel, ?_, ?_, ?_, wf_audio ..⟩
  · refine ⟨?_, ?_, ?_⟩ <;> rintro (h | ⟨_, _, h⟩) <;> cases h
  · intro o h; cases h
  · intro o h; cases h

end Verif.Props

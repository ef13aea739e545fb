import Verif.Props.C42

/-!
# Options and iterators: C43 and C44
-/

namespace Verif.Props.CompareOptions

open Verif Verif.Cog Verif.Compare CompareSpec CompareLemmas

variable {P V : Type}

/-- `o'` excludes more than `o` and is otherwise the same. -/
structure Ext (o o' : List (Opt P)) : Prop where
  excl : ∀ i, isExcluded o i = true → isExcluded o' i = true
  diffs : ∀ i, matchers o' i = matchers o i
  psnrs : ∀ i, psnrMatchers o' i = psnrMatchers o i

theorem ext_insert (l₁ l₂ : List (Opt P)) (p : String) : Ext (l₁ ++ l₂) (l₁ ++ .exclude p :: l₂) where
  excl := by
    intro i h
    unfold isExcluded at *
    rw [List.any_append] at *
    rw [List.any_cons]
    cases h1 : l₁.any (fun o => o.excludes i) with
    | true => rfl
    | false => rw [h1] at h; simp only [Bool.false_or] at *; rw [h]; simp
  diffs := by intro i; simp [matchers]
  psnrs := by intro i; simp [psnrMatchers]

theorem includes_insert (l₁ l₂ : List (Opt P)) (p : String) :
    includesCreation (l₁ ++ .exclude p :: l₂) = includesCreation (l₁ ++ l₂) := by
  simp [includesCreation]

theorem ext_withDefault (l₁ l₂ : List (Opt P)) (p : String) :
    Ext (withDefault (l₁ ++ l₂)) (withDefault (l₁ ++ .exclude p :: l₂)) := by
  unfold withDefault
  rw [includes_insert]
  by_cases h : includesCreation (l₁ ++ l₂) = true
  · rw [if_pos h, if_pos h]; exact ext_insert l₁ l₂ p
  · rw [if_neg h, if_neg h, List.append_assoc, List.append_assoc]
    exact ext_insert l₁ _ p

def Le (r r' : Res P) : Prop := r.passes = true → r'.passes = true
def AllLe (rs rs' : List (Res P)) : Prop := rs.all Res.passes = true → rs'.all Res.passes = true

theorem allLe_nil : AllLe ([] : List (Res P)) [] := id

theorem allLe_cons {r r' : Res P} {rs rs' : List (Res P)} (h : Le r r') (hs : AllLe rs rs') : AllLe (r :: rs) (r' :: rs') := by
  unfold AllLe at *
  rw [List.all_cons, List.all_cons, Bool.and_eq_true, Bool.and_eq_true]
  rintro ⟨h1, h2⟩
  exact ⟨h h1, hs h2⟩

theorem allLe_append {rs rs' ss ss' : List (Res P)} (h : AllLe rs rs') (hs : AllLe ss ss') : AllLe (rs ++ ss) (rs' ++ ss') := by
  unfold AllLe at *
  rw [List.all_append, List.all_append, Bool.and_eq_true, Bool.and_eq_true]
  rintro ⟨h1, h2⟩
  exact ⟨h h1, hs h2⟩

theorem allLe_map {α : Type} {f g : α → Res P} (l : List α) (h : ∀ x, Le (f x) (g x)) : AllLe (l.map f) (l.map g) := by
  induction l with
  | nil => exact allLe_nil
  | cons x l ih => exact allLe_cons (h x) ih

theorem allLe_filterMap {α : Type} {f g : α → Option (Res P)} (l : List α)
    (h : ∀ x, (f x = none ∧ g x = none) ∨ ∃ r r', f x = some r ∧ g x = some r' ∧ Le r r') : AllLe (l.filterMap f) (l.filterMap g) := by
  induction l with
  | nil => exact allLe_nil
  | cons x l ih =>
    rcases h x with ⟨h1, h2⟩ | ⟨r, r', h1, h2, h3⟩
    · rw [List.filterMap_cons_none h1, List.filterMap_cons_none h2]; exact ih
    · rw [List.filterMap_cons_some h1, List.filterMap_cons_some h2]; exact allLe_cons h3 ih

section
variable {o o' : List (Opt P)} (he : Ext o o')
include he

theorem le_plain (i : String) (at' : Option String) (k : Option Key) {e e' : Bool} (hee : e = true → e' = true ∨ isExcluded o' i = true) :
    Le (plainRes i at' k o e) (plainRes i at' k o' e') := by
  unfold Le
  rw [passes_plain, passes_plain, Bool.or_eq_true, Bool.or_eq_true]
  rintro (h | h)
  · exact hee h
  · exact .inr (he.excl i h)

theorem le_same (i : String) (at' : Option String) (k : Option Key) (e : Bool) :
    Le (plainRes i at' k o e) (plainRes i at' k o' e) := le_plain he i at' k .inl

theorem le_eq (name : String) (e : Bool) : Le (eqRes o name e) (eqRes o' name e) := le_same he _ _ _ e

theorem le_diff (i : String) (at' : Option String) (k : Option Key) (a b : Int) :
    Le (diffRes i at' k o a b) (diffRes i at' k o' a b) := by
  unfold Le
  rw [passes_diff, passes_diff, Bool.or_eq_true, Bool.or_eq_true]
  unfold diffTest
  rw [he.diffs]
  rintro (h | h)
  · exact .inl h
  · exact .inr (he.excl i h)

theorem le_container (i : String) (at' : Option String) (k : Option Key) {c c' : List (Res P)} (h : AllLe c c') :
    Le (containerRes i at' k o c) (containerRes i at' k o' c') := by
  unfold Le
  rw [passes_container, passes_container, Bool.or_eq_true, Bool.or_eq_true]
  rintro (hh | hh)
  · exact .inl (h hh)
  · exact .inr (he.excl i hh)

theorem le_mapping (veq : V → V → Bool) (i : String) (k : Option Key) (a b : Dict V) :
    Le (mapping veq o i k a b) (mapping veq o' i k a b) := by
  unfold mapping
  refine le_container he _ _ _ (allLe_append (allLe_append (allLe_filterMap a ?_) (allLe_map _ fun x => le_same he _ _ _ _))
    (allLe_map _ fun x => le_same he _ _ _ _))
  intro x
  cases hb : b.get? x.1 with
  | none => exact .inl ⟨rfl, rfl⟩
  | some v => exact .inr ⟨_, _, rfl, rfl, le_same he _ _ _ _⟩

theorem le_ordered {α : Type} {item item' : String → Option Key → α → α → Res P} (hi : ∀ i k x y, Le (item i k x y) (item' i k x y))
    (i : String) (at' : Option String) (a b : List α) : Le (ordered item i at' o a b) (ordered item' i at' o' a b) := by
  unfold ordered
  exact le_container he _ _ _ (allLe_cons (le_same he _ _ _ _) (allLe_append (allLe_append (allLe_map _ fun x => hi _ _ _ _)
    (allLe_map _ fun x => le_same he _ _ _ _)) (allLe_map _ fun x => le_same he _ _ _ _)))

/-- Less often an exception, and more often a success. -/
def OptLe (d d' : Option (Res P)) : Prop := ∀ r, d = some r → ∃ r', d' = some r' ∧ Le r r'

omit he in
theorem optLe_some {r r' : Res P} (h : Le r r') : OptLe (some r) (some r') := by
  intro x hx
  injection hx with hx
  subst hx
  exact ⟨r', rfl, h⟩

theorem le_data (i : String) (at' : Option String) (c : Code) (a b : Option Bytes) :
    OptLe (dataRes i at' o c a b) (dataRes i at' o' c a b) := by
  cases a with
  | none => cases b with
    | none => exact optLe_some (le_same he _ _ _ _)
    | some y =>
      simp only [dataRes]
      cases unpack c y with
      | none => intro r h; cases h
      | some t => exact optLe_some (le_same he _ _ _ _)
  | some x => cases b with
    | none =>
      simp only [dataRes]
      cases unpack c x with
      | none => intro r h; cases h
      | some t => exact optLe_some (le_same he _ _ _ _)
    | some y =>
      simp only [dataRes]
      cases unpack c x with
      | none => intro r h; cases h
      | some s =>
        cases unpack c y with
        | none => intro r h; cases h
        | some t =>
          simp only [Option.bind_some, Option.map_some]
          refine optLe_some (le_plain he _ _ _ ?_)
          intro h
          by_cases h1 : isExcluded o' i = true
          · exact .inr h1
          · rw [if_neg h1]
            by_cases h2 : isExcluded o i = true
            · exact absurd (he.excl i h2) h1
            · rw [if_neg h2] at h; exact .inl h

theorem le_media (env : Env P V) (c : Code) (a b : Grain V) : OptLe (mediaData env o c a b) (mediaData env o' c a b) := by
  unfold mediaData
  rw [he.psnrs]
  by_cases h : psnrMatchers o "{}.data" = []
  · rw [if_pos h, if_pos h]; exact le_data he _ _ _ _ _
  · rw [if_neg h, if_neg h]
    unfold psnrRes
    rw [he.psnrs]
    by_cases h1 : isExcluded o' "{}.data" = true
    · rw [if_pos h1]
      intro r _
      refine ⟨_, rfl, fun _ => ?_⟩
      rw [passes_plain, h1, Bool.or_true]
    · rw [if_neg h1]
      by_cases h2 : isExcluded o "{}.data" = true
      · exact absurd (he.excl _ h2) h1
      · rw [if_neg h2]
        cases env.psnr a b with
        | raised => intro r h; cases h
        | unsupported => exact optLe_some (le_same he _ _ _ _)
        | ok p => exact optLe_some (le_same he _ _ _ _)

omit he in
theorem le_inc : Le (incomparable o) (incomparable o') := fun _ => incomparable_passes o'

def BodyLe (x x' : List (Res P) × Option (Option (Res P))) : Prop :=
  AllLe x.1 x'.1 ∧ ((x.2 = none ∧ x'.2 = none) ∨ ∃ d d', x.2 = some d ∧ x'.2 = some d' ∧ OptLe d d')

theorem le_ite {Q : Prop} [Decidable Q] {d d' : Option (Res P)} (h : OptLe d d') :
    OptLe (if Q then d else some (incomparable o)) (if Q then d' else some (incomparable o')) := by
  by_cases hq : Q
  · rw [if_pos hq, if_pos hq]; exact h
  · rw [if_neg hq, if_neg hq]; exact optLe_some le_inc

theorem le_body (env : Env P V) (a b : Grain V) : BodyLe (bodyRes env o a b) (bodyRes env o' a b) := by
  have hoth : BodyLe ([], some (some (incomparable o))) ([], some (some (incomparable o'))) :=
    ⟨allLe_nil, .inr ⟨_, _, rfl, rfl, optLe_some le_inc⟩⟩
  cases hba : a.body with
  | event t p i =>
    cases hbb : b.body with
    | event t' p' i' =>
      simp only [bodyRes, hba, hbb]
      exact ⟨allLe_cons (le_eq he _ _) (allLe_cons (le_eq he _ _)
        (allLe_cons (le_ordered he (fun _ _ _ _ => le_mapping he _ _ _ _ _) _ _ _ _) allLe_nil)), .inl ⟨rfl, rfl⟩⟩
    | _ => simp only [bodyRes, hba, hbb]; exact hoth
  | audio f s c r =>
    cases hbb : b.body with
    | audio f' s' c' r' =>
      simp only [bodyRes, hba, hbb]
      exact ⟨allLe_cons (le_eq he _ _) (allLe_cons (le_eq he _ _) (allLe_cons (le_eq he _ _) (allLe_cons (le_eq he _ _) allLe_nil))),
        .inr ⟨_, _, rfl, rfl, le_ite he (le_media he _ _ _ _)⟩⟩
    | _ => simp only [bodyRes, hba, hbb]; exact hoth
  | codedAudio f s c r p m =>
    cases hbb : b.body with
    | codedAudio f' s' c' r' p' m' =>
      simp only [bodyRes, hba, hbb]
      exact ⟨allLe_cons (le_eq he _ _) (allLe_cons (le_eq he _ _) (allLe_cons (le_eq he _ _) (allLe_cons (le_eq he _ _)
        (allLe_cons (le_eq he _ _) (allLe_cons (le_eq he _ _) allLe_nil))))), .inr ⟨_, _, rfl, rfl, le_ite he (le_data he _ _ _ _ _)⟩⟩
    | _ => simp only [bodyRes, hba, hbb]; exact hoth
  | video f w h l =>
    cases hbb : b.body with
    | video f' w' h' l' =>
      simp only [bodyRes, hba, hbb]
      exact ⟨allLe_cons (le_eq he _ _) (allLe_cons (le_eq he _ _) (allLe_cons (le_eq he _ _) (allLe_cons (le_eq he _ _) allLe_nil))),
        .inr ⟨_, _, rfl, rfl, le_ite he (le_media he _ _ _ _)⟩⟩
    | _ => simp only [bodyRes, hba, hbb]; exact hoth
  | codedVideo f cw ch ow oh k t l u =>
    cases hbb : b.body with
    | codedVideo f' cw' ch' ow' oh' k' t' l' u' =>
      simp only [bodyRes, hba, hbb]
      exact ⟨allLe_cons (le_eq he _ _) (allLe_cons (le_eq he _ _) (allLe_cons (le_eq he _ _) (allLe_cons (le_eq he _ _)
        (allLe_cons (le_eq he _ _) (allLe_cons (le_eq he _ _) (allLe_cons (le_eq he _ _) (allLe_cons (le_eq he _ _)
        (allLe_cons (le_ordered he (fun _ _ _ _ => le_diff he _ _ _ _ _) _ _ _ _) allLe_nil)))))))),
        .inr ⟨_, _, rfl, rfl, le_ite he (le_data he _ _ _ _ _)⟩⟩
    | _ => simp only [bodyRes, hba, hbb]; exact hoth
  | plain n =>
    cases hbb : b.body with
    | plain n' =>
      simp only [bodyRes, hba, hbb]
      exact ⟨allLe_nil, .inr ⟨_, _, rfl, rfl, le_ite he (le_data he _ _ _ _ _)⟩⟩
    | _ => simp only [bodyRes, hba, hbb]; exact hoth

theorem ext_length (a b : Grain V) (name : String) (e : Bool) :
    Le (eqRes (lengthOpts o a b) name e) (eqRes (lengthOpts o' a b) name e) := by
  unfold Le eqRes
  rw [passes_plain, passes_plain, Bool.or_eq_true, Bool.or_eq_true]
  rintro (h | h)
  · exact .inl h
  · right
    have hev : eventExcluded o = true → eventExcluded o' = true := by
      unfold eventExcluded
      rw [Bool.or_eq_true, Bool.or_eq_true, Bool.or_eq_true, Bool.or_eq_true]
      rintro ((h | h) | h)
      · exact .inl (.inl (he.excl _ h))
      · exact .inl (.inr (he.excl _ h))
      · exact .inr (he.excl _ h)
    have hup : ∀ i, isExcluded o' i = true → isExcluded (lengthOpts o' a b) i = true := by
      intro i hi
      unfold lengthOpts
      by_cases hc : (isEvent a.body && isEvent b.body && eventExcluded o') = true
      · rw [if_pos hc]
        unfold isExcluded at *
        rw [List.any_append, hi]; rfl
      · rw [if_neg hc]; exact hi
    unfold lengthOpts at h
    by_cases hc : (isEvent a.body && isEvent b.body && eventExcluded o) = true
    · rw [if_pos hc] at h
      unfold lengthOpts
      rw [Bool.and_eq_true] at hc
      rw [if_pos (by rw [Bool.and_eq_true]; exact ⟨hc.1, hev hc.2⟩)]
      unfold isExcluded at h ⊢
      rw [List.any_append, Bool.or_eq_true] at h ⊢
      rcases h with h | h
      · exact .inl (he.excl _ h)
      · exact .inr h
    · rw [if_neg hc] at h
      exact hup _ (he.excl _ h)

theorem le_common (env : Env P V) (a b : Grain V) :
    AllLe (commonRes env o (lengthOpts o a b) a b) (commonRes env o' (lengthOpts o' a b) a b) := by
  unfold commonRes
  exact allLe_cons (le_eq he _ _) (allLe_cons (le_eq he _ _) (allLe_cons (le_eq he _ _) (allLe_cons (le_eq he _ _)
    (allLe_cons (le_eq he _ _) (allLe_cons (ext_length he a b _ _) (allLe_cons (le_diff he _ _ _ _ _) (allLe_cons (le_diff he _ _ _ _ _)
    (allLe_cons (le_diff he _ _ _ _ _) (allLe_cons (le_ordered he (fun _ _ _ _ => le_mapping he _ _ _ _ _) _ _ _ _) allLe_nil)))))))))

end

theorem compare_mono (env : Env P V) {opts opts' : List (Opt P)} (he : Ext (withDefault opts) (withDefault opts')) (a b : Grain V)
    (k : Option Key) {r : Res P} (h : compareGrain env opts a b k = some r) :
    ∃ r', compareGrain env opts' a b k = some r' ∧ (r.equal = true → r'.equal = true) := by
  obtain ⟨h1, h2⟩ := le_body he env a b
  have hc := le_common he env a b
  unfold compareGrain at *
  simp only at *
  revert h h1 h2
  generalize bodyRes env (withDefault opts) a b = x
  generalize bodyRes env (withDefault opts') a b = x'
  obtain ⟨rs, d⟩ := x
  obtain ⟨rs', d'⟩ := x'
  intro h h1 h2
  rcases h2 with ⟨h2, h3⟩ | ⟨e, e', h2, h3, h4⟩
  · simp only at h2 h3
    subst h2 h3
    simp only at h ⊢
    injection h with h
    refine ⟨_, rfl, ?_⟩
    rw [← h]
    exact allLe_append hc h1
  · simp only at h2 h3
    subst h2 h3
    cases e with
    | none => cases h
    | some e =>
      obtain ⟨f, hf, hle⟩ := h4 e rfl
      subst hf
      simp only at h ⊢
      injection h with h
      refine ⟨_, rfl, ?_⟩
      rw [← h]
      exact allLe_append (allLe_append hc h1) (allLe_cons hle allLe_nil)

end Verif.Props.CompareOptions

namespace Verif.Props

open Verif Verif.Cog Verif.Compare CompareSpec CompareLemmas CompareOptions

variable {P V : Type}

/-! ## C43 -/

/-- An exclusion added anywhere among the options neither makes a comparison fail that succeeded nor raises an exception. -/
theorem C43_monotone (env : Env P V) (l₁ l₂ : List (Opt P)) (p : String) (a b : Grain V) (r : Res P)
    (h : compareGrain env (l₁ ++ l₂) a b = some r) :
    ∃ r', compareGrain env (l₁ ++ .exclude p :: l₂) a b = some r' ∧ (r.equal = true → r'.equal = true) :=
  compare_mono env (ext_withDefault l₁ l₂ p) a b none h

/-- With options for attributes, the verdict is that each attribute not excluded is the same, or meets the options for it. -/
theorem C43_verdict (env : Env P V) (opts : List (Opt P)) (ho : TopLevel opts) (a b : Grain V) (ha : Wf a) (hb : Wf b) (r : Res P)
    (h : compareGrain env opts a b = some r) :
    r.equal = true ↔ ∀ x ∈ attrs env opts a b, Excluded opts a b x.1 ∨ x.2 :=
  compareGrain_equal env opts a b none ho ha hb h

/-- An added exclusion changes nothing in what the attributes are tested for. -/
theorem C43_same_tests (env : Env P V) (l₁ l₂ : List (Opt P)) (p : String) (a b : Grain V) :
    attrs env (l₁ ++ .exclude p :: l₂) a b = attrs env (l₁ ++ l₂) a b := by
  have hd : ∀ i m, (Opt.diff i m : Opt P) ∈ l₁ ++ .exclude p :: l₂ ↔ Opt.diff i m ∈ l₁ ++ l₂ := by intro i m; simp
  have hq : ∀ i m, (Opt.psnr i m : Opt P) ∈ l₁ ++ .exclude p :: l₂ ↔ Opt.psnr i m ∈ l₁ ++ l₂ := by intro i m; simp
  have ht : ∀ n x y, TimeTest (l₁ ++ .exclude p :: l₂) n x y = TimeTest (l₁ ++ l₂) n x y := by
    intro n x y; simp only [TimeTest, hd]
  have hm : ∀ c, MediaTest env (l₁ ++ .exclude p :: l₂) c a b = MediaTest env (l₁ ++ l₂) c a b := by
    intro c; simp only [MediaTest, hq]
  unfold attrs commonAttrs typeAttrs
  simp only [ht, hm]

/-- `Exclude.name` excludes the attribute of that name, under both its names, and for attributes of event grains also the length. -/
theorem C43_local (l₁ l₂ : List (Opt P)) (p : String) (a b : Grain V) (name : String) :
    Excluded (l₁ ++ .exclude ("{}." ++ p) :: l₂) a b name ↔ Excluded (l₁ ++ l₂) a b name ∨ name = p ∨ nameAlias name = some p ∨
      (name = "length" ∧ a.body.type = "event" ∧ b.body.type = "event" ∧ p ∈ ["event_type", "topic", "event_data"]) := by
  have hcancel : ∀ x y : String, "{}." ++ x = "{}." ++ y ↔ x = y := by
    intro x y
    constructor
    · intro h
      have h1 := congrArg String.toList h
      rw [String.toList_append, String.toList_append] at h1
      exact String.toList_inj.1 (List.append_cancel_left h1)
    · intro h; rw [h]
  have hmem : ∀ x, (Opt.exclude ("{}." ++ x) : Opt P) ∈ l₁ ++ .exclude ("{}." ++ p) :: l₂ ↔
      Opt.exclude ("{}." ++ x) ∈ l₁ ++ l₂ ∨ x = p := by
    intro x
    simp only [List.mem_append, List.mem_cons, Opt.exclude.injEq, hcancel]
    constructor
    · rintro (h | h | h)
      · exact .inl (.inl h)
      · exact .inr h
      · exact .inl (.inr h)
    · rintro ((h | h) | h)
      · exact .inl h
      · exact .inr (.inr h)
      · exact .inr (.inl h)
  have hincl : (Opt.incl "{}.creation_timestamp" : Opt P) ∈ l₁ ++ .exclude ("{}." ++ p) :: l₂ ↔
      Opt.incl "{}.creation_timestamp" ∈ l₁ ++ l₂ := by simp
  have hask : ∀ n, Asked (l₁ ++ .exclude ("{}." ++ p) :: l₂) n ↔ Asked (l₁ ++ l₂) n ∨ n = p ∨ nameAlias n = some p := by
    intro n
    unfold Asked
    simp only [hmem]
    constructor
    · rintro ((h | h) | ⟨m, h1, h2 | h2⟩)
      · exact .inl (.inl h)
      · exact .inr (.inl h)
      · exact .inl (.inr ⟨m, h1, h2⟩)
      · subst h2; exact .inr (.inr h1)
    · rintro ((h | ⟨m, h1, h2⟩) | h | h)
      · exact .inl (.inl h)
      · exact .inr ⟨m, h1, .inl h2⟩
      · exact .inl (.inr h)
      · exact .inr ⟨p, h, .inr rfl⟩
  have n1 : nameAlias "event_type" = none := by decide
  have n2 : nameAlias "topic" = none := by decide
  have n3 : nameAlias "event_data" = none := by decide
  unfold Excluded
  simp only [hask, hincl, n1, n2, n3, List.mem_cons, List.not_mem_nil, or_false, reduceCtorEq]
  constructor
  · rintro ((h | h | h) | h | ⟨h1, h2, h3, h4⟩)
    · exact .inl (.inl h)
    · exact .inr (.inl h)
    · exact .inr (.inr (.inl h))
    · exact .inl (.inr (.inl h))
    · rcases h4 with (h | h) | (h | h) | (h | h)
      · exact .inl (.inr (.inr ⟨h1, h2, h3, .inl h⟩))
      · exact .inr (.inr (.inr ⟨h1, h2, h3, .inl h.symm⟩))
      · exact .inl (.inr (.inr ⟨h1, h2, h3, .inr (.inl h)⟩))
      · exact .inr (.inr (.inr ⟨h1, h2, h3, .inr (.inl h.symm)⟩))
      · exact .inl (.inr (.inr ⟨h1, h2, h3, .inr (.inr h)⟩))
      · exact .inr (.inr (.inr ⟨h1, h2, h3, .inr (.inr h.symm)⟩))
  · rintro ((h | h | ⟨h1, h2, h3, h4⟩) | h | h | ⟨h1, h2, h3, h4⟩)
    · exact .inl (.inl h)
    · exact .inr (.inl h)
    · rcases h4 with h | h | h
      · exact .inr (.inr ⟨h1, h2, h3, .inl (.inl h)⟩)
      · exact .inr (.inr ⟨h1, h2, h3, .inr (.inl (.inl h))⟩)
      · exact .inr (.inr ⟨h1, h2, h3, .inr (.inr (.inl h))⟩)
    · exact .inl (.inr (.inl h))
    · exact .inl (.inr (.inr h))
    · rcases h4 with h | h | h
      · exact .inr (.inr ⟨h1, h2, h3, .inl (.inr h.symm)⟩)
      · exact .inr (.inr ⟨h1, h2, h3, .inr (.inl (.inr h.symm))⟩)
      · exact .inr (.inr ⟨h1, h2, h3, .inr (.inr (.inr h.symm))⟩)

/-- An expected difference replaces the test of its timestamp, adds to other expected differences for it, and leaves the tests of
other timestamps, of data, and what is excluded as they were. -/
theorem C43_expected_difference (env : Env P V) (l₁ l₂ : List (Opt P)) (name : String) (m : Int → Bool) (a b : Grain V) :
    let opts := l₁ ++ l₂
    let opts' := l₁ ++ .diff ("{}." ++ name) m :: l₂
    (∀ x y, (∀ m', Opt.diff ("{}." ++ name) m' ∉ opts) → (TimeTest opts' name x y ↔ m (x - y) = true)) ∧
    (∀ x y, (∃ m', Opt.diff ("{}." ++ name) m' ∈ opts) → (TimeTest opts' name x y ↔ TimeTest opts name x y ∧ m (x - y) = true)) ∧
    (∀ other x y, other ≠ name → (TimeTest opts' other x y ↔ TimeTest opts other x y)) ∧
    (∀ c, MediaTest env opts' c a b ↔ MediaTest env opts c a b) ∧
    ∀ n, Excluded opts' a b n ↔ Excluded opts a b n := by
  intro opts opts'
  have hcancel : ∀ x y : String, "{}." ++ x = "{}." ++ y ↔ x = y := by
    intro x y
    constructor
    · intro h
      have h1 := congrArg String.toList h
      rw [String.toList_append, String.toList_append] at h1
      exact String.toList_inj.1 (List.append_cancel_left h1)
    · intro h; rw [h]
  have hmem : ∀ n m', (Opt.diff ("{}." ++ n) m' : Opt P) ∈ opts' ↔ Opt.diff ("{}." ++ n) m' ∈ opts ∨ (n = name ∧ m' = m) := by
    intro n m'
    simp only [opts, opts', List.mem_append, List.mem_cons, Opt.diff.injEq, hcancel]
    constructor
    · rintro (h | h | h)
      · exact .inl (.inl h)
      · exact .inr h
      · exact .inl (.inr h)
    · rintro ((h | h) | h)
      · exact .inl h
      · exact .inr (.inr h)
      · exact .inr (.inl h)
  refine ⟨?_, ?_, ?_, ?_, ?_⟩
  · intro x y hn
    unfold TimeTest
    constructor
    · rintro (⟨h, _⟩ | ⟨_, h⟩)
      · exact absurd ((hmem name m).2 (.inr ⟨rfl, rfl⟩)) (h m)
      · exact h m ((hmem name m).2 (.inr ⟨rfl, rfl⟩))
    · intro h
      refine .inr ⟨⟨m, (hmem name m).2 (.inr ⟨rfl, rfl⟩)⟩, ?_⟩
      intro m' hm'
      rcases (hmem name m').1 hm' with hm' | ⟨_, hm'⟩
      · exact absurd hm' (hn m')
      · subst hm'; exact h
  · rintro x y ⟨m₀, hm₀⟩
    unfold TimeTest
    constructor
    · rintro (⟨h, _⟩ | ⟨_, h⟩)
      · exact absurd ((hmem name m).2 (.inr ⟨rfl, rfl⟩)) (h m)
      · exact ⟨.inr ⟨⟨m₀, hm₀⟩, fun m' hm' => h m' ((hmem name m').2 (.inl hm'))⟩, h m ((hmem name m).2 (.inr ⟨rfl, rfl⟩))⟩
    · rintro ⟨⟨h, _⟩ | ⟨_, h⟩, h2⟩
      · exact absurd hm₀ (h m₀)
      · refine .inr ⟨⟨m, (hmem name m).2 (.inr ⟨rfl, rfl⟩)⟩, ?_⟩
        intro m' hm'
        rcases (hmem name m').1 hm' with hm' | ⟨_, hm'⟩
        · exact h m' hm'
        · subst hm'; exact h2
  · intro other x y hne
    have : ∀ m', (Opt.diff ("{}." ++ other) m' : Opt P) ∈ opts' ↔ Opt.diff ("{}." ++ other) m' ∈ opts := by
      intro m'
      rw [hmem]
      constructor
      · rintro (h | ⟨h, _⟩)
        · exact h
        · exact absurd h hne
      · exact .inl
    unfold TimeTest
    simp only [this]
  · intro c
    have : ∀ i m', (Opt.psnr i m' : Opt P) ∈ opts' ↔ Opt.psnr i m' ∈ opts := by intro i m'; simp [opts, opts']
    unfold MediaTest
    simp only [this]
  · intro n
    have h1 : ∀ i, (Opt.exclude i : Opt P) ∈ opts' ↔ Opt.exclude i ∈ opts := by intro i; simp [opts, opts']
    have h2 : ∀ i, (Opt.incl i : Opt P) ∈ opts' ↔ Opt.incl i ∈ opts := by intro i; simp [opts, opts']
    unfold Excluded Asked
    simp only [h1, h2]

open CompareSample

/-- Exclusions and expected differences at work. -/
example :
    verdict [] event { event with sync := 31, src := 5 } = some false ∧
    verdict [.exclude "{}.source_id"] event { event with sync := 31, src := 5 } = some false ∧
    verdict [.exclude "{}.source_id", .exclude "{}.sync_timestamp"] event { event with sync := 31, src := 5 } = some true ∧
    verdict [.diff "{}.sync_timestamp" (fun d => d == -11)] event { event with sync := 31 } = some true ∧
    verdict [.diff "{}.sync_timestamp" (fun d => d == 11)] event { event with sync := 31 } = some false ∧
    verdict [.diff "{}.sync_timestamp" (fun d => d == 11)] event event = some false ∧
    verdict [.incl "{}.creation_timestamp"] event { event with creation := 31 } = some false := by decide +kernel

example : TopLevel ([.exclude "{}.source_id", .diff "{}.sync_timestamp" (fun d => d == -11)] : List (Opt Nat)) := by
  intro o ho
  rcases List.mem_cons.1 ho with rfl | ho
  · exact ⟨"source_id", by decide, by decide⟩
  · rcases List.mem_cons.1 ho with rfl | ho
    · exact ⟨"sync_timestamp", by decide, by decide⟩
    · cases ho

/-- Excluding the format of grains with different formats also ignores the data, whatever it is. -/
theorem C43_format_counterexample :
    verdict [.exclude "{}.data"] (s16 [1, 2]) (s24 [3, 4]) = some false ∧
    verdict [.exclude "{}.format"] (s16 [1, 2]) (s24 [3, 4]) = some true := by decide +kernel

/-- Excluding the topic of event grains also ignores their length. -/
theorem C43_topic_counterexample :
    verdict [] event { event with length := 9 } = some false ∧
    verdict [.exclude "{}.topic"] event { event with length := 9 } = some true := by decide +kernel

/-- An expected difference of the length (or of any attribute but timestamps) has no effect. -/
theorem C43_length_counterexample :
    verdict [.diff "{}.length" (fun d => d == -6)] event { event with length := 9 } = some false := by decide +kernel

/-- An expected difference of the creation timestamp has no effect unless it is included. -/
theorem C43_creation_counterexample :
    verdict [.diff "{}.creation_timestamp" (fun d => d == 5)] event event = some true ∧
    verdict [.incl "{}.creation_timestamp", .diff "{}.creation_timestamp" (fun d => d == 5)] event event = some false := by
  decide +kernel

/-! ## C44 -/

namespace CompareIter

theorem key_irrelevant (env : Env P V) (opts : List (Opt P)) (a b : Grain V) (k k' : Option Key) :
    (compareGrain env opts a b k).map Res.equal = (compareGrain env opts a b k').map Res.equal := by
  unfold compareGrain
  simp only
  generalize bodyRes env (withDefault opts) a b = x
  obtain ⟨rs, d⟩ := x
  cases d with
  | none => rfl
  | some d => cases d with
    | none => rfl
    | some d => rfl

/-- What `compare_grain` says about a pair. -/
def says (env : Env P V) (opts : List (Opt P)) (a b : Grain V) : Option Bool := (compareGrain env opts a b).map Res.equal

theorem says_some {env : Env P V} {opts : List (Opt P)} {a b : Grain V} {k : Option Key} {r : Res P}
    (h : compareGrain env opts a b k = some r) : says env opts a b = some r.equal := by
  unfold says
  rw [key_irrelevant env opts a b none k, h]; rfl

theorem says_none {env : Env P V} {opts : List (Opt P)} {a b : Grain V} {k : Option Key}
    (h : compareGrain env opts a b k = none) : says env opts a b = none := by
  unfold says
  rw [key_irrelevant env opts a b none k, h]; rfl

theorem loop_verdict (env : Env P V) (opts : List (Opt P)) (lastOnly : Bool) : ∀ (as bs : List (Grain V)) (n : Nat) (kept : List (Res P))
    (last : Option (Res P)) (ok : Bool) (n' : Nat) (kept' : List (Res P)) (last' : Option (Res P)),
    iterLoop env opts lastOnly as bs n kept last = some (ok, n', kept', last') →
    (ok = true ↔ as.length = bs.length ∧
      ∀ (i : Nat) (a b : Grain V), as[i]? = some a → bs[i]? = some b → says env opts a b = some true) := by
  intro as
  induction as with
  | nil =>
    intro bs n kept last ok n' kept' last' h
    cases bs with
    | nil =>
      simp only [iterLoop] at h
      injection h with h
      have : true = ok := congrArg Prod.fst h
      subst this
      simp
    | cons b bs =>
      simp only [iterLoop] at h
      injection h with h
      have : false = ok := congrArg Prod.fst h
      subst this
      simp
  | cons a as ih =>
    intro bs n kept last ok n' kept' last' h
    cases bs with
    | nil =>
      simp only [iterLoop] at h
      injection h with h
      have : false = ok := congrArg Prod.fst h
      subst this
      simp
    | cons b bs =>
      simp only [iterLoop] at h
      cases hr : compareGrain env opts a b (some (.idx n)) with
      | none => rw [hr] at h; cases h
      | some r =>
        rw [hr] at h
        simp only at h
        have hs := says_some hr
        by_cases he : r.equal = true
        · rw [if_pos he] at h
          rw [ih _ _ _ _ _ _ _ _ h]
          rw [he] at hs
          constructor
          · rintro ⟨h1, h2⟩
            refine ⟨by simp [h1], ?_⟩
            intro i x y hx hy
            cases i with
            | zero =>
              simp only [List.getElem?_cons_zero, Option.some.injEq] at hx hy
              subst hx hy; exact hs
            | succ i =>
              rw [List.getElem?_cons_succ] at hx hy
              exact h2 i x y hx hy
          · rintro ⟨h1, h2⟩
            refine ⟨by simpa using h1, ?_⟩
            intro i x y hx hy
            exact h2 (i + 1) x y (by rw [List.getElem?_cons_succ]; exact hx) (by rw [List.getElem?_cons_succ]; exact hy)
        · rw [if_neg he] at h
          injection h with h
          have : false = ok := congrArg Prod.fst h
          subst this
          constructor
          · intro h; cases h
          · rintro ⟨_, h2⟩
            have := h2 0 a b rfl rfl
            rw [hs] at this
            injection this with this
            exact absurd this he

/-- An exception comes from a comparison, all before which succeeded. -/
theorem loop_none (env : Env P V) (opts : List (Opt P)) (lastOnly : Bool) : ∀ (as bs : List (Grain V)) (n : Nat) (kept : List (Res P))
    (last : Option (Res P)), iterLoop env opts lastOnly as bs n kept last = none ↔
      ∃ (i : Nat) (a b : Grain V), as[i]? = some a ∧ bs[i]? = some b ∧ says env opts a b = none ∧
        ∀ (j : Nat) (x y : Grain V), j < i → as[j]? = some x → bs[j]? = some y → says env opts x y = some true := by
  intro as
  induction as with
  | nil => intro bs n kept last; cases bs <;> simp [iterLoop]
  | cons a as ih =>
    intro bs n kept last
    cases bs with
    | nil => simp [iterLoop]
    | cons b bs =>
      simp only [iterLoop]
      cases hr : compareGrain env opts a b (some (.idx n)) with
      | none =>
        simp only [true_iff]
        exact ⟨0, a, b, rfl, rfl, says_none hr, fun j x y hj => absurd hj (by omega)⟩
      | some r =>
        have hs := says_some hr
        simp only
        by_cases he : r.equal = true
        · rw [if_pos he, ih]
          rw [he] at hs
          constructor
          · rintro ⟨i, x, y, h1, h2, h3, h4⟩
            refine ⟨i + 1, x, y, h1, h2, h3, ?_⟩
            intro j u v hj hu hv
            cases j with
            | zero =>
              simp only [List.getElem?_cons_zero, Option.some.injEq] at hu hv
              subst hu hv; exact hs
            | succ j =>
              rw [List.getElem?_cons_succ] at hu hv
              exact h4 j u v (by omega) hu hv
          · rintro ⟨i, x, y, h1, h2, h3, h4⟩
            cases i with
            | zero =>
              simp only [List.getElem?_cons_zero, Option.some.injEq] at h1 h2
              subst h1 h2
              rw [hs] at h3; cases h3
            | succ i =>
              rw [List.getElem?_cons_succ] at h1 h2
              refine ⟨i, x, y, h1, h2, h3, ?_⟩
              intro j u v hj hu hv
              exact h4 (j + 1) u v (by omega) (by rw [List.getElem?_cons_succ]; exact hu) (by rw [List.getElem?_cons_succ]; exact hv)
        · rw [if_neg he]
          simp only [reduceCtorEq, false_iff]
          rintro ⟨i, x, y, h1, h2, h3, h4⟩
          cases i with
          | zero =>
            simp only [List.getElem?_cons_zero, Option.some.injEq] at h1 h2
            subst h1 h2
            rw [hs] at h3; cases h3
          | succ i =>
            have := h4 0 a b (by omega) rfl rfl
            rw [hs] at this
            injection this with this
            exact he this

/-- Both ways of running the loop agree; `rs` are the comparisons made and `extra` is the result for a missing grain. -/
theorem loop_both (env : Env P V) (opts : List (Opt P)) : ∀ (as bs : List (Grain V)) (n : Nat) (kept kept₂ : List (Res P))
    (last₁ last : Option (Res P)) (ok : Bool) (n' : Nat) (kept' : List (Res P)) (last₁' : Option (Res P)),
    iterLoop env opts false as bs n kept last₁ = some (ok, n', kept', last₁') →
    ∃ rs extra, kept' = kept ++ rs ++ extra ∧ n' = n + rs.length ∧
      iterLoop env opts true as bs n kept₂ last = some (ok, n', kept₂ ++ extra, rs.getLast?.or last) ∧
      (as ≠ [] → bs ≠ [] → rs ≠ []) ∧ (extra = [] ↔ as.length = bs.length ∨ ∃ r ∈ rs, r.equal = false) := by
  intro as
  induction as with
  | nil =>
    intro bs n kept kept₂ last₁ last ok n' kept' last₁' h
    cases bs with
    | nil =>
      simp only [iterLoop] at h
      injection h with h
      injection h with h1 h2
      injection h2 with h2 h3
      injection h3 with h3 h4
      subst h1 h2 h3 h4
      exact ⟨[], [], by simp, by simp, by simp [iterLoop], by simp, by simp⟩
    | cons b bs =>
      simp only [iterLoop] at h
      injection h with h
      injection h with h1 h2
      injection h2 with h2 h3
      injection h3 with h3 h4
      subst h1 h2 h3 h4
      exact ⟨[], [_], by simp; rfl, by simp, by simp [iterLoop], by simp, by simp⟩
  | cons a as ih =>
    intro bs n kept kept₂ last₁ last ok n' kept' last₁' h
    cases bs with
    | nil =>
      simp only [iterLoop] at h
      injection h with h
      injection h with h1 h2
      injection h2 with h2 h3
      injection h3 with h3 h4
      subst h1 h2 h3 h4
      exact ⟨[], [_], by simp; rfl, by simp, by simp [iterLoop], by simp, by simp⟩
    | cons b bs =>
      simp only [iterLoop] at h ⊢
      cases hr : compareGrain env opts a b (some (.idx n)) with
      | none => rw [hr] at h; cases h
      | some r =>
        rw [hr] at h
        simp only at h ⊢
        by_cases he : r.equal = true
        · rw [if_pos he] at h ⊢
          simp only [Bool.false_eq_true, if_false, if_true] at h ⊢
          obtain ⟨rs, extra, h1, h2, h3, _, h5⟩ := ih bs (n + 1) (kept ++ [r]) kept₂ last₁ (some r) ok n' kept' last₁' h
          refine ⟨r :: rs, extra, by rw [h1]; simp, by rw [h2, List.length_cons]; omega, ?_, by simp, ?_⟩
          · rw [h3]
            cases rs with
            | nil => simp
            | cons x xs => rw [List.getLast?_cons_cons, List.getLast?_eq_some_getLast (List.cons_ne_nil x xs)]; rfl
          · rw [h5]
            simp [he]
        · rw [if_neg he] at h ⊢
          simp only [Bool.false_eq_true, if_false, if_true] at h ⊢
          injection h with h
          injection h with h1 h2
          injection h2 with h2 h3
          injection h3 with h3 h4
          subst h1 h2 h3 h4
          refine ⟨[r], [], by simp, by simp, by simp, by simp, ?_⟩
          simp [Bool.eq_false_iff.2 he]

end CompareIter

open CompareIter

/-- The comparison succeeds exactly when there are as many grains on both sides and each pair compares equal. -/
theorem C44_verdict (env : Env P V) (opts : List (Opt P)) (lastOnly : Bool) (as bs : List (Grain V)) (r : IterRes P)
    (h : compareGrains env opts lastOnly as bs = some r) :
    r.equal = true ↔ as.length = bs.length ∧
      ∀ (i : Nat) (a b : Grain V), as[i]? = some a → bs[i]? = some b → (compareGrain env opts a b).map Res.equal = some true := by
  unfold compareGrains at h
  cases hl : iterLoop env opts lastOnly as bs 0 [] none with
  | none => rw [hl] at h; cases h
  | some x =>
    obtain ⟨ok, n, kept, last⟩ := x
    rw [hl] at h
    have := loop_verdict env opts lastOnly _ _ _ _ _ _ _ _ _ hl
    have hok : r.equal = ok := by
      cases lastOnly with
      | false => simp only [Bool.false_eq_true, if_false] at h; injection h with h; rw [← h]
      | true =>
        simp only [if_true] at h
        cases last with
        | none => cases h
        | some l => simp only at h; injection h with h; rw [← h]
    rw [hok, this]
    rfl

/-- There is an exception exactly if a pair that is reached raises one. -/
theorem C44_raises (env : Env P V) (opts : List (Opt P)) (as bs : List (Grain V)) :
    compareGrains env opts false as bs = none ↔
      ∃ (i : Nat) (a b : Grain V), as[i]? = some a ∧ bs[i]? = some b ∧ compareGrain env opts a b = none ∧
        ∀ (j : Nat) (x y : Grain V), j < i → as[j]? = some x → bs[j]? = some y →
          (compareGrain env opts x y).map Res.equal = some true := by
  have := loop_none env opts false as bs 0 [] none
  simp only [says, Option.map_eq_none_iff] at this
  rw [← this]
  unfold compareGrains
  cases iterLoop env opts false as bs 0 [] none with
  | none => simp
  | some x => obtain ⟨ok, n, kept, last⟩ := x; simp

/-- With `return_last_only`, if there is a grain on both sides, the verdict and the number of comparisons are the same, and what is
kept is the last comparison made, after the result for a missing grain if that ended the comparison. -/
theorem C44_last_only_partial (env : Env P V) (opts : List (Opt P)) (as bs : List (Grain V)) (ha : as ≠ []) (hb : bs ≠ [])
    (r : IterRes P) (h : compareGrains env opts false as bs = some r) :
    ∃ rs extra, ∃ hne : rs ≠ [], r.children = rs ++ extra ∧ r.count = rs.length ∧
      (extra = [] ↔ as.length = bs.length ∨ ∃ c ∈ rs, c.equal = false) ∧
      compareGrains env opts true as bs = some ⟨r.equal, extra ++ [rs.getLast hne], r.count⟩ := by
  unfold compareGrains at h
  cases hl : iterLoop env opts false as bs 0 [] none with
  | none => rw [hl] at h; cases h
  | some x =>
    obtain ⟨ok, n, kept, last⟩ := x
    rw [hl] at h
    simp only [Bool.false_eq_true, if_false] at h
    injection h with h
    subst h
    obtain ⟨rs, extra, h1, h2, h3, h4, h5⟩ := loop_both env opts as bs 0 [] [] none none _ _ _ _ hl
    have hne := h4 ha hb
    refine ⟨rs, extra, hne, by simpa using h1, by simpa using h2, h5, ?_⟩
    unfold compareGrains
    rw [h3]
    rw [List.getLast?_eq_some_getLast hne]
    simp

/-- Without a pair to compare, `return_last_only` raises an exception although the iterators match. -/
theorem C44_last_only_counterexample :
    ((compareGrains env ([] : List (Opt Nat)) false [] []).map IterRes.equal = some true ∧
      (compareGrains env ([] : List (Opt Nat)) true [] []).map IterRes.equal = none) := by decide +kernel

/-- With different lengths two results are kept, in the wrong order. -/
theorem C44_two_kept_counterexample :
    (compareGrains env ([] : List (Opt Nat)) true [event, event] [event]).map (fun r => r.children.map (fun c => (c.key, c.equal))) =
      some [(some (.idx 1), false), (some (.idx 0), true)] := by decide +kernel

example : (compareGrains env ([] : List (Opt Nat)) false [event, s16 [1, 2]] [event, s16 [1, 2]]).map (fun r => (r.equal, r.count)) =
      some (true, 2) ∧
    (compareGrains env ([] : List (Opt Nat)) true [event, s16 [1, 2]] [event, s16 [1, 3]]).map (fun r => (r.equal, r.count)) =
      some (false, 2) := by decide +kernel

end Verif.Props

import Verif.Compare.Report
import Verif.Props.C42

/-!
# C76: What a comparison reports
-/

namespace Verif.Props.ReportSpec

open Verif Verif.Cog Verif.Compare CompareSpec

variable {P V : Type}

/-- The data of the two grains can be compared: they are of the same type and format. -/
def DataComparable (a b : Grain V) : Prop :=
  match a.body, b.body with
  | .audio f .., .audio f' .. => f = f'
  | .codedAudio f .., .codedAudio f' .. => f = f'
  | .video f .., .video f' .. => f = f'
  | .codedVideo f .., .codedVideo f' .. => f = f'
  | .plain n, .plain n' => n = n'
  | _, _ => False

/-- The attribute does not count. -/
def Ignored (opts : List (Opt P)) (a b : Grain V) (name : String) : Prop :=
  Excluded opts a b name ∨ (name = "data" ∧ ¬ DataComparable a b)

/-- What is reported on: the compared attributes and, of grains of different types, the data, which does not count. -/
def reported (env : Env P V) (opts : List (Opt P)) (a b : Grain V) : List (String × Prop) :=
  attrs env opts a b ++ (if (typeAttrs env opts a b).isEmpty then [("data", True)] else [])

/-- The data is compared by the signal to noise ratio. -/
def ByRatio (opts : List (Opt P)) (a b : Grain V) : Prop :=
  (∃ m, Opt.psnr "{}.data" m ∈ opts) ∧
    match a.body, b.body with
    | .audio f .., .audio f' .. => f = f'
    | .video f .., .video f' .. => f = f'
    | _, _ => False

/-- The report on one attribute: whether it counts, and whether it is the same. What was excluded is compared all the same, except for
data. -/
def Reports (opts : List (Opt P)) (a b : Grain V) (c : Res P) (x : String × Prop) : Prop :=
  c.attr = some x.1 ∧ (c.excluded = true ↔ Ignored opts a b x.1) ∧
    ((x.1 ≠ "data" ∨ ¬ Ignored opts a b x.1) → (c.equal = true ↔ x.2))

/-- The report on one place of two containers: nothing if it is in neither of them, otherwise whether it is in both and the same. -/
def Place {α : Type} (R : α → α → Prop) : Option α → Option α → Option (Res P) → Prop
  | none, none, c => c = none
  | some x, some y, c => ∃ d, c = some d ∧ d.excluded = false ∧ (d.equal = true ↔ R x y)
  | _, _, c => ∃ d, c = some d ∧ d.excluded = false ∧ d.equal = false

/-- The report on two lists: on each index, and the failing ones. -/
structure ListReport {α : Type} (R : α → α → Prop) (as bs : List α) (c : Res P) : Prop where
  place : ∀ i : Nat, Place R as[i]? bs[i]? (c.subKey (.idx i))
  failing : ∀ k, k ∈ c.failingKeys ↔ ∃ d, c.subKey k = some d ∧ d.equal = false

/-- The report on two dictionaries: on each key, and the failing ones. -/
structure DictReport (veq : V → V → Bool) (as bs : Dict V) (c : Res P) : Prop where
  place : ∀ k : String, Place (fun x y => veq x y = true) (as.get? k) (bs.get? k) (c.subKey (.name k))
  failing : ∀ k, k ∈ c.failingKeys ↔ ∃ d, c.subKey k = some d ∧ d.equal = false

/-- The report on two lists of dictionaries: also on the keys of the dictionaries at the same index. -/
structure DictsReport (veq : V → V → Bool) (as bs : List (Dict V)) (c : Res P) : Prop where
  list : ListReport (DictSame veq) as bs c
  dict : ∀ (i : Nat) (x y : Dict V) (d : Res P), as[i]? = some x → bs[i]? = some y → c.subKey (.idx i) = some d → DictReport veq x y d

/-- A result shown with a cross, with crosses down to one that was not made from others. -/
inductive Explained : Res P → Prop where
  | leaf {r : Res P} : r.mark = .cross → r.children = [] → Explained r
  | node {r c : Res P} : r.mark = .cross → c ∈ r.children → Explained c → Explained r

end Verif.Props.ReportSpec

namespace Verif.Props.ReportLemmas

open Verif Verif.Cog Verif.Compare CompareSpec CompareLemmas ReportSpec

variable {P V : Type}

/-- One result for each attribute, in the same order. -/
def Rows (opts : List (Opt P)) (a b : Grain V) : List (Res P) → List (String × Prop) → Prop
  | [], [] => True
  | c :: cs, x :: xs => Reports opts a b c x ∧ Rows opts a b cs xs
  | _, _ => False

theorem rows_append {opts : List (Opt P)} {a b : Grain V} {rs rs' : List (Res P)} {as as' : List (String × Prop)}
    (h : Rows opts a b rs as) (h' : Rows opts a b rs' as') : Rows opts a b (rs ++ rs') (as ++ as') := by
  induction rs generalizing as with
  | nil => cases as with
    | nil => exact h'
    | cons x as => exact h.elim
  | cons c rs ih => cases as with
    | nil => exact h.elim
    | cons x as => exact ⟨h.1, ih h.2⟩

theorem ignored_of_ne {opts : List (Opt P)} {a b : Grain V} {n : String} (h : n ≠ "data") :
    Ignored opts a b n ↔ Excluded opts a b n :=
  ⟨fun h' => h'.elim id (fun h' => absurd h'.1 h), .inl⟩

theorem eq_reports {opts o : List (Opt P)} {a b : Grain V} {name : String} {e : Bool} {T : Prop} (he : e = true ↔ T) (hn : name ≠ "data")
    (hx : isExcluded o ("{}." ++ name) = true ↔ Excluded opts a b name) :
    Reports opts a b (eqRes o name e) (name, T) :=
  ⟨rfl, hx.trans (ignored_of_ne hn).symm, fun _ => he⟩

theorem beq_reports {α : Type} [DecidableEq α] {opts o : List (Opt P)} {a b : Grain V} {name : String} {x y : α} (hn : name ≠ "data")
    (hx : isExcluded o ("{}." ++ name) = true ↔ Excluded opts a b name) :
    Reports opts a b (eqRes o name (x == y)) (name, x = y) := eq_reports beq_iff_eq hn hx

theorem diff_reports {opts : List (Opt P)} {a b : Grain V} {name ident : String} {x y : Int}
    (hi : ident = "{}." ++ name) (hn : name ≠ "data")
    (hx : isExcluded (withDefault opts) ("{}." ++ name) = true ↔ Excluded opts a b name) :
    Reports opts a b (diffRes ident (some name) none (withDefault opts) x y) (name, TimeTest opts name x y) := by
  subst hi
  refine ⟨rfl, hx.trans (ignored_of_ne hn).symm, fun _ => ?_⟩
  show diffTest _ _ _ _ = true ↔ _
  rw [diffTest_iff]
  simp only [mem_withDefault_diff]
  rfl

theorem dicts_equal {opts : List (Opt P)} (ho : NoNested (withDefault opts)) {veq : V → V → Bool} {ident : String} {at' : Option String}
    {x y : List (Dict V)} (hw : ∀ d ∈ x, (d.map (fun z => z.1)).Nodup) :
    (ordered (mapping veq (withDefault opts)) ident at' (withDefault opts) x y).equal = true ↔ ListSame (DictSame veq) x y := by
  rw [ordered_equal ho (mapping veq (withDefault opts)) (DictSame veq)]
  intro n k d e hd _
  have : (mapping veq (withDefault opts) (itemIdent ident n) k d e).passes =
      ((mapping veq (withDefault opts) (itemIdent ident n) k d e).equal || isExcluded (withDefault opts) (itemIdent ident n)) := rfl
  rw [this, (ho _ (.inl (item_nested _ n))).1, Bool.or_false, mapping_equal ho _ _ _ _ _ (hw d hd)]

theorem dicts_reports {opts : List (Opt P)} {a b : Grain V} {name ident : String} (hi : ident = "{}." ++ name) (hn : name ≠ "data")
    (ho : NoNested (withDefault opts)) {veq : V → V → Bool} {x y : List (Dict V)} (hw : ∀ d ∈ x, (d.map (fun z => z.1)).Nodup)
    (hx : isExcluded (withDefault opts) ("{}." ++ name) = true ↔ Excluded opts a b name) :
    Reports opts a b (ordered (mapping veq (withDefault opts)) ident (some name) (withDefault opts) x y)
      (name, ListSame (DictSame veq) x y) := by
  subst hi
  exact ⟨rfl, hx.trans (ignored_of_ne hn).symm, fun _ => dicts_equal ho hw⟩

theorem offsets_equal {opts : List (Opt P)} (ho : NoNested (withDefault opts)) {ident : String} {at' : Option String} {x y : List Int} :
    (ordered (fun i key x y => diffRes i none key (withDefault opts) x y) ident at' (withDefault opts) x y).equal = true ↔ x = y := by
  rw [ordered_equal ho _ (fun u v => u = v)]
  · unfold ListSame
    constructor
    · rintro ⟨h1, h2⟩
      apply List.ext_getElem h1
      intro i hi hi'
      exact h2 i _ _ (List.getElem?_eq_getElem hi) (List.getElem?_eq_getElem hi')
    · rintro rfl
      refine ⟨rfl, fun i u v hu hv => ?_⟩
      rw [hu] at hv; injection hv
  · intro n k d e _ _
    rw [passes_diff, (ho _ (.inl (item_nested _ n))).1, Bool.or_false]
    unfold diffTest
    rw [(ho _ (.inl (item_nested _ n))).2, if_pos rfl, beq_iff_eq]
    omega

theorem offsets_reports {opts : List (Opt P)} {a b : Grain V} {name ident : String} (hi : ident = "{}." ++ name) (hn : name ≠ "data")
    (ho : NoNested (withDefault opts)) {x y : List Int}
    (hx : isExcluded (withDefault opts) ("{}." ++ name) = true ↔ Excluded opts a b name) :
    Reports opts a b (ordered (fun i key x y => diffRes i none key (withDefault opts) x y) ident (some name) (withDefault opts) x y)
      (name, x = y) := by
  subst hi
  exact ⟨rfl, hx.trans (ignored_of_ne hn).symm, fun _ => offsets_equal ho⟩

theorem length_reports (opts : List (Opt P)) (a b : Grain V) (ha : isEvent a.body = true ↔ a.body.type = "event")
    (hb : isEvent b.body = true ↔ b.body.type = "event") :
    Reports opts a b (eqRes (lengthOpts (withDefault opts) a b) "length" (a.length == b.length)) ("length", a.length = b.length) := by
  refine eq_reports beq_iff_eq (by decide) ?_
  have h := length_agree opts { a with length := 0 } { b with length := 1 } ha hb
  have e1 : lengthOpts (withDefault opts) { a with length := 0 } { b with length := 1 } = lengthOpts (withDefault opts) a b := rfl
  have e2 : Excluded opts { a with length := 0 } { b with length := 1 } "length" = Excluded opts a b "length" := rfl
  rw [e1, e2] at h
  unfold eqRes at h
  rw [passes_plain] at h
  simpa using h

theorem common_rows (env : Env P V) (opts : List (Opt P)) (a b : Grain V) (ho : TopLevel opts) (ha : Wf a) (hb : Wf b) :
    Rows opts a b (commonRes env (withDefault opts) (lengthOpts (withDefault opts) a b) a b) (commonAttrs env opts a b) := by
  unfold commonRes commonAttrs
  refine ⟨beq_reports (by decide) (by xs), beq_reports (by decide) (by xs), beq_reports (by decide) (by xs), beq_reports (by decide) (by xs),
    beq_reports (by decide) (by xs), length_reports opts a b (isEvent_iff ha) (isEvent_iff hb), diff_reports (by decide) (by decide) (by xs),
    diff_reports (by decide) (by decide) (by xs), diff_reports (by decide) (by decide) ?_,
    dicts_reports (by decide) (by decide) (noNested ho) ha.labels (by xs), trivial⟩
  rw [excl_iff opts "creation_timestamp" (by decide) (by decide) (by decide)]
  unfold Excluded
  constructor
  · rintro (h | h)
    · exact .inl h
    · exact .inr (.inl h)
  · rintro (h | h | ⟨h, _⟩)
    · exact .inl h
    · exact .inr h
    · exact absurd h (by decide)

theorem incomparable_reports {opts : List (Opt P)} {a b : Grain V} (h : ¬ DataComparable a b) {T : Prop} :
    Reports opts a b (incomparable (withDefault opts)) ("data", T) := by
  have hi : Ignored opts a b "data" := .inr ⟨rfl, h⟩
  refine ⟨rfl, ⟨fun _ => hi, fun _ => ?_⟩, fun h => ?_⟩
  · show isExcluded (withDefault opts ++ [Opt.exclude "{}.data"]) "{}.data" = true
    rw [isExcluded_iff]
    exact .inl (by simp)
  · rcases h with h | h
    · exact absurd rfl h
    · exact absurd hi h

theorem dataRes_shape {o : List (Opt P)} {i : String} {at' : Option String} {c : Code} {x y : Option Bytes} {r : Res P}
    (h : dataRes i at' o c x y = some r) : r.attr = at' ∧ r.excluded = isExcluded o i := by
  unfold dataRes at h
  cases x <;> cases y <;> simp only at h
  · injection h with h; subst h; exact ⟨rfl, rfl⟩
  · obtain ⟨_, _, h⟩ := Option.map_eq_some_iff.1 h; subst h; exact ⟨rfl, rfl⟩
  · obtain ⟨_, _, h⟩ := Option.map_eq_some_iff.1 h; subst h; exact ⟨rfl, rfl⟩
  · obtain ⟨_, _, h⟩ := Option.bind_eq_some_iff.1 h
    obtain ⟨_, _, h⟩ := Option.map_eq_some_iff.1 h; subst h; exact ⟨rfl, rfl⟩

theorem data_reports {opts : List (Opt P)} {a b : Grain V} (hd : DataComparable a b) {r : Res P} {T : Prop} (h1 : r.attr = some "data")
    (h2 : r.excluded = isExcluded (withDefault opts) "{}.data")
    (h3 : r.passes = true ↔ T ∨ isExcluded (withDefault opts) "{}.data" = true) {Q : Prop} (hq : Q) :
    Reports opts a b r ("data", Q → T) := by
  have hx : isExcluded (withDefault opts) "{}.data" = true ↔ Excluded opts a b "data" :=
    excl_simple opts a b "data" (by decide) (by decide) (by decide) (by decide)
  have hi : Ignored opts a b "data" ↔ Excluded opts a b "data" :=
    ⟨fun h => h.elim id (fun h => absurd hd h.2), .inl⟩
  refine ⟨h1, by rw [h2, hx, hi], fun h => ?_⟩
  rcases h with h | h
  · exact absurd rfl h
  · rw [hi, ← hx] at h
    unfold Res.passes at h3
    rw [h2, Bool.eq_false_iff.2 h] at h3
    simp only [Bool.or_false, Bool.false_eq_true, or_false] at h3
    rw [show ("data", Q → T).2 = (Q → T) from rfl, h3]
    exact ⟨fun h _ => h, fun h => h hq⟩

/-- The results for the type of grain. -/
def TypeRows (env : Env P V) (opts : List (Opt P)) (a b : Grain V) (x : List (Res P) × Option (Option (Res P))) : Prop :=
  (x.2 = none → Rows opts a b x.1 (typeAttrs env opts a b) ∧ (typeAttrs env opts a b).isEmpty = false) ∧
    ∀ d, x.2 = some (some d) →
      Rows opts a b (x.1 ++ [d]) (typeAttrs env opts a b ++ (if (typeAttrs env opts a b).isEmpty then [("data", True)] else []))

theorem typeRows_data {env : Env P V} {opts : List (Opt P)} {a b : Grain V} {rs : List (Res P)} {as : List (String × Prop)}
    {Q T : Prop} [Decidable Q] {e : Option (Res P)} (ht : typeAttrs env opts a b = as ++ [("data", Q → T)]) (hs : Rows opts a b rs as)
    (hq : DataComparable a b ↔ Q)
    (hd : Q → ∀ d, e = some d → d.attr = some "data" ∧ d.excluded = isExcluded (withDefault opts) "{}.data" ∧
      (d.passes = true ↔ T ∨ isExcluded (withDefault opts) "{}.data" = true)) :
    TypeRows env opts a b (rs, some (if Q then e else some (incomparable (withDefault opts)))) := by
  refine ⟨fun h => (by cases h), fun d h => ?_⟩
  simp only at h
  injection h with h
  rw [ht]
  rw [show (as ++ [("data", Q → T)]).isEmpty = false by simp]
  simp only [Bool.false_eq_true, if_false, List.append_nil]
  refine rows_append hs ⟨?_, trivial⟩
  by_cases hq' : Q
  · rw [if_pos hq'] at h
    obtain ⟨h1, h2, h3⟩ := hd hq' d h
    exact data_reports (hq.2 hq') h1 h2 h3 hq'
  · rw [if_neg hq'] at h
    injection h with h
    subst h
    exact incomparable_reports (fun h => hq' (hq.1 h))

theorem typeRows_other {env : Env P V} {opts : List (Opt P)} {a b : Grain V} (ht : typeAttrs env opts a b = []) (h : ¬ DataComparable a b) :
    TypeRows env opts a b ([], some (some (incomparable (withDefault opts)))) := by
  refine ⟨fun h => (by cases h), fun d hd => ?_⟩
  simp only at hd
  injection hd with hd
  injection hd with hd
  rw [ht, ← hd]
  exact ⟨incomparable_reports h, trivial⟩

theorem media_shape {env : Env P V} {opts : List (Opt P)} {c : Code} {a b : Grain V} {r : Res P} (hp : ∀ m, Opt.psnr "{}.data" m ∉ opts)
    (h : mediaData env (withDefault opts) c a b = some r) :
    r.attr = some "data" ∧ r.excluded = isExcluded (withDefault opts) "{}.data" ∧
      (r.passes = true ↔ MediaTest env opts c a b ∨ isExcluded (withDefault opts) "{}.data" = true) := by
  have h' := mediaData_passes h
  unfold mediaData at h
  have : psnrMatchers (withDefault opts) "{}.data" = [] := by
    cases he : psnrMatchers (withDefault opts) "{}.data" with
    | nil => rfl
    | cons m ms =>
      exact absurd ((mem_withDefault_psnr opts _ m).1 ((mem_psnrMatchers _ _ m).1 (by rw [he]; simp))) (hp m)
  rw [if_pos this] at h
  exact ⟨(dataRes_shape h).1, (dataRes_shape h).2, h'⟩

theorem data_shape {opts : List (Opt P)} {c : Code} {x y : Option Bytes} {r : Res P}
    (h : dataRes "{}.data" (some "data") (withDefault opts) c x y = some r) :
    r.attr = some "data" ∧ r.excluded = isExcluded (withDefault opts) "{}.data" ∧
      (r.passes = true ↔ DataSame c x y ∨ isExcluded (withDefault opts) "{}.data" = true) :=
  ⟨(dataRes_shape h).1, (dataRes_shape h).2, dataRes_passes h⟩

macro "br" : term => `(beq_reports (by decide) (by xs))

theorem type_rows (env : Env P V) {opts : List (Opt P)} {a : Grain V} (b : Grain V) (ho : TopLevel opts) (ha : Wf a)
    (hp : ¬ ByRatio opts a b) : TypeRows env opts a b (bodyRes env (withDefault opts) a b) := by
  cases hba : a.body with
  | event t p i =>
    cases hbb : b.body with
    | event t' p' i' =>
      simp only [bodyRes, hba, hbb]
      refine ⟨fun _ => ?_, fun d h => by cases h⟩
      simp only [typeAttrs, hba, hbb]
      exact ⟨⟨eq_reports beq_iff_eq (by decide) (by xs), eq_reports beq_iff_eq (by decide) (by xs),
        dicts_reports (by decide) (by decide) (noNested ho) (ha.items _ _ _ hba) (by xs), trivial⟩, rfl⟩
    | _ => simp only [bodyRes, hba, hbb]; exact typeRows_other (by simp only [typeAttrs, hba, hbb]) (by simp [DataComparable, hba, hbb])
  | audio f s c r =>
    cases hbb : b.body with
    | audio f' s' c' r' =>
      simp only [bodyRes, hba, hbb]
      refine typeRows_data (as := [("cog_audio_format", f = f'), ("samples", s = s'), ("channels", c = c'), ("sample_rate", r = r')])
        (T := MediaTest env opts (audioCode f) a b) ?_ ?_ ?_ (fun hf d hd => media_shape ?_ hd)
      · simp only [typeAttrs, hba, hbb]; rfl
      · exact ⟨br, br, br, br, trivial⟩
      · simp [DataComparable, hba, hbb]
      · intro m hm; exact hp ⟨⟨m, hm⟩, by simpa only [hba, hbb] using hf⟩
    | _ => simp only [bodyRes, hba, hbb]; exact typeRows_other (by simp only [typeAttrs, hba, hbb]) (by simp [DataComparable, hba, hbb])
  | codedAudio f s c r p m =>
    cases hbb : b.body with
    | codedAudio f' s' c' r' p' m' =>
      simp only [bodyRes, hba, hbb]
      refine typeRows_data (as := [("cog_audio_format", f = f'), ("samples", s = s'), ("channels", c = c'), ("sample_rate", r = r'),
        ("priming", p = p'), ("remainder", m = m')]) (T := DataSame (.int 1) a.data b.data) ?_ ?_ ?_ (fun _ d hd => data_shape hd)
      · simp only [typeAttrs, hba, hbb]; rfl
      · exact ⟨br, br, br, br, br, br, trivial⟩
      · simp [DataComparable, hba, hbb]
    | _ => simp only [bodyRes, hba, hbb]; exact typeRows_other (by simp only [typeAttrs, hba, hbb]) (by simp [DataComparable, hba, hbb])
  | video f w h l =>
    cases hbb : b.body with
    | video f' w' h' l' =>
      simp only [bodyRes, hba, hbb]
      refine typeRows_data (as := [("cog_frame_format", f = f'), ("width", w = w'), ("height", h = h'), ("cog_frame_layout", l = l')])
        (T := MediaTest env opts (videoCode f) a b) ?_ ?_ ?_ (fun hf d hd => media_shape ?_ hd)
      · simp only [typeAttrs, hba, hbb]; rfl
      · exact ⟨br, br, br, br, trivial⟩
      · simp [DataComparable, hba, hbb]
      · intro m hm; exact hp ⟨⟨m, hm⟩, by simpa only [hba, hbb] using hf⟩
    | _ => simp only [bodyRes, hba, hbb]; exact typeRows_other (by simp only [typeAttrs, hba, hbb]) (by simp [DataComparable, hba, hbb])
  | codedVideo f cw ch ow oh k t l u =>
    cases hbb : b.body with
    | codedVideo f' cw' ch' ow' oh' k' t' l' u' =>
      simp only [bodyRes, hba, hbb]
      refine typeRows_data (as := [("cog_frame_format", f = f'), ("coded_width", cw = cw'), ("coded_height", ch = ch'), ("origin_width", ow = ow'),
        ("origin_height", oh = oh'), ("is_key_frame", k = k'), ("temporal_offset", t = t'), ("cog_frame_layout", l = l'),
        ("unit_offsets", u = u')]) (T := DataSame (.int 1) a.data b.data) ?_ ?_ ?_ (fun _ d hd => data_shape hd)
      · simp only [typeAttrs, hba, hbb]; rfl
      · exact ⟨br, br, br, br, br, eq_reports beq_iff_eq (by decide) (by xs), eq_reports beq_iff_eq (by decide) (by xs), br,
          offsets_reports (by decide) (by decide) (noNested ho) (by xs), trivial⟩
      · simp [DataComparable, hba, hbb]
    | _ => simp only [bodyRes, hba, hbb]; exact typeRows_other (by simp only [typeAttrs, hba, hbb]) (by simp [DataComparable, hba, hbb])
  | plain n =>
    cases hbb : b.body with
    | plain n' =>
      simp only [bodyRes, hba, hbb]
      refine typeRows_data (as := []) (T := DataSame (.int 1) a.data b.data) ?_ trivial ?_ (fun _ d hd => data_shape hd)
      · simp only [typeAttrs, hba, hbb]; rfl
      · simp [DataComparable, hba, hbb]
    | _ => simp only [bodyRes, hba, hbb]; exact typeRows_other (by simp only [typeAttrs, hba, hbb]) (by simp [DataComparable, hba, hbb])

/-- The children of a comparison of grains report on the attributes, in order. -/
theorem compare_rows (env : Env P V) (opts : List (Opt P)) (a b : Grain V) (k : Option Key) (ho : TopLevel opts) (ha : Wf a)
    (hb : Wf b) (hp : ¬ ByRatio opts a b) {r : Res P} (h : compareGrain env opts a b k = some r) :
    Rows opts a b r.children (reported env opts a b) ∧ r.equal = r.children.all Res.passes ∧ r.key = k := by
  have hc := common_rows env opts a b ho ha hb
  have ht := type_rows env b ho ha hp
  unfold compareGrain at h
  revert h
  simp only
  generalize bodyRes env (withDefault opts) a b = x at ht
  obtain ⟨rs, d⟩ := x
  intro h
  unfold reported attrs
  cases d with
  | none =>
    simp only at h
    injection h with h
    rw [← h]
    obtain ⟨h1, h2⟩ := ht.1 rfl
    rw [h2, if_neg (by simp), List.append_nil]
    exact ⟨rows_append hc h1, rfl, rfl⟩
  | some d =>
    cases d with
    | none => cases h
    | some d =>
      simp only at h
      injection h with h
      rw [← h, List.append_assoc, List.append_assoc]
      exact ⟨rows_append hc (ht.2 d rfl), rfl, rfl⟩

theorem rows_find {opts : List (Opt P)} {a b : Grain V} {rs : List (Res P)} {as : List (String × Prop)} (h : Rows opts a b rs as)
    (hn : (as.map (fun x => x.1)).Nodup) {x : String × Prop} (hx : x ∈ as) :
    ∃ c, rs.find? (fun c => c.attr == some x.1) = some c ∧ Reports opts a b c x := by
  induction rs generalizing as with
  | nil => cases as with
    | nil => cases hx
    | cons => exact h.elim
  | cons c rs ih => cases as with
    | nil => exact h.elim
    | cons y as =>
      obtain ⟨h1, h2⟩ := h
      rw [List.map_cons, List.nodup_cons] at hn
      rcases List.mem_cons.1 hx with rfl | hx
      · exact ⟨c, by rw [List.find?_cons, h1.1]; simp, h1⟩
      · obtain ⟨d, hd, hr⟩ := ih h2 hn.2 hx
        refine ⟨d, ?_, hr⟩
        have hne : y.1 ≠ x.1 := fun he => hn.1 (he ▸ List.mem_map_of_mem hx)
        rw [List.find?_cons, h1.1]
        have : (some y.1 == some x.1) = false := by simpa using hne
        rw [this]
        exact hd

theorem rows_attr {opts : List (Opt P)} {a b : Grain V} {rs : List (Res P)} {as : List (String × Prop)} (h : Rows opts a b rs as) :
    rs.map Res.attr = as.map (fun x => some x.1) := by
  induction rs generalizing as with
  | nil => cases as with
    | nil => rfl
    | cons => exact h.elim
  | cons c rs ih => cases as with
    | nil => exact h.elim
    | cons y as => rw [List.map_cons, List.map_cons, ih h.2, h.1.1]

theorem find_none {rs : List (Res P)} {n : String} (h : some n ∉ rs.map Res.attr) : rs.find? (fun c => c.attr == some n) = none := by
  rw [List.find?_eq_none]
  intro c hc he
  exact h (List.mem_map.2 ⟨c, hc, by simpa using he⟩)

/-- The failing attributes are those whose result fails. -/
theorem failing_eq {rs : List (Res P)} {ns : List String} (h : rs.map Res.attr = ns.map some) (hn : ns.Nodup) :
    rs.filterMap (fun c => if c.equal then none else c.attr) =
      ns.filter (fun n => (rs.find? (fun c => c.attr == some n)).any (fun c => !c.equal)) := by
  induction rs generalizing ns with
  | nil => cases ns with
    | nil => rfl
    | cons => cases h
  | cons c rs ih => cases ns with
    | nil => cases h
    | cons n ns =>
      rw [List.map_cons, List.map_cons] at h
      injection h with h1 h2
      rw [List.nodup_cons] at hn
      rw [List.filterMap_cons, List.filter_cons, ih h2 hn.2]
      have hf : ns.filter (fun n => ((c :: rs).find? (fun c => c.attr == some n)).any (fun c => !c.equal)) =
          ns.filter (fun n => (rs.find? (fun c => c.attr == some n)).any (fun c => !c.equal)) := by
        apply List.filter_congr
        intro m hm
        have hne : n ≠ m := fun he => hn.1 (he ▸ hm)
        rw [List.find?_cons, h1]
        have : (some n == some m) = false := by simpa using hne
        rw [this]
      rw [hf, List.find?_cons, h1]
      simp only [beq_self_eq_true, Option.any_some]
      cases c.equal <;> simp

theorem names_nodup (env : Env P V) (opts : List (Opt P)) (a b : Grain V) : ((reported env opts a b).map (fun x => x.1)).Nodup := by
  unfold reported attrs
  cases hba : a.body <;> cases hbb : b.body <;>
    simp only [commonAttrs, typeAttrs, hba, hbb, List.map_append, List.map_cons, List.map_nil, List.isEmpty, if_true, if_false,
      Bool.false_eq_true] <;> decide

/-! ## Containers -/

theorem find_zipIdx {α : Type} (f : α × Nat → Res P) (hf : ∀ x, (f x).key = some (.idx x.2)) (l : List α) (k i : Nat) :
    ((l.zipIdx k).map f).find? (fun c => c.key == some (.idx i)) =
      if k ≤ i then (l[i - k]?).map (fun x => f (x, i)) else none := by
  induction l generalizing k with
  | nil => simp
  | cons x l ih =>
    rw [List.zipIdx_cons, List.map_cons, List.find?_cons, hf, ih]
    by_cases h : k = i
    · subst h; simp
    · have : (some (Key.idx k) == some (Key.idx i)) = false := by simpa using h
      rw [this]
      by_cases h' : k ≤ i
      · rw [if_pos h', if_pos (by omega), show i - k = (i - (k + 1)) + 1 by omega, List.getElem?_cons_succ]
      · rw [if_neg h', if_neg (by omega)]

theorem keys_zipIdx {α : Type} (f : α × Nat → Res P) (hf : ∀ x, (f x).key = some (.idx x.2)) (l : List α) (k : Nat) :
    ((l.zipIdx k).map f).filterMap Res.key = (List.range' k l.length).map Key.idx := by
  induction l generalizing k with
  | nil => rfl
  | cons x l ih =>
    rw [List.zipIdx_cons, List.map_cons, List.filterMap_cons, hf, ih, List.length_cons, List.range'_succ, List.map_cons]

theorem failing_keys {r : Res P} (h : (r.children.filterMap Res.key).Nodup) (k : Key) :
    k ∈ r.failingKeys ↔ ∃ d, r.subKey k = some d ∧ d.equal = false := by
  unfold Res.failingKeys Res.subKey
  generalize r.children = cs at h
  induction cs with
  | nil => simp
  | cons c cs ih =>
    rw [List.filterMap_cons] at h
    cases hk : c.key with
    | none =>
      rw [hk] at h
      have hb : (c.key == some k) = false := by rw [hk]; rfl
      rw [List.find?_cons, hb, ← ih h, List.filterMap_cons]
      cases c.equal <;> simp [hk]
    | some k' =>
      rw [hk] at h
      simp only at h
      rw [List.nodup_cons] at h
      by_cases he : k' = k
      · subst he
        have hb : (c.key == some k') = true := by rw [hk]; simp
        rw [List.find?_cons, hb, List.filterMap_cons]
        have hno : k' ∉ cs.filterMap (fun c => if c.equal then none else c.key) := by
          intro hm
          obtain ⟨d, hd, hd'⟩ := List.mem_filterMap.1 hm
          refine h.1 (List.mem_filterMap.2 ⟨d, hd, ?_⟩)
          cases hde : d.equal <;> simp [hde] at hd'
          exact hd'
        cases hce : c.equal with
        | true => simp [hce]; simpa using hno
        | false => simp [hce, hk]
      · have hb : (c.key == some k) = false := by rw [hk]; simpa using he
        rw [List.find?_cons, hb, ← ih h.2, List.filterMap_cons]
        cases hce : c.equal with
        | true => simp
        | false => simp [hk, Ne.symm he]

theorem ordered_sub {α : Type} (item : String → Option Key → α → α → Res P) (hk : ∀ s k x y, (item s k x y).key = k) (ident : String)
    (at' : Option String) (o : List (Opt P)) (a b : List α) (i : Nat) :
    (ordered item ident at' o a b).subKey (.idx i) =
      match (generalizing := false) a[i]?, b[i]? with
      | none, none => none
      | some x, some y => some (item (itemIdent ident i) (some (.idx i)) x y)
      | _, _ => some (plainRes (itemIdent ident i) none (some (.idx i)) o false) := by
  unfold Res.subKey ordered
  show List.find? _ (_ :: _) = _
  rw [List.find?_cons]
  have h0 : ((plainRes ("len(" ++ ident ++ ")") none none o (a.length == b.length) : Res P).key == some (Key.idx i)) = false := rfl
  rw [h0]
  simp only
  rw [List.find?_append, List.find?_append, find_zipIdx _ (fun x => hk _ _ _ _), find_zipIdx _ (fun x => rfl), find_zipIdx _ (fun x => rfl),
    if_pos (Nat.zero_le i), List.getElem?_drop, List.getElem?_drop, Nat.sub_zero]
  have hz : ∀ l : List α, ∀ n, (if n ≤ i then (l[n + (i - n)]?).map (fun _ => plainRes (P := P) (itemIdent ident i) none (some (.idx i)) o false)
      else none) = if n ≤ i then (l[i]?).map (fun _ => plainRes (itemIdent ident i) none (some (.idx i)) o false) else none := by
    intro l n
    by_cases h : n ≤ i
    · rw [if_pos h, if_pos h, show n + (i - n) = i by omega]
    · rw [if_neg h, if_neg h]
  rw [hz, hz]
  cases ha : a[i]? with
  | none =>
    have hal := List.getElem?_eq_none_iff.1 ha
    have : (a.zip b)[i]? = none := by rw [List.getElem?_eq_none_iff, List.length_zip]; omega
    rw [this, if_pos hal]
    cases hb : b[i]? <;> simp
  | some x =>
    obtain ⟨hal, _⟩ := List.getElem?_eq_some_iff.1 ha
    cases hb : b[i]? with
    | none =>
      have hbl := List.getElem?_eq_none_iff.1 hb
      have : (a.zip b)[i]? = none := by rw [List.getElem?_eq_none_iff, List.length_zip]; omega
      rw [this, if_pos hbl]
      simp
    | some y =>
      have : (a.zip b)[i]? = some (x, y) := by rw [List.getElem?_zip_eq_some]; exact ⟨ha, hb⟩
      rw [this]
      simp

theorem ordered_keys {α : Type} (item : String → Option Key → α → α → Res P) (hk : ∀ s k x y, (item s k x y).key = k) (ident : String)
    (at' : Option String) (o : List (Opt P)) (a b : List α) : ((ordered item ident at' o a b).children.filterMap Res.key).Nodup := by
  have h : (ordered item ident at' o a b).children.filterMap Res.key =
      ((List.range' 0 (min a.length b.length)) ++ List.range' b.length (a.length - b.length) ++
        List.range' a.length (b.length - a.length)).map Key.idx := by
    unfold ordered
    show List.filterMap _ (_ :: _) = _
    rw [List.filterMap_cons]
    show List.filterMap _ _ = _
    rw [List.filterMap_append, List.filterMap_append, keys_zipIdx _ (fun x => hk _ _ _ _), keys_zipIdx _ (fun x => rfl),
      keys_zipIdx _ (fun x => rfl), List.map_append, List.map_append, List.length_zip, List.length_drop, List.length_drop]
  rw [h]
  apply List.Pairwise.map (R := fun x y => x ≠ y)
  · intro x y hne he; injection he with he; exact hne he
  · rw [List.pairwise_append, List.pairwise_append]
    have nd : ∀ k n, (List.range' k n).Pairwise (fun x y => x ≠ y) := fun k n => List.nodup_range'
    refine ⟨⟨nd _ _, nd _ _, ?_⟩, nd _ _, ?_⟩
    · intro x hx y hy
      simp only [List.mem_range'_1] at hx hy
      omega
    · intro x hx y hy
      simp only [List.mem_append, List.mem_range'_1] at hx hy
      omega

theorem ordered_report {α : Type} {o : List (Opt P)} (ho : NoNested o) (item : String → Option Key → α → α → Res P) (R : α → α → Prop)
    (ident : String) (at' : Option String) (a b : List α) (hk : ∀ s k x y, (item s k x y).key = k)
    (hx : ∀ s k x y, (item s k x y).excluded = isExcluded o s)
    (hitem : ∀ n k x y, x ∈ a → y ∈ b → ((item (itemIdent ident n) k x y).equal = true ↔ R x y)) :
    ListReport R a b (ordered item ident at' o a b) := by
  refine ⟨fun i => ?_, failing_keys (ordered_keys item hk _ _ _ _ _)⟩
  rw [ordered_sub item hk]
  have hp : ∀ e : Bool, (plainRes (P := P) (itemIdent ident i) none (some (.idx i)) o e).excluded = false :=
    fun e => (ho _ (.inl (item_nested _ i))).1
  cases ha : a[i]? with
  | none => cases hb : b[i]? with
    | none => exact rfl
    | some y => exact ⟨_, rfl, hp _, rfl⟩
  | some x => cases hb : b[i]? with
    | none => exact ⟨_, rfl, hp _, rfl⟩
    | some y =>
      exact ⟨_, rfl, by rw [hx]; exact (ho _ (.inl (item_nested _ i))).1,
        hitem i _ x y (List.mem_of_getElem? ha) (List.mem_of_getElem? hb)⟩

theorem mapping_sub (veq : V → V → Bool) (o : List (Opt P)) (ident : String) (key : Option Key) (a b : Dict V) (k : String) :
    (mapping veq o ident key a b).subKey (.name k) =
      match (generalizing := false) a.get? k, b.get? k with
      | none, none => none
      | some x, some y => some (plainRes (keyIdent ident k) none (some (.name k)) o (veq x y))
      | _, _ => some (plainRes (keyIdent ident k) none (some (.name k)) o false) := by
  have h1 : ∀ (f : String × V → V → Bool) (l : Dict V), (l.filterMap (fun x => (b.get? x.1).map (fun v =>
      plainRes (P := P) (keyIdent ident x.1) none (some (.name x.1)) o (f x v)))).find? (fun c => c.key == some (.name k)) =
      (l.find? (fun x => x.1 == k)).bind (fun x => (b.get? k).map (fun v => plainRes (keyIdent ident k) none (some (.name k)) o (f x v))) := by
    intro f l
    induction l with
    | nil => rfl
    | cons x l ih =>
      rw [List.filterMap_cons, List.find?_cons]
      by_cases hx : x.1 = k
      · rw [hx, beq_self_eq_true]
        cases hb : b.get? k with
        | none => rw [Option.map_none]; simp only; rw [ih, hb]; simp
        | some v => simp [plainRes, Res.key]
      · have hxb : (x.1 == k) = false := by simpa using hx
        rw [hxb]
        simp only
        rw [← ih]
        cases hb : b.get? x.1 with
        | none => rfl
        | some v =>
          rw [Option.map_some]
          simp only
          rw [List.find?_cons]
          have : ((plainRes (P := P) (keyIdent ident x.1) none (some (.name x.1)) o (f x v)).key == some (Key.name k)) = false := by
            simpa [plainRes, Res.key] using hx
          rw [this]
  have h2 : ∀ (p : String → Bool) (l : Dict V), ((l.filter (fun x => p x.1)).map (fun x =>
      plainRes (P := P) (keyIdent ident x.1) none (some (.name x.1)) o false)).find? (fun c => c.key == some (.name k)) =
      if p k then (l.find? (fun x => x.1 == k)).map (fun _ => plainRes (keyIdent ident k) none (some (.name k)) o false) else none := by
    intro p l
    induction l with
    | nil => simp
    | cons x l ih =>
      rw [List.filter_cons, List.find?_cons]
      by_cases hx : x.1 = k
      · rw [hx, beq_self_eq_true]
        cases hp : p k with
        | true => simp [plainRes, Res.key, hx]
        | false => rw [hp] at ih; simpa using ih
      · have hxb : (x.1 == k) = false := by simpa using hx
        rw [hxb]
        simp only
        rw [← ih]
        cases hp : p x.1 with
        | false => simp
        | true =>
          rw [if_pos rfl, List.map_cons, List.find?_cons]
          have : ((plainRes (P := P) (keyIdent ident x.1) none (some (.name x.1)) o false).key == some (Key.name k)) = false := by
            simpa [plainRes, Res.key] using hx
          rw [this]
  unfold Res.subKey mapping
  show List.find? _ (_ ++ _ ++ _) = _
  rw [List.find?_append, List.find?_append, h1 (fun x v => veq x.2 v), h2 (fun s => (b.get? s).isNone), h2 (fun s => (a.get? s).isNone)]
  unfold Dict.get?
  cases ha : a.find? (fun x => x.1 == k) <;> cases hb : b.find? (fun x => x.1 == k) <;> simp

theorem mapping_keys (veq : V → V → Bool) (o : List (Opt P)) (ident : String) (key : Option Key) (a b : Dict V)
    (ha : (a.map (fun x => x.1)).Nodup) (hb : (b.map (fun x => x.1)).Nodup) :
    ((mapping veq o ident key a b).children.filterMap Res.key).Nodup := by
  have h : (mapping veq o ident key a b).children.filterMap Res.key =
      (((a.filter (fun x => (b.get? x.1).isSome)) ++ (a.filter (fun x => (b.get? x.1).isNone)) ++
        (b.filter (fun x => (a.get? x.1).isNone))).map (fun x => x.1)).map Key.name := by
    unfold mapping
    show List.filterMap _ (_ ++ _ ++ _) = _
    have e1 : ∀ l : Dict V, (l.filterMap (fun x => (b.get? x.1).map (fun v =>
        plainRes (P := P) (keyIdent ident x.1) none (some (.name x.1)) o (veq x.2 v)))).filterMap Res.key =
        ((l.filter (fun x => (b.get? x.1).isSome)).map (fun x => x.1)).map Key.name := by
      intro l
      induction l with
      | nil => rfl
      | cons x l ih =>
        rw [List.filterMap_cons, List.filter_cons]
        cases hg : b.get? x.1 with
        | none => simpa using ih
        | some v => simpa [plainRes, Res.key] using ih
    have e2 : ∀ l : Dict V, (l.map (fun x => plainRes (P := P) (keyIdent ident x.1) none (some (.name x.1)) o false)).filterMap Res.key =
        (l.map (fun x => x.1)).map Key.name := by
      intro l
      induction l with
      | nil => rfl
      | cons x l ih => simpa [plainRes, Res.key] using ih
    rw [List.filterMap_append, List.filterMap_append, e1, e2, e2]
    simp only [List.map_append]
  rw [h]
  apply List.Pairwise.map (R := fun x y => x ≠ y)
  · intro x y hne he; injection he with he; exact hne he
  · have nd : ∀ (p : String × V → Bool) (l : Dict V), (l.map (fun x => x.1)).Nodup → ((l.filter p).map (fun x => x.1)).Nodup :=
      fun p l hl => List.Pairwise.sublist (List.Sublist.map _ List.filter_sublist) hl
    have key_some : ∀ (l : Dict V) (x : String × V), x ∈ l → (l.get? x.1).isSome = true := by
      intro l x hx
      unfold Dict.get?
      rw [Option.isSome_map, List.find?_isSome]
      exact ⟨x, hx, by simp⟩
    rw [List.map_append, List.map_append, List.pairwise_append, List.pairwise_append]
    refine ⟨⟨nd _ _ ha, nd _ _ ha, ?_⟩, nd _ _ hb, ?_⟩
    · intro x hx y hy he
      subst he
      obtain ⟨u, hu, hu'⟩ := List.mem_map.1 hx
      obtain ⟨v, hv, hv'⟩ := List.mem_map.1 hy
      have h1 := (List.mem_filter.1 hu).2
      have h2 := (List.mem_filter.1 hv).2
      rw [hu'] at h1
      rw [hv'] at h2
      revert h1 h2
      cases b.get? x <;> simp
    · intro x hx y hy he
      subst he
      obtain ⟨v, hv, hv'⟩ := List.mem_map.1 hy
      have h2 := (List.mem_filter.1 hv).2
      rw [hv'] at h2
      have : ∃ u ∈ a, u.1 = x := by
        rcases List.mem_append.1 hx with hx | hx
        · obtain ⟨u, hu, hu'⟩ := List.mem_map.1 hx; exact ⟨u, (List.mem_filter.1 hu).1, hu'⟩
        · obtain ⟨u, hu, hu'⟩ := List.mem_map.1 hx; exact ⟨u, (List.mem_filter.1 hu).1, hu'⟩
      obtain ⟨u, hu, hu'⟩ := this
      have h1 := key_some a u hu
      rw [hu'] at h1
      revert h1 h2
      cases a.get? x <;> simp

theorem mapping_report {o : List (Opt P)} (ho : NoNested o) (veq : V → V → Bool) (ident : String) (key : Option Key) (a b : Dict V)
    (ha : (a.map (fun x => x.1)).Nodup) (hb : (b.map (fun x => x.1)).Nodup) : DictReport veq a b (mapping veq o ident key a b) := by
  refine ⟨fun k => ?_, failing_keys (mapping_keys veq o ident key a b ha hb)⟩
  rw [mapping_sub]
  have hp : ∀ e : Bool, (plainRes (P := P) (keyIdent ident k) none (some (.name k)) o e).excluded = false :=
    fun e => (ho _ (.inl (key_nested _ k))).1
  cases a.get? k with
  | none => cases b.get? k with
    | none => exact rfl
    | some y => exact ⟨_, rfl, hp _, rfl⟩
  | some x => cases b.get? k with
    | none => exact ⟨_, rfl, hp _, rfl⟩
    | some y => exact ⟨_, rfl, hp _, Iff.rfl⟩

theorem dicts_report {o : List (Opt P)} (ho : NoNested o) (veq : V → V → Bool) (ident : String) (at' : Option String) (a b : List (Dict V))
    (ha : ∀ d ∈ a, (d.map (fun x => x.1)).Nodup) (hb : ∀ d ∈ b, (d.map (fun x => x.1)).Nodup) :
    DictsReport veq a b (ordered (mapping veq o) ident at' o a b) := by
  refine ⟨ordered_report ho _ _ _ _ _ _ (fun _ _ _ _ => rfl) (fun _ _ _ _ => rfl)
    (fun n k x y hx _ => mapping_equal ho veq _ _ _ _ (ha x hx)), fun i x y d hx hy hd => ?_⟩
  rw [ordered_sub _ (fun _ _ _ _ => rfl), hx, hy] at hd
  injection hd with hd
  subst hd
  exact mapping_report ho _ _ _ _ _ (ha x (List.mem_of_getElem? hx)) (hb y (List.mem_of_getElem? hy))

theorem offsets_report {o : List (Opt P)} (ho : NoNested o) (ident : String) (at' : Option String) (a b : List Int) :
    ListReport (fun x y => x = y) a b (ordered (fun i key x y => diffRes i none key o x y) ident at' o a b) := by
  refine ordered_report ho _ _ _ _ _ _ (fun _ _ _ _ => rfl) (fun _ _ _ _ => rfl) (fun n k x y _ _ => ?_)
  show diffTest _ _ _ _ = true ↔ _
  unfold diffTest
  rw [(ho _ (.inl (item_nested _ n))).2, if_pos rfl, beq_iff_eq]
  omega

/-! ## By the ratio -/

theorem psnr_shape {env : Env P V} {o : List (Opt P)} {a b : Grain V} {r : Res P} (h : psnrRes env o a b = some r) :
    r.attr = none ∧ r.key = none := by
  unfold psnrRes at h
  by_cases hx : isExcluded o "{}.data" = true
  · rw [if_pos hx] at h; injection h with h; subst h; exact ⟨rfl, rfl⟩
  · rw [if_neg hx] at h
    cases hp : env.psnr a b <;> rw [hp] at h
    · injection h with h; subst h; exact ⟨rfl, rfl⟩
    · injection h with h; subst h; exact ⟨rfl, rfl⟩
    · cases h

theorem media_ratio {env : Env P V} {opts : List (Opt P)} {c : Code} {a b : Grain V} {r : Res P} (hp : ∃ m, Opt.psnr "{}.data" m ∈ opts)
    (h : mediaData env (withDefault opts) c a b = some r) : r.attr = none := by
  unfold mediaData at h
  have : psnrMatchers (withDefault opts) "{}.data" ≠ [] := by
    obtain ⟨m, hm⟩ := hp
    intro he
    have := (mem_psnrMatchers _ _ m).2 ((mem_withDefault_psnr opts _ m).2 hm)
    rw [he] at this
    cases this
  rw [if_neg this] at h
  exact (psnr_shape h).1

/-- The outcome of the comparison by the ratio. -/
theorem media_test {env : Env P V} {opts : List (Opt P)} {c : Code} {a b : Grain V} (hp : ∃ m, Opt.psnr "{}.data" m ∈ opts) :
    MediaTest env opts c a b ↔ ∃ p, env.psnr a b = .ok p ∧ ∀ m, Opt.psnr "{}.data" m ∈ opts → m p = true := by
  unfold MediaTest
  constructor
  · rintro (⟨h, _⟩ | ⟨_, h⟩)
    · obtain ⟨m, hm⟩ := hp; exact absurd hm (h m)
    · exact h
  · exact fun h => .inr ⟨hp, h⟩

/-- What the children are if the data is compared by the ratio. -/
theorem ratio_rows (env : Env P V) (opts : List (Opt P)) (a b : Grain V) (k : Option Key) (ho : TopLevel opts) (ha : Wf a)
    (hb : Wf b) (hp : ByRatio opts a b) {r : Res P} (h : compareGrain env opts a b k = some r) :
    ∃ cs d as T, r.children = cs ++ [d] ∧ reported env opts a b = as ++ [("data", T)] ∧ Rows opts a b cs as ∧ d.attr = none ∧
      (d.passes = true ↔ (∃ p, env.psnr a b = .ok p ∧ ∀ m, Opt.psnr "{}.data" m ∈ opts → m p = true) ∨ Excluded opts a b "data") ∧
      r.equal = r.children.all Res.passes := by
  have hc := common_rows env opts a b ho ha hb
  obtain ⟨hm, hf⟩ := hp
  have hx : isExcluded (withDefault opts) "{}.data" = true ↔ Excluded opts a b "data" :=
    excl_simple opts a b "data" (by decide) (by decide) (by decide) (by decide)
  have fin : ∀ (rs : List (Res P)) (as : List (String × Prop)) (T : Prop) (c : Code), Rows opts a b rs as →
      typeAttrs env opts a b = as ++ [("data", T)] →
      bodyRes env (withDefault opts) a b = (rs, some (mediaData env (withDefault opts) c a b)) →
      ∃ cs d as T, r.children = cs ++ [d] ∧ reported env opts a b = as ++ [("data", T)] ∧ Rows opts a b cs as ∧ d.attr = none ∧
      (d.passes = true ↔ (∃ p, env.psnr a b = .ok p ∧ ∀ m, Opt.psnr "{}.data" m ∈ opts → m p = true) ∨ Excluded opts a b "data") ∧
      r.equal = r.children.all Res.passes := by
    intro rs as T c hr ht hbr
    unfold compareGrain at h
    simp only [hbr] at h
    cases hd : mediaData env (withDefault opts) c a b with
    | none => rw [hd] at h; cases h
    | some d =>
      rw [hd] at h
      simp only at h
      injection h with h
      refine ⟨_, d, commonAttrs env opts a b ++ as, T, by rw [← h]; rfl, ?_, rows_append hc hr, media_ratio hm hd, ?_, by rw [← h]; rfl⟩
      · unfold reported attrs
        rw [ht, show (as ++ [("data", T)]).isEmpty = false by simp]
        simp only [Bool.false_eq_true, if_false, List.append_nil, List.append_assoc]
      · rw [mediaData_passes hd, hx, media_test hm]
  have hbr : ∀ f s c r f' s' c' r' : Nat, Rows opts a b
      [eqRes (withDefault opts) "cog_audio_format" (f == f'), eqRes (withDefault opts) "samples" (s == s'),
        eqRes (withDefault opts) "channels" (c == c'), eqRes (withDefault opts) "sample_rate" (r == r')]
      [("cog_audio_format", f = f'), ("samples", s = s'), ("channels", c = c'), ("sample_rate", r = r')] :=
    fun f s c r f' s' c' r' => ⟨br, br, br, br, trivial⟩
  have hbv : ∀ f s c r f' s' c' r' : Nat, Rows opts a b
      [eqRes (withDefault opts) "cog_frame_format" (f == f'), eqRes (withDefault opts) "width" (s == s'),
        eqRes (withDefault opts) "height" (c == c'), eqRes (withDefault opts) "cog_frame_layout" (r == r')]
      [("cog_frame_format", f = f'), ("width", s = s'), ("height", c = c'), ("cog_frame_layout", r = r')] :=
    fun f s c r f' s' c' r' => ⟨br, br, br, br, trivial⟩
  cases hba : a.body with
  | audio f s c r' =>
    cases hbb : b.body with
    | audio f' s' c' r'' =>
      have hff : f = f' := by simpa only [hba, hbb] using hf
      refine fin _ [("cog_audio_format", f = f'), ("samples", s = s'), ("channels", c = c'), ("sample_rate", r' = r'')]
        (f = f' → MediaTest env opts (audioCode f) a b) (audioCode f) (hbr f s c r' f' s' c' r'') ?_ ?_
      · simp only [typeAttrs, hba, hbb]; rfl
      · simp only [bodyRes, hba, hbb, if_pos hff]
    | _ => exact absurd hf (by simp [hba, hbb])
  | video f w h l =>
    cases hbb : b.body with
    | video f' w' h' l' =>
      have hff : f = f' := by simpa only [hba, hbb] using hf
      refine fin _ [("cog_frame_format", f = f'), ("width", w = w'), ("height", h = h'), ("cog_frame_layout", l = l')]
        (f = f' → MediaTest env opts (videoCode f) a b) (videoCode f) (hbv f w h l f' w' h' l') ?_ ?_
      · simp only [typeAttrs, hba, hbb]; rfl
      · simp only [bodyRes, hba, hbb, if_pos hff]
    | _ => exact absurd hf (by simp [hba, hbb])
  | _ => exact absurd hf (by simp [hba])

theorem verdict_of_rows {opts : List (Opt P)} {a b : Grain V} {cs : List (Res P)} {as : List (String × Prop)} (h : Rows opts a b cs as)
    (hn : (as.map (fun x => x.1)).Nodup) (sub : String → Option (Res P))
    (hs : ∀ n ∈ as.map (fun x => x.1), sub n = cs.find? (fun c => c.attr == some n)) :
    cs.all Res.passes = false ↔
      ∃ n ∈ cs.filterMap (fun c => if c.equal then none else c.attr), ∃ c, sub n = some c ∧ c.excluded = false := by
  have hmap : cs.map Res.attr = (as.map (fun x => x.1)).map some := by rw [rows_attr h, List.map_map]; rfl
  rw [failing_eq hmap hn, List.all_eq_false]
  constructor
  · rintro ⟨c, hc, hp⟩
    simp only [Res.passes, Bool.or_eq_true, not_or, Bool.not_eq_true] at hp
    have : c.attr ∈ cs.map Res.attr := List.mem_map_of_mem hc
    rw [hmap] at this
    obtain ⟨n, hnm, hn'⟩ := List.mem_map.1 this
    have huniq : cs.find? (fun c => c.attr == some n) = some c := by
      have hnd : (cs.map Res.attr).Nodup := by
        rw [hmap]
        exact List.Pairwise.map some (fun x y hne he => hne (by injection he)) hn
      clear hmap this hs hn h hnm
      induction cs with
      | nil => cases hc
      | cons d cs ih =>
        rw [List.map_cons, List.nodup_cons] at hnd
        rw [List.find?_cons]
        rcases List.mem_cons.1 hc with rfl | hc
        · rw [← hn']; simp
        · have : d.attr ≠ some n := by
            intro he
            exact hnd.1 (by rw [he, hn']; exact List.mem_map_of_mem hc)
          have hb : (d.attr == some n) = false := by simpa using this
          rw [hb]
          exact ih hc hnd.2
    refine ⟨n, List.mem_filter.2 ⟨hnm, ?_⟩, c, by rw [hs n hnm, huniq], hp.2⟩
    rw [huniq]
    simp [hp.1]
  · rintro ⟨n, hm, c, hc, hx⟩
    obtain ⟨hnm, hf⟩ := List.mem_filter.1 hm
    rw [hs n hnm] at hc
    rw [hc] at hf
    refine ⟨c, List.mem_of_find?_eq_some hc, ?_⟩
    simp only [Res.passes, hx, Bool.or_false]
    simpa using hf

/-! ## Signs -/

inductive Sound : Res P → Prop where
  | mk {r : Res P} : (r.children ≠ [] → r.equal = r.children.all Res.passes) → (∀ c ∈ r.children, Sound c) → Sound r

theorem sound_leaf {r : Res P} (h : r.children = []) : Sound r := by
  refine .mk (fun h' => absurd h h') ?_
  rw [h]; intro c hc; cases hc

theorem sound_container {i : String} {at' : Option String} {k : Option Key} {o : List (Opt P)} {cs : List (Res P)} (h : ∀ c ∈ cs, Sound c) :
    Sound (containerRes i at' k o cs) := .mk (fun _ => rfl) h

theorem sound_mapping (veq : V → V → Bool) (o : List (Opt P)) (ident : String) (key : Option Key) (a b : Dict V) :
    Sound (mapping veq o ident key a b) := by
  refine sound_container (fun c hc => ?_)
  rcases List.mem_append.1 hc with hc | hc
  · rcases List.mem_append.1 hc with hc | hc
    · obtain ⟨x, _, hx⟩ := List.mem_filterMap.1 hc
      obtain ⟨v, _, hv⟩ := Option.map_eq_some_iff.1 hx
      subst hv; exact sound_leaf rfl
    · obtain ⟨x, _, hx⟩ := List.mem_map.1 hc
      subst hx; exact sound_leaf rfl
  · obtain ⟨x, _, hx⟩ := List.mem_map.1 hc
    subst hx; exact sound_leaf rfl

theorem sound_ordered {α : Type} (item : String → Option Key → α → α → Res P) (hi : ∀ s k x y, Sound (item s k x y)) (ident : String)
    (at' : Option String) (o : List (Opt P)) (a b : List α) : Sound (ordered item ident at' o a b) := by
  refine sound_container (fun c hc => ?_)
  rcases List.mem_cons.1 hc with rfl | hc
  · exact sound_leaf rfl
  · rcases List.mem_append.1 hc with hc | hc
    · rcases List.mem_append.1 hc with hc | hc
      · obtain ⟨x, _, hx⟩ := List.mem_map.1 hc
        subst hx; exact hi _ _ _ _
      · obtain ⟨x, _, hx⟩ := List.mem_map.1 hc
        subst hx; exact sound_leaf rfl
    · obtain ⟨x, _, hx⟩ := List.mem_map.1 hc
      subst hx; exact sound_leaf rfl

theorem dataRes_leaf {o : List (Opt P)} {i : String} {at' : Option String} {c : Code} {x y : Option Bytes} {r : Res P}
    (h : dataRes i at' o c x y = some r) : Sound r := by
  apply sound_leaf
  unfold dataRes at h
  cases x <;> cases y <;> simp only at h
  · injection h with h; subst h; rfl
  · obtain ⟨_, _, h⟩ := Option.map_eq_some_iff.1 h; subst h; rfl
  · obtain ⟨_, _, h⟩ := Option.map_eq_some_iff.1 h; subst h; rfl
  · obtain ⟨_, _, h⟩ := Option.bind_eq_some_iff.1 h
    obtain ⟨_, _, h⟩ := Option.map_eq_some_iff.1 h; subst h; rfl

theorem media_leaf {env : Env P V} {o : List (Opt P)} {c : Code} {a b : Grain V} {r : Res P} (h : mediaData env o c a b = some r) :
    Sound r := by
  unfold mediaData at h
  by_cases hp : psnrMatchers o "{}.data" = []
  · rw [if_pos hp] at h; exact dataRes_leaf h
  · rw [if_neg hp] at h
    unfold psnrRes at h
    by_cases hx : isExcluded o "{}.data" = true
    · rw [if_pos hx] at h; injection h with h; subst h; exact sound_leaf rfl
    · rw [if_neg hx] at h
      cases hp : env.psnr a b <;> rw [hp] at h
      · injection h with h; subst h; exact sound_leaf rfl
      · injection h with h; subst h; exact sound_leaf rfl
      · cases h

theorem sound_ite {Q : Prop} [Decidable Q] {e : Option (Res P)} {o : List (Opt P)} {d : Res P}
    (h : (if Q then e else some (incomparable o)) = some d) (he : ∀ d, e = some d → Sound d) : Sound d := by
  by_cases hq : Q
  · rw [if_pos hq] at h; exact he d h
  · rw [if_neg hq] at h; injection h with h; subst h; exact sound_leaf rfl

theorem sound_body (env : Env P V) (o : List (Opt P)) (a b : Grain V) :
    (∀ c ∈ (bodyRes env o a b).1, Sound c) ∧ ∀ d, (bodyRes env o a b).2 = some (some d) → Sound d := by
  have hl : ∀ (n : String) (e : Bool), Sound (eqRes o n e) := fun _ _ => sound_leaf rfl
  cases hba : a.body <;> cases hbb : b.body <;> simp only [bodyRes, hba, hbb, List.forall_mem_cons, hl, and_true, true_and]
  case event.event =>
    exact ⟨⟨sound_ordered _ (fun _ _ _ _ => sound_mapping _ _ _ _ _ _) _ _ _ _ _, fun c hc => by cases hc⟩, fun d h => by cases h⟩
  case codedVideo.codedVideo =>
    exact ⟨⟨sound_ordered (fun i key x y => diffRes i none key o x y) (fun _ _ _ _ => sound_leaf rfl) _ _ _ _ _, fun c hc => by cases hc⟩,
      fun d h => by injection h with h; exact sound_ite h (fun d hd => dataRes_leaf hd)⟩
  case audio.audio => exact ⟨fun c hc => (by cases hc), fun d h => by injection h with h; exact sound_ite h (fun d hd => media_leaf hd)⟩
  case video.video => exact ⟨fun c hc => (by cases hc), fun d h => by injection h with h; exact sound_ite h (fun d hd => media_leaf hd)⟩
  case codedAudio.codedAudio => exact ⟨fun c hc => (by cases hc), fun d h => by injection h with h; exact sound_ite h (fun d hd => dataRes_leaf hd)⟩
  case plain.plain => exact ⟨fun c hc => (by cases hc), fun d h => by injection h with h; exact sound_ite h (fun d hd => dataRes_leaf hd)⟩
  all_goals exact ⟨fun c hc => (by cases hc), fun d h => by injection h with h; injection h with h; subst h; exact sound_leaf rfl⟩

theorem sound_common (env : Env P V) (o l : List (Opt P)) (a b : Grain V) : ∀ c ∈ commonRes env o l a b, Sound c := by
  have hl : ∀ (o : List (Opt P)) (n : String) (e : Bool), Sound (eqRes o n e) := fun _ _ _ => sound_leaf rfl
  have hd : ∀ (i : String) (at' : Option String) (k : Option Key) (o : List (Opt P)) (x y : Int), Sound (diffRes i at' k o x y) :=
    fun _ _ _ _ _ _ => sound_leaf rfl
  simp only [commonRes, List.forall_mem_cons, hl, hd, true_and]
  exact ⟨sound_ordered _ (fun _ _ _ _ => sound_mapping _ _ _ _ _ _) _ _ _ _ _, fun c hc => by cases hc⟩

/-- The children: those all grains have, those of the type, and the data. -/
theorem children_form (env : Env P V) (opts : List (Opt P)) (a b : Grain V) (k : Option Key) {r : Res P}
    (h : compareGrain env opts a b k = some r) :
    ∃ ds, r = containerRes "{}" none k (withDefault opts)
        (commonRes env (withDefault opts) (lengthOpts (withDefault opts) a b) a b ++ ((bodyRes env (withDefault opts) a b).1 ++ ds)) ∧
      ∀ d ∈ ds, (bodyRes env (withDefault opts) a b).2 = some (some d) := by
  unfold compareGrain at h
  revert h
  simp only
  generalize bodyRes env (withDefault opts) a b = x
  obtain ⟨rs, d⟩ := x
  intro h
  cases d with
  | none =>
    simp only at h
    injection h with h
    exact ⟨[], by rw [← h, List.append_nil], fun d hd => by cases hd⟩
  | some d =>
    cases d with
    | none => cases h
    | some d =>
      simp only at h
      injection h with h
      exact ⟨[d], by rw [← h, List.append_assoc], fun e he => by rw [List.mem_singleton.1 he]⟩

theorem sound_compare (env : Env P V) (opts : List (Opt P)) (a b : Grain V) (k : Option Key) {r : Res P}
    (h : compareGrain env opts a b k = some r) : Sound r := by
  obtain ⟨ds, hr, hds⟩ := children_form env opts a b k h
  subst hr
  refine sound_container (fun c hc => ?_)
  rcases List.mem_append.1 hc with hc | hc
  · exact sound_common _ _ _ _ _ c hc
  · rcases List.mem_append.1 hc with hc | hc
    · exact (sound_body env (withDefault opts) a b).1 c hc
    · exact (sound_body env (withDefault opts) a b).2 c (hds c hc)

theorem mark_cross (r : Res P) : r.mark = .cross ↔ r.passes = false := by
  unfold Res.mark Res.passes
  cases r.excluded <;> cases r.equal <;> simp

theorem explained_of_sound {r : Res P} (hs : Sound r) : r.passes = false → Explained r := by
  induction hs with
  | @mk r h _ ih =>
    intro hp
    by_cases hc : r.children = []
    · exact .leaf ((mark_cross r).2 hp) hc
    · have he := h hc
      have : r.equal = false := by
        unfold Res.passes at hp
        exact (Bool.or_eq_false_iff.1 hp).1
      rw [this] at he
      obtain ⟨c, hc, hcp⟩ := List.all_eq_false.1 he.symm
      exact .node ((mark_cross r).2 hp) hc (ih c hc (by simpa using hcp))

theorem root_counts {opts : List (Opt P)} (ho : TopLevel opts) : isExcluded (withDefault opts) "{}" = false := by
  have hne : ∀ n : String, "{}" ≠ "{}." ++ n := by
    intro n he
    have := congrArg (fun s => s.toList.length) he
    simp at this
  cases he : isExcluded (withDefault opts) "{}" with
  | false => rfl
  | true =>
    rcases (isExcluded_iff _ _).1 he with he | ⟨p, he, _⟩
    · rcases (mem_withDefault_exclude opts _).1 he with he | ⟨he, _⟩
      · obtain ⟨n, h1, _⟩ := ho _ he
        exact absurd h1 (hne n)
      · exact absurd he (by decide)
    · rw [show altPath "{}" = none by decide] at he; cases he

theorem find_labels (env : Env P V) (o l : List (Opt P)) (a b : Grain V) :
    (commonRes env o l a b).find? (fun c => c.attr == some "timelabels") =
      some (ordered (mapping env.veq o) "{}.timelabels" (some "timelabels") o a.timelabels b.timelabels) := by
  simp [commonRes, eqRes, plainRes, Res.attr, diffRes, ordered, containerRes]

theorem find_common (env : Env P V) (o l : List (Opt P)) (a b : Grain V) (n : String)
    (h : n ∉ ["grain_type", "src_id", "flow_id", "rate", "duration", "length", "origin_timestamp", "sync_timestamp", "creation_timestamp",
      "timelabels"]) : (commonRes env o l a b).find? (fun c => c.attr == some n) = none := by
  simp only [List.mem_cons, List.not_mem_nil, or_false, not_or] at h
  simp [commonRes, eqRes, plainRes, Res.attr, diffRes, ordered, containerRes]
  grind

/-! ## Sequences -/

/-- The results of a comparison of sequences from index `k` on, with the verdict and the count. -/
inductive Run (env : Env P V) (opts : List (Opt P)) : Nat → List (Grain V) → List (Grain V) → List (Res P) → Bool → Nat → Prop where
  | done (k : Nat) : Run env opts k [] [] [] true k
  | onlyB (k : Nat) (b : Grain V) (bs : List (Grain V)) : Run env opts k [] (b :: bs) [plainRes "{}" none (some (.idx k)) opts false] false k
  | onlyA (k : Nat) (a : Grain V) (as : List (Grain V)) : Run env opts k (a :: as) [] [plainRes "{}" none (some (.idx k)) opts false] false k
  | stop (k : Nat) (a b : Grain V) (as bs : List (Grain V)) (r : Res P) : compareGrain env opts a b (some (.idx k)) = some r →
      r.equal = false → Run env opts k (a :: as) (b :: bs) [r] false (k + 1)
  | go (k : Nat) (a b : Grain V) (as bs : List (Grain V)) (r : Res P) (cs : List (Res P)) (e : Bool) (m : Nat) :
      compareGrain env opts a b (some (.idx k)) = some r → r.equal = true → Run env opts (k + 1) as bs cs e m →
      Run env opts k (a :: as) (b :: bs) (r :: cs) e m

theorem loop_run (env : Env P V) (opts : List (Opt P)) (as bs : List (Grain V)) (k : Nat) (kept : List (Res P)) {e : Bool} {m : Nat}
    {cs : List (Res P)} {last : Option (Res P)} (h : iterLoop env opts false as bs k kept none = some (e, m, cs, last)) :
    ∃ new, cs = kept ++ new ∧ Run env opts k as bs new e m := by
  induction as generalizing bs k kept with
  | nil => cases bs with
    | nil =>
      simp only [iterLoop] at h
      cases h
      exact ⟨[], by simp, .done _⟩
    | cons b bs =>
      simp only [iterLoop] at h
      cases h
      exact ⟨_, rfl, .onlyB _ b bs⟩
  | cons a as ih => cases bs with
    | nil =>
      simp only [iterLoop] at h
      cases h
      exact ⟨_, rfl, .onlyA _ a as⟩
    | cons b bs =>
      simp only [iterLoop] at h
      cases hc : compareGrain env opts a b (some (.idx k)) with
      | none => rw [hc] at h; cases h
      | some r =>
        rw [hc] at h
        simp only [Bool.false_eq_true, if_false] at h
        cases hr : r.equal with
        | true =>
          rw [hr] at h
          simp only [if_true] at h
          obtain ⟨new, h1, h2⟩ := ih bs (k + 1) (kept ++ [r]) h
          exact ⟨r :: new, by rw [h1]; simp, .go k a b as bs r new e m hc hr h2⟩
        | false =>
          rw [hr] at h
          simp only [Bool.false_eq_true, if_false] at h
          cases h
          exact ⟨[r], rfl, .stop k a b as bs r hc hr⟩

theorem compare_key {env : Env P V} {opts : List (Opt P)} {a b : Grain V} {k : Option Key} {r : Res P}
    (h : compareGrain env opts a b k = some r) : r.key = k := by
  obtain ⟨ds, hr, _⟩ := children_form env opts a b k h
  rw [hr]; rfl

theorem run_keys {env : Env P V} {opts : List (Opt P)} {k : Nat} {as bs : List (Grain V)} {cs : List (Res P)} {e : Bool} {m : Nat}
    (h : Run env opts k as bs cs e m) (i : Nat) :
    cs.find? (fun c => c.key == some (.idx (k + i))) = cs[i]? ∧ ∀ j < k, cs.find? (fun c => c.key == some (.idx j)) = none := by
  have one : ∀ (k : Nat) (c : Res P), c.key = some (.idx k) → ∀ i, ([c].find? (fun c => c.key == some (.idx (k + i))) = [c][i]? ∧
      ∀ j < k, [c].find? (fun c => c.key == some (.idx j)) = none) := by
    intro k c hc i
    refine ⟨?_, fun j hj => ?_⟩
    · cases i with
      | zero => simp [hc]
      | succ i =>
        have : (some (Key.idx k) == some (Key.idx (k + (i + 1)))) = false := by simp
        simp [List.find?_cons, hc]
    · have : k ≠ j := by omega
      simp [List.find?_cons, hc, this]
  induction h generalizing i with
  | done k => exact ⟨by simp, fun _ _ => rfl⟩
  | onlyB k => exact one k (plainRes "{}" none (some (.idx k)) opts false) rfl i
  | onlyA k => exact one k (plainRes "{}" none (some (.idx k)) opts false) rfl i
  | stop k a b as bs r hc => exact one k r (compare_key hc) i
  | go k a b as bs r cs e m hc hr _ ih =>
    have hk := compare_key hc
    refine ⟨?_, fun j hj => ?_⟩
    · cases i with
      | zero => simp [hk]
      | succ i =>
        have hb : (r.key == some (Key.idx (k + (i + 1)))) = false := by rw [hk]; simp
        rw [List.find?_cons, hb, List.getElem?_cons_succ, ← (ih i).1, show k + (i + 1) = k + 1 + i by omega]
    · have hb : (r.key == some (Key.idx j)) = false := by rw [hk]; simp; omega
      rw [List.find?_cons, hb]
      exact (ih 0).2 j (by omega)

theorem run_report {env : Env P V} {opts : List (Opt P)} {k : Nat} {as bs : List (Grain V)} {cs : List (Res P)} {e : Bool} {m : Nat}
    (h : Run env opts k as bs cs e m) :
    ∃ n, (∀ i < n, ∃ x y c, as[i]? = some x ∧ bs[i]? = some y ∧ compareGrain env opts x y (some (.idx (k + i))) = some c ∧ c.equal = true ∧
        cs[i]? = some c) ∧
      ((e = true ∧ as.length = n ∧ bs.length = n ∧ cs.length = n ∧ m = k + n ∧
          cs.filterMap (fun c => if c.equal then none else c.key) = []) ∨
        (e = false ∧ cs.length = n + 1 ∧ cs.filterMap (fun c => if c.equal then none else c.key) = [.idx (k + n)] ∧
          ∃ c, cs[n]? = some c ∧ c.equal = false ∧
            ((∃ x y, as[n]? = some x ∧ bs[n]? = some y ∧ compareGrain env opts x y (some (.idx (k + n))) = some c ∧ m = k + n + 1) ∨
              (((as.length = n ∧ n < bs.length) ∨ (bs.length = n ∧ n < as.length)) ∧ m = k + n)))) := by
  induction h with
  | done k => exact ⟨0, fun i hi => absurd hi (by omega), .inl ⟨rfl, rfl, rfl, rfl, rfl, rfl⟩⟩
  | onlyB k b bs =>
    exact ⟨0, fun i hi => absurd hi (by omega), .inr ⟨rfl, rfl, rfl, _, rfl, rfl, .inr ⟨.inl ⟨rfl, by simp⟩, rfl⟩⟩⟩
  | onlyA k a as =>
    exact ⟨0, fun i hi => absurd hi (by omega), .inr ⟨rfl, rfl, rfl, _, rfl, rfl, .inr ⟨.inr ⟨rfl, by simp⟩, rfl⟩⟩⟩
  | stop k a b as bs r hc hr =>
    exact ⟨0, fun i hi => absurd hi (by omega), .inr ⟨rfl, rfl, by simp [hr, compare_key hc], r, rfl, hr, .inl ⟨a, b, rfl, rfl, hc, rfl⟩⟩⟩
  | go k a b as bs r cs e m hc hr _ ih =>
    obtain ⟨n, h1, h2⟩ := ih
    refine ⟨n + 1, fun i hi => ?_, ?_⟩
    · cases i with
      | zero => exact ⟨a, b, r, rfl, rfl, hc, hr, rfl⟩
      | succ i =>
        obtain ⟨x, y, c, g1, g2, g3, g4, g5⟩ := h1 i (by omega)
        exact ⟨x, y, c, by simpa using g1, by simpa using g2, by rw [show k + (i + 1) = k + 1 + i by omega]; exact g3, g4, by simpa using g5⟩
    · rcases h2 with ⟨g1, g2, g3, g4, g5, g6⟩ | ⟨g1, g2, g3, c, g4, g5, g6⟩
      · exact .inl ⟨g1, by simp [g2], by simp [g3], by simp [g4], by omega, by simp [hr, g6]⟩
      · refine .inr ⟨g1, by simp [g2], ?_, c, by simpa using g4, g5, ?_⟩
        · rw [List.filterMap_cons, hr]
          simp only [if_true]
          rw [g3, show k + 1 + n = k + (n + 1) by omega]
        · rcases g6 with ⟨x, y, f1, f2, f3, f4⟩ | ⟨f1, f2⟩
          · exact .inl ⟨x, y, by simpa using f1, by simpa using f2, by rw [show k + (n + 1) = k + 1 + n by omega]; exact f3, by omega⟩
          · exact .inr ⟨by simp only [List.length_cons]; omega, by omega⟩

end Verif.Props.ReportLemmas

namespace Verif.Props

open Verif Verif.Cog Verif.Compare CompareSpec CompareLemmas ReportSpec ReportLemmas

variable {P V : Type}

/-- `result.name` for every reported attribute, except for data compared by the signal to noise ratio. -/
theorem C76_attribute (env : Env P V) (opts : List (Opt P)) (a b : Grain V) (k : Option Key) (ho : TopLevel opts) (ha : Wf a) (hb : Wf b)
    {r : Res P} (h : compareGrain env opts a b k = some r) (x : String × Prop) (hx : x ∈ reported env opts a b)
    (hr : x.1 ≠ "data" ∨ ¬ ByRatio opts a b) : ∃ c, r.subAttr x.1 = some c ∧ Reports opts a b c x := by
  by_cases hp : ByRatio opts a b
  · obtain ⟨cs, d, as, T, h1, h2, h3, h4, _⟩ := ratio_rows env opts a b k ho ha hb hp h
    have hn := names_nodup env opts a b
    rw [h2] at hn hx
    have hne : x.1 ≠ "data" := hr.resolve_right (fun h => h hp)
    have hx' : x ∈ as := by
      rcases List.mem_append.1 hx with hx | hx
      · exact hx
      · rw [List.mem_singleton.1 hx] at hne; exact absurd rfl hne
    rw [List.map_append] at hn
    obtain ⟨c, hc, hc'⟩ := rows_find h3 (List.Pairwise.sublist (List.sublist_append_left _ _) hn) hx'
    exact ⟨c, by unfold Res.subAttr; rw [h1, List.find?_append, hc]; rfl, hc'⟩
  · exact rows_find (compare_rows env opts a b k ho ha hb hp h).1 (names_nodup env opts a b) hx

/-- Any other name is an error, and so is `data` if it was compared by the signal to noise ratio. -/
theorem C76_other (env : Env P V) (opts : List (Opt P)) (a b : Grain V) (k : Option Key) (ho : TopLevel opts) (ha : Wf a) (hb : Wf b)
    {r : Res P} (h : compareGrain env opts a b k = some r) (name : String)
    (hn : name ∉ (reported env opts a b).map (fun x => x.1) ∨ (name = "data" ∧ ByRatio opts a b)) : r.subAttr name = none := by
  apply find_none
  intro hm
  by_cases hp : ByRatio opts a b
  · obtain ⟨cs, d, as, T, h1, h2, h3, h4, _⟩ := ratio_rows env opts a b k ho ha hb hp h
    have hd := names_nodup env opts a b
    rw [h2] at hn hd
    rw [h1, List.map_append, rows_attr h3] at hm
    rcases List.mem_append.1 hm with hm | hm
    · obtain ⟨x, hx, he⟩ := List.mem_map.1 hm
      injection he with he
      rcases hn with hn | ⟨hn, _⟩
      · exact hn (by rw [← he]; exact List.mem_map_of_mem (List.mem_append_left _ hx))
      · rw [List.map_append, List.nodup_append] at hd
        exact hd.2.2 x.1 (List.mem_map_of_mem (f := fun x : String × Prop => x.1) hx) "data" (by simp) (by rw [he, hn])
    · simp [h4] at hm
  · rw [rows_attr (compare_rows env opts a b k ho ha hb hp h).1] at hm
    obtain ⟨x, hx, he⟩ := List.mem_map.1 hm
    injection he with he
    rcases hn with hn | ⟨_, hn⟩
    · exact hn (by rw [← he]; exact List.mem_map_of_mem hx)
    · exact hp hn

/-- `failing_attributes()` is, in order, the reported attributes whose `result.name` is falsy. -/
theorem C76_failing (env : Env P V) (opts : List (Opt P)) (a b : Grain V) (k : Option Key) (ho : TopLevel opts) (ha : Wf a) (hb : Wf b)
    {r : Res P} (h : compareGrain env opts a b k = some r) :
    r.failingAttributes = ((reported env opts a b).map (fun x => x.1)).filter (fun n => (r.subAttr n).any (fun c => !c.equal)) := by
  have hn := names_nodup env opts a b
  by_cases hp : ByRatio opts a b
  · have hdata := C76_other env opts a b k ho ha hb h "data" (.inr ⟨rfl, hp⟩)
    obtain ⟨cs, d, as, T, h1, h2, h3, h4, _⟩ := ratio_rows env opts a b k ho ha hb hp h
    rw [h2, List.map_append] at hn
    rw [h2, List.map_append, List.filter_append]
    have e1 : [("data", T)].map (fun x => x.1) = ["data"] := rfl
    rw [e1, List.filter_cons, hdata]
    simp only [Option.any_none, Bool.false_eq_true, if_false, List.filter_nil, List.append_nil]
    unfold Res.failingAttributes
    rw [h1, List.filterMap_append]
    have e2 : [d].filterMap (fun c => if c.equal then none else c.attr) = [] := by
      rw [List.filterMap_cons, h4]; cases d.equal <;> rfl
    rw [e2, List.append_nil, failing_eq (ns := as.map (fun x => x.1)) (by rw [rows_attr h3, List.map_map]; rfl)
      (List.nodup_append.1 hn).1]
    apply List.filter_congr
    intro n hm
    unfold Res.subAttr
    rw [h1, List.find?_append]
    have : [d].find? (fun c => c.attr == some n) = none := by simp [h4]
    rw [this, Option.or_none]
  · have hrow := (compare_rows env opts a b k ho ha hb hp h).1
    exact failing_eq (by rw [rows_attr hrow, List.map_map]; rfl) hn

/-- Without requirements on the signal to noise ratio, the result is falsy exactly when `failing_attributes()` has an attribute that is not
excluded. -/
theorem C76_verdict (env : Env P V) (opts : List (Opt P)) (a b : Grain V) (k : Option Key) (ho : TopLevel opts) (ha : Wf a) (hb : Wf b)
    (hp : ¬ ByRatio opts a b) {r : Res P} (h : compareGrain env opts a b k = some r) :
    r.equal = false ↔ ∃ name ∈ r.failingAttributes, ∃ c, r.subAttr name = some c ∧ c.excluded = false := by
  obtain ⟨h1, h2, _⟩ := compare_rows env opts a b k ho ha hb hp h
  rw [h2, verdict_of_rows h1 (names_nodup env opts a b) r.subAttr (fun n _ => rfl)]
  rfl

/-- With such requirements the result can also be falsy for a reason that is in none of the attributes. -/
theorem C76_ratio (env : Env P V) (opts : List (Opt P)) (a b : Grain V) (k : Option Key) (ho : TopLevel opts) (ha : Wf a) (hb : Wf b)
    (hp : ByRatio opts a b) {r : Res P} (h : compareGrain env opts a b k = some r) :
    r.equal = false ↔ (∃ name ∈ r.failingAttributes, ∃ c, r.subAttr name = some c ∧ c.excluded = false) ∨
      (¬ Excluded opts a b "data" ∧ ¬ ∃ p, env.psnr a b = .ok p ∧ ∀ m, Opt.psnr "{}.data" m ∈ opts → m p = true) := by
  obtain ⟨cs, d, as, T, h1, h2, h3, h4, h5, h6⟩ := ratio_rows env opts a b k ho ha hb hp h
  have hn := names_nodup env opts a b
  rw [h2, List.map_append] at hn
  have hsub : ∀ n, r.subAttr n = cs.find? (fun c => c.attr == some n) := by
    intro n
    unfold Res.subAttr
    rw [h1, List.find?_append]
    have : [d].find? (fun c => c.attr == some n) = none := by simp [h4]
    rw [this, Option.or_none]
  have hf : r.failingAttributes = cs.filterMap (fun c => if c.equal then none else c.attr) := by
    unfold Res.failingAttributes
    rw [h1, List.filterMap_append]
    have e2 : [d].filterMap (fun c => if c.equal then none else c.attr) = [] := by
      rw [List.filterMap_cons, h4]; cases d.equal <;> rfl
    rw [e2, List.append_nil]
  rw [hf, ← verdict_of_rows h3 (List.Pairwise.sublist (List.sublist_append_left _ _) hn) r.subAttr (fun n _ => hsub n), h6, h1,
    List.all_append, Bool.and_eq_false_iff]
  simp only [List.all_cons, List.all_nil, Bool.and_true]
  rw [← Bool.not_eq_true d.passes, h5, not_or]
  exact or_congr Iff.rfl And.comm

/-- `result.timelabels[i][key]`, `result.event_data[i][key]` and `result.unit_offsets[i]`, and the failing keys of each of them. -/
theorem C76_containers (env : Env P V) (opts : List (Opt P)) (a b : Grain V) (k : Option Key) (ho : TopLevel opts) (ha : Wf a) (hb : Wf b)
    {r : Res P} (h : compareGrain env opts a b k = some r) :
    (∃ c, r.subAttr "timelabels" = some c ∧ DictsReport env.veq a.timelabels b.timelabels c) ∧
    (∀ t p i t' p' i', a.body = .event t p i → b.body = .event t' p' i' →
      ∃ c, r.subAttr "event_data" = some c ∧ DictsReport env.veq i i' c) ∧
    (∀ f cw ch ow oh y t l u f' cw' ch' ow' oh' y' t' l' u', a.body = .codedVideo f cw ch ow oh y t l u →
      b.body = .codedVideo f' cw' ch' ow' oh' y' t' l' u' →
      ∃ c, r.subAttr "unit_offsets" = some c ∧ ListReport (fun x y => x = y) u u' c) := by
  obtain ⟨ds, hr, hds⟩ := children_form env opts a b k h
  subst hr
  unfold Res.subAttr
  have e : ∀ cs, (containerRes "{}" none k (withDefault opts) cs).children = cs := fun _ => rfl
  rw [e]
  refine ⟨⟨_, by rw [List.find?_append, find_labels]; rfl, dicts_report (noNested ho) _ _ _ _ _ ha.labels hb.labels⟩, ?_, ?_⟩
  · intro t p i t' p' i' hba hbb
    refine ⟨ordered (mapping env.veq (withDefault opts)) "{}.event_data" (some "event_data") (withDefault opts) i i', ?_,
      dicts_report (noNested ho) _ _ _ _ _ (ha.items _ _ _ hba) (hb.items _ _ _ hbb)⟩
    rw [List.find?_append, find_common _ _ _ _ _ _ (by decide)]
    simp [bodyRes, hba, hbb, eqRes, plainRes, Res.attr, ordered, containerRes]
  · intro f cw ch ow oh y t l u f' cw' ch' ow' oh' y' t' l' u' hba hbb
    refine ⟨ordered (fun i key x y => diffRes i none key (withDefault opts) x y) "{}.unit_offsets" (some "unit_offsets") (withDefault opts) u u',
      ?_, offsets_report (noNested ho) _ _ _ _⟩
    rw [List.find?_append, find_common _ _ _ _ _ _ (by decide)]
    simp [bodyRes, hba, hbb, eqRes, plainRes, Res.attr, ordered, containerRes]

/-- A falsy result is shown with a cross, and with crosses down to something that was compared. A truthy one is shown with a tick and has no
cross among its attributes. -/
theorem C76_shown (env : Env P V) (opts : List (Opt P)) (a b : Grain V) (k : Option Key) (ho : TopLevel opts)
    {r : Res P} (h : compareGrain env opts a b k = some r) :
    (r.equal = false ↔ Explained r) ∧ (r.equal = true ↔ r.mark = .tick) ∧ (r.equal = true ↔ ∀ c ∈ r.children, c.mark ≠ .cross) := by
  obtain ⟨ds, hr, _⟩ := children_form env opts a b k h
  have hx : r.excluded = false := by rw [hr]; exact root_counts ho
  have hp : r.passes = r.equal := by unfold Res.passes; rw [hx, Bool.or_false]
  have he : r.equal = r.children.all Res.passes := by rw [hr]; rfl
  refine ⟨⟨fun h0 => explained_of_sound (sound_compare env opts a b k h) (by rw [hp, h0]), fun h0 => ?_⟩, ?_, ?_⟩
  · have : r.mark = .cross := by cases h0 <;> assumption
    rw [← hp]; exact (mark_cross r).1 this
  · unfold Res.mark
    rw [hx]
    cases r.equal <;> simp
  · rw [he, List.all_eq_true]
    constructor
    · intro h0 c hc hm
      have := h0 c hc
      rw [(mark_cross c).1 hm] at this
      cases this
    · intro h0 c hc
      cases hcp : c.passes with
      | true => rfl
      | false => exact absurd ((mark_cross c).2 hcp) (h0 c hc)

/-- The result for two sequences: `result[i]` is the comparison of the grains at `i`, up to the first pair that differs or the end of the
shorter sequence; `failing_keys()` is that one index, or nothing. The number in the message, `compared_item_count`, is that index or the next
one. -/
theorem C76_sequence (env : Env P V) (opts : List (Opt P)) (as bs : List (Grain V)) (r : IterRes P)
    (h : compareGrains env opts false as bs = some r) :
    ∃ n, (∀ i < n, ∃ x y c, as[i]? = some x ∧ bs[i]? = some y ∧ compareGrain env opts x y (some (.idx i)) = some c ∧ c.equal = true ∧
        r.subKey i = some c) ∧
      ((r.equal = true ∧ as.length = n ∧ bs.length = n ∧ r.failingKeys = [] ∧ r.count = n ∧ ∀ i, n ≤ i → r.subKey i = none) ∨
        (r.equal = false ∧ r.failingKeys = [.idx n] ∧ (∀ i, n < i → r.subKey i = none) ∧
          ∃ c, r.subKey n = some c ∧ c.equal = false ∧
            ((∃ x y, as[n]? = some x ∧ bs[n]? = some y ∧ compareGrain env opts x y (some (.idx n)) = some c ∧ r.count = n + 1) ∨
              (((as.length = n ∧ n < bs.length) ∨ (bs.length = n ∧ n < as.length)) ∧ r.count = n)))) := by
  unfold compareGrains at h
  cases hl : iterLoop env opts false as bs 0 [] none with
  | none => rw [hl] at h; cases h
  | some x =>
    obtain ⟨e, m, cs, last⟩ := x
    rw [hl] at h
    simp only [Bool.false_eq_true, if_false] at h
    injection h with h
    obtain ⟨new, h1, h2⟩ := loop_run env opts as bs 0 [] hl
    rw [List.nil_append] at h1
    subst h1 h
    have hk : ∀ i, (IterRes.mk e cs m).subKey i = cs[i]? := by
      intro i
      have := (run_keys h2 i).1
      rw [Nat.zero_add] at this
      exact this
    obtain ⟨n, g1, g2⟩ := run_report h2
    simp only [Nat.zero_add] at g1 g2
    refine ⟨n, fun i hi => ?_, ?_⟩
    · obtain ⟨x, y, c, f⟩ := g1 i hi
      exact ⟨x, y, c, by rw [hk]; exact f⟩
    · rcases g2 with ⟨f1, f2, f3, f4, f5, f6⟩ | ⟨f1, f2, f3, c, f4, f5, f6⟩
      · exact .inl ⟨f1, f2, f3, f6, f5, fun i hi => by rw [hk, List.getElem?_eq_none_iff]; omega⟩
      · exact .inr ⟨f1, f3, fun i hi => by rw [hk, List.getElem?_eq_none_iff]; omega, c, by rw [hk]; exact f4, f5, f6⟩

/-- Values are compared as numbers; the ratio is always 30. -/
def C76_env : Env Nat Nat := ⟨fun x y => x == y, fun _ _ => .ok 30⟩

def C76_grain : Grain Nat :=
  { src := 1, flow := 2, rate := 25, duration := 1, length := 2, origin := 0, sync := 0, creation := 0
    timelabels := [[("tag", 1), ("timelabel", 2)]], data := some [1, 2], body := .video 0 1 1 0 }

/-- The message of a failed comparison of sequences, "Iterators differ first at entry n", counts from one if a pair differs and from zero if a
sequence is shorter. -/
theorem C76_entry_counterexample :
    (compareGrains C76_env [] false [C76_grain] [{ C76_grain with rate := 50 }]).map (fun r => (r.failingKeys, r.count)) = some ([.idx 0], 1) ∧
    (compareGrains C76_env [] false [C76_grain] []).map (fun r => (r.failingKeys, r.count)) = some ([.idx 0], 0) := by
  decide +kernel

/-! ### Examples -/

theorem C76_plain (opts : List (Opt Nat)) (h : opts = [] ∨ opts = [.exclude "{}.data"] ∨ opts = [.psnr "{}.data" (fun p => decide (40 < p))]) :
    TopLevel opts := by
  rcases h with rfl | rfl | rfl
  · intro o ho; cases ho
  · intro o ho; rw [List.mem_singleton.1 ho]; exact ⟨"data", by decide, by decide⟩
  · intro o ho; rw [List.mem_singleton.1 ho]; exact ⟨"data", by decide, by decide⟩

theorem C76_wf : Wf C76_grain :=
  ⟨by decide, fun _ _ _ h => (by cases h), fun _ h => (by cases h)⟩

example : ∃ r, compareGrain C76_env [] C76_grain { C76_grain with rate := 50, timelabels := [[("tag", 1), ("other", 3)], []] } = some r ∧
    r.failingAttributes = ["rate", "timelabels"] ∧
    (r.subAttr "timelabels").map Res.failingKeys = some [.idx 0, .idx 1] ∧
    (((r.subAttr "timelabels").bind (fun c => c.subKey (.idx 0))).map Res.failingKeys) = some [.name "timelabel", .name "other"] ∧
    (r.subAttr "creation_timestamp").map Res.mark = some .circle ∧ (r.subAttr "width").isNone = false ∧ (r.subAttr "topic").isNone = true := by
  refine ⟨_, rfl, ?_⟩
  decide +kernel

/-- `failing_attributes()` also lists what was excluded: with `Exclude.data`, it lists the data of a grain compared with itself. -/
theorem C76_excluded_counterexample :
    ∃ r, compareGrain C76_env [.exclude "{}.data"] C76_grain C76_grain = some r ∧ r.equal = true ∧ r.failingAttributes = ["data"] := by
  refine ⟨_, rfl, ?_⟩
  decide +kernel

/-- If only the signal to noise ratio is not as required, the result is falsy, but no attribute failed and there is no `result.data`. -/
theorem C76_ratio_counterexample :
    ∃ r, compareGrain C76_env [.psnr "{}.data" (fun p => decide (40 < p))] C76_grain C76_grain = some r ∧ r.equal = false ∧
      r.failingAttributes = [] ∧ (r.subAttr "data").isNone = true := by
  refine ⟨_, rfl, ?_⟩
  decide +kernel

example : ByRatio [Opt.psnr "{}.data" (fun p : Nat => decide (40 < p))] C76_grain C76_grain ∧ ¬ ByRatio ([] : List (Opt Nat)) C76_grain C76_grain :=
  ⟨⟨⟨_, List.mem_singleton.2 rfl⟩, rfl⟩, fun h => by obtain ⟨⟨m, hm⟩, _⟩ := h; cases hm⟩

end Verif.Props

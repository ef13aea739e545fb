import Verif.Compare.Model

/-!
# Comparing grains: C42, C43 and C44
-/

/-! ## What the comparison is to be -/

namespace Verif.Props.CompareSpec

open Verif Verif.Cog Verif.Compare

variable {P V : Type}

/-- The same keys, with values equal under `veq`. -/
def DictSame (veq : V → V → Bool) (a b : Dict V) : Prop :=
  ∀ k, (a.get? k = none ∧ b.get? k = none) ∨ ∃ x y, a.get? k = some x ∧ b.get? k = some y ∧ veq x y = true

def ListSame {α : Type} (R : α → α → Prop) (a b : List α) : Prop :=
  a.length = b.length ∧ ∀ (i : Nat) (x y : α), a[i]? = some x → b[i]? = some y → R x y

/-- The same samples, or no data on both sides. -/
def DataSame (c : Code) : Option Bytes → Option Bytes → Prop
  | none, none => True
  | some x, some y => ∃ s t, unpack c x = some s ∧ unpack c y = some t ∧ ListSame (fun u v => Sample.eq u v = true) s t
  | _, _ => False

/-- The difference is zero or, if there are expected differences for the attribute, it meets all of them. -/
def TimeTest (opts : List (Opt P)) (name : String) (x y : Int) : Prop :=
  ((∀ m, Opt.diff ("{}." ++ name) m ∉ opts) ∧ x = y) ∨
    ((∃ m, Opt.diff ("{}." ++ name) m ∈ opts) ∧ ∀ m, Opt.diff ("{}." ++ name) m ∈ opts → m (x - y) = true)

/-- The data is the same or, if there are requirements on the signal to noise ratio, it meets all of them. -/
def MediaTest (env : Env P V) (opts : List (Opt P)) (c : Code) (a b : Grain V) : Prop :=
  ((∀ m, Opt.psnr "{}.data" m ∉ opts) ∧ DataSame c a.data b.data) ∨
    ((∃ m, Opt.psnr "{}.data" m ∈ opts) ∧ ∃ p, env.psnr a b = .ok p ∧ ∀ m, Opt.psnr "{}.data" m ∈ opts → m p = true)

/-- The attributes all grains have, each with what makes it the same. -/
def commonAttrs (env : Env P V) (opts : List (Opt P)) (a b : Grain V) : List (String × Prop) :=
  [("grain_type", a.body.type = b.body.type), ("src_id", a.src = b.src), ("flow_id", a.flow = b.flow), ("rate", a.rate = b.rate),
   ("duration", a.duration = b.duration), ("length", a.length = b.length),
   ("origin_timestamp", TimeTest opts "origin_timestamp" a.origin b.origin),
   ("sync_timestamp", TimeTest opts "sync_timestamp" a.sync b.sync),
   ("creation_timestamp", TimeTest opts "creation_timestamp" a.creation b.creation),
   ("timelabels", ListSame (DictSame env.veq) a.timelabels b.timelabels)]

/-- The attributes of grains of the same type. Data can only be compared between grains of the same type and format. -/
def typeAttrs (env : Env P V) (opts : List (Opt P)) (a b : Grain V) : List (String × Prop) :=
  match a.body, b.body with
  | .event t p i, .event t' p' i' =>
    [("event_type", t = t'), ("topic", p = p'), ("event_data", ListSame (DictSame env.veq) i i')]
  | .audio f s c r, .audio f' s' c' r' =>
    [("cog_audio_format", f = f'), ("samples", s = s'), ("channels", c = c'), ("sample_rate", r = r'),
     ("data", f = f' → MediaTest env opts (audioCode f) a b)]
  | .codedAudio f s c r p m, .codedAudio f' s' c' r' p' m' =>
    [("cog_audio_format", f = f'), ("samples", s = s'), ("channels", c = c'), ("sample_rate", r = r'), ("priming", p = p'),
     ("remainder", m = m'), ("data", f = f' → DataSame (.int 1) a.data b.data)]
  | .video f w h l, .video f' w' h' l' =>
    [("cog_frame_format", f = f'), ("width", w = w'), ("height", h = h'), ("cog_frame_layout", l = l'),
     ("data", f = f' → MediaTest env opts (videoCode f) a b)]
  | .codedVideo f cw ch ow oh k t l u, .codedVideo f' cw' ch' ow' oh' k' t' l' u' =>
    [("cog_frame_format", f = f'), ("coded_width", cw = cw'), ("coded_height", ch = ch'), ("origin_width", ow = ow'),
     ("origin_height", oh = oh'), ("is_key_frame", k = k'), ("temporal_offset", t = t'), ("cog_frame_layout", l = l'),
     ("unit_offsets", u = u'), ("data", f = f' → DataSame (.int 1) a.data b.data)]
  | .plain n, .plain n' => [("data", n = n' → DataSame (.int 1) a.data b.data)]
  | _, _ => []

/-- The compared attributes of two grains, each with what makes it the same. The data of event grains is made
from the other attributes. -/
def attrs (env : Env P V) (opts : List (Opt P)) (a b : Grain V) : List (String × Prop) :=
  commonAttrs env opts a b ++ typeAttrs env opts a b

/-- Other names of attributes. -/
def nameAlias : String → Option String
  | "src_id" => some "source_id"
  | "cog_frame_format" => some "format"
  | "cog_audio_format" => some "format"
  | "cog_frame_layout" => some "layout"
  | _ => none

/-- `Exclude.name`, by either name, is among the options. -/
def Asked (opts : List (Opt P)) (name : String) : Prop :=
  Opt.exclude ("{}." ++ name) ∈ opts ∨ ∃ n, nameAlias name = some n ∧ Opt.exclude ("{}." ++ n) ∈ opts

/-- The attribute is not to be compared: it was excluded; or it is the creation timestamp, which was not included; or it is the
length of event grains, another attribute of which was excluded. -/
def Excluded (opts : List (Opt P)) (a b : Grain V) (name : String) : Prop :=
  Asked opts name ∨
    (name = "creation_timestamp" ∧ Opt.incl "{}.creation_timestamp" ∉ opts) ∨
    (name = "length" ∧ a.body.type = "event" ∧ b.body.type = "event" ∧
      (Asked opts "event_type" ∨ Asked opts "topic" ∨ Asked opts "event_data"))

/-- Options made from attribute names, as `Exclude.name` and `ExpectedDifference.name` are. -/
def TopLevel (opts : List (Opt P)) : Prop := ∀ o ∈ opts, ∃ name, o.path = "{}." ++ name ∧ '[' ∉ name.toList

/-- Dictionaries have each key once, and grains of other types have other names. -/
structure Wf (g : Grain V) : Prop where
  labels : ∀ d ∈ g.timelabels, (d.map (fun x => x.1)).Nodup
  items : ∀ t p i, g.body = .event t p i → ∀ d ∈ i, (d.map (fun x => x.1)).Nodup
  name : ∀ n, g.body = .plain n → n ∉ ["event", "audio", "coded_audio", "video", "coded_video"]

end Verif.Props.CompareSpec

namespace Verif.Props.CompareLemmas

open Verif Verif.Cog Verif.Compare CompareSpec

variable {P V : Type}

/-! ## Options -/

theorem isExcluded_iff (opts : List (Opt P)) (i : String) :
    isExcluded opts i = true ↔ Opt.exclude i ∈ opts ∨ ∃ p, altPath i = some p ∧ Opt.exclude p ∈ opts := by
  unfold isExcluded
  rw [List.any_eq_true]
  constructor
  · rintro ⟨o, ho, h⟩
    cases o with
    | exclude p =>
      simp only [Opt.excludes, Bool.or_eq_true, beq_iff_eq] at h
      rcases h with h | h
      · subst h; exact .inl ho
      · exact .inr ⟨p, h, ho⟩
    | incl p => cases h
    | diff p m => cases h
    | psnr p m => cases h
  · rintro (h | ⟨p, h1, h2⟩)
    · exact ⟨_, h, by simp [Opt.excludes]⟩
    · exact ⟨_, h2, by simp [Opt.excludes, h1]⟩

theorem mem_matchers (opts : List (Opt P)) (i : String) (m : Int → Bool) : m ∈ matchers opts i ↔ Opt.diff i m ∈ opts := by
  unfold matchers
  rw [List.mem_filterMap]
  constructor
  · rintro ⟨o, ho, h⟩
    cases o with
    | diff p m' =>
      simp only at h
      by_cases hp : i = p
      · rw [if_pos hp] at h; injection h with h; subst h hp; exact ho
      · rw [if_neg hp] at h; cases h
    | incl p => cases h
    | exclude p => cases h
    | psnr p m => cases h
  · intro h
    exact ⟨_, h, by simp⟩

theorem mem_psnrMatchers (opts : List (Opt P)) (i : String) (m : P → Bool) : m ∈ psnrMatchers opts i ↔ Opt.psnr i m ∈ opts := by
  unfold psnrMatchers
  rw [List.mem_filterMap]
  constructor
  · rintro ⟨o, ho, h⟩
    cases o with
    | psnr p m' =>
      simp only at h
      by_cases hp : i = p
      · rw [if_pos hp] at h; injection h with h; subst h hp; exact ho
      · rw [if_neg hp] at h; cases h
    | incl p => cases h
    | exclude p => cases h
    | diff p m => cases h
  · intro h
    exact ⟨_, h, by simp⟩

theorem includes_iff (opts : List (Opt P)) : includesCreation opts = true ↔ Opt.incl "{}.creation_timestamp" ∈ opts := by
  unfold includesCreation
  rw [List.any_eq_true]
  constructor
  · rintro ⟨o, ho, h⟩
    cases o with
    | incl p => simp only [beq_iff_eq] at h; subst h; exact ho
    | exclude p => cases h
    | diff p m => cases h
    | psnr p m => cases h
  · intro h; exact ⟨_, h, by simp⟩

theorem mem_withDefault_diff (opts : List (Opt P)) (i : String) (m : Int → Bool) :
    Opt.diff i m ∈ withDefault opts ↔ Opt.diff i m ∈ opts := by
  unfold withDefault
  by_cases h : includesCreation opts = true
  · rw [if_pos h]
  · rw [if_neg h]; simp

theorem mem_withDefault_psnr (opts : List (Opt P)) (i : String) (m : P → Bool) :
    Opt.psnr i m ∈ withDefault opts ↔ Opt.psnr i m ∈ opts := by
  unfold withDefault
  by_cases h : includesCreation opts = true
  · rw [if_pos h]
  · rw [if_neg h]; simp

theorem mem_withDefault_exclude (opts : List (Opt P)) (i : String) :
    Opt.exclude i ∈ withDefault opts ↔
      Opt.exclude i ∈ opts ∨ (i = "{}.creation_timestamp" ∧ Opt.incl "{}.creation_timestamp" ∉ opts) := by
  unfold withDefault
  by_cases h : includesCreation opts = true
  · rw [if_pos h]
    have := (includes_iff opts).1 h
    constructor
    · exact .inl
    · rintro (h1 | ⟨_, h2⟩)
      · exact h1
      · exact absurd this h2
  · rw [if_neg h]
    have : Opt.incl "{}.creation_timestamp" ∉ opts := fun hc => h ((includes_iff opts).2 hc)
    simp [this]

/-! ## The pieces -/

theorem passes_plain (i : String) (at' : Option String) (k : Option Key) (o : List (Opt P)) (e : Bool) :
    (plainRes i at' k o e).passes = (e || isExcluded o i) := rfl

theorem passes_diff (i : String) (at' : Option String) (k : Option Key) (o : List (Opt P)) (a b : Int) :
    (diffRes i at' k o a b).passes = (diffTest o i a b || isExcluded o i) := rfl

theorem passes_container (i : String) (at' : Option String) (k : Option Key) (o : List (Opt P)) (c : List (Res P)) :
    (containerRes i at' k o c).passes = (c.all Res.passes || isExcluded o i) := rfl

theorem diffTest_iff (o : List (Opt P)) (i : String) (a b : Int) :
    diffTest o i a b = true ↔ ((∀ m, Opt.diff i m ∉ o) ∧ a = b) ∨
      ((∃ m, Opt.diff i m ∈ o) ∧ ∀ m, Opt.diff i m ∈ o → m (a - b) = true) := by
  unfold diffTest
  by_cases h : matchers o i = []
  · rw [if_pos h]
    have hn : ∀ m, Opt.diff i m ∉ o := by
      intro m hm
      have := (mem_matchers o i m).2 hm
      rw [h] at this
      cases this
    constructor
    · intro he
      rw [beq_iff_eq] at he
      exact .inl ⟨hn, by omega⟩
    · rintro (⟨_, he⟩ | ⟨⟨m, hm⟩, _⟩)
      · rw [beq_iff_eq]; omega
      · exact absurd hm (hn m)
  · rw [if_neg h, List.all_eq_true]
    have hs : ∃ m, Opt.diff i m ∈ o := by
      cases hm : matchers o i with
      | nil => exact absurd hm h
      | cons m ms => exact ⟨m, (mem_matchers o i m).1 (by rw [hm]; simp)⟩
    constructor
    · intro he
      exact .inr ⟨hs, fun m hm => he m ((mem_matchers o i m).2 hm)⟩
    · rintro (⟨hn, _⟩ | ⟨_, he⟩)
      · obtain ⟨m, hm⟩ := hs; exact absurd hm (hn m)
      · intro m hm; exact he m ((mem_matchers o i m).1 hm)

/-- No option names something inside a container. -/
def NoNested (o : List (Opt P)) : Prop :=
  ∀ i : String, ('[' ∈ i.toList ∨ ∃ r, i.toList = 'l' :: r) → isExcluded o i = false ∧ matchers o i = []

theorem noNested {opts : List (Opt P)} (h : TopLevel opts) : NoNested (withDefault opts) := by
  intro i hi
  have hne : ∀ name : String, '[' ∉ name.toList → i ≠ "{}." ++ name := by
    intro name hn he
    subst he
    rw [String.toList_append] at hi
    rcases hi with hi | ⟨r, hi⟩
    · rcases List.mem_append.1 hi with hi | hi
      · exact absurd hi (by decide)
      · exact hn hi
    · have : ("{}.".toList : List Char) = ['{', '}', '.'] := by decide
      rw [this] at hi
      simp at hi
  have halt : altPath i = none := by
    unfold altPath
    have h1 : i ≠ "{}.src_id" := hne "src_id" (by decide)
    have h2 : i ≠ "{}.cog_frame_format" := hne "cog_frame_format" (by decide)
    have h3 : i ≠ "{}.cog_audio_format" := hne "cog_audio_format" (by decide)
    have h4 : i ≠ "{}.cog_frame_layout" := hne "cog_frame_layout" (by decide)
    rw [if_neg h1, if_neg h2, if_neg h3, if_neg h4]
  have hmem : ∀ o ∈ withDefault opts, o.path ≠ i := by
    intro o ho hp
    have : o ∈ opts ∨ o = Opt.exclude "{}.creation_timestamp" := by
      unfold withDefault at ho
      by_cases hc : includesCreation opts = true
      · rw [if_pos hc] at ho; exact .inl ho
      · rw [if_neg hc] at ho
        rcases List.mem_append.1 ho with ho | ho
        · exact .inl ho
        · exact .inr (by simpa using ho)
    rcases this with this | this
    · obtain ⟨name, h1, h2⟩ := h o this
      exact hne name h2 (by rw [← hp, h1])
    · subst this
      exact hne "creation_timestamp" (by decide) hp.symm
  constructor
  · cases he : isExcluded (withDefault opts) i with
    | false => rfl
    | true =>
      rcases (isExcluded_iff _ _).1 he with he | ⟨p, he, _⟩
      · exact absurd rfl (hmem _ he)
      · rw [halt] at he; cases he
  · cases he : matchers (withDefault opts) i with
    | nil => rfl
    | cons m ms =>
      exact absurd rfl (hmem _ ((mem_matchers _ i m).1 (by rw [he]; simp)))

theorem item_nested (i : String) (n : Nat) : '[' ∈ (itemIdent i n).toList := by
  unfold itemIdent
  simp only [String.toList_append, List.mem_append]
  exact .inl (.inl (.inr (by decide)))

theorem key_nested (i k : String) : '[' ∈ (keyIdent i k).toList := by
  unfold keyIdent
  simp only [String.toList_append, List.mem_append]
  exact .inl (.inl (.inr (by decide)))

theorem len_nested (i : String) : ∃ r, ("len(" ++ i ++ ")").toList = 'l' :: r := by
  refine ⟨['e', 'n', '('] ++ i.toList ++ ")".toList, ?_⟩
  simp only [String.toList_append]
  have : ("len(".toList : List Char) = 'l' :: ['e', 'n', '('] := by decide
  rw [this]
  rfl

theorem ordered_equal {α : Type} {o : List (Opt P)} (ho : NoNested o) (item : String → Option Key → α → α → Res P)
    (R : α → α → Prop) (ident : String) (at' : Option String) (a b : List α)
    (hitem : ∀ n k x y, x ∈ a → y ∈ b → ((item (itemIdent ident n) k x y).passes = true ↔ R x y)) :
    (ordered item ident at' o a b).equal = true ↔ ListSame R a b := by
  show (List.all _ Res.passes) = true ↔ _
  rw [List.all_cons, Bool.and_eq_true, passes_plain, (ho _ (.inr (len_nested ident))).1, Bool.or_false, beq_iff_eq]
  unfold ListSame
  constructor
  · rintro ⟨h1, h2⟩
    refine ⟨h1, ?_⟩
    rw [List.all_append, List.all_append, Bool.and_eq_true, Bool.and_eq_true] at h2
    have h3 := h2.1.1
    rw [List.all_map, List.all_eq_true] at h3
    intro i x y hx hy
    have hz : (a.zip b)[i]? = some (x, y) := by
      rw [List.getElem?_zip_eq_some]; exact ⟨hx, hy⟩
    have hm : ((x, y), i) ∈ (a.zip b).zipIdx := by
      rw [List.mem_zipIdx_iff_getElem?]; exact hz
    have := h3 _ hm
    exact (hitem i _ x y (List.mem_of_getElem? hx) (List.mem_of_getElem? hy)).1 this
  · rintro ⟨h1, h2⟩
    refine ⟨h1, ?_⟩
    rw [List.drop_of_length_le (by omega), List.drop_of_length_le (by omega)]
    simp only [List.zipIdx_nil, List.map_nil, List.append_nil]
    rw [List.all_map, List.all_eq_true]
    rintro ⟨⟨x, y⟩, i⟩ hm
    rw [List.mem_zipIdx_iff_getElem?] at hm
    simp only at hm
    rw [List.getElem?_zip_eq_some] at hm
    exact (hitem i _ x y (List.mem_of_getElem? hm.1) (List.mem_of_getElem? hm.2)).2 (h2 i x y hm.1 hm.2)

theorem get?_mem {d : Dict V} {k : String} {v : V} (h : d.get? k = some v) : (k, v) ∈ d := by
  unfold Dict.get? at h
  cases hf : d.find? (fun x => x.1 == k) with
  | none => rw [hf] at h; cases h
  | some x =>
    rw [hf] at h
    injection h with h
    have h1 := List.find?_some hf
    rw [beq_iff_eq] at h1
    have := List.mem_of_find?_eq_some hf
    rw [← h, ← h1]
    exact this

theorem get?_none {d : Dict V} {k : String} : d.get? k = none ↔ ∀ x ∈ d, x.1 ≠ k := by
  unfold Dict.get?
  rw [Option.map_eq_none_iff, List.find?_eq_none]
  simp

theorem get?_of_mem {d : Dict V} (hd : (d.map (fun x => x.1)).Nodup) {k : String} {v : V} (h : (k, v) ∈ d) : d.get? k = some v := by
  induction d with
  | nil => cases h
  | cons x d ih =>
    unfold Dict.get?
    rw [List.find?_cons]
    rw [List.map_cons, List.nodup_cons] at hd
    rcases List.mem_cons.1 h with h | h
    · subst h; simp
    · have : (x.1 == k) = false := by
        cases hb : (x.1 == k) with
        | false => rfl
        | true =>
          rw [beq_iff_eq] at hb
          exact absurd (List.mem_map_of_mem (f := fun x : String × V => x.1) h) (by rw [← hb]; exact hd.1)
      rw [this]
      exact ih hd.2 h

theorem mapping_equal {o : List (Opt P)} (ho : NoNested o) (veq : V → V → Bool) (ident : String) (key : Option Key) (a b : Dict V)
    (ha : (a.map (fun x => x.1)).Nodup) : (mapping veq o ident key a b).equal = true ↔ DictSame veq a b := by
  have hx : ∀ k, isExcluded o (keyIdent ident k) = false := fun k => (ho _ (.inl (key_nested ident k))).1
  show (List.all _ Res.passes) = true ↔ _
  rw [List.all_append, List.all_append, Bool.and_eq_true, Bool.and_eq_true]
  constructor
  · rintro ⟨⟨h1, h2⟩, h3⟩ k
    rw [List.all_eq_true] at h1 h2 h3
    cases hak : a.get? k with
    | none =>
      cases hbk : b.get? k with
      | none => exact .inl ⟨rfl, rfl⟩
      | some y =>
        have hm := get?_mem hbk
        have hf : (k, y) ∈ b.filter (fun x => (a.get? x.1).isNone) := by
          rw [List.mem_filter]; exact ⟨hm, by simp [hak]⟩
        have := h3 _ (List.mem_map_of_mem hf)
        rw [passes_plain, hx] at this
        cases this
    | some x =>
      have hm := get?_mem hak
      cases hbk : b.get? k with
      | none =>
        have hf : (k, x) ∈ a.filter (fun x => (b.get? x.1).isNone) := by
          rw [List.mem_filter]; exact ⟨hm, by simp [hbk]⟩
        have := h2 _ (List.mem_map_of_mem hf)
        rw [passes_plain, hx] at this
        cases this
      | some y =>
        refine .inr ⟨x, y, rfl, rfl, ?_⟩
        have := h1 (plainRes (keyIdent ident k) none (some (.name k)) o (veq x y))
          (List.mem_filterMap.2 ⟨(k, x), hm, by simp only; rw [hbk]; rfl⟩)
        rw [passes_plain, hx, Bool.or_false] at this
        exact this
  · intro h
    refine ⟨⟨?_, ?_⟩, ?_⟩
    · rw [List.all_eq_true]
      intro r hr
      obtain ⟨⟨k, x⟩, hm, he⟩ := List.mem_filterMap.1 hr
      have hak := get?_of_mem ha hm
      rcases h k with ⟨h1, _⟩ | ⟨x', y, h1, h2, h3⟩
      · rw [hak] at h1; cases h1
      · rw [hak] at h1
        injection h1 with h1
        subst h1
        simp only [h2, Option.map_some] at he
        injection he with he
        rw [← he, passes_plain, h3, Bool.true_or]
    · rw [List.all_eq_true]
      intro r hr
      obtain ⟨⟨k, x⟩, hm, he⟩ := List.mem_map.1 hr
      rw [List.mem_filter] at hm
      have hak := get?_of_mem ha hm.1
      rcases h k with ⟨h1, _⟩ | ⟨x', y, h1, h2, h3⟩
      · rw [hak] at h1; cases h1
      · have := hm.2; simp [h2] at this
    · rw [List.all_eq_true]
      intro r hr
      obtain ⟨⟨k, x⟩, hm, he⟩ := List.mem_map.1 hr
      rw [List.mem_filter] at hm
      rcases h k with ⟨_, h1⟩ | ⟨x', y, h1, h2, h3⟩
      · rw [get?_none] at h1; exact absurd rfl (h1 _ hm.1)
      · have := hm.2; simp [h1] at this

theorem sameSamples_iff (s t : List Sample) :
    sameSamples s t = true ↔ ListSame (fun u v => Sample.eq u v = true) s t := by
  unfold sameSamples ListSame
  rw [Bool.and_eq_true, beq_iff_eq, List.all_eq_true]
  constructor
  · rintro ⟨h1, h2⟩
    refine ⟨h1, fun i x y hx hy => ?_⟩
    exact h2 (x, y) (List.mem_of_getElem? (i := i) (by rw [List.getElem?_zip_eq_some]; exact ⟨hx, hy⟩))
  · rintro ⟨h1, h2⟩
    refine ⟨h1, ?_⟩
    rintro ⟨x, y⟩ hm
    obtain ⟨i, hi⟩ := List.getElem?_of_mem hm
    rw [List.getElem?_zip_eq_some] at hi
    exact h2 i x y hi.1 hi.2

theorem dataRes_passes {o : List (Opt P)} {at' : Option String} {c : Code} {x y : Option Bytes} {r : Res P}
    (h : dataRes "{}.data" at' o c x y = some r) : r.passes = true ↔ DataSame c x y ∨ isExcluded o "{}.data" = true := by
  cases x with
  | none =>
    cases y with
    | none =>
      injection h with h
      rw [← h, passes_plain]
      simp [DataSame]
    | some y =>
      simp only [dataRes] at h
      cases hu : unpack c y with
      | none => rw [hu] at h; cases h
      | some t =>
        rw [hu] at h
        injection h with h
        rw [← h, passes_plain]
        simp [DataSame]
  | some x =>
    cases y with
    | none =>
      simp only [dataRes] at h
      cases hu : unpack c x with
      | none => rw [hu] at h; cases h
      | some t =>
        rw [hu] at h
        injection h with h
        rw [← h, passes_plain]
        simp [DataSame]
    | some y =>
      simp only [dataRes] at h
      cases hu : unpack c x with
      | none => rw [hu] at h; cases h
      | some s =>
        cases hv : unpack c y with
        | none => rw [hu, hv] at h; cases h
        | some t =>
          rw [hu, hv] at h
          simp only [Option.bind_some, Option.map_some] at h
          injection h with h
          rw [← h, passes_plain]
          have hd : DataSame c (some x) (some y) ↔ sameSamples s t = true := by
            rw [sameSamples_iff]
            simp only [DataSame]
            constructor
            · rintro ⟨s', t', h1, h2, h3⟩
              rw [hu] at h1; rw [hv] at h2
              injection h1 with h1; injection h2 with h2
              subst h1 h2; exact h3
            · intro h3; exact ⟨s, t, hu, hv, h3⟩
          rw [hd]
          cases isExcluded o "{}.data" with
          | true => simp
          | false => simp

theorem mediaData_passes {env : Env P V} {opts : List (Opt P)} {c : Code} {a b : Grain V} {r : Res P}
    (h : mediaData env (withDefault opts) c a b = some r) :
    r.passes = true ↔ MediaTest env opts c a b ∨ isExcluded (withDefault opts) "{}.data" = true := by
  unfold mediaData at h
  by_cases hp : psnrMatchers (withDefault opts) "{}.data" = []
  · rw [if_pos hp] at h
    rw [dataRes_passes h]
    have hn : ∀ m, Opt.psnr "{}.data" m ∉ opts := by
      intro m hm
      have := (mem_psnrMatchers _ _ m).2 ((mem_withDefault_psnr opts _ m).2 hm)
      rw [hp] at this
      cases this
    have : MediaTest env opts c a b ↔ DataSame c a.data b.data := by
      unfold MediaTest
      constructor
      · rintro (⟨_, h⟩ | ⟨⟨m, hm⟩, _⟩)
        · exact h
        · exact absurd hm (hn m)
      · intro h; exact .inl ⟨hn, h⟩
    rw [this]
  · rw [if_neg hp] at h
    have hs : ∃ m, Opt.psnr "{}.data" m ∈ opts := by
      cases hm : psnrMatchers (withDefault opts) "{}.data" with
      | nil => exact absurd hm hp
      | cons m ms =>
        exact ⟨m, (mem_withDefault_psnr opts _ m).1 ((mem_psnrMatchers _ _ m).1 (by rw [hm]; simp))⟩
    have hm : MediaTest env opts c a b ↔ ∃ p, env.psnr a b = .ok p ∧ ∀ m, Opt.psnr "{}.data" m ∈ opts → m p = true := by
      unfold MediaTest
      constructor
      · rintro (⟨hn, _⟩ | ⟨_, h⟩)
        · obtain ⟨m, hm⟩ := hs; exact absurd hm (hn m)
        · exact h
      · intro h; exact .inr ⟨hs, h⟩
    rw [hm]
    unfold psnrRes at h
    by_cases he : isExcluded (withDefault opts) "{}.data" = true
    · rw [if_pos he] at h
      injection h with h
      rw [← h, passes_plain, he]
      simp
    · rw [if_neg he] at h
      cases hq : env.psnr a b with
      | raised => rw [hq] at h; cases h
      | unsupported =>
        rw [hq] at h
        injection h with h
        rw [← h, passes_plain, Bool.false_or]
        simp
      | ok p =>
        rw [hq] at h
        injection h with h
        rw [← h, passes_plain, Bool.or_eq_true, List.all_eq_true]
        constructor
        · rintro (h1 | h1)
          · refine .inl ⟨p, rfl, fun m hm => h1 m ?_⟩
            exact (mem_psnrMatchers _ _ m).2 ((mem_withDefault_psnr opts _ m).2 hm)
          · exact .inr h1
        · rintro (⟨p', h1, h2⟩ | h1)
          · injection h1 with h1
            subst h1
            exact .inl fun m hm => h2 m ((mem_withDefault_psnr opts _ m).1 ((mem_psnrMatchers _ _ m).1 hm))
          · exact .inr h1

/-! ## The whole comparison -/

theorem excl_iff (opts : List (Opt P)) (name : String)
    (h1 : altPath ("{}." ++ name) = (nameAlias name).map (fun n => "{}." ++ n))
    (h2 : ((nameAlias name).map (fun n => "{}." ++ n)) ≠ some "{}.creation_timestamp")
    (h3 : "{}." ++ name = "{}.creation_timestamp" → name = "creation_timestamp") :
    isExcluded (withDefault opts) ("{}." ++ name) = true ↔
      Asked opts name ∨ (name = "creation_timestamp" ∧ Opt.incl "{}.creation_timestamp" ∉ opts) := by
  rw [isExcluded_iff, mem_withDefault_exclude, h1]
  unfold Asked
  constructor
  · rintro ((h | ⟨h, hc⟩) | ⟨p, h, hp⟩)
    · exact .inl (.inl h)
    · exact .inr ⟨h3 h, hc⟩
    · obtain ⟨n, hn, he⟩ := Option.map_eq_some_iff.1 h
      subst he
      rcases (mem_withDefault_exclude opts _).1 hp with hp | ⟨hp, _⟩
      · exact .inl (.inr ⟨n, hn, hp⟩)
      · rw [hn] at h2
        exact absurd (congrArg some hp) h2
  · rintro ((h | ⟨n, hn, hp⟩) | ⟨h, hc⟩)
    · exact .inl (.inl h)
    · exact .inr ⟨_, by rw [hn]; rfl, (mem_withDefault_exclude opts _).2 (.inl hp)⟩
    · subst h
      exact .inl (.inr ⟨rfl, hc⟩)

/-- For attributes other than `creation_timestamp` and `length`. -/
theorem excl_simple (opts : List (Opt P)) (a b : Grain V) (name : String)
    (h1 : altPath ("{}." ++ name) = (nameAlias name).map (fun n => "{}." ++ n))
    (h2 : ((nameAlias name).map (fun n => "{}." ++ n)) ≠ some "{}.creation_timestamp")
    (h3 : "{}." ++ name ≠ "{}.creation_timestamp") (h4 : name ≠ "length") :
    isExcluded (withDefault opts) ("{}." ++ name) = true ↔ Excluded opts a b name := by
  rw [excl_iff opts name h1 h2 (fun h => absurd h h3)]
  unfold Excluded
  constructor
  · rintro (h | h)
    · exact .inl h
    · exact .inr (.inl h)
  · rintro (h | h | ⟨h, _⟩)
    · exact .inl h
    · exact .inr h
    · exact absurd h h4

/-- The results pass exactly when each attribute is excluded or the same. -/
def Agree (opts : List (Opt P)) (a b : Grain V) (rs : List (Res P)) (as : List (String × Prop)) : Prop :=
  rs.all Res.passes = true ↔ ∀ x ∈ as, Excluded opts a b x.1 ∨ x.2

theorem agree_nil (opts : List (Opt P)) (a b : Grain V) : Agree opts a b [] [] := by simp [Agree]

theorem agree_cons {opts : List (Opt P)} {a b : Grain V} {r : Res P} {rs : List (Res P)} {n : String} {T : Prop}
    {as : List (String × Prop)} (h : r.passes = true ↔ Excluded opts a b n ∨ T) (hs : Agree opts a b rs as) :
    Agree opts a b (r :: rs) ((n, T) :: as) := by
  unfold Agree at *
  rw [List.all_cons, Bool.and_eq_true, hs, h]
  simp

theorem agree_append {opts : List (Opt P)} {a b : Grain V} {rs rs' : List (Res P)} {as as' : List (String × Prop)}
    (h : Agree opts a b rs as) (h' : Agree opts a b rs' as') : Agree opts a b (rs ++ rs') (as ++ as') := by
  unfold Agree at *
  rw [List.all_append, Bool.and_eq_true, h, h']
  constructor
  · rintro ⟨h1, h2⟩ x hx
    rcases List.mem_append.1 hx with hx | hx
    · exact h1 x hx
    · exact h2 x hx
  · intro h; exact ⟨fun x hx => h x (List.mem_append_left _ hx), fun x hx => h x (List.mem_append_right _ hx)⟩

theorem agree_pass {opts : List (Opt P)} {a b : Grain V} {r : Res P} (h : r.passes = true) : Agree opts a b [r] [] := by
  simp [Agree, h]

theorem eq_agree {opts : List (Opt P)} {a b : Grain V} {name : String} {e : Bool} {T : Prop} (he : e = true ↔ T)
    (hx : isExcluded (withDefault opts) ("{}." ++ name) = true ↔ Excluded opts a b name) :
    (eqRes (withDefault opts) name e).passes = true ↔ Excluded opts a b name ∨ T := by
  unfold eqRes
  rw [passes_plain, Bool.or_eq_true, he, hx]
  exact Or.comm

theorem beq_agree {α : Type} [DecidableEq α] {opts : List (Opt P)} {a b : Grain V} {name : String} {x y : α}
    (hx : isExcluded (withDefault opts) ("{}." ++ name) = true ↔ Excluded opts a b name) :
    (eqRes (withDefault opts) name (x == y)).passes = true ↔ Excluded opts a b name ∨ x = y :=
  eq_agree beq_iff_eq hx

theorem diff_agree {opts : List (Opt P)} {a b : Grain V} {name ident : String} {at' : Option String} {x y : Int}
    (hi : ident = "{}." ++ name)
    (hx : isExcluded (withDefault opts) ("{}." ++ name) = true ↔ Excluded opts a b name) :
    (diffRes ident at' none (withDefault opts) x y).passes = true ↔ Excluded opts a b name ∨ TimeTest opts name x y := by
  subst hi
  rw [passes_diff, Bool.or_eq_true, diffTest_iff, hx]
  simp only [mem_withDefault_diff]
  exact Or.comm

theorem ordered_passes {α : Type} (o : List (Opt P)) (item : String → Option Key → α → α → Res P) (ident : String)
    (at' : Option String) (a b : List α) :
    (ordered item ident at' o a b).passes = ((ordered item ident at' o a b).equal || isExcluded o ident) := rfl

theorem dicts_agree {opts : List (Opt P)} {a b : Grain V} {name ident : String} (hi : ident = "{}." ++ name)
    (ho : NoNested (withDefault opts)) {veq : V → V → Bool} {at' : Option String} {x y : List (Dict V)} (hw : ∀ d ∈ x, (d.map (fun z => z.1)).Nodup)
    (hx : isExcluded (withDefault opts) ("{}." ++ name) = true ↔ Excluded opts a b name) :
    (ordered (mapping veq (withDefault opts)) ident at' (withDefault opts) x y).passes = true ↔
      Excluded opts a b name ∨ ListSame (DictSame veq) x y := by
  subst hi
  rw [ordered_passes, Bool.or_eq_true, hx, ordered_equal ho (mapping veq (withDefault opts)) (DictSame veq)]
  · exact Or.comm
  · intro n k d e hd _
    have : (mapping veq (withDefault opts) (itemIdent ("{}." ++ name) n) k d e).passes =
        ((mapping veq (withDefault opts) (itemIdent ("{}." ++ name) n) k d e).equal ||
          isExcluded (withDefault opts) (itemIdent ("{}." ++ name) n)) := rfl
    rw [this, (ho _ (.inl (item_nested _ n))).1, Bool.or_false, mapping_equal ho _ _ _ _ _ (hw d hd)]

theorem offsets_agree {opts : List (Opt P)} {a b : Grain V} {name ident : String} (hi : ident = "{}." ++ name)
    (ho : NoNested (withDefault opts)) {at' : Option String} {x y : List Int}
    (hx : isExcluded (withDefault opts) ("{}." ++ name) = true ↔ Excluded opts a b name) :
    (ordered (fun i key x y => diffRes i none key (withDefault opts) x y) ident at' (withDefault opts) x y).passes = true ↔
      Excluded opts a b name ∨ x = y := by
  subst hi
  rw [ordered_passes, Bool.or_eq_true, hx, ordered_equal ho _ (fun u v => u = v)]
  · have : ListSame (fun u v => u = v) x y ↔ x = y := by
      unfold ListSame
      constructor
      · rintro ⟨h1, h2⟩
        apply List.ext_getElem h1
        intro i hi hi'
        exact h2 i _ _ (List.getElem?_eq_getElem hi) (List.getElem?_eq_getElem hi')
      · rintro rfl
        refine ⟨rfl, fun i u v hu hv => ?_⟩
        rw [hu] at hv; injection hv
    rw [this]
    exact Or.comm
  · intro n k d e _ _
    rw [passes_diff, (ho _ (.inl (item_nested _ n))).1, Bool.or_false]
    unfold diffTest
    rw [(ho _ (.inl (item_nested _ n))).2, if_pos rfl, beq_iff_eq]
    omega

theorem incomparable_passes (o : List (Opt P)) : (incomparable o).passes = true := by
  unfold incomparable
  rw [passes_plain, Bool.false_or, isExcluded_iff]
  exact .inl (by simp)

theorem length_agree (opts : List (Opt P)) (a b : Grain V) (ha : isEvent a.body = true ↔ a.body.type = "event") (hb : isEvent b.body = true ↔ b.body.type = "event") :
    (eqRes (lengthOpts (withDefault opts) a b) "length" (a.length == b.length)).passes = true ↔
      Excluded opts a b "length" ∨ a.length = b.length := by
  have hl : isExcluded (withDefault opts) ("{}." ++ "length") = true ↔ Asked opts "length" := by
    rw [excl_iff opts "length" (by decide) (by decide) (by decide)]
    constructor
    · rintro (h | ⟨h, _⟩)
      · exact h
      · exact absurd h (by decide)
    · exact .inl
  have hev : ∀ name, altPath ("{}." ++ name) = (nameAlias name).map (fun n => "{}." ++ n) →
      ((nameAlias name).map (fun n => "{}." ++ n)) ≠ some "{}.creation_timestamp" → "{}." ++ name ≠ "{}.creation_timestamp" →
      name ≠ "creation_timestamp" → (isExcluded (withDefault opts) ("{}." ++ name) = true ↔ Asked opts name) := by
    intro name h1 h2 h3 h4
    rw [excl_iff opts name h1 h2 (fun h => absurd h h3)]
    constructor
    · rintro (h | ⟨h, _⟩)
      · exact h
      · exact absurd h h4
    · exact .inl
  have hee : eventExcluded (withDefault opts) = true ↔
      (Asked opts "event_type" ∨ Asked opts "topic" ∨ Asked opts "event_data") := by
    unfold eventExcluded
    rw [Bool.or_eq_true, Bool.or_eq_true]
    rw [show "{}.event_type" = "{}." ++ "event_type" by decide, hev "event_type" (by decide) (by decide) (by decide) (by decide),
      show "{}.topic" = "{}." ++ "topic" by decide, hev "topic" (by decide) (by decide) (by decide) (by decide),
      show "{}.event_data" = "{}." ++ "event_data" by decide, hev "event_data" (by decide) (by decide) (by decide) (by decide), or_assoc]
  unfold eqRes
  rw [passes_plain, Bool.or_eq_true, beq_iff_eq]
  unfold lengthOpts Excluded
  by_cases hc : (isEvent a.body && isEvent b.body && eventExcluded (withDefault opts)) = true
  · rw [if_pos hc]
    rw [Bool.and_eq_true, Bool.and_eq_true, ha, hb, hee] at hc
    constructor
    · intro _; exact .inl (.inr (.inr ⟨rfl, hc.1.1, hc.1.2, hc.2⟩))
    · intro _
      right
      rw [isExcluded_iff]
      left
      exact List.mem_append_right _ (List.mem_singleton.2 rfl)
  · rw [if_neg hc, hl]
    rw [Bool.and_eq_true, Bool.and_eq_true, ha, hb, hee] at hc
    constructor
    · rintro (h | h)
      · exact .inr h
      · exact .inl (.inl h)
    · rintro ((h | ⟨h, _⟩ | ⟨_, h1, h2, h3⟩) | h)
      · exact .inr h
      · exact absurd h (by decide)
      · exact absurd ⟨⟨h1, h2⟩, h3⟩ hc
      · exact .inl h

theorem isEvent_iff {g : Grain V} (hg : Wf g) : isEvent g.body = true ↔ g.body.type = "event" := by
  cases h : g.body with
  | plain n =>
    have := hg.name n h
    simp only [isEvent, Body.type]
    constructor
    · intro h; cases h
    · intro h; subst h; exact absurd (by simp) this
  | _ => simp [isEvent, Body.type]

theorem ite_data {opts : List (Opt P)} {a b : Grain V} {Q T : Prop} [Decidable Q] {d : Res P} {e : Option (Res P)}
    (h : (if Q then e else some (incomparable (withDefault opts))) = some d)
    (hd : ∀ d, e = some d → (d.passes = true ↔ T ∨ isExcluded (withDefault opts) "{}.data" = true)) :
    d.passes = true ↔ Excluded opts a b "data" ∨ (Q → T) := by
  have hx : isExcluded (withDefault opts) "{}.data" = true ↔ Excluded opts a b "data" :=
    excl_simple opts a b "data" (by decide) (by decide) (by decide) (by decide)
  by_cases hq : Q
  · rw [if_pos hq] at h
    rw [hd d h, hx]
    constructor
    · rintro (h | h)
      · exact .inr fun _ => h
      · exact .inl h
    · rintro (h | h)
      · exact .inr h
      · exact .inl (h hq)
  · rw [if_neg hq] at h
    injection h with h
    rw [← h, incomparable_passes]
    exact ⟨fun _ => .inr fun h => absurd h hq, fun _ => rfl⟩

macro "xs" : tactic => `(tactic| exact excl_simple _ _ _ _ (by decide) (by decide) (by decide) (by decide))

theorem common_agree (env : Env P V) (opts : List (Opt P)) (a b : Grain V) (ho : TopLevel opts) (ha : Wf a) (hb : Wf b) :
    Agree opts a b (commonRes env (withDefault opts) (lengthOpts (withDefault opts) a b) a b) (commonAttrs env opts a b) := by
  unfold commonRes commonAttrs
  refine agree_cons (beq_agree (by xs)) (agree_cons (beq_agree (by xs)) (agree_cons (beq_agree (by xs))
    (agree_cons (beq_agree (by xs)) (agree_cons (beq_agree (by xs)) (agree_cons (length_agree opts a b (isEvent_iff ha) (isEvent_iff hb))
    (agree_cons (diff_agree (by decide) (by xs)) (agree_cons (diff_agree (by decide) (by xs)) (agree_cons (diff_agree (by decide) ?_)
    (agree_cons (dicts_agree (by decide) (noNested ho) ha.labels (by xs)) (agree_nil _ _ _))))))))))
  rw [excl_iff opts "creation_timestamp" (by decide) (by decide) (by decide)]
  unfold Excluded
  constructor
  · rintro (h | h)
    · exact .inl h
    · exact .inr (.inl h)
  · rintro (h | h | ⟨h, _⟩)
    · exact .inl h
    · exact .inr h
    · exact absurd h (by decide)

/-- All the results for the type of grain agree with its attributes. -/
def TypeAgree (env : Env P V) (opts : List (Opt P)) (a b : Grain V) (x : List (Res P) × Option (Option (Res P))) : Prop :=
  (x.2 = none → Agree opts a b x.1 (typeAttrs env opts a b)) ∧
    ∀ d, x.2 = some (some d) → Agree opts a b (x.1 ++ [d]) (typeAttrs env opts a b)

theorem typeAgree_data {env : Env P V} {opts : List (Opt P)} {a b : Grain V} {rs : List (Res P)} {as : List (String × Prop)}
    {Q T : Prop} [Decidable Q] {e : Option (Res P)} (ht : typeAttrs env opts a b = as ++ [("data", Q → T)]) (hs : Agree opts a b rs as)
    (hd : ∀ d, e = some d → (d.passes = true ↔ T ∨ isExcluded (withDefault opts) "{}.data" = true)) :
    TypeAgree env opts a b (rs, some (if Q then e else some (incomparable (withDefault opts)))) := by
  refine ⟨fun h => (by cases h), fun d h => ?_⟩
  simp only at h
  injection h with h
  rw [ht]
  exact agree_append hs (agree_cons (ite_data h hd) (agree_nil _ _ _))

theorem typeAgree_other {env : Env P V} {opts : List (Opt P)} {a b : Grain V} (ht : typeAttrs env opts a b = []) :
    TypeAgree env opts a b ([], some (some (incomparable (withDefault opts)))) := by
  refine ⟨fun h => (by cases h), fun d h => ?_⟩
  simp only at h
  injection h with h
  injection h with h
  rw [ht, ← h]
  exact agree_pass (incomparable_passes _)

theorem event_agree {env : Env P V} {opts : List (Opt P)} {a b : Grain V} (ho : TopLevel opts) {t p t' p' : List Nat}
    {i i' : List (Dict V)} (hba : a.body = .event t p i) (hbb : b.body = .event t' p' i')
    (hw : ∀ d ∈ i, (d.map (fun x => x.1)).Nodup) : TypeAgree env opts a b (bodyRes env (withDefault opts) a b) := by
  simp only [bodyRes, hba, hbb]
  refine ⟨fun _ => ?_, fun d h => by cases h⟩
  simp only [typeAttrs, hba, hbb]
  exact agree_cons (eq_agree beq_iff_eq (by xs)) (agree_cons (eq_agree beq_iff_eq (by xs))
        (agree_cons (dicts_agree (by decide) (noNested ho) hw (by xs)) (agree_nil _ _ _)))

theorem audio_agree {env : Env P V} {opts : List (Opt P)} {a b : Grain V} {f s c r f' s' c' r' : Nat}
    (hba : a.body = .audio f s c r) (hbb : b.body = .audio f' s' c' r') :
    TypeAgree env opts a b (bodyRes env (withDefault opts) a b) := by
  simp only [bodyRes, hba, hbb]
  refine typeAgree_data (as := [("cog_audio_format", f = f'), ("samples", s = s'), ("channels", c = c'), ("sample_rate", r = r')])
    (T := MediaTest env opts (audioCode f) a b) ?_ ?_ (fun d hd => mediaData_passes hd)
  · simp only [typeAttrs, hba, hbb]; rfl
  · exact agree_cons (beq_agree (by xs)) (agree_cons (beq_agree (by xs)) (agree_cons (beq_agree (by xs))
      (agree_cons (beq_agree (by xs)) (agree_nil _ _ _))))

theorem codedAudio_agree {env : Env P V} {opts : List (Opt P)} {a b : Grain V} {f s c r p m f' s' c' r' p' m' : Nat}
    (hba : a.body = .codedAudio f s c r p m) (hbb : b.body = .codedAudio f' s' c' r' p' m') :
    TypeAgree env opts a b (bodyRes env (withDefault opts) a b) := by
  simp only [bodyRes, hba, hbb]
  refine typeAgree_data (as := [("cog_audio_format", f = f'), ("samples", s = s'), ("channels", c = c'), ("sample_rate", r = r'),
      ("priming", p = p'), ("remainder", m = m')]) (T := DataSame (.int 1) a.data b.data) ?_ ?_ (fun d hd => dataRes_passes hd)
  · simp only [typeAttrs, hba, hbb]; rfl
  · exact agree_cons (beq_agree (by xs)) (agree_cons (beq_agree (by xs)) (agree_cons (beq_agree (by xs))
      (agree_cons (beq_agree (by xs)) (agree_cons (beq_agree (by xs)) (agree_cons (beq_agree (by xs)) (agree_nil _ _ _))))))

theorem video_agree {env : Env P V} {opts : List (Opt P)} {a b : Grain V} {f w h l f' w' h' l' : Nat}
    (hba : a.body = .video f w h l) (hbb : b.body = .video f' w' h' l') :
    TypeAgree env opts a b (bodyRes env (withDefault opts) a b) := by
  simp only [bodyRes, hba, hbb]
  refine typeAgree_data (as := [("cog_frame_format", f = f'), ("width", w = w'), ("height", h = h'), ("cog_frame_layout", l = l')])
    (T := MediaTest env opts (videoCode f) a b) ?_ ?_ (fun d hd => mediaData_passes hd)
  · simp only [typeAttrs, hba, hbb]; rfl
  · exact agree_cons (beq_agree (by xs)) (agree_cons (beq_agree (by xs)) (agree_cons (beq_agree (by xs))
      (agree_cons (beq_agree (by xs)) (agree_nil _ _ _))))

theorem codedVideo_agree {env : Env P V} {opts : List (Opt P)} {a b : Grain V} (ho : TopLevel opts)
    {f cw ch ow oh l f' cw' ch' ow' oh' l' : Nat} {k k' : Option Bool} {t t' : Option Int} {u u' : List Int}
    (hba : a.body = .codedVideo f cw ch ow oh k t l u) (hbb : b.body = .codedVideo f' cw' ch' ow' oh' k' t' l' u') :
    TypeAgree env opts a b (bodyRes env (withDefault opts) a b) := by
  simp only [bodyRes, hba, hbb]
  refine typeAgree_data (as := [("cog_frame_format", f = f'), ("coded_width", cw = cw'), ("coded_height", ch = ch'), ("origin_width", ow = ow'),
     ("origin_height", oh = oh'), ("is_key_frame", k = k'), ("temporal_offset", t = t'), ("cog_frame_layout", l = l'),
     ("unit_offsets", u = u')]) (T := DataSame (.int 1) a.data b.data) ?_ ?_ (fun d hd => dataRes_passes hd)
  · simp only [typeAttrs, hba, hbb]; rfl
  · exact agree_cons (beq_agree (by xs)) (agree_cons (beq_agree (by xs))
      (agree_cons (beq_agree (by xs)) (agree_cons (beq_agree (by xs)) (agree_cons (beq_agree (by xs))
      (agree_cons (eq_agree beq_iff_eq (by xs)) (agree_cons (eq_agree beq_iff_eq (by xs))
      (agree_cons (beq_agree (by xs)) (agree_cons (offsets_agree (by decide) (noNested ho) (by xs))
      (agree_nil _ _ _)))))))))

theorem plain_agree {env : Env P V} {opts : List (Opt P)} {a b : Grain V} {n n' : String} (hba : a.body = .plain n)
    (hbb : b.body = .plain n') : TypeAgree env opts a b (bodyRes env (withDefault opts) a b) := by
  simp only [bodyRes, hba, hbb]
  refine typeAgree_data (as := []) (T := DataSame (.int 1) a.data b.data) ?_ (agree_nil _ _ _) (fun d hd => dataRes_passes hd)
  simp only [typeAttrs, hba, hbb]; rfl

theorem type_agree (env : Env P V) {opts : List (Opt P)} {a : Grain V} (b : Grain V) (ho : TopLevel opts) (ha : Wf a) :
    TypeAgree env opts a b (bodyRes env (withDefault opts) a b) := by
  cases hba : a.body with
  | event t p i =>
    cases hbb : b.body with
    | event t' p' i' => exact event_agree ho hba hbb (ha.items _ _ _ hba)
    | _ => simp only [bodyRes, hba, hbb]; exact typeAgree_other (by simp only [typeAttrs, hba, hbb])
  | audio f s c r =>
    cases hbb : b.body with
    | audio f' s' c' r' => exact audio_agree hba hbb
    | _ => simp only [bodyRes, hba, hbb]; exact typeAgree_other (by simp only [typeAttrs, hba, hbb])
  | codedAudio f s c r p m =>
    cases hbb : b.body with
    | codedAudio f' s' c' r' p' m' => exact codedAudio_agree hba hbb
    | _ => simp only [bodyRes, hba, hbb]; exact typeAgree_other (by simp only [typeAttrs, hba, hbb])
  | video f w h l =>
    cases hbb : b.body with
    | video f' w' h' l' => exact video_agree hba hbb
    | _ => simp only [bodyRes, hba, hbb]; exact typeAgree_other (by simp only [typeAttrs, hba, hbb])
  | codedVideo f cw ch ow oh k t l u =>
    cases hbb : b.body with
    | codedVideo f' cw' ch' ow' oh' k' t' l' u' => exact codedVideo_agree ho hba hbb
    | _ => simp only [bodyRes, hba, hbb]; exact typeAgree_other (by simp only [typeAttrs, hba, hbb])
  | plain n =>
    cases hbb : b.body with
    | plain n' => exact plain_agree hba hbb
    | _ => simp only [bodyRes, hba, hbb]; exact typeAgree_other (by simp only [typeAttrs, hba, hbb])

theorem compareGrain_equal (env : Env P V) (opts : List (Opt P)) (a b : Grain V) (k : Option Key) (ho : TopLevel opts) (ha : Wf a)
    (hb : Wf b) {r : Res P} (h : compareGrain env opts a b k = some r) :
    r.equal = true ↔ ∀ x ∈ attrs env opts a b, Excluded opts a b x.1 ∨ x.2 := by
  have hc := common_agree env opts a b ho ha hb
  have ht := type_agree env b ho ha
  unfold compareGrain at h
  revert h
  simp only
  generalize bodyRes env (withDefault opts) a b = x at ht
  obtain ⟨rs, d⟩ := x
  intro h
  cases d with
  | none =>
    simp only at h
    injection h with h
    rw [← h]
    exact agree_append hc (ht.1 rfl)
  | some d =>
    cases d with
    | none => cases h
    | some d =>
      simp only at h
      injection h with h
      rw [← h, List.append_assoc]
      exact agree_append hc (ht.2 d rfl)

end Verif.Props.CompareLemmas

/-! ## C42 -/

namespace Verif.Props.CompareSpec

open Verif Verif.Cog Verif.Compare

variable {P V : Type}

/-- Size of the words the data is unpacked in. -/
def wordSize : Code → Nat
  | .int n => n
  | .flt n => n
  | .three => 1

/-- The data is a whole number of words. -/
def Aligned (c : Code) : Option Bytes → Prop
  | none => True
  | some b => b.length % wordSize c = 0

/-- How the data of two grains is compared, if it is. -/
def dataCode (a b : Grain V) : Option Code :=
  match a.body, b.body with
  | .audio f .., .audio f' .. => if f = f' then some (audioCode f) else none
  | .codedAudio f .., .codedAudio f' .. => if f = f' then some (.int 1) else none
  | .video f .., .video f' .. => if f = f' then some (videoCode f) else none
  | .codedVideo f .., .codedVideo f' .. => if f = f' then some (.int 1) else none
  | .plain n, .plain n' => if n = n' then some (.int 1) else none
  | _, _ => none

end Verif.Props.CompareSpec

namespace Verif.Props.CompareLemmas

open Verif Verif.Cog Verif.Compare CompareSpec

variable {P V : Type}

theorem unpack_none (c : Code) (b : Bytes) : unpack c b = none ↔ ¬ b.length % wordSize c = 0 := by
  cases c with
  | int n =>
    simp only [unpack, wordSize]
    by_cases h : b.length % n = 0
    · rw [if_pos h]; simp [h]
    · rw [if_neg h]; simp [h]
  | flt n =>
    simp only [unpack, wordSize]
    by_cases h : b.length % n = 0
    · rw [if_pos h]; simp [h]
    · rw [if_neg h]; simp [h]
  | three => simp [unpack, wordSize, Nat.mod_one]

theorem dataRes_none (i : String) (at' : Option String) (o : List (Opt P)) (c : Code) (x y : Option Bytes) :
    dataRes i at' o c x y = none ↔ ¬ (Aligned c x ∧ Aligned c y) := by
  cases x with
  | none =>
    cases y with
    | none => simp [dataRes, Aligned]
    | some y => simp only [dataRes, Aligned, Option.map_eq_none_iff, unpack_none, true_and]
  | some x =>
    cases y with
    | none => simp only [dataRes, Aligned, Option.map_eq_none_iff, unpack_none, and_true]
    | some y =>
      simp only [dataRes, Aligned]
      cases hx : unpack c x with
      | none =>
        have := (unpack_none c x).1 hx
        simp [this]
      | some s =>
        have hx' : x.length % wordSize c = 0 := by
          by_cases h : x.length % wordSize c = 0
          · exact h
          · rw [(unpack_none c x).2 h] at hx; cases hx
        simp only [Option.bind_some, Option.map_eq_none_iff, unpack_none, hx', true_and]

theorem bodyRes_raises (env : Env P V) (o : List (Opt P)) (hp : psnrMatchers o "{}.data" = []) (a b : Grain V) :
    (bodyRes env o a b).2 = some none ↔ ∃ c, dataCode a b = some c ∧ ¬ (Aligned c a.data ∧ Aligned c b.data) := by
  have key : ∀ (Q : Prop) [Decidable Q] (c : Code),
      (some (if Q then dataRes "{}.data" (some "data") o c a.data b.data else some (incomparable o)) = some none ↔
        ∃ c', (if Q then some c else none) = some c' ∧ ¬ (Aligned c' a.data ∧ Aligned c' b.data)) := by
    intro Q _ c
    by_cases hq : Q
    · rw [if_pos hq, if_pos hq]
      simp only [Option.some.injEq, dataRes_none]
      constructor
      · intro h; exact ⟨c, rfl, h⟩
      · rintro ⟨c', rfl, h⟩; exact h
    · rw [if_neg hq, if_neg hq]; simp
  have hm : ∀ c, mediaData env o c a b = dataRes "{}.data" (some "data") o c a.data b.data := by
    intro c; unfold mediaData; rw [if_pos hp]
  cases hba : a.body <;> cases hbb : b.body <;> simp only [bodyRes, dataCode, hba, hbb, hm] <;>
    first | exact key _ _ | simp

theorem compareGrain_none (env : Env P V) (opts : List (Opt P)) (a b : Grain V) (k : Option Key) :
    compareGrain env opts a b k = none ↔ (bodyRes env (withDefault opts) a b).2 = some none := by
  unfold compareGrain
  simp only
  generalize bodyRes env (withDefault opts) a b = x
  obtain ⟨rs, d⟩ := x
  cases d with
  | none => simp
  | some d => cases d with
    | none => simp
    | some d => simp

theorem uintOf_inj {x y : Bytes} (hl : x.length = y.length) (h : uintOf x = uintOf y) : x = y := by
  induction x generalizing y with
  | nil => cases y with
    | nil => rfl
    | cons => cases hl
  | cons c x ih => cases y with
    | nil => cases hl
    | cons d y =>
      simp only [uintOf] at h
      have h1 := c.toNat_lt
      have h2 := d.toNat_lt
      have h3 : c.toNat = d.toNat := by omega
      have h4 : uintOf x = uintOf y := by omega
      rw [ih (by simpa using hl) h4, UInt8.toNat_inj.1 h3]

theorem groups_spec (n : Nat) (hn : 0 < n) : ∀ (f : Nat) (b : Bytes), b.length ≤ n * f → b.length % n = 0 →
    (groups n f b).flatten = b ∧ ∀ g ∈ groups n f b, g.length = n := by
  intro f
  induction f with
  | zero =>
    intro b h _
    have : b = [] := List.length_eq_zero_iff.1 (by omega)
    subst this
    exact ⟨rfl, by simp [groups]⟩
  | succ f ih =>
    intro b h hm
    unfold groups
    by_cases hb : b.length < n
    · rw [if_pos hb]
      have : b = [] := List.length_eq_zero_iff.1 (by rw [Nat.mod_eq_of_lt hb] at hm; exact hm)
      subst this
      exact ⟨rfl, by simp⟩
    · rw [if_neg hb]
      have hd : (b.drop n).length ≤ n * f := by
        rw [List.length_drop]
        rw [Nat.mul_succ] at h
        omega
      have hdm : (b.drop n).length % n = 0 := by
        rw [List.length_drop, ← Nat.mod_eq_sub_mod (by omega)]; exact hm
      obtain ⟨h1, h2⟩ := ih _ hd hdm
      refine ⟨?_, ?_⟩
      · rw [List.flatten_cons, h1, List.take_append_drop]
      · intro g hg
        rcases List.mem_cons.1 hg with hg | hg
        · subst hg; rw [List.length_take]; omega
        · exact h2 g hg

theorem listSame_refl {α : Type} {R : α → α → Prop} (l : List α) (h : ∀ x ∈ l, R x x) : ListSame R l l := by
  refine ⟨rfl, fun i x y hx hy => ?_⟩
  rw [hx] at hy
  injection hy with hy
  subst hy
  exact h x (List.mem_of_getElem? hx)

theorem int_bytes {n : Nat} (hn : 0 < n) {x y : Bytes} (hx : x.length % n = 0) (hy : y.length % n = 0) :
    DataSame (.int n) (some x) (some y) ↔ x = y := by
  simp only [DataSame, unpack, if_pos hx, if_pos hy]
  constructor
  · rintro ⟨s, t, hs, ht, hlen, hall⟩
    injection hs with hs
    injection ht with ht
    subst hs ht
    have hnx : x.length ≤ n * x.length := Nat.le_mul_of_pos_left _ hn
    have hny : y.length ≤ n * y.length := Nat.le_mul_of_pos_left _ hn
    obtain ⟨h1, h2⟩ := groups_spec n hn _ x hnx hx
    obtain ⟨h3, h4⟩ := groups_spec n hn _ y hny hy
    rw [List.length_map, List.length_map] at hlen
    have : groups n x.length x = groups n y.length y := by
      apply List.ext_getElem hlen
      intro i hi hi'
      have := hall i _ _ (by rw [List.getElem?_map, List.getElem?_eq_getElem hi]; rfl)
        (by rw [List.getElem?_map, List.getElem?_eq_getElem hi']; rfl)
      simp only [Sample.eq, beq_iff_eq] at this
      refine uintOf_inj ?_ this
      rw [h2 _ (List.getElem_mem hi), h4 _ (List.getElem_mem hi')]
    rw [← h1, ← h3, this]
  · rintro rfl
    refine ⟨_, _, rfl, rfl, listSame_refl _ ?_⟩
    intro u hu
    obtain ⟨g, _, rfl⟩ := List.mem_map.1 hu
    simp [Sample.eq]

theorem asked_nil (name : String) : ¬ Asked ([] : List (Opt P)) name := by simp [Asked]

theorem excluded_nil (a b : Grain V) (name : String) : Excluded ([] : List (Opt P)) a b name ↔ name = "creation_timestamp" := by
  unfold Excluded
  constructor
  · rintro (h | ⟨h, _⟩ | ⟨_, _, _, h⟩)
    · exact absurd h (asked_nil name)
    · exact h
    · rcases h with h | h | h
      · exact absurd h (asked_nil _)
      · exact absurd h (asked_nil _)
      · exact absurd h (asked_nil _)
  · intro h; exact .inr (.inl ⟨h, by simp⟩)

theorem timeTest_nil (name : String) (x y : Int) : TimeTest ([] : List (Opt P)) name x y ↔ x = y := by
  simp [TimeTest]

theorem mediaTest_nil (env : Env P V) (c : Code) (a b : Grain V) : MediaTest env [] c a b ↔ DataSame c a.data b.data := by
  simp [MediaTest]

theorem dictSame_refl {veq : V → V → Bool} {d : Dict V} (h : ∀ x ∈ d, veq x.2 x.2 = true) : DictSame veq d d := by
  intro k
  cases hk : d.get? k with
  | none => exact .inl ⟨rfl, rfl⟩
  | some v => exact .inr ⟨v, v, rfl, rfl, h _ (get?_mem hk)⟩

/-- The samples are numbers. -/
def NoNaN (c : Code) (x : Option Bytes) : Prop :=
  ∀ b s, x = some b → unpack c b = some s → ∀ u ∈ s, Sample.eq u u = true

theorem dataSame_refl {c : Code} {x : Option Bytes} (ha : Aligned c x) (hn : NoNaN c x) : DataSame c x x := by
  cases x with
  | none => trivial
  | some b =>
    cases hu : unpack c b with
    | none => exact absurd ha ((unpack_none c b).1 hu)
    | some s => exact ⟨s, s, hu, hu, listSame_refl s (hn b s rfl hu)⟩

theorem topLevel_nil : TopLevel ([] : List (Opt P)) := fun o h => by cases h

end Verif.Props.CompareLemmas

namespace Verif.Props

open Verif Verif.Cog Verif.Compare CompareSpec CompareLemmas

variable {P V : Type}

/-- Without options the comparison succeeds exactly when all attributes but the creation timestamp are the same. -/
theorem C42_verdict (env : Env P V) (a b : Grain V) (ha : Wf a) (hb : Wf b) (r : Res P) (h : compareGrain env [] a b = some r) :
    r.equal = true ↔ ∀ x ∈ attrs env [] a b, x.1 ≠ "creation_timestamp" → x.2 := by
  rw [compareGrain_equal env [] a b none topLevel_nil ha hb h]
  constructor
  · intro h x hx hn
    rcases h x hx with h | h
    · exact absurd ((excluded_nil a b x.1).1 h) hn
    · exact h
  · intro h x hx
    by_cases hn : x.1 = "creation_timestamp"
    · exact .inl ((excluded_nil a b x.1).2 hn)
    · exact .inr (h x hx hn)

/-- What "the same" is without options: equal timestamps, the same samples. -/
theorem C42_no_options (env : Env P V) (a b : Grain V) (name : String) (x y : Int) (c : Code) :
    (TimeTest ([] : List (Opt P)) name x y ↔ x = y) ∧ (MediaTest env [] c a b ↔ DataSame c a.data b.data) :=
  ⟨timeTest_nil name x y, mediaTest_nil env c a b⟩

/-- For data of whole words, all formats but floating point and 24 bit audio compare the bytes. -/
theorem C42_bytes (n : Nat) (hn : 0 < n) (x y : Bytes) (hx : Aligned (.int n) (some x)) (hy : Aligned (.int n) (some y)) :
    DataSame (.int n) (some x) (some y) ↔ x = y := int_bytes hn hx hy

/-- Video, coded and other data is compared in whole words of one, two or four bytes. -/
theorem C42_video_words (f : Nat) : ∃ n, videoCode f = .int n ∧ (n = 1 ∨ n = 2 ∨ n = 4) := by
  unfold videoCode
  by_cases h1 : isCompressed f = true
  · rw [if_pos h1]; exact ⟨1, rfl, .inl rfl⟩
  rw [if_neg h1]
  by_cases h2 : f = FrameFormat.v210
  · rw [if_pos h2]; exact ⟨4, rfl, .inr (.inr rfl)⟩
  rw [if_neg h2]
  by_cases h3 : f = FrameFormat.v216
  · rw [if_pos h3]; exact ⟨2, rfl, .inr (.inl rfl)⟩
  rw [if_neg h3]
  by_cases h4 : isPacked f = true
  · rw [if_pos h4]; exact ⟨1, rfl, .inl rfl⟩
  rw [if_neg h4]
  refine ⟨_, rfl, ?_⟩
  unfold bytesPerValue
  by_cases h5 : f &&& 0xc = 0
  · rw [if_pos h5]; exact .inl rfl
  rw [if_neg h5]
  by_cases h6 : f &&& 0xc = 4
  · rw [if_pos h6]; exact .inr (.inl rfl)
  rw [if_neg h6]; exact .inr (.inr rfl)

/-- The comparison fails with an exception exactly when there is data to compare that is not a whole number of words. -/
theorem C42_raises (env : Env P V) (opts : List (Opt P)) (hp : ∀ m, Opt.psnr "{}.data" m ∉ opts) (a b : Grain V) :
    compareGrain env opts a b = none ↔ ∃ c, dataCode a b = some c ∧ ¬ (Aligned c a.data ∧ Aligned c b.data) := by
  rw [compareGrain_none]
  refine bodyRes_raises env _ ?_ a b
  cases hm : psnrMatchers (withDefault opts) "{}.data" with
  | nil => rfl
  | cons m ms =>
    exact absurd ((mem_withDefault_psnr opts _ m).1 ((mem_psnrMatchers _ _ m).1 (by rw [hm]; simp))) (hp m)

/-- A grain with whole words of data that are numbers compares equal to itself. -/
theorem C42_self_partial (env : Env P V) (a : Grain V) (ha : Wf a)
    (hl : ∀ d ∈ a.timelabels, ∀ x ∈ d, env.veq x.2 x.2 = true)
    (hi : ∀ t p i, a.body = .event t p i → ∀ d ∈ i, ∀ x ∈ d, env.veq x.2 x.2 = true)
    (hd : ∀ c, dataCode a a = some c → Aligned c a.data ∧ NoNaN c a.data) :
    ∃ r, compareGrain env [] a a = some r ∧ r.equal = true := by
  cases hr : compareGrain env ([] : List (Opt P)) a a with
  | none =>
    obtain ⟨c, hc, hn⟩ := (C42_raises env [] (by simp) a a).1 hr
    exact absurd ⟨(hd c hc).1, (hd c hc).1⟩ hn
  | some r =>
    refine ⟨r, rfl, ?_⟩
    rw [C42_verdict env a a ha ha r hr]
    have hdat : ∀ c, dataCode a a = some c → DataSame c a.data a.data := fun c hc => dataSame_refl (hd c hc).1 (hd c hc).2
    have hall : (∀ x ∈ commonAttrs env [] a a, x.2) ∧ ∀ x ∈ typeAttrs env [] a a, x.2 := by
      constructor
      · unfold commonAttrs
        simp only [List.forall_mem_cons, timeTest_nil, true_and]
        refine ⟨?_, by simp⟩
        exact listSame_refl _ (fun d hdm => dictSame_refl (hl d hdm))
      · cases hb : a.body with
        | event t p i =>
          simp only [typeAttrs, hb, List.forall_mem_cons, true_and]
          exact ⟨listSame_refl _ (fun d hdm => dictSame_refl (hi t p i hb d hdm)), by simp⟩
        | audio f s c r =>
          simp only [typeAttrs, hb, List.forall_mem_cons, mediaTest_nil, true_and]
          exact ⟨fun _ => hdat _ (by simp [dataCode, hb]), by simp⟩
        | codedAudio f s c r p m =>
          simp only [typeAttrs, hb, List.forall_mem_cons, true_and]
          exact ⟨fun _ => hdat _ (by simp [dataCode, hb]), by simp⟩
        | video f w h l =>
          simp only [typeAttrs, hb, List.forall_mem_cons, mediaTest_nil, true_and]
          exact ⟨fun _ => hdat _ (by simp [dataCode, hb]), by simp⟩
        | codedVideo f cw ch ow oh k t l u =>
          simp only [typeAttrs, hb, List.forall_mem_cons, true_and]
          exact ⟨fun _ => hdat _ (by simp [dataCode, hb]), by simp⟩
        | plain n =>
          simp only [typeAttrs, hb, List.forall_mem_cons, true_and]
          exact ⟨fun _ => hdat _ (by simp [dataCode, hb]), by simp⟩
    intro x hx _
    rcases List.mem_append.1 hx with hx | hx
    · exact hall.1 x hx
    · exact hall.2 x hx

/-! ### Examples and counterexamples -/

namespace CompareSample

def env : Env Nat Nat := ⟨fun a b => a == b, fun _ _ => .ok 0⟩

def grain (body : Body Nat) (data : Option Bytes) : Grain Nat :=
  { src := 1, flow := 2, rate := 25, duration := 1 / 25, length := (data.getD []).length, origin := 10, sync := 20, creation := 30,
    timelabels := [[("tag", 1), ("label", 2)]], data := data, body := body }

def s16 (data : Bytes) : Grain Nat := grain (.audio AudioFormat.S16_INTERLEAVED 1 1 48000) (some data)
def s24 (data : Bytes) : Grain Nat := grain (.audio AudioFormat.S24_INTERLEAVED 1 1 48000) (some data)
def flt (data : Bytes) : Grain Nat := grain (.audio AudioFormat.FLOAT_INTERLEAVED 1 1 48000) (some data)
def event : Grain Nat := grain (.event [116] [112] [[("path", 1), ("pre", 2)], [("path", 3)]]) (some [1, 2, 3])

def verdict (opts : List (Opt Nat)) (a b : Grain Nat) : Option Bool := (compareGrain env opts a b).map Res.equal

theorem wf_audio (f s c r : Nat) (d : Option Bytes) : Wf (grain (.audio f s c r) d) where
  labels := by
    intro x hx
    simp only [grain, List.mem_singleton] at hx
    subst hx
    decide
  items := by intro t p i h; cases h
  name := by intro n h; cases h

end CompareSample

open CompareSample

/-- Hypotheses of `C42_self_partial` for an audio grain with two samples. -/
example : ∃ r, compareGrain env [] (s16 [1, 2, 3, 255]) (s16 [1, 2, 3, 255]) = some r ∧ r.equal = true := by
  refine C42_self_partial env _ (wf_audio ..) (by decide) (by intro t p i h; cases h) ?_
  intro c hc
  have : c = .int 2 := by
    have h : dataCode (s16 [1, 2, 3, 255]) (s16 [1, 2, 3, 255]) = some (.int 2) := by decide
    rw [h] at hc; injection hc with hc; exact hc.symm
  subst this
  refine ⟨rfl, ?_⟩
  intro b s hb hs u hu
  injection hb with hb
  subst hb
  have : s = [.int 513, .int 65283] := by
    have h : unpack (.int 2) [1, 2, 3, 255] = some [.int 513, .int 65283] := by decide +kernel
    rw [h] at hs; injection hs with hs; exact hs.symm
  subst this
  revert u
  decide +kernel

/-- The verdict depends on every kind of attribute. -/
example : verdict [] event event = some true ∧
    verdict [] event { event with timelabels := [[("label", 2), ("tag", 1)]] } = some true ∧
    verdict [] event { event with timelabels := [[("tag", 1)]] } = some false ∧
    verdict [] event { event with creation := 31 } = some true ∧
    verdict [] event { event with sync := 31 } = some false ∧
    verdict [] event { event with body := .event [116] [112] [[("path", 1), ("pre", 2)], [("path", 4)]] } = some false := by
  decide +kernel

/-- A grain of 16 bit audio with an odd number of bytes cannot be compared with itself, even if the data is excluded. -/
theorem C42_odd_counterexample : verdict [] (s16 [1, 2, 3]) (s16 [1, 2, 3]) = none ∧
    verdict [.exclude "{}.data"] (s16 [1, 2, 3]) (s16 [1, 2, 3]) = none := by decide +kernel

/-- A grain with a sample that is not a number does not compare equal to itself. -/
theorem C42_nan_counterexample : verdict [] (flt [0, 0, 0xc0, 0x7f]) (flt [0, 0, 0xc0, 0x7f]) = some false := by decide +kernel

/-- Different bytes compare equal: the two zeros, and the bytes after the last complete 24 bit sample. -/
theorem C42_bytes_counterexample : verdict [] (flt [0, 0, 0, 0]) (flt [0, 0, 0, 0x80]) = some true ∧
    verdict [] (s24 [1, 2, 3, 4]) (s24 [1, 2, 3, 5]) = some true := by decide +kernel

end Verif.Props

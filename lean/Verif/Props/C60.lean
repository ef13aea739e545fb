import Verif.Grain.Attrs
import Verif.Grain.JsonRT
import Verif.Props.C27

/-!
# C60: the attributes of grains hold what they are given
-/

namespace Verif.Attrs

open Verif.Meta (Dict put GClass)
open Verif.Json (Str)

/-- What is assumed of the other libraries: texts are read back as what they were made from. -/
structure Lib.Lawful (lib : Lib) : Prop where
  str : ∀ s, lib.text (.str s) = s
  uuid : ∀ u : Bytes, u.length = 16 → lib.uuidOf (lib.text (.uuid u)) = some u
  time : ∀ n : Int, 0 ≤ n → lib.tsOf (lib.tsText n) = some n
  truth : ∀ b, lib.truth (.bool b) = b

/-- Two names of one property. -/
def aliases : List (String × String) :=
  [("source_id", "src_id"), ("format", "cog_frame_format"), ("layout", "cog_frame_layout"), ("format", "cog_audio_format")]

def SameAttr (x y : String) : Prop := x = y ∨ (x, y) ∈ aliases ∨ (y, x) ∈ aliases

instance (x y : String) : Decidable (SameAttr x y) := by unfold SameAttr; infer_instance

/-- The attribute of that kind may be set to `v`, and is then to read as `w`. -/
inductive Holds (lib : Lib) : Kind → A → A → Prop where
  | uuid (u : Bytes) (h : u.length = 16) : Holds lib .uuid (.uuid u) (.uuid u)
  | uuidText (s : Str) (u : Bytes) (h : lib.uuidOf s = some u) : Holds lib .uuid (.str s) (.uuid u)
  | time (n : Int) (h : 0 ≤ n) : Holds lib .time (.ts n) (.ts n)
  | timeText (s : Str) (n : Int) (h : lib.tsOf s = some n) : Holds lib .time (.str s) (.ts n)
  | frac (q : Rat) : Holds lib .frac (.frac q) (.frac q)
  | fracInt (n : Int) : Holds lib .frac (.int n) (.frac n)
  | enum (vals : List Nat) (n : Nat) (h : n ∈ vals) : Holds lib (.enum vals) (.enum n) (.enum n)
  | enumInt (vals : List Nat) (n : Nat) (h : n ∈ vals) : Holds lib (.enum vals) (.int n) (.enum n)
  | plain (v : A) : Holds lib .plain v v
  | int (n : Int) : Holds lib .int (.int n) (.int n)
  | optPlain (v : A) : Holds lib .optPlain v v
  | optBool (b : Bool) : Holds lib .optBool (.bool b) (.bool b)
  | boolOf (v : A) (h : v ≠ .none) : Holds lib .optBool v (.bool (lib.truth v))
  | noBool : Holds lib .optBool .none .none
  | optFrac (q : Rat) : Holds lib .optFrac (.frac q) (.frac q)
  | optFracInt (n : Int) : Holds lib .optFrac (.int n) (.frac n)

/-- The dictionaries that a grain of the class has: its own one. -/
def Shaped (c : GClass) (g : Dict T) : Prop :=
  ∀ s, Meta.specOf c = some s → ∃ d, g s.key = some (.dict d)

/-- A run of assignments none of which raises. -/
inductive Assigns (lib : Lib) : Dict T → List (Attr × A) → Dict T → Prop where
  | done (g : Dict T) : Assigns lib g [] g
  | step {g g' g'' : Dict T} {a : Attr} {v : A} {l : List (Attr × A)} (h : set lib a v g = .ok g')
      (r : Assigns lib g' l g'') : Assigns lib g ((a, v) :: l) g''

namespace C60

/-! ## The table -/

/-- The keys under `grain` that name the dictionaries of the classes. -/
def subKeys : List String := ["cog_frame", "cog_audio", "cog_coded_frame", "cog_coded_audio", "event_payload"]

def subOf (c : GClass) : Option String := (Meta.specOf c).map (fun s => s.key)

theorem table (c : GClass) : ∀ a ∈ attrs c, (a.sub = none ∨ a.sub = subOf c) ∧ (a.sub = none → a.key ∉ subKeys) ∧
    (∀ b ∈ attrs c, (a.sub = b.sub ∧ a.key = b.key ↔ SameAttr a.name b.name) ∧ (a.sub = b.sub ∧ a.key = b.key → a.kind = b.kind)) := by
  cases c <;> decide +kernel

theorem sub_keys (c : GClass) (s : String) (h : subOf c = some s) : s ∈ subKeys := by
  cases c <;> simp [subOf, Meta.specOf, Meta.videoSpec, Meta.audioSpec, Meta.codedVideoSpec, Meta.codedAudioSpec,
    Meta.eventSpec] at h <;> subst h <;> decide

/-! ## One attribute -/

theorem readFrac_dict (q : Rat) : readFrac (fracDict q) = .ok (.frac q) := by
  simp [readFrac, fracDict, put, q.den_nz, Rat.num_divInt_den]

/-- What a setter of a kind puts is read as it should. -/
theorem write_read (lib : Lib) (hl : lib.Lawful) {k : Kind} {v w : A} (h : Holds lib k v w) :
    ∃ t, k.write lib v = .ok t ∧ k.read lib t = .ok w := by
  cases h with
  | uuid u h => exact ⟨_, rfl, by simp [Kind.read, readUuid, hl.uuid u h]⟩
  | uuidText s u h => exact ⟨_, rfl, by simp [Kind.read, readUuid, hl.str, h]⟩
  | time n h => exact ⟨_, rfl, by simp [Kind.read, readTime, hl.time n h]⟩
  | timeText s n h => exact ⟨_, rfl, by simp [Kind.read, readTime, h]⟩
  | frac q => exact ⟨_, rfl, readFrac_dict q⟩
  | fracInt n => exact ⟨_, rfl, readFrac_dict n⟩
  | enum vals n h => exact ⟨_, rfl, by simp [Kind.read, readEnum, h]⟩
  | enumInt vals n h => exact ⟨_, rfl, by simp [Kind.read, readEnum, h]⟩
  | plain v => exact ⟨_, rfl, rfl⟩
  | int n => exact ⟨_, rfl, rfl⟩
  | optPlain v => cases v <;> exact ⟨_, rfl, rfl⟩
  | optBool b => exact ⟨_, rfl, by simp [Kind.read, readLeaf, hl.truth]⟩
  | boolOf v h =>
    refine ⟨some (.leaf (.bool (lib.truth v))), ?_, by simp [Kind.read, readLeaf]⟩
    cases v <;> first | exact absurd rfl h | rfl
  | noBool => exact ⟨_, rfl, rfl⟩
  | optFrac q => exact ⟨_, rfl, readFrac_dict q⟩
  | optFracInt n => exact ⟨_, rfl, readFrac_dict n⟩

/-- The dictionary with one key changed or removed. -/
def change (d : Dict T) (k : String) : Option T → Dict T
  | some t => put d k t
  | none => del d k

theorem change_apply (d : Dict T) (k : String) (t : Option T) (x : String) :
    change d k t x = if x = k then t else d x := by
  cases t <;> simp [change, put, del]

theorem home_sub {g : Dict T} {s : String} {d : Dict T} (h : home g (some s) = .ok d) : g s = some (.dict d) := by
  unfold home at h
  cases hs : g s with
  | none => simp [hs] at h
  | some t => cases t with
    | leaf a => simp [hs] at h
    | dict d' => simp [hs] at h; rw [h]

theorem home_shaped {c : GClass} {g : Dict T} (hg : Shaped c g) {a : Attr} (ha : a ∈ attrs c) : ∃ d, home g a.sub = .ok d := by
  rcases (table c a ha).1 with h | h
  · exact ⟨g, by rw [h]; rfl⟩
  · rw [h]
    unfold subOf
    cases hs : Meta.specOf c with
    | none => exact ⟨g, rfl⟩
    | some s =>
      obtain ⟨d, hd⟩ := hg s hs
      exact ⟨d, by simp [home, hd]⟩

/-- A successful assignment, in one form. -/
theorem set_ok {lib : Lib} {a : Attr} {v : A} {g g' : Dict T} (h : set lib a v g = .ok g') :
    ∃ t, a.kind.write lib v = .ok t ∧
      ((∃ d, home g a.sub = .ok d ∧ g' = place g a.sub (change d a.key t)) ∨ (home g a.sub = .error .key ∧ g' = g)) := by
  unfold set at h
  cases hw : a.kind.write lib v with
  | error e => simp [hw] at h
  | ok t =>
    refine ⟨t, rfl, ?_⟩
    cases t with
    | some t =>
      simp only [hw] at h
      cases hd : home g a.sub with
      | error e => simp [hd] at h
      | ok d => simp [hd] at h; exact .inl ⟨d, rfl, h.symm⟩
    | none =>
      simp only [hw] at h
      cases hd : home g a.sub with
      | error e =>
        cases e <;> simp [hd] at h
        exact .inr ⟨rfl, h.symm⟩
      | ok d => simp [hd] at h; exact .inl ⟨d, rfl, h.symm⟩

theorem set_succeeds {lib : Lib} {c : GClass} {g : Dict T} (hg : Shaped c g) {a : Attr} (ha : a ∈ attrs c) {v : A} {t : Option T}
    (hw : a.kind.write lib v = .ok t) : ∃ g', set lib a v g = .ok g' := by
  obtain ⟨d, hd⟩ := home_shaped hg ha
  unfold set
  cases t <;> simp [hw, hd]

/-- The place of an attribute after something was put at a place. -/
theorem home_place {g : Dict T} {s : Option String} {d : Dict T} (h : home g s = .ok d) (d' : Dict T) :
    home (place g s d') s = .ok d' := by
  cases s with
  | none => rfl
  | some s => simp [home, place, put]

theorem shaped_set {lib : Lib} {c : GClass} {g g' : Dict T} (hg : Shaped c g) {a : Attr} (ha : a ∈ attrs c) {v : A}
    (h : set lib a v g = .ok g') : Shaped c g' := by
  obtain ⟨t, -, ⟨d, hd, rfl⟩ | ⟨-, rfl⟩⟩ := set_ok h
  · intro s hs
    obtain ⟨e, he⟩ := hg s hs
    have hk := sub_keys c s.key (by simp [subOf, hs])
    rcases hsub : a.sub with _ | s'
    · have hne : s.key ≠ a.key := fun e => (table c a ha).2.1 hsub (e ▸ hk)
      have hd' : d = g := by rw [hsub] at hd; exact (Except.ok.inj hd).symm
      refine ⟨e, ?_⟩
      show change d a.key t s.key = _
      rw [change_apply, if_neg hne, hd', he]
    · show ∃ d', put g s' (.dict (change d a.key t)) s.key = some (.dict d')
      by_cases hx : s.key = s'
      · exact ⟨change d a.key t, by simp [put, hx]⟩
      · exact ⟨e, by simp [put, hx, he]⟩
  · exact hg

/-- Reading another attribute after an assignment. -/
theorem get_other {lib : Lib} {c : GClass} {g g' : Dict T} (hg : Shaped c g) {a b : Attr} (ha : a ∈ attrs c) (hb : b ∈ attrs c)
    (hab : ¬ (a.sub = b.sub ∧ a.key = b.key)) {v : A} (h : set lib a v g = .ok g') : get lib b g' = get lib b g := by
  obtain ⟨t, -, ⟨d, hd, rfl⟩ | ⟨-, rfl⟩⟩ := set_ok h
  · obtain ⟨e, he⟩ := home_shaped hg hb
    by_cases hs : a.sub = b.sub
    · have hk : b.key ≠ a.key := fun e => hab ⟨hs, e.symm⟩
      have hde : d = e := by rw [hs, he] at hd; exact (Except.ok.inj hd).symm
      unfold get
      rw [← hs, home_place hd, hs, he]
      simp only [change_apply, if_neg hk, hde]
    · rcases hsa : a.sub with _ | s
      · -- the attribute set is in the dictionary under `grain`, the other one in that of the class
        rcases hsb : b.sub with _ | s'
        · exact absurd (hsa.trans hsb.symm) hs
        · have hs' : s' ∈ subKeys := by
            rcases (table c b hb).1 with h | h
            · rw [hsb] at h; cases h
            · exact sub_keys c s' (by rw [← h, hsb])
          have hne : s' ≠ a.key := fun e => (table c a ha).2.1 hsa (e ▸ hs')
          have hd' : d = g := by rw [hsa] at hd; exact (Except.ok.inj hd).symm
          rw [hsb] at he
          have h1 : home (place g none (change d a.key t)) (some s') = .ok e := by
            show home (change d a.key t) (some s') = _
            simp only [home] at he ⊢
            rw [change_apply, if_neg hne, hd']; exact he
          unfold get
          rw [hsb, h1, he]
      · rcases hsb : b.sub with _ | s'
        · have hs' : s ∈ subKeys := by
            rcases (table c a ha).1 with h | h
            · rw [hsa] at h; cases h
            · exact sub_keys c s (by rw [← h, hsa])
          have hne : b.key ≠ s := fun e => (table c b hb).2.1 hsb (e ▸ hs')
          unfold get
          rw [hsb]
          show b.kind.read lib (put g s (.dict (change d a.key t)) b.key) = b.kind.read lib (g b.key)
          simp [put, hne]
        · exfalso
          rcases (table c a ha).1 with h | h
          · rw [hsa] at h; cases h
          · rcases (table c b hb).1 with h' | h'
            · rw [hsb] at h'; cases h'
            · exact hs (h.trans h'.symm)
  · rfl

/-- Reading an attribute after an assignment to it, by any of its names. -/
theorem get_same {lib : Lib} (hl : lib.Lawful) {c : GClass} {g g' : Dict T} (hg : Shaped c g) {a b : Attr} (ha : a ∈ attrs c)
    (hb : b ∈ attrs c) (hab : a.sub = b.sub ∧ a.key = b.key) {v w : A} (hv : Holds lib a.kind v w)
    (h : set lib a v g = .ok g') : get lib b g' = .ok w := by
  obtain ⟨t, ht, hr⟩ := write_read lib hl hv
  obtain ⟨d0, hd0⟩ := home_shaped hg ha
  obtain ⟨t', ht', ⟨d, hd, rfl⟩ | ⟨hd, -⟩⟩ := set_ok h
  · rw [ht] at ht'
    have : t = t' := Except.ok.inj ht'
    subst this
    unfold get
    rw [← hab.1, home_place hd]
    show b.kind.read lib (change d a.key t b.key) = _
    rw [change_apply, if_pos hab.2.symm, ← ((table c a ha).2.2 b hb).2 hab, hr]
  · rw [hd0] at hd; cases hd

end C60

/-! ## The metadata made by constructors -/

/-- The metadata dictionaries of `Grain/Meta` as dictionaries of this model. -/
def ofW : Meta.W → T
  | .int n => .leaf (.int n)
  | .enum n => .leaf (.enum n)
  | .str s => .leaf (.str (s.toList.map Char.toNat))
  | .list l => .leaf (.other l.length)
  | .other n => .leaf (.other n)

def ofV : Meta.V → T
  | .str s => .leaf (.str (s.toList.map Char.toNat))
  | .uuid u => .leaf (.uuid u)
  | .ts n => .leaf (.ts n)
  | .offset n => .leaf (.offset n)
  | .frac q => .leaf (.frac q)
  | .sub d => .dict (fun k => (d k).map ofW)
  | .other n => .leaf (.other n)

def ofMeta (m : Meta.Meta) : Dict T := fun k => ((m.grain.getD (fun _ => none)) k).map ofV

end Verif.Attrs

namespace Verif.Props

open Verif Verif.Attrs
open Verif.Meta (Dict put GClass)

/-- **C60**: an attribute that is set to a value it can hold reads as that value from then on, under each of its names;
every other attribute of the grain reads as before. -/
theorem C60_set_get (lib : Lib) (hl : lib.Lawful) (c : GClass) (g : Dict T) (hg : Shaped c g) (a : Attr) (ha : a ∈ attrs c)
    (v w : A) (hv : Holds lib a.kind v w) :
    ∃ g', set lib a v g = .ok g' ∧ Shaped c g' ∧
      (∀ b ∈ attrs c, SameAttr a.name b.name → get lib b g' = .ok w) ∧
      (∀ b ∈ attrs c, ¬ SameAttr a.name b.name → get lib b g' = get lib b g) := by
  obtain ⟨t, ht, -⟩ := C60.write_read lib hl hv
  obtain ⟨g', h⟩ := C60.set_succeeds hg ha ht
  refine ⟨g', h, C60.shaped_set hg ha h, ?_, ?_⟩
  · intro b hb hs
    exact C60.get_same hl hg ha hb ((((C60.table c a ha).2.2 b hb).1).mpr hs) hv h
  · intro b hb hs
    exact C60.get_other hg ha hb (fun e => hs ((((C60.table c a ha).2.2 b hb).1).mp e)) h

/-- **C60**: an attribute that may be missing is missing after it was set to `None`; the other keys of its dictionary are
as before. -/
theorem C60_absent (lib : Lib) (c : GClass) (g : Dict T) (hg : Shaped c g) (a : Attr) (ha : a ∈ attrs c)
    (hk : a.kind = .optPlain ∨ a.kind = .optBool) :
    ∃ g' d d', set lib a .none g = .ok g' ∧ home g a.sub = .ok d ∧ home g' a.sub = .ok d' ∧ d' a.key = none ∧
      ∀ k, k ≠ a.key → d' k = d k := by
  have hw : a.kind.write lib .none = .ok none := by rcases hk with h | h <;> rw [h] <;> rfl
  obtain ⟨g', h⟩ := C60.set_succeeds hg ha hw
  obtain ⟨d0, hd0⟩ := C60.home_shaped hg ha
  obtain ⟨t, ht, ⟨d, hd, rfl⟩ | ⟨hd, -⟩⟩ := C60.set_ok h
  · rw [hw] at ht
    have e : none = t := Except.ok.inj ht
    subst e
    refine ⟨_, d, C60.change d a.key none, h, hd, C60.home_place hd _, ?_, ?_⟩
    · rw [C60.change_apply, if_pos rfl]
    · intro k hk
      rw [C60.change_apply, if_neg hk]
  · rw [hd0] at hd; cases hd

/-- There are such attributes. -/
example : ∃ a ∈ attrs .codedVideo, a.kind = .optBool := by decide +kernel

/-- **C60**, histories: after any sequence of assignments, an attribute that was not among them reads as in the
beginning, and one that was reads as the last value given to it. -/
theorem C60_history (lib : Lib) (hl : lib.Lawful) (c : GClass) (g g' : Dict T) (hg : Shaped c g) (l : List (Attr × A))
    (hm : ∀ p ∈ l, p.1 ∈ attrs c) (hr : Assigns lib g l g') :
    Shaped c g' ∧ ∀ b ∈ attrs c,
      ((∀ p ∈ l, ¬ SameAttr p.1.name b.name) → get lib b g' = get lib b g) ∧
      (∀ (pre post : List (Attr × A)) (a : Attr) (v w : A), l = pre ++ (a, v) :: post → SameAttr a.name b.name →
        Holds lib a.kind v w → (∀ p ∈ post, ¬ SameAttr p.1.name b.name) → get lib b g' = .ok w) := by
  induction hr with
  | done g =>
    exact ⟨hg, fun b _ => ⟨fun _ => rfl, fun pre post a v w e => by simp at e⟩⟩
  | @step g g1 g2 a v l h r ih =>
    have ha : a ∈ attrs c := hm (a, v) (List.mem_cons_self ..)
    have hg1 := C60.shaped_set hg ha h
    obtain ⟨hs, hb⟩ := ih hg1 (fun p hp => hm p (List.mem_cons_of_mem _ hp))
    refine ⟨hs, fun b hbc => ⟨?_, ?_⟩⟩
    · intro hn
      rw [(hb b hbc).1 (fun p hp => hn p (List.mem_cons_of_mem _ hp))]
      exact C60.get_other hg ha hbc
        (fun e => hn (a, v) (List.mem_cons_self ..) ((((C60.table c a ha).2.2 b hbc).1).mp e)) h
    · intro pre post a' v' w e hsame hh hpost
      cases pre with
      | nil =>
        simp only [List.nil_append, List.cons.injEq, Prod.mk.injEq] at e
        obtain ⟨⟨rfl, rfl⟩, rfl⟩ := e
        rw [(hb b hbc).1 hpost]
        exact C60.get_same hl hg ha hbc ((((C60.table c a ha).2.2 b hbc).1).mpr hsame) hh h
      | cons q pre =>
        simp only [List.cons_append, List.cons.injEq] at e
        exact (hb b hbc).2 pre post a' v' w e.2 hsame hh hpost

/-- Every grain a constructor makes has the dictionaries that `C60_set_get` and `C60_history` need. -/
theorem C60_made (lib : Meta.Lib) (now : String) (c : GClass) (m m' : Meta.Meta) (h : Meta.classInit lib now c m = .ok m') :
    Shaped c (ofMeta m') := by
  intro s hs
  unfold Meta.classInit at h
  split at h
  · cases h
  · split at h
    · cases h
    · rw [hs] at h
      simp only at h
      split at h
      · cases h
      · rename_i d hd
        cases h
        unfold Meta.subInit at hd
        simp only at hd
        split at hd
        · rename_i w hw
          split at hd
          · cases hd
          · rename_i w' hw'
            cases hd
            refine ⟨fun k => (w' k).map ofW, ?_⟩
            show (Meta.put _ _ _ _).map ofV = _
            rw [put_same]; rfl
        · cases hd

/-! ## Where the attributes do not hold what they are given -/

/-- **C60 is violated**: a format or layout is not checked when it is set. A number that is no member of the enumeration
is accepted, and from then on the attribute cannot be read. -/
theorem C60_unchecked_enum (lib : Lib) (c : GClass) (g : Dict T) (hg : Shaped c g) (a : Attr) (ha : a ∈ attrs c)
    (vals : List Nat) (hk : a.kind = .enum vals) (n : Nat) (hn : n ∉ vals) :
    ∃ g', set lib a (.int n) g = .ok g' ∧ get lib a g' = .error .value := by
  have hw : a.kind.write lib (.int n) = .ok (some (.leaf (.int n))) := by rw [hk]; rfl
  obtain ⟨g', h⟩ := C60.set_succeeds hg ha hw
  refine ⟨g', h, ?_⟩
  obtain ⟨t, ht, ⟨d, hd, rfl⟩ | ⟨hd, -⟩⟩ := C60.set_ok h
  · rw [hw] at ht
    cases ht
    unfold Attrs.get
    rw [C60.home_place hd]
    show a.kind.read lib (C60.change d a.key _ a.key) = _
    rw [C60.change_apply, if_pos rfl, hk]
    simp [Kind.read, readEnum, hn]
  · obtain ⟨d, h'⟩ := C60.home_shaped hg ha
    rw [h'] at hd; cases hd

/-- **C60 is violated**: neither is an identifier. Any text is accepted, one that is no UUID cannot be read. -/
theorem C60_unchecked_identifier (lib : Lib) (hl : lib.Lawful) (c : GClass) (g : Dict T) (hg : Shaped c g) (a : Attr)
    (ha : a ∈ attrs c) (hk : a.kind = .uuid) (s : Json.Str) (hs : lib.uuidOf s = none) :
    ∃ g', set lib a (.str s) g = .ok g' ∧ get lib a g' = .error .value := by
  have hw : a.kind.write lib (.str s) = .ok (some (.leaf (.str s))) := by rw [hk]; simp [Kind.write, hl.str]
  obtain ⟨g', h⟩ := C60.set_succeeds hg ha hw
  refine ⟨g', h, ?_⟩
  obtain ⟨t, ht, ⟨d, hd, rfl⟩ | ⟨hd, -⟩⟩ := C60.set_ok h
  · rw [hw] at ht
    cases ht
    unfold Attrs.get
    rw [C60.home_place hd]
    show a.kind.read lib (C60.change d a.key _ a.key) = _
    rw [C60.change_apply, if_pos rfl, hk]
    simp [Kind.read, readUuid, hs]
  · obtain ⟨d, h'⟩ := C60.home_shaped hg ha
    rw [h'] at hd; cases hd

/-- **C60 is violated**: an aspect ratio can be absent (it then reads as `None`), but it cannot be made absent: setting
it to `None` raises, and after any assignment that does not raise it reads as a number. -/
theorem C60_aspect_stays (lib : Lib) (c : GClass) (g : Dict T) (a : Attr) (ha : a ∈ attrs c) (hk : a.kind = .optFrac) :
    set lib a .none g = .error .type ∧
    ∀ v g', set lib a v g = .ok g' → Shaped c g → ∃ q, get lib a g' = .ok (.frac q) := by
  refine ⟨by unfold Attrs.set; rw [hk]; rfl, ?_⟩
  intro v g' h hg
  obtain ⟨t, ht, ⟨d, hd, rfl⟩ | ⟨hd, -⟩⟩ := C60.set_ok h
  · rw [hk] at ht
    simp only [Kind.write] at ht
    cases hq : toFrac lib v with
    | error e => simp [hq, Except.map] at ht
    | ok q =>
      simp only [hq, Except.map, Except.ok.injEq] at ht
      refine ⟨q, ?_⟩
      unfold Attrs.get
      rw [C60.home_place hd]
      show a.kind.read lib (C60.change d a.key _ a.key) = _
      rw [C60.change_apply, if_pos rfl, hk, ← ht]
      exact C60.readFrac_dict q
  · obtain ⟨d, h'⟩ := C60.home_shaped hg ha
    rw [h'] at hd; cases hd

/-! ## A concrete case -/

/-- A library with simple texts: identifiers are written as their bytes, times in decimal. -/
def C60_lib : Lib where
  text := fun v => match v with | .str s => s | .uuid u => u.map UInt8.toNat | _ => []
  uuidOf := fun s => if s.length = 16 then some (s.map UInt8.ofNat) else none
  tsText := fun n => Json.natDigits n.toNat
  offsetText := fun n => Json.natDigits n.toNat
  tsOf := fun s => some (Json.digitsVal s)
  fracOf := fun _ => none
  intOf := fun _ => none
  truth := fun v => match v with | .bool b => b | .int n => n ≠ 0 | .none => false | _ => true

theorem C60_lib_lawful : C60_lib.Lawful where
  str := fun _ => rfl
  uuid := by
    intro u h
    show (if (u.map UInt8.toNat).length = 16 then some ((u.map UInt8.toNat).map UInt8.ofNat) else none) = _
    rw [if_pos (by simpa using h), List.map_map]
    congr 1
    exact (List.map_congr_left (g := id) (by intro x _; simp)).trans (List.map_id u)
  time := by
    intro n hn
    show some ((Json.digitsVal (Json.natDigits n.toNat) : Nat) : Int) = _
    rw [(Json.natDigits_spec n.toNat).2.1]
    congr 1; omega
  truth := fun _ => rfl

/-- A coded video grain with an empty dictionary under `cog_coded_frame`, as its constructor makes it. -/
def C60_meta : Except Meta.MErr Meta.Meta :=
  Meta.classInit ⟨fun _ => "u", fun _ => "t", fun _ => "o"⟩ "0:0" .codedVideo ⟨fun _ => none, none⟩

example : ∃ m, C60_meta = .ok m ∧ Shaped .codedVideo (ofMeta m) := by
  cases h : C60_meta with
  | error e => exact absurd h (by intro h; cases h)
  | ok m => exact ⟨m, rfl, C60_made _ _ _ _ _ h⟩

/-- Set the format, the temporal offset, then remove it: the format reads as set, the offset as absent. -/
example : ∃ m g1 g2 g3 fmt off, C60_meta = .ok m ∧ fmt ∈ attrs .codedVideo ∧ off ∈ attrs .codedVideo ∧
    set C60_lib fmt (.enum 0x204) (ofMeta m) = .ok g1 ∧ set C60_lib off (.int (-3)) g1 = .ok g2 ∧
    get C60_lib off g2 = .ok (.int (-3)) ∧ set C60_lib off .none g2 = .ok g3 ∧
    get C60_lib fmt g3 = .ok (.enum 0x204) ∧ get C60_lib off g3 = .ok .none := by
  cases h : C60_meta with
  | error e => exact absurd h (by intro h; cases h)
  | ok m =>
    have hs := C60_made _ _ _ _ _ h
    have hf : (⟨"format", some "cog_coded_frame", "format", .enum Cog.FrameFormat.all⟩ : Attr) ∈ attrs .codedVideo := by
      decide +kernel
    have ho : (⟨"temporal_offset", some "cog_coded_frame", "temporal_offset", .optPlain⟩ : Attr) ∈ attrs .codedVideo := by
      decide +kernel
    obtain ⟨g1, h1, s1, a1, -⟩ := C60_set_get C60_lib C60_lib_lawful _ _ hs _ hf (.enum 0x204) (.enum 0x204)
      (.enum _ 0x204 (by decide +kernel))
    obtain ⟨g2, h2, s2, a2, b2⟩ := C60_set_get C60_lib C60_lib_lawful _ _ s1 _ ho (.int (-3)) (.int (-3)) (.optPlain _)
    obtain ⟨g3, h3, s3, a3, b3⟩ := C60_set_get C60_lib C60_lib_lawful _ _ s2 _ ho .none .none (.optPlain _)
    refine ⟨m, g1, g2, g3, _, _, rfl, hf, ho, h1, h2, a2 _ ho (.inl rfl), h3, ?_, a3 _ ho (.inl rfl)⟩
    rw [b3 _ hf (by decide +kernel), b2 _ hf (by decide +kernel)]
    exact a1 _ hf (.inl rfl)

/-- The hypotheses of the violations are met. -/
example : (∃ a ∈ attrs .video, a.kind = .enum Cog.FrameFormat.all) ∧ 5 ∉ Cog.FrameFormat.all ∧
    (∃ a ∈ attrs .video, a.kind = .optFrac) ∧ (∃ a ∈ attrs .video, a.kind = .uuid) ∧ C60_lib.uuidOf [110, 111] = none := by
  decide +kernel

end Verif.Props

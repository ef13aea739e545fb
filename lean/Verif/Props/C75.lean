import Verif.Compare.Objects
import Verif.Props.C43
import Verif.Props.C68

/-!
# C75: grains that were written and read again compare equal to those that were written
-/

namespace Verif.Props

open Verif Verif.Gsf Verif.Objects Verif.Attrs
open Verif.Compare (Val compared compareObjs bodyOf labelDict itemDict keyText)
open Verif.Meta (GClass)
open Verif.New (Times)
open CompareSpec (Aligned dataCode)
open CompareLemmas (NoNaN)

/-! ## Specification -/

/-- What can be compared word by word with itself: whole words, and no floating point value that is not a number. -/
def WholeWords (a : Compare.Grain Val) : Prop := ∀ c, dataCode a a = some c → Aligned c a.data ∧ NoNaN c a.data

/-- The kinds of absent data that a file cannot tell apart: plain grains come back with `None` for empty data, and the others with empty
data for `None`. -/
def KeepsData (o : Obj) : Prop :=
  match o.cls with
  | .event => True
  | .grain => o.data ≠ some []
  | _ => o.data ≠ none

instance (o : Obj) : Decidable (KeepsData o) := by unfold KeepsData; split <;> infer_instance

/-- The payload of an event grain is a text for type and for topic and items with no other keys than path, pre and post. -/
def PlainEvent (o : Obj) : Prop :=
  o.cls = .event → (∃ s, o.payload.type = .str s) ∧ (∃ s, o.payload.topic = .str s) ∧ ∀ d ∈ o.payload.data, PlainItem d

/-- The attributes that are compared can be read, and the data is made of whole words. -/
def Comparable (lib : Lib) (o : Obj) : Prop := ∃ a, compared lib o = .ok a ∧ WholeWords a

/-- `==` holds between a value and itself, for the values in the dictionaries of a grain. -/
def SelfEqual (veq : Val → Val → Bool) (o : Obj) : Prop :=
  (∀ l ∈ o.labels, ∀ x ∈ labelDict l, veq x.2 x.2 = true) ∧ (∀ d ∈ o.payload.data, ∀ x ∈ itemDict d, veq x.2 x.2 = true)

/-- The attributes with numbers (members of enumerations among them) that are compared, for each class. -/
def comparedNumbers : GClass → List String
  | .audio => ["cog_audio_format", "samples", "channels", "sample_rate"]
  | .codedAudio => ["cog_audio_format", "samples", "channels", "sample_rate", "priming", "remainder"]
  | .video => ["cog_frame_format", "width", "height", "cog_frame_layout"]
  | .codedVideo => ["cog_frame_format", "coded_width", "coded_height", "origin_width", "origin_height", "cog_frame_layout"]
  | _ => []

/-- The words that the data of a grain is made of: samples of the format of uncoded grains, bytes of others. -/
def wordsOf (lib : Lib) (o : Obj) : Compare.Code :=
  match o.cls with
  | .audio => ((o.nat lib "cog_audio_format").toOption.map Compare.audioCode).getD (.int 1)
  | .video => ((o.nat lib "cog_frame_format").toOption.map Compare.videoCode).getD (.int 1)
  | _ => .int 1

/-- Two time labels have the same tag and the same label. -/
def SameLabel (veq : Val → Val → Bool) (l m : Gsf.TimeLabel) : Prop :=
  veq (.text l.tag) (.text m.tag) = true ∧
    veq (.label l.frames l.rateNum l.rateDen l.drop) (.label m.frames m.rateNum m.rateDen m.drop) = true

/-- Two grain objects that are the same, but for the creation timestamp and what the library does not compare (aspect ratios,
extension, fields of plain grains). -/
structure SameGrain (lib : Lib) (veq : Val → Val → Bool) (o p : Obj) : Prop where
  cls : o.cls = p.cls
  ids : ∀ n ∈ ["source_id", "flow_id"], o.uuid lib n = p.uuid lib n
  fracs : ∀ n ∈ ["rate", "duration"], o.frac lib n = p.frac lib n
  times : ∀ n ∈ ["origin_timestamp", "sync_timestamp"], o.time lib n = p.time lib n
  length : (o.content.getD []).length = (p.content.getD []).length
  labels : CompareSpec.ListSame (SameLabel veq) o.labels p.labels
  numbers : ∀ n ∈ comparedNumbers o.cls, o.nat lib n = p.nat lib n
  coded : o.cls = .codedVideo → o.optBool lib "is_key_frame" = p.optBool lib "is_key_frame" ∧
    o.optInt lib "temporal_offset" = p.optInt lib "temporal_offset" ∧ o.offsets = p.offsets
  event : o.cls = .event → o.payload.type = p.payload.type ∧ o.payload.topic = p.payload.topic ∧
    CompareSpec.ListSame (fun x y => CompareSpec.DictSame veq (itemDict x) (itemDict y)) o.payload.data p.payload.data
  data : o.cls ≠ .event → CompareSpec.DataSame (wordsOf lib o) o.data p.data

namespace C75

open CompareSpec CompareLemmas

/-! ## Attributes -/

theorem attr_same {lib : Lib} {o o' : Obj} (h : Same lib o o') (name : String)
    (hn : name ∉ ["creation_timestamp", "event_type", "topic", "source_aspect_ratio", "pixel_aspect_ratio"]) :
    o'.attr lib name = o.attr lib name := by
  simp only [List.mem_cons, List.not_mem_nil, or_false, not_or] at hn
  obtain ⟨h1, h2, h3, h4, h5⟩ := hn
  unfold Obj.attr
  rw [h.cls]
  cases hf : (Attrs.attrs o.cls).find? (fun a => a.name = name) with
  | none => rfl
  | some a =>
    have hm := List.mem_of_find?_eq_some hf
    have hnm : a.name = name := by simpa using List.find?_some hf
    refine h.attrs a ⟨hm, ?_, ?_, ?_, ?_⟩
    · rw [hnm]; exact h1
    · rw [hnm]; exact h2
    · rw [hnm]; exact h3
    · rw [hnm]; rintro ⟨-, e | e⟩
      · exact h4 e
      · exact h5 e

theorem body_same {lib : Lib} {o o' : Obj} (h : Same lib o o') (ht : Typed lib o) (hp : o.cls = .event → o'.payload = o.payload) :
    bodyOf lib o' = bodyOf lib o := by
  have e := attr_same h
  have et : o.attr lib "grain_type" = .ok (.str (New.lit (New.typeName o.cls))) := ht.type
  unfold bodyOf
  rw [e "grain_type" (by decide), et]
  cases hc : o.cls with
  | grain => rfl
  | event =>
    show Compare.eventBody o' = Compare.eventBody o
    unfold Compare.eventBody
    rw [hp hc]
  | audio =>
    show Compare.audioBody lib o' = Compare.audioBody lib o
    unfold Compare.audioBody Obj.nat
    simp (disch := decide) only [e]
  | codedAudio =>
    show Compare.codedAudioBody lib o' = Compare.codedAudioBody lib o
    unfold Compare.codedAudioBody Obj.nat
    simp (disch := decide) only [e]
  | video =>
    show Compare.videoBody lib o' = Compare.videoBody lib o
    unfold Compare.videoBody Obj.nat
    simp (disch := decide) only [e]
  | codedVideo =>
    show Compare.codedVideoBody lib o' = Compare.codedVideoBody lib o
    unfold Compare.codedVideoBody Obj.nat Obj.optBool Obj.optInt
    simp (disch := decide) only [e, h.offsets hc]

/-! ## Data -/

theorem read_parts {lib : Lib} {now : Int} {m : Gsf.Meta} {data : Option Bytes} {o' : Obj} (h : Objects.read lib now m data = .ok o') :
    initPayload o'.cls data = .ok o'.payload ∧ initData o'.cls data = .ok o'.data := by
  unfold Objects.read at h
  simp only [bind, C68.bind_ok, pure, Except.pure] at h
  obtain ⟨d, -, p, h2, b, h3, h4⟩ := h
  injection h4 with h4
  subst h4
  exact ⟨h2, h3⟩

/-- Without data the constructors of media grains make empty data. -/
theorem newData_none (c : GClass) (hc : c ≠ .grain ∧ c ≠ .event) : initData c none = .ok (some []) := by
  cases c with
  | grain => exact absurd rfl hc.1
  | event => exact absurd rfl hc.2
  | _ => rfl

theorem data_back {o o' : Obj} {g : Gsf.Grain} (hd : g.data = o.content) (hc : o'.cls = o.cls) (he : o.cls ≠ .event)
    (h : initData o'.cls g.payload = .ok o'.data) :
    o'.data = if o.cls = .grain then (if o.data = some [] then none else o.data) else some (o.data.getD []) := by
  have hcont : o.content = o.data := if_neg he
  rw [hc] at h
  unfold Gsf.Grain.payload at h
  rw [hd, hcont] at h
  by_cases hg : o.cls = .grain
  · rw [if_pos hg]
    rw [hg] at h
    injection h with h
    rw [← h]
    cases hx : o.data with
    | none => rfl
    | some b =>
      by_cases hb : b = []
      · subst hb; rfl
      · rw [if_neg (by simpa using hb)]
        exact (if_neg (by simpa using hb)).symm
  · rw [if_neg hg]
    by_cases hb : o.data.getD [] = []
    · rw [if_pos hb, newData_none _ ⟨hg, he⟩] at h
      injection h with h
      rw [hb, ← h]
    · rw [if_neg hb] at h
      have : initData o.cls (some (o.data.getD [])) = .ok (some (o.data.getD [])) := by
        cases hcl : o.cls with
        | event => exact absurd hcl he
        | _ => rfl
      rw [this] at h
      injection h with h
      exact h.symm

theorem payload_back {o o' : Obj} {g : Gsf.Grain} (hd : g.data = o.content) (hc : o'.cls = o.cls) (he : o.cls = .event)
    (hok : PayloadOk o.payload) (hp : ∀ d ∈ o.payload.data, PlainItem d)
    (h : initPayload o'.cls g.payload = .ok o'.payload) : o'.payload = o.payload := by
  have h1 := C33_round_trip_eq o.payload blank hok hp
  have hne : Event.getData o.payload ≠ [] := by
    intro e
    rw [e] at h1
    have : (Event.setData blank (.bytes [])).2 = .error .value := rfl
    rw [h1] at this
    cases this
  have hdat : g.payload = some (Event.getData o.payload) := by
    unfold Gsf.Grain.payload
    rw [hd]
    unfold Obj.content
    rw [if_pos he]
    exact if_neg hne
  rw [hc, he, hdat] at h
  simp only [initPayload, h1] at h
  injection h with h
  exact h.symm

/-! ## Comparing -/

/-- Two grains that differ in creation timestamp and data only. -/
theorem near_self {P : Type} (env : Compare.Env P Val) (a : Compare.Grain Val) (t : Int) (d : Option Bytes) (ha : Wf a)
    (hl : ∀ x ∈ a.timelabels, ∀ y ∈ x, env.veq y.2 y.2 = true)
    (hi : ∀ t p i, a.body = .event t p i → ∀ x ∈ i, ∀ y ∈ x, env.veq y.2 y.2 = true)
    (hd : ∀ c, dataCode a a = some c → Aligned c a.data ∧ Aligned c d) :
    ∃ r, Compare.compareGrain env [] a { a with creation := t, data := d } = some r ∧
      (r.equal = true ↔ ∀ c, dataCode a a = some c → DataSame c a.data d) := by
  have hdc : dataCode a { a with creation := t, data := d } = dataCode a a := rfl
  cases hr : Compare.compareGrain env ([] : List (Compare.Opt P)) a { a with creation := t, data := d } with
  | none =>
    obtain ⟨c, hc, hn⟩ := (C42_raises env [] (by simp) a _).1 hr
    exact absurd (hd c hc) hn
  | some r =>
    refine ⟨r, rfl, ?_⟩
    have hb : Wf { a with creation := t, data := d } := ⟨ha.labels, ha.items, ha.name⟩
    rw [C42_verdict env a _ ha hb r hr]
    have hcom : ∀ x ∈ commonAttrs env [] a { a with creation := t, data := d }, x.1 ≠ "creation_timestamp" → x.2 := by
      unfold commonAttrs
      simp only [List.forall_mem_cons, timeTest_nil, true_and, ne_eq, not_true_eq_false, false_implies, implies_true]
      refine ⟨fun _ => ?_, by simp⟩
      exact listSame_refl _ (fun d hdm => dictSame_refl (hl d hdm))
    have hlist : ∀ {i : List (Compare.Dict Val)}, (∀ x ∈ i, ∀ y ∈ x, env.veq y.2 y.2 = true) → ListSame (DictSame env.veq) i i :=
      fun h => listSame_refl _ (fun d hdm => dictSame_refl (h d hdm))
    have hty : (∀ x ∈ typeAttrs env [] a { a with creation := t, data := d }, x.1 ≠ "creation_timestamp" → x.2) ↔
        ∀ c, dataCode a a = some c → DataSame c a.data d := by
      cases hb : a.body with
      | event t p i =>
        have := hlist (hi t p i hb)
        simp [typeAttrs, dataCode, hb, this]
      | audio f s c r => simp [typeAttrs, dataCode, hb, mediaTest_nil]
      | codedAudio f s c r p m => simp [typeAttrs, dataCode, hb]
      | video f w h l => simp [typeAttrs, dataCode, hb, mediaTest_nil]
      | codedVideo f cw ch ow oh k t l u => simp [typeAttrs, dataCode, hb]
      | plain n => simp [typeAttrs, dataCode, hb]
    rw [← hty]
    unfold CompareSpec.attrs
    constructor
    · intro h x hx; exact h x (List.mem_append_right _ hx)
    · intro h x hx
      rcases List.mem_append.1 hx with hx | hx
      · exact hcom x hx
      · exact h x hx

theorem plain_keys {d : Event.Datum} (h : PlainItem d) : ((itemDict d).map (fun x => x.1)).Nodup := by
  obtain ⟨path, pre, post, rfl⟩ := h
  have h3 : [keyText (Event.lit "path"), keyText (Event.lit "pre"), keyText (Event.lit "post")].Nodup := by decide +kernel
  have h2 : [keyText (Event.lit "path"), keyText (Event.lit "pre")].Nodup := by decide +kernel
  have h2' : [keyText (Event.lit "path"), keyText (Event.lit "post")].Nodup := by decide +kernel
  have h1 : [keyText (Event.lit "path")].Nodup := by decide +kernel
  cases pre <;> cases post
  · exact h1
  · exact h2'
  · exact h2
  · exact h3

/-- What is compared of an object has dictionaries with each key once. -/
theorem compared_wf {lib : Lib} {o : Obj} (ht : Typed lib o) (hp : PlainEvent o) {a : Compare.Grain Val} (ha : compared lib o = .ok a) :
    Wf a ∧ a.timelabels = o.labels.map labelDict ∧ a.data = o.content ∧
      (∀ t p i, a.body = .event t p i → o.cls = .event ∧ i = o.payload.data.map itemDict) ∧
      (o.cls ≠ .event → ∃ c, dataCode a a = some c) ∧ (o.cls = .event → dataCode a a = none) := by
  unfold compared at ha
  simp only [bind, C68.bind_ok, pure, Except.pure] at ha
  obtain ⟨src, -, flow, -, rate, -, dur, -, origin, -, sync, -, creation, -, body, hb, h⟩ := ha
  injection h with h
  subst h
  have et : o.attr lib "grain_type" = .ok (.str (New.lit (New.typeName o.cls))) := ht.type
  unfold bodyOf at hb
  rw [et] at hb
  have hlab : ∀ d ∈ o.labels.map labelDict, (d.map (fun x => x.1)).Nodup := by
    intro d hd
    obtain ⟨l, -, rfl⟩ := List.mem_map.1 hd
    exact (by decide : ["tag", "timelabel"].Nodup)
  cases hc : o.cls with
  | grain =>
    rw [hc] at hb
    have hb' : Except.ok (Compare.Body.plain (keyText (New.lit "empty"))) = (Except.ok body : Except AErr _) := hb
    injection hb' with hb'
    subst hb'
    refine ⟨⟨hlab, fun t p i h => (by cases h), fun n h => ?_⟩, rfl, rfl, fun t p i h => (by cases h), fun _ => ⟨_, rfl⟩, fun h => by cases h⟩
    injection h with h
    subst h
    decide +kernel
  | event =>
    rw [hc] at hb
    have hb' : Compare.eventBody o = (Except.ok body : Except AErr _) := hb
    unfold Compare.eventBody at hb'
    simp only [bind, C68.bind_ok, pure, Except.pure] at hb'
    obtain ⟨t, -, p, -, h⟩ := hb'
    injection h with h
    subst h
    obtain ⟨-, -, hi⟩ := hp hc
    refine ⟨⟨hlab, fun t p i h d hd => ?_, fun n h => by cases h⟩, rfl, rfl, fun t p i h => ?_, fun h => absurd rfl h, fun _ => rfl⟩
    · injection h with _ _ h
      subst h
      obtain ⟨x, hx, rfl⟩ := List.mem_map.1 hd
      exact plain_keys (hi x hx)
    · injection h with _ _ h
      exact ⟨rfl, h.symm⟩
  | audio =>
    rw [hc] at hb
    have hb' : Compare.audioBody lib o = (Except.ok body : Except AErr _) := hb
    unfold Compare.audioBody at hb'
    simp only [bind, C68.bind_ok, pure, Except.pure] at hb'
    obtain ⟨_, -, _, -, _, -, _, -, h⟩ := hb'
    injection h with h
    subst h
    exact ⟨⟨hlab, fun t p i h => (by cases h), fun n h => (by cases h)⟩, rfl, rfl, fun t p i h => (by cases h),
      fun _ => ⟨_, if_pos rfl⟩, fun h => by cases h⟩
  | codedAudio =>
    rw [hc] at hb
    have hb' : Compare.codedAudioBody lib o = (Except.ok body : Except AErr _) := hb
    unfold Compare.codedAudioBody at hb'
    simp only [bind, C68.bind_ok, pure, Except.pure] at hb'
    obtain ⟨_, -, _, -, _, -, _, -, _, -, _, -, h⟩ := hb'
    injection h with h
    subst h
    exact ⟨⟨hlab, fun t p i h => (by cases h), fun n h => (by cases h)⟩, rfl, rfl, fun t p i h => (by cases h),
      fun _ => ⟨_, if_pos rfl⟩, fun h => by cases h⟩
  | video =>
    rw [hc] at hb
    have hb' : Compare.videoBody lib o = (Except.ok body : Except AErr _) := hb
    unfold Compare.videoBody at hb'
    simp only [bind, C68.bind_ok, pure, Except.pure] at hb'
    obtain ⟨_, -, _, -, _, -, _, -, h⟩ := hb'
    injection h with h
    subst h
    exact ⟨⟨hlab, fun t p i h => (by cases h), fun n h => (by cases h)⟩, rfl, rfl, fun t p i h => (by cases h),
      fun _ => ⟨_, if_pos rfl⟩, fun h => by cases h⟩
  | codedVideo =>
    rw [hc] at hb
    have hb' : Compare.codedVideoBody lib o = (Except.ok body : Except AErr _) := hb
    unfold Compare.codedVideoBody at hb'
    simp only [bind, C68.bind_ok, pure, Except.pure] at hb'
    obtain ⟨_, -, _, -, _, -, _, -, _, -, _, -, _, -, _, -, h⟩ := hb'
    injection h with h
    subst h
    exact ⟨⟨hlab, fun t p i h => (by cases h), fun n h => (by cases h)⟩, rfl, rfl, fun t p i h => (by cases h),
      fun _ => ⟨_, if_pos rfl⟩, fun h => by cases h⟩

/-- What is compared of the object read back. -/
theorem compared_back {lib : Lib} (hl : lib.Lawful) (hs : New.Times lib) {now : Int} (hn : 0 ≤ now) {o : Obj} {g : Gsf.Grain}
    (hw : write lib o = .ok g) (ht : Typed lib o) (hi : g.sourceId.length = 16 ∧ g.flowId.length = 16) (hp : PlainEvent o)
    {a : Compare.Grain Val} (ha : compared lib o = .ok a) :
    ∃ o', Objects.read lib now (metaOf g) g.payload = .ok o' ∧ compared lib o' = .ok { a with creation := now, data := o'.content } ∧
      (o.cls = .event → o'.content = o.content) ∧
      (o.cls ≠ .event → o'.content =
        if o.cls = .grain then (if o.data = some [] then none else o.data) else some (o.data.getD [])) := by
  have was := C68.write_was hw
  obtain ⟨o', h1, h2, h3, -⟩ := C68.read_same hl now hw ht hi
  obtain ⟨r1, r2⟩ := read_parts h1
  have hpay : o.cls = .event → o'.payload = o.payload := fun hc =>
    payload_back was.data h2.cls hc (ht.payload hc) (hp hc).2.2 r1
  have hdat := fun hc => data_back was.data h2.cls hc r2
  have hlen : (o'.content.getD []).length = (o.content.getD []).length := by
    unfold Obj.content
    by_cases hc : o.cls = .event
    · rw [if_pos hc, if_pos (h2.cls.trans hc), hpay hc]
    · rw [if_neg hc, if_neg (by rw [h2.cls]; exact hc), h2.data hc]
  have hcr : o'.attr lib "creation_timestamp" = .ok (.ts now) := by
    have hg : Attrs.get lib ⟨"creation_timestamp", none, "creation_timestamp", .time⟩ o'.d = .ok (.ts now) := by
      simp only [Attrs.get, home, h3, Kind.read, readTime, hs.text, hl.time _ hn]
    unfold Obj.attr
    have hf : (Attrs.attrs o'.cls).find? (fun a => a.name = "creation_timestamp") =
        some ⟨"creation_timestamp", none, "creation_timestamp", .time⟩ := by
      cases o'.cls <;> decide +kernel
    rw [hf]
    exact hg
  refine ⟨o', h1, ?_, fun hc => ?_, fun hc => ?_⟩
  · unfold compared at ha ⊢
    simp only [bind, C68.bind_ok, pure, Except.pure] at ha
    obtain ⟨src, a1, flow, a2, rate, a3, dur, a4, origin, a5, sync, a6, creation, a7, body, hb, h⟩ := ha
    injection h with h
    have e := attr_same h2
    simp only [bind, C68.bind_ok, pure, Except.pure]
    refine ⟨src, ?_, flow, ?_, rate, ?_, dur, ?_, origin, ?_, sync, ?_, now, ?_, body, ?_, ?_⟩
    · rw [← a1]; unfold Obj.uuid; rw [e _ (by decide)]
    · rw [← a2]; unfold Obj.uuid; rw [e _ (by decide)]
    · rw [← a3]; unfold Obj.frac; rw [e _ (by decide)]
    · rw [← a4]; unfold Obj.frac; rw [e _ (by decide)]
    · rw [← a5]; unfold Obj.time; rw [e _ (by decide)]
    · rw [← a6]; unfold Obj.time; rw [e _ (by decide)]
    · unfold Obj.time; rw [hcr]; rfl
    · rw [body_same h2 ht hpay]; exact hb
    · rw [← h, hlen, h2.labels]
  · unfold Obj.content
    rw [if_pos hc, if_pos (h2.cls.trans hc), hpay hc]
  · rw [← hdat hc]
    exact if_neg (by rw [h2.cls]; exact hc)

/-- Comparing an object with the one read back. -/
theorem verdict {lib : Lib} (hl : lib.Lawful) (hs : New.Times lib) {now : Int} (hn : 0 ≤ now) {o : Obj} {g : Gsf.Grain}
    (hw : write lib o = .ok g) (ht : Typed lib o) (hi : g.sourceId.length = 16 ∧ g.flowId.length = 16) (hp : PlainEvent o)
    {P : Type} (env : Compare.Env P Val) {a : Compare.Grain Val} (ha : compared lib o = .ok a) (hww : WholeWords a)
    (hse : SelfEqual env.veq o) :
    ∃ o' b r, Objects.read lib now (metaOf g) g.payload = .ok o' ∧ compared lib o' = .ok b ∧ Compare.compareGrain env [] a b = some r ∧
      (r.equal = true ↔ KeepsData o) := by
  obtain ⟨o', h1, h2, h3, h4⟩ := compared_back hl hs hn hw ht hi hp ha
  obtain ⟨w1, w2, w3, w4, w5, w6⟩ := compared_wf ht hp ha
  have hal : ∀ c, dataCode a a = some c → Aligned c a.data ∧ Aligned c o'.content := by
    intro c hc
    refine ⟨(hww c hc).1, ?_⟩
    by_cases he : o.cls = .event
    · rw [h3 he, ← w3]; exact (hww c hc).1
    · rw [h4 he]
      have hcont : o.content = o.data := if_neg he
      have := (hww c hc).1
      rw [w3, hcont] at this
      by_cases hg : o.cls = .grain
      · rw [if_pos hg]
        by_cases hd : o.data = some []
        · rw [if_pos hd]; trivial
        · rw [if_neg hd]; exact this
      · rw [if_neg hg]
        cases hd : o.data with
        | none => simp [Aligned]
        | some x => rw [hd] at this; exact this
  obtain ⟨r, r1, r2⟩ := near_self env a now o'.content w1
    (by
      intro x hx y hy
      rw [w2] at hx
      obtain ⟨l, hlm, rfl⟩ := List.mem_map.1 hx
      exact hse.1 l hlm y hy)
    (by
      intro t p i hb x hx y hy
      obtain ⟨-, rfl⟩ := w4 t p i hb
      obtain ⟨d, hdm, rfl⟩ := List.mem_map.1 hx
      exact hse.2 d hdm y hy) hal
  refine ⟨o', _, r, h1, h2, r1, ?_⟩
  rw [r2]
  by_cases he : o.cls = .event
  · rw [w6 he]
    simp [KeepsData, he]
  · obtain ⟨c, hc⟩ := w5 he
    have hcont : o.content = o.data := if_neg he
    obtain ⟨hA, hN⟩ := hww c hc
    rw [w3, hcont] at hA hN
    rw [hc, h4 he, w3, hcont]
    have hk : KeepsData o ↔ if o.cls = .grain then o.data ≠ some [] else o.data ≠ none := by
      unfold KeepsData
      cases hcl : o.cls <;> simp_all
    rw [hk]
    by_cases hg : o.cls = .grain
    · rw [if_pos hg, if_pos hg]
      by_cases hd : o.data = some []
      · rw [if_pos hd, hd]
        constructor
        · intro h; exact absurd (h c rfl) (by simp [DataSame])
        · intro h; exact absurd rfl h
      · rw [if_neg hd]
        refine ⟨fun _ => hd, fun _ c' hc' => ?_⟩
        injection hc' with hc'
        subst hc'
        exact dataSame_refl hA hN
    · rw [if_neg hg, if_neg hg]
      cases hd : o.data with
      | none =>
        constructor
        · intro h; exact absurd (h c rfl) (by simp [DataSame])
        · intro h; exact absurd rfl h
      | some x =>
        refine ⟨fun _ h => by (cases h), fun _ c' hc' => ?_⟩
        injection hc' with hc'
        subst hc'
        rw [hd] at hA hN
        exact dataSame_refl hA hN

/-! ## Any two objects -/

/-- What `bodyOf` makes of an object of a class. -/
def Shape (lib : Lib) (o : Obj) (b : Compare.Body Val) : Prop :=
  match o.cls with
  | .grain => b = .plain "empty"
  | .event => ∃ t p, b = .event t p (o.payload.data.map itemDict) ∧ o.payload.type = .str t ∧ o.payload.topic = .str p
  | .audio => ∃ f s c r, b = .audio f s c r ∧ o.nat lib "cog_audio_format" = .ok f ∧ o.nat lib "samples" = .ok s ∧
      o.nat lib "channels" = .ok c ∧ o.nat lib "sample_rate" = .ok r
  | .codedAudio => ∃ f s c r x y, b = .codedAudio f s c r x y ∧ o.nat lib "cog_audio_format" = .ok f ∧ o.nat lib "samples" = .ok s ∧
      o.nat lib "channels" = .ok c ∧ o.nat lib "sample_rate" = .ok r ∧ o.nat lib "priming" = .ok x ∧ o.nat lib "remainder" = .ok y
  | .video => ∃ f w h l, b = .video f w h l ∧ o.nat lib "cog_frame_format" = .ok f ∧ o.nat lib "width" = .ok w ∧
      o.nat lib "height" = .ok h ∧ o.nat lib "cog_frame_layout" = .ok l
  | .codedVideo => ∃ f cw ch ow oh k t l, b = .codedVideo f cw ch ow oh k t l (o.offsets.map Int.ofNat) ∧
      o.nat lib "cog_frame_format" = .ok f ∧ o.nat lib "coded_width" = .ok cw ∧ o.nat lib "coded_height" = .ok ch ∧
      o.nat lib "origin_width" = .ok ow ∧ o.nat lib "origin_height" = .ok oh ∧ o.optBool lib "is_key_frame" = .ok k ∧
      o.optInt lib "temporal_offset" = .ok t ∧ o.nat lib "cog_frame_layout" = .ok l

structure Facts (lib : Lib) (o : Obj) (a : Compare.Grain Val) : Prop where
  src : ∃ u, o.uuid lib "source_id" = .ok u ∧ a.src = uintOf u
  flow : ∃ u, o.uuid lib "flow_id" = .ok u ∧ a.flow = uintOf u
  rate : o.frac lib "rate" = .ok a.rate
  duration : o.frac lib "duration" = .ok a.duration
  origin : o.time lib "origin_timestamp" = .ok a.origin
  sync : o.time lib "sync_timestamp" = .ok a.sync
  length : a.length = (o.content.getD []).length
  shape : Shape lib o a.body

theorem text_ok {j : Json.J} {t : List Nat} (h : Compare.textOf j = .ok t) : j = .str t := by
  cases j <;> simp [Compare.textOf] at h
  rw [h]

theorem facts {lib : Lib} {o : Obj} (ht : Typed lib o) {a : Compare.Grain Val} (ha : compared lib o = .ok a) : Facts lib o a := by
  unfold compared at ha
  simp only [bind, C68.bind_ok, pure, Except.pure] at ha
  obtain ⟨src, a1, flow, a2, rate, a3, dur, a4, origin, a5, sync, a6, creation, -, body, hb, h⟩ := ha
  injection h with h
  subst h
  refine ⟨⟨src, a1, rfl⟩, ⟨flow, a2, rfl⟩, a3, a4, a5, a6, rfl, ?_⟩
  have et : o.attr lib "grain_type" = .ok (.str (New.lit (New.typeName o.cls))) := ht.type
  unfold bodyOf at hb
  rw [et] at hb
  show Shape lib o body
  unfold Shape
  cases hc : o.cls with
  | grain =>
    rw [hc] at hb
    have hb' : Except.ok (Compare.Body.plain (keyText (New.lit "empty"))) = (Except.ok body : Except AErr _) := hb
    injection hb' with hb'
    subst hb'
    exact congrArg Compare.Body.plain (by decide +kernel)
  | event =>
    rw [hc] at hb
    have hb' : Compare.eventBody o = (Except.ok body : Except AErr _) := hb
    unfold Compare.eventBody at hb'
    simp only [bind, C68.bind_ok, pure, Except.pure] at hb'
    obtain ⟨t, h1, p, h2, h⟩ := hb'
    injection h with h
    exact ⟨t, p, h.symm, text_ok h1, text_ok h2⟩
  | audio =>
    rw [hc] at hb
    have hb' : Compare.audioBody lib o = (Except.ok body : Except AErr _) := hb
    unfold Compare.audioBody at hb'
    simp only [bind, C68.bind_ok, pure, Except.pure] at hb'
    obtain ⟨_, h1, _, h2, _, h3, _, h4, h⟩ := hb'
    injection h with h
    exact ⟨_, _, _, _, h.symm, h1, h2, h3, h4⟩
  | codedAudio =>
    rw [hc] at hb
    have hb' : Compare.codedAudioBody lib o = (Except.ok body : Except AErr _) := hb
    unfold Compare.codedAudioBody at hb'
    simp only [bind, C68.bind_ok, pure, Except.pure] at hb'
    obtain ⟨_, h1, _, h2, _, h3, _, h4, _, h5, _, h6, h⟩ := hb'
    injection h with h
    exact ⟨_, _, _, _, _, _, h.symm, h1, h2, h3, h4, h5, h6⟩
  | video =>
    rw [hc] at hb
    have hb' : Compare.videoBody lib o = (Except.ok body : Except AErr _) := hb
    unfold Compare.videoBody at hb'
    simp only [bind, C68.bind_ok, pure, Except.pure] at hb'
    obtain ⟨_, h1, _, h2, _, h3, _, h4, h⟩ := hb'
    injection h with h
    exact ⟨_, _, _, _, h.symm, h1, h2, h3, h4⟩
  | codedVideo =>
    rw [hc] at hb
    have hb' : Compare.codedVideoBody lib o = (Except.ok body : Except AErr _) := hb
    unfold Compare.codedVideoBody at hb'
    simp only [bind, C68.bind_ok, pure, Except.pure] at hb'
    obtain ⟨_, h1, _, h2, _, h3, _, h4, _, h5, _, h6, _, h7, _, h8, h⟩ := hb'
    injection h with h
    exact ⟨_, _, _, _, _, _, _, _, h.symm, h1, h2, h3, h4, h5, h6, h7, h8⟩

theorem shape_type {lib : Lib} {o : Obj} {b : Compare.Body Val} (h : Shape lib o b) : b.type = New.typeName o.cls := by
  unfold Shape at h
  cases hc : o.cls <;> rw [hc] at h
  case grain => rw [h]; rfl
  case event => obtain ⟨_, _, h, -⟩ := h; rw [h]; rfl
  case audio => obtain ⟨_, _, _, _, h, -⟩ := h; rw [h]; rfl
  case codedAudio => obtain ⟨_, _, _, _, _, _, h, -⟩ := h; rw [h]; rfl
  case video => obtain ⟨_, _, _, _, h, -⟩ := h; rw [h]; rfl
  case codedVideo => obtain ⟨_, _, _, _, _, _, _, _, h, -⟩ := h; rw [h]; rfl

theorem typeName_inj {c d : GClass} (h : New.typeName c = New.typeName d) : c = d := by
  revert h
  cases c <;> cases d <;> decide

theorem ok_iff {ε α : Type} {x y : Except ε α} {a b : α} (hx : x = .ok a) (hy : y = .ok b) : x = y ↔ a = b := by
  rw [hx, hy]
  exact ⟨fun h => by injection h, fun h => by rw [h]⟩

theorem listSame_map {α β : Type} (f : α → β) (R : β → β → Prop) (a b : List α) :
    ListSame R (a.map f) (b.map f) ↔ ListSame (fun x y => R (f x) (f y)) a b := by
  unfold ListSame
  simp only [List.length_map, List.getElem?_map, Option.map_eq_some_iff]
  constructor
  · rintro ⟨h1, h2⟩
    exact ⟨h1, fun i x y hx hy => h2 i _ _ ⟨x, hx, rfl⟩ ⟨y, hy, rfl⟩⟩
  · rintro ⟨h1, h2⟩
    refine ⟨h1, ?_⟩
    rintro i _ _ ⟨x, hx, rfl⟩ ⟨y, hy, rfl⟩
    exact h2 i x y hx hy

theorem label_same (veq : Val → Val → Bool) (l m : Gsf.TimeLabel) : DictSame veq (labelDict l) (labelDict m) ↔ SameLabel veq l m := by
  have h1 : ∀ l : Gsf.TimeLabel, (labelDict l).get? "tag" = some (.text l.tag) := fun _ => rfl
  have h2 : ∀ l : Gsf.TimeLabel, (labelDict l).get? "timelabel" = some (.label l.frames l.rateNum l.rateDen l.drop) := fun _ => rfl
  constructor
  · intro h
    constructor
    · rcases h "tag" with ⟨h, -⟩ | ⟨x, y, hx, hy, h⟩
      · rw [h1] at h; cases h
      · rw [h1] at hx hy; injection hx with hx; injection hy with hy; rw [hx, hy]; exact h
    · rcases h "timelabel" with ⟨h, -⟩ | ⟨x, y, hx, hy, h⟩
      · rw [h2] at h; cases h
      · rw [h2] at hx hy; injection hx with hx; injection hy with hy; rw [hx, hy]; exact h
  · rintro ⟨h, h'⟩ k
    by_cases k1 : k = "tag"
    · subst k1; exact .inr ⟨_, _, h1 l, h1 m, h⟩
    · by_cases k2 : k = "timelabel"
      · subst k2; exact .inr ⟨_, _, h2 l, h2 m, h'⟩
      · left
        have : ∀ l : Gsf.TimeLabel, (labelDict l).get? k = none := by
          intro l
          have e1 : ("tag" == k) = false := by simpa using fun h => k1 h.symm
          have e2 : ("timelabel" == k) = false := by simpa using fun h => k2 h.symm
          simp [labelDict, Compare.Dict.get?, e1, e2]
        exact ⟨this l, this m⟩

theorem same_type {lib : Lib} {o p : Obj} {P : Type} (env : Compare.Env P Val) {a b : Compare.Grain Val} (hc : o.cls = p.cls)
    (ca : a.data = o.content) (cb : b.data = p.content)
    (ha : Shape lib o a.body) (hb : Shape lib p b.body) :
    (∀ x ∈ typeAttrs env [] a b, x.1 ≠ "creation_timestamp" → x.2) ↔
      (∀ n ∈ comparedNumbers o.cls, o.nat lib n = p.nat lib n) ∧
      (o.cls = .codedVideo → o.optBool lib "is_key_frame" = p.optBool lib "is_key_frame" ∧
        o.optInt lib "temporal_offset" = p.optInt lib "temporal_offset" ∧ o.offsets = p.offsets) ∧
      (o.cls = .event → o.payload.type = p.payload.type ∧ o.payload.topic = p.payload.topic ∧
        ListSame (fun x y => DictSame env.veq (itemDict x) (itemDict y)) o.payload.data p.payload.data) ∧
      (o.cls ≠ .event → DataSame (wordsOf lib o) o.data p.data) := by
  have hofs : ∀ {x y : List Nat}, x.map Int.ofNat = y.map Int.ofNat ↔ x = y := by
    intro x y
    constructor
    · intro h
      have := congrArg (List.map Int.toNat) h
      simpa [List.map_map, Function.comp_def] using this
    · intro h; rw [h]
  unfold Shape at ha hb
  rw [← hc] at hb
  have co : o.cls ≠ .event → a.data = o.data := fun h => by rw [ca]; exact if_neg h
  have cp : o.cls ≠ .event → b.data = p.data := fun h => by rw [cb]; exact if_neg (by rw [← hc]; exact h)
  unfold wordsOf
  cases hcl : o.cls <;> rw [hcl] at ha hb co cp <;> simp only at ha hb
  case grain => simp [typeAttrs, ha, hb, comparedNumbers, co, cp]
  case event =>
    obtain ⟨t, q, e1, e2, e3⟩ := ha
    obtain ⟨t', q', f1, f2, f3⟩ := hb
    simp [typeAttrs, e1, f1, e2, e3, f2, f3, comparedNumbers, listSame_map]
  case audio =>
    obtain ⟨_, _, _, _, e, e1, e2, e3, e4⟩ := ha
    obtain ⟨_, _, _, _, f, f1, f2, f3, f4⟩ := hb
    simp [typeAttrs, e, f, comparedNumbers, mediaTest_nil, co, cp, e1, e2, e3, e4, f1, f2, f3, f4, Except.toOption]
    grind
  case video =>
    obtain ⟨_, _, _, _, e, e1, e2, e3, e4⟩ := ha
    obtain ⟨_, _, _, _, f, f1, f2, f3, f4⟩ := hb
    simp [typeAttrs, e, f, comparedNumbers, mediaTest_nil, co, cp, e1, e2, e3, e4, f1, f2, f3, f4, Except.toOption]
    grind
  case codedAudio =>
    obtain ⟨_, _, _, _, _, _, e, e1, e2, e3, e4, e5, e6⟩ := ha
    obtain ⟨_, _, _, _, _, _, f, f1, f2, f3, f4, f5, f6⟩ := hb
    simp [typeAttrs, e, f, comparedNumbers, co, cp, e1, e2, e3, e4, e5, e6, f1, f2, f3, f4, f5, f6]
    grind
  case codedVideo =>
    obtain ⟨_, _, _, _, _, _, _, _, e, e1, e2, e3, e4, e5, e6, e7, e8⟩ := ha
    obtain ⟨_, _, _, _, _, _, _, _, f, f1, f2, f3, f4, f5, f6, f7, f8⟩ := hb
    simp only [typeAttrs, e, f, comparedNumbers, co (by simp), cp (by simp), e1, e2, e3, e4, e5, e6, e7, e8, f1, f2, f3, f4, f5, f6, f7, f8, hofs]
    simp
    grind

theorem same {lib : Lib} {o p : Obj} {P : Type} (env : Compare.Env P Val) {a b : Compare.Grain Val} (ho : Typed lib o) (hp : Typed lib p)
    (eo : PlainEvent o) (ep : PlainEvent p) (io : ∀ n u, o.uuid lib n = .ok u → u.length = 16)
    (ip : ∀ n u, p.uuid lib n = .ok u → u.length = 16) (ha : compared lib o = .ok a) (hb : compared lib p = .ok b) {r : Compare.Res P}
    (hr : Compare.compareGrain env [] a b = some r) : r.equal = true ↔ SameGrain lib env.veq o p := by
  obtain ⟨wa, la, da, -⟩ := compared_wf ho eo ha
  obtain ⟨wb, lb, db, -⟩ := compared_wf hp ep hb
  obtain ⟨⟨sa, sa1, sa2⟩, ⟨fa, fa1, fa2⟩, ra, dua, oa, sya, lena, sha⟩ := facts ho ha
  obtain ⟨⟨sb, sb1, sb2⟩, ⟨fb, fb1, fb2⟩, rb, dub, ob, syb, lenb, shb⟩ := facts hp hb
  have hid : ∀ {x y : Bytes}, x.length = 16 → y.length = 16 → (uintOf x = uintOf y ↔ x = y) :=
    fun hx hy => ⟨fun h => CompareLemmas.uintOf_inj (hx.trans hy.symm) h, fun h => by rw [h]⟩
  rw [C42_verdict env a b wa wb r hr]
  have hcom : (∀ x ∈ commonAttrs env [] a b, x.1 ≠ "creation_timestamp" → x.2) ↔
      o.cls = p.cls ∧ o.uuid lib "source_id" = p.uuid lib "source_id" ∧ o.uuid lib "flow_id" = p.uuid lib "flow_id" ∧
      o.frac lib "rate" = p.frac lib "rate" ∧ o.frac lib "duration" = p.frac lib "duration" ∧
      (o.content.getD []).length = (p.content.getD []).length ∧
      o.time lib "origin_timestamp" = p.time lib "origin_timestamp" ∧ o.time lib "sync_timestamp" = p.time lib "sync_timestamp" ∧
      ListSame (SameLabel env.veq) o.labels p.labels := by
    have ht : a.body.type = b.body.type ↔ o.cls = p.cls := by
      rw [shape_type sha, shape_type shb]
      exact ⟨typeName_inj, fun h => by rw [h]⟩
    have hlab : ListSame (DictSame env.veq) a.timelabels b.timelabels ↔ ListSame (SameLabel env.veq) o.labels p.labels := by
      rw [la, lb, listSame_map]
      simp only [label_same]
    rw [ok_iff sa1 sb1, ok_iff fa1 fb1, ok_iff ra rb, ok_iff dua dub, ok_iff oa ob, ok_iff sya syb, ← hid (io _ _ sa1) (ip _ _ sb1),
      ← hid (io _ _ fa1) (ip _ _ fb1), ← sa2, ← sb2, ← fa2, ← fb2, ← lena, ← lenb, ← hlab, ← ht]
    unfold commonAttrs
    simp [timeTest_nil]
  have hsplit : (∀ x ∈ CompareSpec.attrs env [] a b, x.1 ≠ "creation_timestamp" → x.2) ↔
      (∀ x ∈ commonAttrs env [] a b, x.1 ≠ "creation_timestamp" → x.2) ∧
      (∀ x ∈ typeAttrs env [] a b, x.1 ≠ "creation_timestamp" → x.2) := by
    unfold CompareSpec.attrs
    simp only [List.forall_mem_append]
  rw [hsplit, hcom]
  constructor
  · rintro ⟨⟨h1, h2, h3, h4, h5, h6, h7, h8, h9⟩, ht⟩
    obtain ⟨t1, t2, t3, t4⟩ := (same_type env h1 da db sha shb).1 ht
    exact ⟨h1, by simp [h2, h3], by simp [h4, h5], by simp [h7, h8], h6, h9, t1, t2, t3, t4⟩
  · rintro ⟨h1, h2, h3, h4, h5, h6, t1, t2, t3, t4⟩
    exact ⟨⟨h1, h2 _ (by simp), h2 _ (by simp), h3 _ (by simp), h3 _ (by simp), h5, h4 _ (by simp), h4 _ (by simp), h6⟩,
      (same_type env h1 da db sha shb).2 ⟨t1, t2, t3, t4⟩⟩

/-! ## Lists -/

theorem build {α β : Type} (P : Nat → α → β → Prop) : ∀ (l : List α), (∀ (i : Nat) x, l[i]? = some x → ∃ y, P i x y) →
    ∃ ys : List β, ys.length = l.length ∧ ∀ (i : Nat) x, l[i]? = some x → ∃ y, ys[i]? = some y ∧ P i x y := by
  intro l
  induction l generalizing P with
  | nil => exact fun _ => ⟨[], rfl, fun i x h => by simp at h⟩
  | cons a l ih =>
    intro h
    obtain ⟨y, hy⟩ := h 0 a rfl
    obtain ⟨ys, h1, h2⟩ := ih (fun i => P (i + 1)) (fun i x hx => h (i + 1) x (by simpa using hx))
    refine ⟨y :: ys, by simp [h1], fun i x hx => ?_⟩
    cases i with
    | zero =>
      simp only [List.getElem?_cons_zero, Option.some.injEq] at hx
      subst hx
      exact ⟨y, rfl, hy⟩
    | succ i => exact h2 i x (by simpa using hx)

theorem mapM_of {α β ε : Type} (f : α → Except ε β) : ∀ (l : List α) (ys : List β), ys.length = l.length →
    (∀ (i : Nat) x y, l[i]? = some x → ys[i]? = some y → f x = .ok y) → l.mapM f = .ok ys := by
  intro l
  induction l with
  | nil =>
    intro ys h _
    rw [List.length_eq_zero_iff.1 h]
    rfl
  | cons a l ih =>
    intro ys h hf
    cases ys with
    | nil => simp at h
    | cons y ys =>
      rw [List.mapM_cons, hf 0 a y rfl rfl, ih ys (by simpa using h) (fun i x z hx hz => hf (i + 1) x z (by simpa using hx) (by simpa using hz))]
      rfl

/-- What is written for each object of a list. -/
theorem written {lib : Lib} : ∀ (l : List (Nat × Obj)) (gs : List (Nat × Gsf.Grain)),
    l.mapM (fun x => (write lib x.2).map (fun g => (x.1, g))) = Except.ok gs →
    gs.length = l.length ∧ ∀ (i : Nat) x y, l[i]? = some x → gs[i]? = some y → write lib x.2 = .ok y.2 := by
  intro l
  induction l with
  | nil =>
    intro gs h
    cases h
    exact ⟨rfl, fun i x y h => by simp at h⟩
  | cons a l ih =>
    intro gs h
    rw [List.mapM_cons] at h
    simp only [bind, C68.bind_ok, pure, Except.pure] at h
    obtain ⟨b, h5, bs, h6, h7⟩ := h
    injection h7 with h7
    subst h7
    obtain ⟨e1, e2⟩ := ih bs h6
    refine ⟨by simp [e1], ?_⟩
    intro i x y hx hy
    cases i with
    | zero =>
      simp only [List.getElem?_cons_zero, Option.some.injEq] at hx hy
      subst hx hy
      cases hwr : write lib a.2 with
      | error e => rw [hwr] at h5; simp [Except.map] at h5
      | ok g =>
        rw [hwr] at h5
        simp only [Except.map] at h5
        injection h5 with h5
        subst h5
        rfl
    | succ i => exact e2 i x y (by simpa using hx) (by simpa using hy)

end C75

/-! ## Theorems -/

/-- What the comparison finds of any two grain objects, by their attributes: `compare_grain` without options says that they are equal
exactly if they are of one class, all attributes that are compared are the same, and so is the data. -/
theorem C75_exact (lib : Lib) (o p : Obj) (ho : Typed lib o) (hp : Typed lib p) (eo : PlainEvent o) (ep : PlainEvent p)
    (io : ∀ n u, o.uuid lib n = .ok u → u.length = 16) (ip : ∀ n u, p.uuid lib n = .ok u → u.length = 16)
    {P : Type} (env : Compare.Env P Val) (r : Compare.Res P) (h : compareObjs lib env [] o p = .ok (some r)) :
    r.equal = true ↔ SameGrain lib env.veq o p := by
  unfold compareObjs at h
  simp only [bind, C68.bind_ok, pure, Except.pure] at h
  obtain ⟨a, ha, b, hb, h⟩ := h
  injection h with h
  exact C75.same env ho hp eo ep io ip ha hb h

/-- **C75**, one grain: of every class, with all attributes of their documented types. `compare_grain` of the grain that was written with
the grain read back raises nothing, and says that they are equal exactly if the data is not one of the two kinds of absent data that
files do not keep. -/
theorem C75_grain_partial (lib : Lib) (hl : lib.Lawful) (hs : New.Times lib) (now : Int) (hn : 0 ≤ now) (o : Obj) (ht : Typed lib o)
    (hp : PlainEvent o) (g : Gsf.Grain) (hw : write lib o = .ok g) (hi : g.sourceId.length = 16 ∧ g.flowId.length = 16)
    {P : Type} (env : Compare.Env P Val) (hc : Comparable lib o) (he : SelfEqual env.veq o) :
    ∃ o' r, Objects.read lib now (metaOf g) g.payload = .ok o' ∧ compareObjs lib env [] o o' = .ok (some r) ∧
      (r.equal = true ↔ KeepsData o) := by
  obtain ⟨a, ha, hww⟩ := hc
  obtain ⟨o', b, r, h1, h2, h3, h4⟩ := C75.verdict hl hs hn hw ht hi hp env ha hww he
  refine ⟨o', r, h1, ?_, h4⟩
  unfold compareObjs
  rw [ha, h2]
  show Except.ok (Compare.compareGrain env [] a b) = _
  rw [h3]

/-- **C75**, whole files: any list of grains, written to a file of any version that keeps their values, and read again at any times. The
comparison of the two sequences raises nothing, and says that they are equal exactly if no grain has data of the kinds that files do not
keep. -/
theorem C75_file_partial (lib : Lib) (hl : lib.Lawful) (hs : New.Times lib) (objs : List (Nat × Obj)) (ht : ∀ x ∈ objs, Typed lib x.2)
    (f : FileSpec) (hw : objs.mapM (fun x => (write lib x.2).map (fun g => (x.1, g))) = .ok f.grains) (hf : f.Ok)
    (hp : ∀ x ∈ f.grains, PlainValues f.major x.2)
    {P : Type} (env : Compare.Env P Val) (hc : ∀ x ∈ objs, PlainEvent x.2 ∧ Comparable lib x.2 ∧ SelfEqual env.veq x.2)
    (now : Nat → Int) (hn : ∀ i, 0 ≤ now i) :
    ∃ r os, decodeFile {} f.bytes = .ok r ∧ r.ending = .eof ∧ (r.view f.bytes).length = os.length ∧
      (∀ (i : Nat) v, (r.view f.bytes)[i]? = some v → ∃ o, os[i]? = some o ∧ Objects.read lib (now i) v.1 v.2.1 = .ok o) ∧
      ∃ res, Compare.compareAll lib env [] (objs.map (·.2)) os = .ok (some res) ∧
        (res.equal = true ↔ ∀ x ∈ objs, KeepsData x.2) := by
  obtain ⟨r, h1, h2, -, h4⟩ := C01_round_trip_normal_form f hf
  obtain ⟨hlen, hz⟩ := C75.written _ _ hw
  obtain ⟨ys, y1, y2⟩ := C75.build (β := Obj × Compare.Grain Val × Compare.Grain Val)
    (fun i (x : Nat × Obj) y => compared lib x.2 = .ok y.2.1 ∧ compared lib y.1 = .ok y.2.2 ∧
      (∀ v, (r.view f.bytes)[i]? = some v → Objects.read lib (now i) v.1 v.2.1 = .ok y.1) ∧
      ∃ c, Compare.compareGrain env [] y.2.1 y.2.2 = some c ∧ (c.equal = true ↔ KeepsData x.2)) objs (by
    intro i x hx
    have hxm : x ∈ objs := List.mem_of_getElem? hx
    obtain ⟨c1, ⟨a, c2, c3⟩, c4⟩ := hc x hxm
    have hi : i < f.grains.length := by
      rw [hlen]
      exact (List.getElem?_eq_some_iff.1 hx).1
    have hg : f.grains[i]? = some f.grains[i] := List.getElem?_eq_getElem hi
    generalize f.grains[i] = y at hg
    have hy : y ∈ f.grains := List.mem_of_getElem? hg
    have hwf := (hf.grains y hy).2.wf
    obtain ⟨o', b, c, e1, e2, e3, e4⟩ := C75.verdict hl hs (hn i) (hz i x y hx hg) (ht x hxm) ⟨hwf.1, hwf.2.1⟩ c1 env c2 c3 c4
    refine ⟨(o', a, b), c2, e2, fun v hv => ?_, c, e3, e4⟩
    rw [h4, List.getElem?_map, hg] at hv
    simp only [Option.map_some, Option.some.injEq] at hv
    subst hv
    have hm : y.2.toMeta f.major = metaOf y.2 := toMeta_plain (g := { y.2 with data := none }) hf.major (hp y hy)
    simp only [hm]
    exact e1)
  have key : ∀ (i : Nat) y, ys[i]? = some y → ∃ x, objs[i]? = some x ∧ compared lib x.2 = .ok y.2.1 ∧ compared lib y.1 = .ok y.2.2 ∧
      (∀ v, (r.view f.bytes)[i]? = some v → Objects.read lib (now i) v.1 v.2.1 = .ok y.1) ∧
      ∃ c, Compare.compareGrain env [] y.2.1 y.2.2 = some c ∧ (c.equal = true ↔ KeepsData x.2) := by
    intro i y hy
    have hi : i < objs.length := by
      rw [← y1]
      exact (List.getElem?_eq_some_iff.1 hy).1
    obtain ⟨y', e1, e2⟩ := y2 i _ (List.getElem?_eq_getElem hi)
    rw [hy] at e1
    injection e1 with e1
    subst e1
    exact ⟨_, List.getElem?_eq_getElem hi, e2⟩
  refine ⟨r, ys.map (·.1), h1, h2, by rw [h4, List.length_map, List.length_map, hlen, y1], fun i v hv => ?_, ?_⟩
  · have hi : i < objs.length := by
      rw [← hlen, ← List.length_map (f := fun x : Nat × Gsf.Grain => (x.2.toMeta f.major, x.2.payload, x.1)), ← h4]
      exact (List.getElem?_eq_some_iff.1 hv).1
    obtain ⟨y, e1, -, -, e2, -⟩ := y2 i _ (List.getElem?_eq_getElem hi)
    exact ⟨y.1, by rw [List.getElem?_map, e1]; rfl, e2 v hv⟩
  · have ma : (objs.map (·.2)).mapM (compared lib) = .ok (ys.map (·.2.1)) := by
      refine C75.mapM_of _ _ _ (by simp [y1]) (fun i x y hx hy => ?_)
      rw [List.getElem?_map] at hx hy
      cases hyy : ys[i]? with
      | none => rw [hyy] at hy; simp at hy
      | some z =>
        rw [hyy] at hy
        obtain ⟨w, k1, k2, -⟩ := key i z hyy
        rw [k1] at hx
        simp only [Option.map_some, Option.some.injEq] at hx hy
        rw [← hx, ← hy]
        exact k2
    have mb : (ys.map (·.1)).mapM (compared lib) = .ok (ys.map (·.2.2)) := by
      refine C75.mapM_of _ _ _ (by simp) (fun i x y hx hy => ?_)
      rw [List.getElem?_map] at hx hy
      cases hyy : ys[i]? with
      | none => rw [hyy] at hy; simp at hy
      | some z =>
        rw [hyy] at hx hy
        obtain ⟨w, -, -, k2, -⟩ := key i z hyy
        simp only [Option.map_some, Option.some.injEq] at hx hy
        rw [← hx, ← hy]
        exact k2
    have pair : ∀ (i : Nat) a b, (ys.map (·.2.1))[i]? = some a → (ys.map (·.2.2))[i]? = some b →
        ∃ x, objs[i]? = some x ∧ ∃ c, Compare.compareGrain env [] a b = some c ∧ (c.equal = true ↔ KeepsData x.2) := by
      intro i a b hx hy
      rw [List.getElem?_map] at hx hy
      cases hyy : ys[i]? with
      | none => rw [hyy] at hy; simp at hy
      | some z =>
        rw [hyy] at hx hy
        obtain ⟨w, k1, -, -, -, k2⟩ := key i z hyy
        simp only [Option.map_some, Option.some.injEq] at hx hy
        rw [← hx, ← hy]
        exact ⟨w, k1, k2⟩
    unfold Compare.compareAll
    rw [ma, mb]
    show ∃ res, Except.ok (Compare.compareGrains env [] false (ys.map (·.2.1)) (ys.map (·.2.2))) = _ ∧ _
    cases hr : Compare.compareGrains env [] false (ys.map (·.2.1)) (ys.map (·.2.2)) with
    | none =>
      obtain ⟨i, a, b, e1, e2, e3, -⟩ := (C44_raises env [] _ _).1 hr
      obtain ⟨x, -, c, e4, -⟩ := pair i a b e1 e2
      rw [e3] at e4
      cases e4
    | some res =>
      refine ⟨res, rfl, ?_⟩
      rw [C44_verdict env [] false _ _ res hr]
      constructor
      · rintro ⟨-, h⟩ x hx
        obtain ⟨i, hi⟩ := List.getElem?_of_mem hx
        obtain ⟨y, e1, -⟩ := y2 i x hi
        have ea : (ys.map (·.2.1))[i]? = some y.2.1 := by rw [List.getElem?_map, e1]; rfl
        have eb : (ys.map (·.2.2))[i]? = some y.2.2 := by rw [List.getElem?_map, e1]; rfl
        obtain ⟨x', e2, c, e3, e4⟩ := pair i _ _ ea eb
        rw [hi] at e2
        injection e2 with e2
        subst e2
        have := h i _ _ ea eb
        rw [e3] at this
        simp only [Option.map_some, Option.some.injEq] at this
        exact e4.1 this
      · intro h
        refine ⟨by simp, fun i a b ea eb => ?_⟩
        obtain ⟨x, e1, c, e2, e3⟩ := pair i a b ea eb
        rw [e2]
        simp only [Option.map_some, Option.some.injEq]
        exact e3.2 (h x (List.mem_of_getElem? e1))

/-- **Not every grain compares equal after it was written and read.** Whatever the environment of the comparison, a plain grain with
empty data and a media grain without data are found to be different from the grains read back: the first has no data then, and the
second has empty data. -/
theorem C75_absent_counterexample (lib : Lib) (hl : lib.Lawful) (hs : New.Times lib) (now : Int) (hn : 0 ≤ now) (o : Obj)
    (ht : Typed lib o) (g : Gsf.Grain) (hw : write lib o = .ok g) (hi : g.sourceId.length = 16 ∧ g.flowId.length = 16)
    {P : Type} (env : Compare.Env P Val) (hc : Comparable lib o) (he : SelfEqual env.veq o)
    (hd : (o.cls = .grain ∧ o.data = some []) ∨ (o.cls ≠ .grain ∧ o.cls ≠ .event ∧ o.data = none)) :
    ∃ o' r, Objects.read lib now (metaOf g) g.payload = .ok o' ∧ compareObjs lib env [] o o' = .ok (some r) ∧ r.equal = false := by
  have hne : o.cls ≠ .event := by
    rcases hd with ⟨h, -⟩ | ⟨-, h, -⟩
    · rw [h]; intro h; cases h
    · exact h
  obtain ⟨o', r, h1, h2, h3⟩ := C75_grain_partial lib hl hs now hn o ht (fun h => absurd h hne) g hw hi env hc he
  refine ⟨o', r, h1, h2, ?_⟩
  have : ¬ KeepsData o := by
    unfold KeepsData
    rcases hd with ⟨h, h'⟩ | ⟨h, h', h''⟩
    · rw [h]; exact fun k => k h'
    · cases hcl : o.cls with
      | grain => exact absurd hcl h
      | event => exact absurd hcl h'
      | _ => exact fun k => k h''
  cases hr : r.equal with
  | false => rfl
  | true => exact absurd (h3.1 hr) this

/-! ## The hypotheses are met -/

/-- A way to see that an object is comparable. -/
def C75_check (lib : Lib) (o : Obj) : Bool :=
  match compared lib o with
  | .error _ => false
  | .ok a =>
    match dataCode a a, a.data with
    | some c, some b => b.length % CompareSpec.wordSize c = 0 &&
        (match Compare.unpack c b with | some s => s.all (fun u => Compare.Sample.eq u u) | none => true)
    | _, _ => true

theorem C75_check_sound (lib : Lib) (o : Obj) (h : C75_check lib o = true) : Comparable lib o := by
  unfold C75_check at h
  cases ha : compared lib o with
  | error e => rw [ha] at h; cases h
  | ok a =>
    rw [ha] at h
    refine ⟨a, ha, fun c hc => ?_⟩
    simp only [hc] at h
    cases hd : a.data with
    | none => exact ⟨trivial, fun b s hb => by cases hb⟩
    | some b =>
      rw [hd] at h
      simp only [Bool.and_eq_true, decide_eq_true_eq] at h
      refine ⟨h.1, fun b' s hb hs u hu => ?_⟩
      injection hb with hb
      subst hb
      rw [hs] at h
      exact List.all_eq_true.1 h.2 u hu

def C75_env : Compare.Env Nat Val := ⟨fun _ _ => true, fun _ _ => .ok 0⟩

/-- The objects of C68: a picture, a coded picture and an event. -/
example : C68_objs.length = 3 ∧ (∀ x ∈ C68_objs, C75_check C64_lib x.2 = true ∧ KeepsData x.2 ∧ SelfEqual C75_env.veq x.2) := by
  refine ⟨by decide +kernel, fun x hx => ⟨?_, ?_, fun _ _ _ _ => rfl, fun _ _ _ _ => rfl⟩⟩
  · exact (by decide +kernel : ∀ x ∈ C68_objs, C75_check C64_lib x.2 = true) x hx
  · exact (by decide +kernel : ∀ x ∈ C68_objs, KeepsData x.2) x hx

/-- Two events that differ in their topics only, and are found to be different. -/
def C75_event (topic : Json.Str) : Obj :=
  let args : New.Args := [("src_id", .uuid (List.replicate 16 1)), ("flow_id", .uuid (List.replicate 16 2)), ("topic", .str topic)]
  match New.make C64_lib 7 .event args none with
  | .ok m => ofMade .event args m
  | .error _ => ofMade .event [] ⟨fun _ => none, [], none⟩

example : ((compareObjs C64_lib C75_env [] (C75_event (New.lit "/a")) (C75_event (New.lit "/b"))).toOption.map
      (fun r => r.map (fun r => r.equal))) = some (some false) ∧
    ((compareObjs C64_lib C75_env [] (C75_event (New.lit "/a")) (C75_event (New.lit "/a"))).toOption.map
      (fun r => r.map (fun r => r.equal))) = some (some true) := by
  decide +kernel

/-- A picture made from arguments, written and read again: equal. -/
example : ∃ m g o' r, New.make C64_lib 7 .video C64_args none = .ok m ∧ write C64_lib (ofMade .video C64_args m) = .ok g ∧
    Objects.read C64_lib 9 (metaOf g) g.payload = .ok o' ∧
    compareObjs C64_lib C75_env [] (ofMade .video C64_args m) o' = .ok (some r) ∧ r.equal = true := by
  obtain ⟨m, g, h1, h2, h3, -, -⟩ := C68_new_partial C64_lib C64_lib_lawful C64_lib_times 7 (by decide) .video C64_args C64_args_valid
    none (fun h => by cases h) (fun h => by cases h)
  have hm : (New.make C64_lib 7 .video C64_args none).toOption.all (fun m => C75_check C64_lib (ofMade .video C64_args m) &&
      decide (KeepsData (ofMade .video C64_args m)) && (write C64_lib (ofMade .video C64_args m)).toOption.all (fun g =>
        decide (g.sourceId.length = 16 ∧ g.flowId.length = 16))) = true := by
    decide +kernel
  rw [h1] at hm
  simp only [Except.toOption, Option.all_some, h2, Bool.and_eq_true, decide_eq_true_eq] at hm
  obtain ⟨⟨k1, k2⟩, k3⟩ := hm
  obtain ⟨o', r, h4, h5, h6⟩ := C75_grain_partial C64_lib C64_lib_lawful C64_lib_times 9 (by decide) _ h3 (fun h => by cases h) g h2
    k3 C75_env (C75_check_sound _ _ k1) ⟨fun _ _ _ _ => rfl, fun _ _ _ _ => rfl⟩
  exact ⟨m, g, o', r, h1, h2, h4, h5, h6.2 k2⟩

end Verif.Props

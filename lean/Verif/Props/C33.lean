import Verif.Grain.Event
import Verif.Grain.JsonRT

/-!
# C33: event payload round trip
-/

namespace Verif.Props

open Verif Verif.Json Verif.Event

/-- An event grain's payload that python can write and read back: strings without a high surrogate directly before
a low one, dictionaries with distinct keys (as every python dictionary), and a path in every item. -/
structure PayloadOk (p : Payload) : Prop where
  type : p.type.Wf
  topic : p.topic.Wf
  items : ∀ d ∈ p.data, (J.obj d).Wf ∧ (lookup d (lit "path")).isSome = true

/-- Two items with the same path, pre and post. -/
def SameEventItem (d e : Datum) : Prop :=
  lookup d (lit "path") = lookup e (lit "path") ∧ lookup d (lit "pre") = lookup e (lit "pre") ∧
    lookup d (lit "post") = lookup e (lit "post")

/-- An item with no other keys, in the usual order. -/
def PlainItem (d : Datum) : Prop :=
  ∃ (path : J) (pre post : Option J), d = (lit "path", path) :: ((pre.toList.map (fun v => (lit "pre", v))) ++
    (post.toList.map (fun v => (lit "post", v))))

theorem lookup_cons (k k' : Str) (v : J) (d : Datum) : lookup ((k', v) :: d) k = if k' = k then some v else lookup d k := by
  unfold lookup
  rw [List.find?_cons]
  by_cases h : k' = k
  · simp [h]
  · simp [h]

theorem lookup_nil (k : Str) : lookup [] k = none := rfl

theorem lit_ne : lit "path" ≠ lit "pre" ∧ lit "path" ≠ lit "post" ∧ lit "pre" ≠ lit "post" ∧ lit "pre" ≠ lit "path" ∧
    lit "post" ≠ lit "path" ∧ lit "post" ≠ lit "pre" := by decide

/-- The three entries of an item in the usual form. -/
theorem lookup_usual (path : J) (pre post : Option J) :
    lookup ((lit "path", path) :: ((pre.toList.map (fun v => (lit "pre", v))) ++ (post.toList.map (fun v => (lit "post", v)))))
        (lit "path") = some path ∧
      lookup ((lit "path", path) :: ((pre.toList.map (fun v => (lit "pre", v))) ++
        (post.toList.map (fun v => (lit "post", v))))) (lit "pre") = pre ∧
      lookup ((lit "path", path) :: ((pre.toList.map (fun v => (lit "pre", v))) ++
        (post.toList.map (fun v => (lit "post", v))))) (lit "post") = post := by
  obtain ⟨h1, h2, h3, h4, h5, h6⟩ := lit_ne
  cases pre <;> cases post <;> simp [lookup_cons, lookup_nil, h1, h2, h3, h6]

/-- What reading an item gives. -/
theorem readDatum_spec {d : Datum} {path : J} (h : lookup d (lit "path") = some path) :
    readDatum (.obj d) = .ok ((lit "path", path) :: (((lookup d (lit "pre")).toList.map (fun v => (lit "pre", v))) ++
      ((lookup d (lit "post")).toList.map (fun v => (lit "post", v))))) := by
  unfold readDatum
  simp only [h]
  cases lookup d (lit "pre") <;> cases lookup d (lit "post") <;> rfl

theorem readDatum_same {d e : Datum} (h : readDatum (.obj d) = .ok e) : SameEventItem e d ∧ PlainItem e := by
  cases hp : lookup d (lit "path") with
  | none => unfold readDatum at h; simp only [hp] at h; cases h
  | some path =>
    rw [readDatum_spec hp] at h
    injection h with h
    subst h
    obtain ⟨h1, h2, h3⟩ := lookup_usual path (lookup d (lit "pre")) (lookup d (lit "post"))
    exact ⟨⟨by rw [h1, hp], h2, h3⟩, path, _, _, rfl⟩

theorem readDatum_plain {d : Datum} (h : PlainItem d) : readDatum (.obj d) = .ok d := by
  obtain ⟨path, pre, post, rfl⟩ := h
  obtain ⟨h1, h2, h3⟩ := lookup_usual path pre post
  rw [readDatum_spec h1, h2, h3]

/-- The loop over the items, when none is refused. -/
theorem readData_ok (p : Payload) (l : List Datum) (h : ∀ d ∈ l, (lookup d (lit "path")).isSome = true) :
    ∃ es, readData p (l.map .obj) = ({ p with data := p.data ++ es }, .ok ()) ∧ es.length = l.length ∧
      ∀ (i : Nat) (d e : Datum), l[i]? = some d → es[i]? = some e → readDatum (.obj d) = .ok e := by
  induction l generalizing p with
  | nil => exact ⟨[], by rw [List.map_nil, readData, List.append_nil], rfl, fun i d e hd => by cases hd⟩
  | cons d l ih =>
    cases hp : lookup d (lit "path") with
    | none => have := h d (List.mem_cons_self ..); rw [hp] at this; cases this
    | some path =>
      have hd := readDatum_spec hp
      generalize hn : ((lit "path", path) :: (((lookup d (lit "pre")).toList.map (fun v => (lit "pre", v))) ++
        ((lookup d (lit "post")).toList.map (fun v => (lit "post", v)))) : Datum) = n at hd
      obtain ⟨es, h1, h2, h3⟩ := ih { p with data := p.data ++ [n] } (fun x hx => h x (List.mem_cons_of_mem _ hx))
      refine ⟨n :: es, ?_, by rw [List.length_cons, List.length_cons, h2], fun i a b ha hb => ?_⟩
      · rw [List.map_cons, readData, hd]
        simp only
        rw [h1]
        simp only [List.append_assoc, List.singleton_append]
      · cases i with
        | zero =>
          injection ha with ha
          injection hb with hb
          subst ha hb
          exact hd
        | succ i => exact h3 i a b ha hb

theorem elemsWf_map (l : List Datum) (h : ∀ d ∈ l, (J.obj d).Wf) : elemsWf (l.map J.obj) := by
  induction l with
  | nil => rw [List.map_nil, elemsWf]; trivial
  | cons d l ih =>
    rw [List.map_cons, elemsWf]
    exact ⟨h d (List.mem_cons_self ..), ih (fun x hx => h x (List.mem_cons_of_mem _ hx))⟩

theorem noHigh_wf (s : Str) (h : ∀ c ∈ s, c < 0x110000 ∧ isHigh c = false) : Str.Wf s := by
  induction s with
  | nil => trivial
  | cons a s ih =>
    have ha := h a (List.mem_cons_self ..)
    cases s with
    | nil => exact ha.1
    | cons b r =>
      refine ⟨ha.1, ?_, ih (fun c hc => h c (List.mem_cons_of_mem _ hc))⟩
      rintro ⟨h1, _⟩
      rw [ha.2] at h1
      cases h1

theorem lit_wf (s : Str) (h : ∀ c ∈ s, c < 128) : Str.Wf s := by
  refine noHigh_wf s (fun c hc => ?_)
  have := h c hc
  refine ⟨by omega, ?_⟩
  cases hh : isHigh c with
  | false => rfl
  | true =>
    simp only [isHigh, Bool.and_eq_true, decide_eq_true_eq] at hh
    omega

theorem payloadJson_wf (p : Payload) (hp : PayloadOk p) : (payloadJson p).Wf := by
  unfold payloadJson
  rw [J.Wf]
  refine ⟨(by decide : [lit "type", lit "topic", lit "data"].Nodup), ?_⟩
  rw [membersWf, membersWf, membersWf, membersWf, J.Wf]
  exact ⟨lit_wf _ (by decide), hp.type, lit_wf _ (by decide), hp.topic, lit_wf _ (by decide),
    elemsWf_map _ (fun d hd => (hp.items d hd).1), trivial⟩

theorem decode_encode_ascii (s : Str) (h : ∀ c ∈ s, c < 128) : decodeText (encodeText s) = some s := by
  unfold decodeText encodeText
  rw [decodeUtf8_encodeUtf8, Option.map_some, List.map_map]
  congr 1
  conv => rhs; rw [← List.map_id s]
  refine List.map_congr_left (fun c hc => ?_)
  exact toNat_ofNat_of_valid c (.inl (by have := h c hc; omega))

/-- Reading the dictionary that was written. -/
theorem setPayload_ok (q p : Payload) (h : ∀ d ∈ p.data, (lookup d (lit "path")).isSome = true) :
    ∃ es, setPayload q (payloadJson p) = (⟨p.type, p.topic, es⟩, .ok ()) ∧ es.length = p.data.length ∧
      ∀ (i : Nat) (d e : Datum), p.data[i]? = some d → es[i]? = some e → readDatum (.obj d) = .ok e := by
  obtain ⟨es, h1, h2, h3⟩ := readData_ok ⟨p.type, p.topic, []⟩ p.data h
  refine ⟨es, ?_, h2, h3⟩
  have ht : lookup [(lit "type", p.type), (lit "topic", p.topic), (lit "data", J.arr (p.data.map .obj))] (lit "type") =
      some p.type := by rw [lookup_cons, if_pos rfl]
  have ho : lookup [(lit "type", p.type), (lit "topic", p.topic), (lit "data", J.arr (p.data.map .obj))] (lit "topic") =
      some p.topic := by rw [lookup_cons, if_neg (by decide), lookup_cons, if_pos rfl]
  have hd : lookup [(lit "type", p.type), (lit "topic", p.topic), (lit "data", J.arr (p.data.map .obj))] (lit "data") =
      some (J.arr (p.data.map .obj)) := by
    rw [lookup_cons, if_neg (by decide), lookup_cons, if_neg (by decide), lookup_cons, if_pos rfl]
  unfold setPayload payloadJson
  simp only [contains, ht, ho, hd, Option.isSome_some, iterate]
  rw [h1]
  rfl

/-- **C33**, round trip: whatever the payload `p` of the first grain and the payload `q` of the second, assigning the
data of the first to the second raises nothing and gives it the type, the topic and, one by one, the items of the
first. -/
theorem C33_round_trip (p q : Payload) (hp : PayloadOk p) :
    ∃ r, setData q (.bytes (getData p)) = (r, .ok ()) ∧ r.type = p.type ∧ r.topic = p.topic ∧
      r.data.length = p.data.length ∧
      ∀ (i : Nat) (d e : Datum), p.data[i]? = some d → r.data[i]? = some e → SameEventItem e d ∧ PlainItem e := by
  have hw := payloadJson_wf p hp
  obtain ⟨es, h1, h2, h3⟩ := setPayload_ok q p (fun d hd => (hp.items d hd).2)
  refine ⟨⟨p.type, p.topic, es⟩, ?_, rfl, rfl, h2, fun i d e hd he => readDatum_same (h3 i d e hd he)⟩
  unfold setData getData
  simp only
  rw [decode_encode_ascii _ (ascii_dumps _ hw)]
  simp only
  rw [loads_dumps _ hw]
  exact h1

/-- **C33**, the same as equality: items that have only a path, a pre and a post come back identical, and so do
the bytes. -/
theorem C33_round_trip_eq (p q : Payload) (hp : PayloadOk p) (hc : ∀ d ∈ p.data, PlainItem d) :
    setData q (.bytes (getData p)) = (p, .ok ()) := by
  have hw := payloadJson_wf p hp
  obtain ⟨es, h1, h2, h3⟩ := setPayload_ok q p (fun d hd => (hp.items d hd).2)
  have he : es = p.data := by
    refine List.ext_getElem? (fun i => ?_)
    by_cases hi : i < p.data.length
    · have ha : p.data[i]? = some p.data[i] := List.getElem?_eq_getElem hi
      have hb : es[i]? = some (es[i]'(by omega)) := List.getElem?_eq_getElem (by omega)
      have := h3 i _ _ ha hb
      rw [readDatum_plain (hc _ (List.getElem_mem hi))] at this
      injection this with this
      rw [ha, hb, this]
    · rw [List.getElem?_eq_none (by omega), List.getElem?_eq_none (by omega)]
  unfold setData getData
  simp only
  rw [decode_encode_ascii _ (ascii_dumps _ hw)]
  simp only
  rw [loads_dumps _ hw]
  simp only
  rw [h1, he]

/-- **C33**, append: exactly one item, at the end, with the given path, pre and post (`None` reads back as `None`). -/
theorem C33_append (p : Payload) (path pre post : J) :
    ∃ d, (append p path pre post).data = p.data ++ [d] ∧ (append p path pre post).type = p.type ∧
      (append p path pre post).topic = p.topic ∧ PlainItem d ∧ lookup d (lit "path") = some path ∧
      getOpt d (lit "pre") = pre ∧ getOpt d (lit "post") = post := by
  have key : ∀ (a b : Option J), a.getD .null = pre → b.getD .null = post →
      (append p path pre post).data = p.data ++ [(lit "path", path) :: ((a.toList.map (fun v => (lit "pre", v))) ++
        (b.toList.map (fun v => (lit "post", v))))] →
      ∃ d, (append p path pre post).data = p.data ++ [d] ∧ (append p path pre post).type = p.type ∧
        (append p path pre post).topic = p.topic ∧ PlainItem d ∧ lookup d (lit "path") = some path ∧
        getOpt d (lit "pre") = pre ∧ getOpt d (lit "post") = post := by
    intro a b ha hb h
    obtain ⟨h1, h2, h3⟩ := lookup_usual path a b
    exact ⟨_, h, rfl, rfl, ⟨path, a, b, rfl⟩, h1, by unfold getOpt; rw [h2, ha], by unfold getOpt; rw [h3, hb]⟩
  have opt : ∀ v : J, ∃ o : Option J, o.getD .null = v ∧ ∀ k : Str,
      (match v with | .null => [] | v => [(k, v)] : Datum) = o.toList.map (fun v => (k, v)) := by
    intro v
    cases v with
    | null => exact ⟨none, rfl, fun _ => rfl⟩
    | _ => exact ⟨some _, rfl, fun _ => rfl⟩
  obtain ⟨a, ha1, ha2⟩ := opt pre
  obtain ⟨b, hb1, hb2⟩ := opt post
  refine key a b ha1 hb1 ?_
  rw [← ha2, ← hb2]
  rfl

/-- **C33**, refusal: a payload that lacks one of the three entries raises `ValueError` and leaves the grain as it
was; so does text that is not JSON. -/
theorem C33_refused (q : Payload) (s : Str) :
    (∀ l, loads s = some (.obj l) → (lookup l (lit "type") = none ∨ lookup l (lit "topic") = none ∨ lookup l (lit "data") = none) →
      setData q (.str s) = (q, .error .value)) ∧
    (loads s = none → setData q (.str s) = (q, .error .value)) := by
  refine ⟨fun l hl h => ?_, fun hl => ?_⟩
  · unfold setData
    simp only [hl]
    unfold setPayload
    simp only [contains]
    cases h1 : lookup l (lit "type") with
    | none => rfl
    | some a =>
      cases h2 : lookup l (lit "topic") with
      | none => rfl
      | some b =>
        cases h3 : lookup l (lit "data") with
        | none => rfl
        | some c =>
          rw [h1, h2, h3] at h
          rcases h with h | h | h <;> cases h
  · unfold setData
    simp only [hl]

/-- Only a dictionary is ever accepted. -/
theorem C33_dictionary_only (q r : Payload) (v : J) (h : setPayload q v = (r, .ok ())) : ∃ l, v = .obj l := by
  cases v with
  | obj l => exact ⟨l, rfl⟩
  | _ =>
    exfalso
    unfold setPayload at h
    repeat' split at h
    all_goals first
      | (injection h with _ h; cases h; done)
      | (rename_i hv _ _ _; cases hv; done)
      | (cases ‹J.obj _ = _›; done)
      | (simp_all; done)

/-- Every item made by `append` or by assigning `data` is plain, so the exact round trip applies to every grain that
was only changed in these ways. -/
theorem C33_plain_items (p : Payload) (h : ∀ d ∈ p.data, PlainItem d) (path pre post : J) :
    ∀ d ∈ (append p path pre post).data, PlainItem d := by
  obtain ⟨d0, h1, _, _, h2, _⟩ := C33_append p path pre post
  rw [h1]
  intro d hd
  rcases List.mem_append.1 hd with hd | hd
  · exact h d hd
  · rw [List.mem_singleton] at hd; subst hd; exact h2

/-! ## Examples and counterexamples -/

def sampleP : Payload :=
  append (append ⟨.str (lit "urn:t"), .str (lit "a/é😀"), []⟩ (.str (lit "/x")) (.int (-12)) .null) (.str (lit "/y"))
    (.arr [.bool true, .flt ⟨false, [49], some [53], none⟩]) (.obj [(lit "k", .null)])

theorem sampleP_ok : PayloadOk sampleP := by
  refine ⟨?_, ?_, fun d hd => ?_⟩
  · show J.Wf (.str (lit "urn:t"))
    rw [J.Wf]; exact lit_wf _ (by decide)
  · show J.Wf (.str (lit "a/é😀"))
    rw [J.Wf]
    exact noHigh_wf _ (by decide)
  · have hn : Num.Wf ⟨false, [49], some [53], none⟩ := by
      constructor
      · exact ⟨by decide, by decide⟩
      · exact .inr (by decide)
      · intro f hf; injection hf with hf; subst hf; exact ⟨by decide, by decide⟩
      · intro e g d h; cases h
      · exact .inl (by decide)
    simp only [sampleP, append, List.nil_append, List.singleton_append, List.mem_cons, List.mem_nil_iff, or_false] at hd
    rcases hd with rfl | rfl
    · refine ⟨?_, by decide +kernel⟩
      simp only [J.Wf, membersWf, List.append_nil]
      exact ⟨by decide, lit_wf _ (by decide), lit_wf _ (by decide), lit_wf _ (by decide), trivial, trivial⟩
    · refine ⟨?_, by decide +kernel⟩
      simp only [List.singleton_append, J.Wf, membersWf, elemsWf]
      exact ⟨by decide, lit_wf _ (by decide), lit_wf _ (by decide), lit_wf _ (by decide), ⟨trivial, hn, trivial⟩,
        lit_wf _ (by decide), ⟨by decide, lit_wf _ (by decide), trivial, trivial⟩, trivial⟩

example : ∃ r, setData ⟨.null, .null, []⟩ (.bytes (getData sampleP)) = (r, .ok ()) ∧ r.data.length = 2 := by
  obtain ⟨r, h, _, _, h2, _⟩ := C33_round_trip sampleP ⟨.null, .null, []⟩ sampleP_ok
  exact ⟨r, h, h2⟩

/-- **C33 fails** for a string with a high surrogate directly before a low one: it comes back as one character. -/
theorem C33_surrogate_counterexample :
    (match (setData ⟨.null, .null, []⟩ (.bytes (getData ⟨.str [], .str [0xD83D, 0xDE00], []⟩))).1.topic with
      | .str s => some s | _ => none) = some [0x1F600] := by decide +kernel

/-- A refused item comes too late: the type, the topic and the items before it have been replaced. -/
theorem C33_half_done_counterexample :
    (match setData ⟨.null, .null, [[]]⟩ (.str (lit "{\"type\": \"t\", \"topic\": \"o\", \"data\": [{\"path\": \"p\"}, {}]}")) with
      | (⟨.str t, .str o, ds⟩, .error e) => some (t, o, ds.length, e)
      | _ => none) = some (lit "t", lit "o", 1, EErr.key) := by decide +kernel

/-- Keys of an item other than path, pre and post are written but not read back. -/
theorem C33_extra_key_lost :
    (match setData ⟨.null, .null, []⟩ (.bytes (getData ⟨.null, .null, [[(lit "path", .null), (lit "note", .null)]]⟩)) with
      | (⟨_, _, ds⟩, .ok _) => some (ds.map (fun d => d.map Prod.fst))
      | _ => none) = some [[lit "path"]] := by decide +kernel

/-- Setting `pre` to `None` on an item without one raises `KeyError`, setting `post` does not. -/
theorem C33_pre_none_counterexample :
    (match setPre [(lit "path", .null)] .null with | .error e => some e | .ok _ => none) = some .key ∧
    (match setPost [(lit "path", .null)] .null with | .error _ => none | .ok d => some (d.map Prod.fst)) =
      some [lit "path"] := by decide +kernel

end Verif.Props

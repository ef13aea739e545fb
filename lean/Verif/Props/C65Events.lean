import Verif.Hypothesis.Events
import Verif.Props.C33

/-!
# C65, the contents of event grains
-/

namespace Verif.Hyp.Events

open Verif Verif.Json Verif.Event Verif.Props

/-! ## Specification -/

/-- A value is as asked for: the value given, one of the strategy given, or for `None` one of the documented range. -/
def Asked (documented : J → Prop) (v : J) : Param → Prop
  | .none => documented v
  | .donotset => False
  | .strategy s => s v
  | .value x => v = x

/-- A dictionary with a path, a pre and a post. -/
def Item (d path pre post : J) : Prop :=
  ∃ l : List (Str × J), d = .obj l ∧ lookup l (lit "path") = some path ∧ lookup l (lit "pre") = some pre ∧ lookup l (lit "post") = some post

/-- A list of such dictionaries. -/
def Items (v : J) : Prop := ∃ l, v = .arr l ∧ ∀ d ∈ l, ∃ path pre post, Item d path pre post

/-- A reasonable argument for `event_data`: `None`, such a list or a strategy for such lists. -/
def Suits (data : Param) : Prop := ∀ v, Asked eventData v data → Items v

/-- What the documentation of the strategy says the values of an item are: a number, a truth value, a fraction with a positive denominator, or a
timestamp, as seconds, a colon and less than 10⁹ nanoseconds. -/
def DocumentedValue (v : J) : Prop :=
  (∃ n : Int, v = .int n) ∨ (∃ b, v = .bool b) ∨
    (∃ n d : Int, 0 < d ∧ v = .obj [(lit "numerator", .int n), (lit "denominator", .int d)]) ∨
    ∃ s n : Nat, n < 1000000000 ∧ v = .str (dumpInt s ++ lit ":" ++ dumpInt n)

/-! ## Lemmas -/

theorem documented {v : J} (h : itemValue v) : DocumentedValue v := by
  rcases h with h | h | ⟨q, h⟩ | ⟨n, h⟩
  · exact .inl h
  · exact .inr (.inl h)
  · exact .inr (.inr (.inl ⟨q.num, q.den, by exact_mod_cast q.den_pos, h⟩))
  · refine .inr (.inr (.inr ⟨n / 1000000000, n % 1000000000, Nat.mod_lt _ (by decide), ?_⟩))
    have e : ∀ k : Nat, dumpInt k = natDigits k := by intro k; unfold dumpInt; rw [if_neg (by omega)]; rfl
    rw [h, e, e, List.append_assoc]
    rfl


theorem asked_of_drawn {d : Strategy} {p : Param} (hp : p ≠ .donotset) {v : Option J} (h : Drawn (strategyFor d p) v) :
    ∃ x, v = some x ∧ Asked d x p := by
  cases p with
  | donotset => exact absurd rfl hp
  | none => obtain ⟨x, hx, rfl⟩ := h; exact ⟨x, rfl, hx⟩
  | strategy s => obtain ⟨x, hx, rfl⟩ := h; exact ⟨x, rfl, hx⟩
  | value y => obtain ⟨x, hx, rfl⟩ := h; exact ⟨x, rfl, hx⟩

theorem index_item {d path pre post : J} (h : Item d path pre post) :
    index d "path" = .ok path ∧ index d "pre" = .ok pre ∧ index d "post" = .ok post := by
  obtain ⟨l, rfl, h1, h2, h3⟩ := h
  unfold index
  simp only [h1, h2, h3, and_self]

/-- An item of a grain for a dictionary. -/
def ItemFor (e : Datum) (d : J) : Prop :=
  ∃ path pre post, Item d path pre post ∧ PlainItem e ∧ lookup e (lit "path") = some path ∧ getOpt e (lit "pre") = pre ∧
    getOpt e (lit "post") = post

theorem fill_ok (ds : List J) (h : ∀ d ∈ ds, ∃ path pre post, Item d path pre post) (p : Payload) :
    ∃ es, fill p ds = .ok ⟨p.type, p.topic, p.data ++ es⟩ ∧ es.length = ds.length ∧
      ∀ (i : Nat) e d, es[i]? = some e → ds[i]? = some d → ItemFor e d := by
  induction ds generalizing p with
  | nil => exact ⟨[], by rw [List.append_nil]; rfl, rfl, fun i e d he => by simp at he⟩
  | cons d ds ih =>
    obtain ⟨path, pre, post, hi⟩ := h d (List.mem_cons_self ..)
    obtain ⟨e, h1, h2, h3, h4, h5, h6, h7⟩ := C33_append p path pre post
    obtain ⟨es, g1, g2, g3⟩ := ih (fun x hx => h x (List.mem_cons_of_mem _ hx)) (append p path pre post)
    obtain ⟨i1, i2, i3⟩ := index_item hi
    refine ⟨e :: es, ?_, by simp [g2], ?_⟩
    · unfold fill
      simp only [i1, i2, i3]
      rw [g1, h1, h2, h3, List.append_assoc]
      rfl
    · intro i e' d' he hd
      cases i with
      | zero =>
        simp only [List.getElem?_cons_zero, Option.some.injEq] at he hd
        subst he hd
        exact ⟨path, pre, post, hi, h4, h5, h6, h7⟩
      | succ i =>
        simp only [List.getElem?_cons_succ] at he hd
        exact g3 i e' d' he hd

theorem default_items {v : J} (h : eventData v) : Items v := by
  obtain ⟨l, rfl, hl⟩ := h
  refine ⟨l, rfl, fun d hd => ?_⟩
  obtain ⟨path, pre, post, rfl, -⟩ := hl d hd
  refine ⟨path, pre, post, _, rfl, ?_, ?_, ?_⟩
  · rw [lookup_cons, if_pos rfl]
  · rw [lookup_cons, if_neg (by decide), lookup_cons, if_pos rfl]
  · rw [lookup_cons, if_neg (by decide), lookup_cons, if_neg (by decide), lookup_cons, if_pos rfl]

theorem wordChar_lt {c : Nat} (h : wordChar c = true) : c < 128 := by
  unfold wordChar at h
  simp only [Bool.or_eq_true, Bool.and_eq_true, decide_eq_true_eq, beq_iff_eq] at h
  omega

theorem lowChar_lt {c : Nat} (h : lowChar c = true) : c < 128 := by
  unfold lowChar at h
  simp only [Bool.or_eq_true, Bool.and_eq_true, decide_eq_true_eq] at h
  omega

theorem pathText_lt {t : Str} (h : pathText t) : ∀ c ∈ t, c < 128 := by
  obtain ⟨a, b, rfl, -, ha, hb⟩ := h
  intro c hc
  rcases List.mem_append.1 hc with hc | hc
  · exact wordChar_lt (ha c hc)
  · have := hb c hc
    simp only [Bool.or_eq_true, beq_iff_eq] at this
    rcases this with h | h
    · exact wordChar_lt h
    · omega

theorem lit_lt : (∀ c ∈ lit "urn:", c < 128) ∧ (∀ c ∈ lit ":", c < 128) ∧ ∀ c ∈ lit "()+,-.:=@;$_!*'%/?#", c < 128 := by decide

theorem urnText_lt {t : Str} (h : urnText t) : ∀ c ∈ t, c < 128 := by
  obtain ⟨a, b, c, rfl, ha, -, hb, -, hc⟩ := h
  intro x hx
  simp only [List.mem_append, List.mem_cons] at hx
  rcases hx with ((h | rfl | h) | h) | h
  · exact lit_lt.1 x h
  · exact lowChar_lt ha
  · have := hb x h
    simp only [Bool.or_eq_true, beq_iff_eq] at this
    rcases this with h | h
    · exact lowChar_lt h
    · omega
  · exact lit_lt.2.1 x h
  · have := hc x h
    rw [Bool.or_eq_true, List.contains_iff_mem] at this
    rcases this with h | h
    · exact lowChar_lt h
    · exact lit_lt.2.2 x h

theorem str_wf {s : Str} (h : ∀ c ∈ s, c < 128) : (J.str s).Wf := by rw [J.Wf]; exact lit_wf s h

theorem regex_wf {P : Str → Prop} (hP : ∀ t, P t → ∀ c ∈ t, c < 128) {v : J} (h : fromRegex P v) : v.Wf := by
  obtain ⟨t, ht, rfl | rfl⟩ := h
  · exact str_wf (hP t ht)
  · refine str_wf (fun c hc => ?_)
    rcases List.mem_append.1 hc with hc | hc
    · exact hP t ht c hc
    · simp only [List.mem_singleton] at hc; omega

theorem digits_lt (n : Nat) : ∀ c ∈ natDigits n, c < 128 := by
  intro c hc
  have := (natDigits_spec n).1.2 c hc
  unfold isDigit at this
  simp only [Bool.and_eq_true, decide_eq_true_eq] at this
  omega

theorem itemValue_wf {v : J} (h : itemValue v) : v.Wf ∧ v ≠ .null := by
  rcases h with ⟨n, rfl⟩ | ⟨b, rfl⟩ | ⟨q, rfl⟩ | ⟨n, rfl⟩
  · exact ⟨by rw [J.Wf]; exact trivial; all_goals simp, by simp⟩
  · exact ⟨by rw [J.Wf]; exact trivial; all_goals simp, by simp⟩
  · refine ⟨?_, by simp⟩
    rw [J.Wf, membersWf, membersWf, membersWf]
    exact ⟨(by decide : [lit "numerator", lit "denominator"].Nodup), lit_wf _ (by decide), by simp [J.Wf], lit_wf _ (by decide), by simp [J.Wf], trivial⟩
  · refine ⟨str_wf (fun c hc => ?_), by simp⟩
    rcases List.mem_append.1 hc with hc | hc
    · exact digits_lt _ c hc
    · rcases List.mem_cons.1 hc with rfl | hc
      · decide
      · exact digits_lt _ c hc

theorem fill_missing (ds : List J) (i : Nat) (l : List (Str × J)) (hd : ds[i]? = some (.obj l))
    (hm : lookup l (lit "path") = none ∨ lookup l (lit "pre") = none ∨ lookup l (lit "post") = none) (p : Payload) :
    ∃ e, fill p ds = .error e := by
  induction ds generalizing p i with
  | nil => simp at hd
  | cons d ds ih =>
    unfold fill
    cases i with
    | zero =>
      simp only [List.getElem?_cons_zero, Option.some.injEq] at hd
      subst hd
      have hx : ∀ k : String, lookup l (lit k) = none → index (.obj l) k = .error .key := by
        intro k hk; unfold index; simp only [hk]
      rcases hm with h | h | h
      · rw [hx _ h]; exact ⟨_, rfl⟩
      · rw [hx _ h]
        cases index (.obj l) "path" with
        | error e => exact ⟨_, rfl⟩
        | ok a => exact ⟨_, rfl⟩
      · rw [hx _ h]
        cases index (.obj l) "path" with
        | error e => exact ⟨_, rfl⟩
        | ok a =>
          cases index (.obj l) "pre" with
          | error e => exact ⟨_, rfl⟩
          | ok b => exact ⟨_, rfl⟩
    | succ i =>
      simp only [List.getElem?_cons_succ] at hd
      split
      · exact ih i hd _
      all_goals exact ⟨_, rfl⟩

end Verif.Hyp.Events

namespace Verif.Props

open Verif Verif.Json Verif.Event Verif.Hyp.Events

/-- **C65**, the contents of event grains: for reasonable arguments drawing from `event_grains` raises nothing. The type and the
topic are as asked for, and the items are, one for one, those of a list that is as asked for, with the same path, pre and post. -/
theorem C65_event_items (type topic data : Param) (h1 : type ≠ .donotset) (h2 : topic ≠ .donotset) (h3 : data ≠ .donotset)
    (hs : Suits data) (r : Except EErr Payload) (hr : eventGrains type topic data r) :
    ∃ p l, r = .ok p ∧ Asked (fromRegex urnText) p.type type ∧ Asked (fromRegex pathText) p.topic topic ∧
      Asked eventData (.arr l) data ∧ p.data.length = l.length ∧
      ∀ (i : Nat) e d, p.data[i]? = some e → l[i]? = some d → ItemFor e d := by
  obtain ⟨t, o, d, ht, ho, hd, rfl⟩ := hr
  obtain ⟨t, rfl, ht'⟩ := asked_of_drawn h1 ht
  obtain ⟨o, rfl, ho'⟩ := asked_of_drawn h2 ho
  obtain ⟨d, rfl, hd'⟩ := asked_of_drawn h3 hd
  obtain ⟨l, rfl, hl⟩ := hs d hd'
  obtain ⟨es, g1, g2, g3⟩ := fill_ok l hl ⟨t, o, []⟩
  exact ⟨⟨t, o, es⟩, l, g1, ht', ho', hd', g2, g3⟩

/-- **C65**: by default the items drawn have a path, a pre and a post of the documented kinds, neither of them `None`, and the grain
can be written and read: assigning its data to any other event grain gives that the same type, topic and items. -/
theorem C65_event_default (r : Except EErr Payload) (hr : eventGrains .none .none .none r) :
    ∃ p, r = .ok p ∧ fromRegex urnText p.type ∧ fromRegex pathText p.topic ∧
      (∀ e ∈ p.data, ∃ path pre post, e = [(lit "path", path), (lit "pre", pre), (lit "post", post)] ∧ fromRegex pathText path ∧
        DocumentedValue pre ∧ DocumentedValue post) ∧
      ∀ q, setData q (.bytes (getData p)) = (p, .ok ()) := by
  obtain ⟨p, l, rfl, ht, ho, ⟨l', hll, hl⟩, hn, hi⟩ :=
    C65_event_items .none .none .none (by simp) (by simp) (by simp) (fun v hv => default_items hv) r hr
  injection hll with hll
  subst hll
  have key : ∀ e ∈ p.data, ∃ path pre post, e = [(lit "path", path), (lit "pre", pre), (lit "post", post)] ∧
      fromRegex pathText path ∧ itemValue pre ∧ itemValue post := by
    intro e he
    obtain ⟨i, hi1, hi2⟩ := List.mem_iff_getElem.1 he
    have hd : l[i]? = some (l[i]'(by omega)) := List.getElem?_eq_getElem (by omega)
    have hitem := hi i e _ (by rw [List.getElem?_eq_getElem hi1, hi2]) hd
    obtain ⟨path, pre, post, h1, h2, h3, h4⟩ := hl _ (List.getElem_mem (hn ▸ hi1))
    obtain ⟨path', pre', post', ⟨m, hm, m1, m2, m3⟩, ⟨x, y, z, rfl⟩, l1, l2, l3⟩ := hitem
    rw [h1] at hm
    injection hm with hm
    subst hm
    rw [lookup_cons, if_pos rfl] at m1
    rw [lookup_cons, if_neg (by decide), lookup_cons, if_pos rfl] at m2
    rw [lookup_cons, if_neg (by decide), lookup_cons, if_neg (by decide), lookup_cons, if_pos rfl] at m3
    injection m1 with m1
    injection m2 with m2
    injection m3 with m3
    subst m1 m2 m3
    obtain ⟨u1, u2, u3⟩ := lookup_usual x y z
    rw [u1] at l1
    injection l1 with l1
    unfold getOpt at l2 l3
    rw [u2] at l2
    rw [u3] at l3
    have hy : y = some pre := by
      cases y with
      | none => exact absurd l2.symm (itemValue_wf h3).2
      | some y => exact congrArg some l2
    have hz : z = some post := by
      cases z with
      | none => exact absurd l3.symm (itemValue_wf h4).2
      | some z => exact congrArg some l3
    subst hy hz l1
    exact ⟨x, pre, post, rfl, h2, h3, h4⟩
  refine ⟨p, rfl, ht, ho, fun e he => ?_, fun q => C33_round_trip_eq p q ⟨regex_wf (fun t => urnText_lt) ht, regex_wf (fun t => pathText_lt) ho, ?_⟩ ?_⟩
  · obtain ⟨path, pre, post, h1, h2, h3, h4⟩ := key e he
    exact ⟨path, pre, post, h1, h2, documented h3, documented h4⟩
  · intro e he
    obtain ⟨path, pre, post, rfl, h1, h2, h3⟩ := key e he
    refine ⟨?_, by rw [lookup_cons, if_pos rfl]; rfl⟩
    rw [J.Wf, membersWf, membersWf, membersWf, membersWf]
    exact ⟨(by decide : [lit "path", lit "pre", lit "post"].Nodup), lit_wf _ (by decide), regex_wf (fun t => pathText_lt) h1,
      lit_wf _ (by decide), (itemValue_wf h2).1, lit_wf _ (by decide), (itemValue_wf h3).1, trivial⟩
  · intro e he
    obtain ⟨path, pre, post, rfl, -⟩ := key e he
    exact ⟨path, some pre, some post, rfl⟩

/-- **C65 is violated by items without a pre or a post**, which event grains have when these are `None`: given such a list, whatever
else is in it, every attempt to draw a grain ends with an exception. -/
theorem C65_event_missing_counterexample (type topic : Param) (l : List J) (i : Nat) (d : List (Str × J)) (hd : l[i]? = some (.obj d))
    (hm : lookup d (lit "path") = none ∨ lookup d (lit "pre") = none ∨ lookup d (lit "post") = none)
    (r : Except EErr Payload) (hr : eventGrains type topic (.value (.arr l)) r) : ∃ e, r = .error e := by
  obtain ⟨t, o, x, -, -, ⟨x, rfl, rfl⟩, rfl⟩ := hr
  cases t with
  | none => exact ⟨_, rfl⟩
  | some t =>
    cases o with
    | none => exact ⟨_, rfl⟩
    | some o => exact fill_missing l i d hd hm _

/-- **C65 is violated by `DONOTSET`** for the contents: the function that makes the grain needs all three. -/
theorem C65_event_donotset_counterexample (type topic data : Param) (h : type = .donotset ∨ topic = .donotset ∨ data = .donotset)
    (r : Except EErr Payload) (hr : eventGrains type topic data r) : r = .error .type := by
  obtain ⟨t, o, d, ht, ho, hd, rfl⟩ := hr
  rcases h with rfl | rfl | rfl
  · cases (show t = none from ht); rfl
  · cases (show o = none from ho); cases t <;> rfl
  · cases (show d = none from hd); cases t <;> cases o <;> rfl

theorem setData_zeros (p : Payload) (n : Nat) : setData p (.bytes (List.replicate n 0)) = (p, .error .value) := by
  have h : decodeText (List.replicate n 0) = some (List.replicate n 0) := by
    have := decode_encode_ascii (List.replicate n 0) (fun c hc => by rw [(List.mem_replicate.1 hc).2]; decide)
    rw [← this]
    congr 1
    unfold encodeText
    rw [List.map_replicate]
    clear this
    induction n with
    | zero => rfl
    | succ n ih =>
      rw [List.replicate_succ, List.replicate_succ, ih]
      rfl
  have hl : loads (List.replicate n 0) = none := by
    cases n with
    | zero => rfl
    | succ n => rfl
  unfold setData
  simp only [h, hl]

/-- **C65 is violated by `grains_from_template_with_data` for event grains**: the bytes drawn for them are arbitrary and need not be
the JSON that their data are, so for every template some draws end with a `ValueError`. -/
theorem C65_event_template_counterexample (p : Payload) : fromTemplate p (p, .error .value) :=
  ⟨List.replicate (getData p).length 0, List.length_replicate, (setData_zeros p _).symm⟩

/-- **C65 is violated by the topics**: the expression for them allows no line feed, but ends in `$`, so that a line feed may follow. -/
theorem C65_event_newline_counterexample (t : Str) (ht : pathText t) (type data : Param) (hs : Suits data) (x v : J)
    (hx : Asked (fromRegex urnText) x type) (hv : Asked eventData v data) :
    ∃ p, eventGrains type .none data (.ok p) ∧ p.topic = .str (t ++ [10]) := by
  have hdr : ∀ {d : Strategy} {y : J} {q : Param}, Asked d y q → Drawn (strategyFor d q) (some y) := by
    intro d y q h
    cases q with
    | none => exact ⟨y, h, rfl⟩
    | donotset => exact h.elim
    | strategy s => exact ⟨y, h, rfl⟩
    | value z => exact ⟨y, h, rfl⟩
  obtain ⟨l, rfl, hl⟩ := hs v hv
  obtain ⟨es, g1, -⟩ := fill_ok l hl ⟨x, .str (t ++ [10]), []⟩
  exact ⟨_, ⟨some x, some (.str (t ++ [10])), some (.arr l), hdr hx, ⟨_, ⟨t, ht, .inr rfl⟩, rfl⟩, hdr hv, g1.symm⟩, rfl⟩

/-- The hypotheses are met: a grain with two items. -/
example : ∃ p, eventGrains .none (.value (.str (lit "a"))) (.value (.arr [
    .obj [(lit "path", .str (lit "x/y")), (lit "pre", .null), (lit "post", .int 2)],
    .obj [(lit "post", .bool true), (lit "path", .str (lit "z")), (lit "pre", .int 1)]])) (.ok p) ∧ p.data.length = 2 :=
  ⟨_, ⟨some (.str (lit "urn:x:a")), _, _,
    ⟨_, ⟨lit "urn:x:a", ⟨120, [], lit "a", rfl, rfl, by decide, by decide, by decide, by decide⟩, .inl rfl⟩, rfl⟩,
    ⟨_, rfl, rfl⟩, ⟨_, rfl, rfl⟩, rfl⟩, rfl⟩

example : ∃ p, eventGrains .none .none .none (.ok p) ∧ p.data.length = 1 :=
  ⟨_, ⟨some (.str (lit "urn:x:a")), some (.str (lit "a\n")),
      some (.arr [.obj [(lit "path", .str (lit "p/q")), (lit "pre", .int (-5)),
        (lit "post", .obj [(lit "numerator", .int (2 : Rat).num), (lit "denominator", .int (2 : Rat).den)])]]),
    ⟨_, ⟨lit "urn:x:a", ⟨120, [], lit "a", rfl, rfl, by decide, by decide, by decide, by decide⟩, .inl rfl⟩, rfl⟩,
    ⟨_, ⟨lit "a", ⟨lit "a", [], rfl, by decide, by decide, by decide⟩, .inr rfl⟩, rfl⟩,
    ⟨_, ⟨_, rfl, by
      intro d hd
      rw [List.mem_singleton] at hd
      exact ⟨_, _, _, hd, ⟨lit "p/q", ⟨lit "p", lit "/q", rfl, by decide, by decide, by decide⟩, .inl rfl⟩, .inl ⟨_, rfl⟩,
        .inr (.inr (.inl ⟨2, rfl⟩))⟩⟩, rfl⟩, rfl⟩, rfl⟩

example : ∃ p, eventGrains .none .none (.value (.arr [])) (.ok p) ∧ p.topic = .str (lit "a/b" ++ [10]) :=
  C65_event_newline_counterexample (lit "a/b") ⟨lit "a", lit "/b", rfl, by decide, by decide, by decide⟩ _ _
    (fun v hv => ⟨[], hv, fun _ h => by cases h⟩) (.str (lit "urn:x:a")) (.arr [])
    ⟨lit "urn:x:a", ⟨120, [], lit "a", rfl, rfl, by decide, by decide, by decide, by decide⟩, .inl rfl⟩ rfl

end Verif.Props

import Verif.Gsf.DocLemmas

/-!
# What the encoder writes is what the format documents describe
-/

namespace Verif.Gsf.Doc

open Verif

theorem then_any {P : Fmt} {bs} (h : P bs) : (P ⨾ Anything) bs := ⟨bs, [], by simp, h, trivial⟩

/-! ## Data types -/

theorem unsigned_enc {n v : Nat} (h : v < 256 ^ n) : Unsigned n v (encodeUint v n) :=
  ⟨encodeUint_length _ _, by rw [value_eq, uintOf_encodeUint_nat v n h]⟩

theorem u4 {v : Nat} (h : v < 2 ^ 32) : Unsigned 4 v (encodeUint v 4) := unsigned_enc (by omega)
theorem u2 {v : Nat} (h : v < 2 ^ 16) : Unsigned 2 v (encodeUint v 2) := unsigned_enc (by omega)

theorem signed_enc {n : Nat} (hn : 0 < n) {v : Int} (h1 : -(2 ^ (8 * n - 1) : Nat) ≤ v)
    (h2 : v < (2 ^ (8 * n - 1) : Nat)) : Signed n v (encodeSint v n) := by
  have hp := pow256_int n
  have hpow : 256 ^ n = 2 ^ (8 * n) := by
    rw [show (256 : Nat) = 2 ^ 8 by rfl, ← Nat.pow_mul]
  have hsplit : 2 ^ (8 * n) = 2 * 2 ^ (8 * n - 1) := by
    rw [← Nat.pow_succ']
    congr 1
    omega
  refine ⟨encodeSint_length _ _, ?_⟩
  have hnn : 0 ≤ (if v < 0 then v + (256 : Int) ^ n else v) := by
    rw [hp]; split <;> omega
  obtain ⟨r, hr⟩ := Int.eq_ofNat_of_zero_le hnn
  have hlt : r < 256 ^ n := by rw [hp] at hr; split at hr <;> omega
  have hv : value (encodeSint v n) = r := by
    unfold encodeSint
    rw [hr, value_eq]
    exact uintOf_encodeUint_nat r n hlt
  rw [hv, hp]
  rw [hp] at hr
  split at hr <;> split <;> omega

theorem boolean_enc (b : Bool) : Boolean b (encodeBool b) := by
  cases b
  · exact ⟨0, unsigned_enc (by omega), rfl⟩
  · exact ⟨1, unsigned_enc (by omega), rfl⟩

theorem rational_raw {n d : Nat} (hn : n < 2 ^ 32) (hd : d < 2 ^ 32) :
    Rational (canonRate n d) (encodeUint n 4 ++ encodeUint d 4) := by
  refine ⟨n, d, ⟨_, _, rfl, u4 hn, u4 hd⟩, ?_⟩
  unfold canonRate
  by_cases hz : n = 0 ∨ d = 0
  · rw [if_pos hz, if_pos hz]
  · rw [if_neg hz, if_neg hz, Rat.mkRat_eq_div]; rfl

theorem canonRate_self {q : Rat} (h : 0 ≤ q.num) : canonRate q.num.toNat q.den = q := by
  unfold canonRate
  have hd := q.den_pos
  have e : (q.num.toNat : Int) = q.num := Int.toNat_of_nonneg h
  by_cases hz : q.num.toNat = 0
  · rw [if_pos (.inl hz)]
    have : q.num = 0 := by omega
    exact (Rat.num_eq_zero.1 this).symm
  · rw [if_neg (by omega), e, Rat.mkRat_self]

theorem rational_enc {q : Rat} (h : RatOk q) : Rational q (encodeRational q) := by
  obtain ⟨h0, h1, h2⟩ := h
  have := rational_raw (n := q.num.toNat) (d := q.den) (by omega) h2
  rw [canonRate_self h0, Int.toNat_of_nonneg h0] at this
  exact this

theorem timestamp_enc {t : Int} (h : TsOk t) : Timestamp t (encodeTs t) := by
  unfold TsOk maxTs at h
  refine ⟨decide (0 ≤ t), t.natAbs / 1000000000, t.natAbs % 1000000000,
    ⟨_, _, rfl, boolean_enc _, _, _, rfl, unsigned_enc (by omega), unsigned_enc (by omega)⟩, by omega, ?_⟩
  have := Nat.div_add_mod t.natAbs 1000000000
  by_cases hp : 0 ≤ t
  · simp only [hp, decide_true, if_true]; omega
  · simp only [hp, decide_false, Bool.false_eq_true, if_false]; omega

theorem fixString_enc {s : List Char} {n : Nat} (h : '\x00' ∉ s) (hl : (encodeUtf8 s).length ≤ n) :
    FixString true n s (padString s n) := by
  refine ⟨padString_length s n, h, ?_⟩
  unfold padString
  rw [List.take_append, List.take_of_length_le hl, List.take_replicate]
  cases hk : min (n - (encodeUtf8 s).length) n with
  | zero => left; simp
  | succ k =>
    right
    exact ⟨List.replicate k 0, by rw [List.replicate_succ], fun _ b hb => (List.mem_replicate.1 hb).2⟩

theorem varString_enc {s : List Char} (h : '\x00' ∉ s) (hl : (encodeUtf8 s).length ≤ 65535) :
    VarString true s (encodeUint (tagString s).length 2 ++ tagString s) := by
  have he : tagString s = encodeUtf8 s := List.take_of_length_le hl
  rw [he]
  exact ⟨(encodeUtf8 s).length, _, _, rfl, u2 (by omega), rfl, h, .inl rfl⟩

theorem seq_enc {R : β → Fmt} (enc : α → Bytes) (g : α → β) : ∀ (l : List α), (∀ a ∈ l, R (g a) (enc a)) →
    Seq R (l.map g) (l.flatMap enc)
  | [], _ => rfl
  | a :: l, h => ⟨enc a, l.flatMap enc, rfl, h a (by simp), seq_enc enc g l (fun b hb => h b (by simp [hb]))⟩

/-! ## Blocks -/

theorem tag_enc {t : List Char} (h1 : t.length = 4) (h2 : ∀ c ∈ t, 0 < c.toNat ∧ c.toNat < 128) :
    Tag t (tagBytes t) := by
  refine ⟨h1, h2, ?_⟩
  exact (tag_bytes (t := t) ⟨h1, h2, rfl⟩).symm

/-- The tags of the format are four ASCII characters. -/
def Known (t : List Char) : Prop := t.length = 4 ∧ (∀ c ∈ t, 0 < c.toNat ∧ c.toNat < 128)

instance (t) : Decidable (Known t) := by unfold Known; infer_instance

theorem known {t : List Char} (h : Known t := by decide) : Known t := h

theorem block_enc {t : List Char} {x : Bytes} (h : (blk (t, x)).Ok t) (hk : Known t) :
    IsBlock (t, x) (blk (t, x)).bytes :=
  ⟨h.notSig, _, _, rfl, tag_enc hk.1 hk.2, _, _, rfl, u4 h.sizeLt, rfl⟩

theorem blocks_enc {C : List (List Char × Bytes) → Prop} {l : List (List Char × Bytes)} (hC : C l)
    (h : ∀ x ∈ l, (blk x).Ok x.1 ∧ Known x.1) : Blocks C (blksBytes (l.map blk)) := by
  refine ⟨l, hC, ?_⟩
  clear hC
  induction l with
  | nil => rfl
  | cons x l ih =>
    have hx := h x (by simp)
    exact ⟨_, _, rfl, block_enc hx.1 hx.2, ih (fun y hy => h y (by simp [hy]))⟩

theorem each_append {t : List Char} {R : α → Fmt} {l l' vs vs'} (h1 : Each t R l vs) (h2 : Each t R l' vs') :
    Each t R (l ++ l') (vs ++ vs') := by
  induction l generalizing vs with
  | nil => obtain rfl : vs = [] := h1; exact h2
  | cons x l ih =>
    rw [List.cons_append, Each]
    by_cases ht : x.1 = t
    · obtain ⟨v, vs1, rfl, hR, h⟩ := each_hit h1 ht
      rw [if_pos ht]
      exact ⟨v, vs1 ++ vs', rfl, hR, ih h⟩
    · rw [if_neg ht]
      exact ih (each_miss h1 ht)

theorem each_map {t : List Char} {R : β → Fmt} (pair : α → List Char × Bytes) (g : α → β) : ∀ (l : List α),
    (∀ a ∈ l, (pair a).1 = t ∧ R (g a) (pair a).2) → Each t R (l.map pair) (l.map g)
  | [], _ => rfl
  | a :: l, h => by
    rw [List.map_cons, Each, if_pos (h a (by simp)).1]
    exact ⟨g a, l.map g, rfl, (h a (by simp)).2, each_map pair g l (fun b hb => h b (by simp [hb]))⟩

theorem each_none {t : List Char} {R : α → Fmt} : ∀ {l : List (List Char × Bytes)}, (∀ x ∈ l, x.1 ≠ t) → Each t R l []
  | [], _ => rfl
  | x :: l, h => by
    rw [Each, if_neg (h x (by simp))]
    exact each_none (fun y hy => h y (by simp [hy]))

theorem each_other {t u : List Char} {R : β → Fmt} (pair : α → List Char × Bytes) (h : ∀ a, (pair a).1 = u)
    {l : List α} (hu : u ≠ t := by decide) : Each t R (l.map pair) [] := by
  apply each_none
  intro x hx
  obtain ⟨a, _, rfl⟩ := List.mem_map.1 hx
  rw [h a]
  exact hu

theorem each_one {t : List Char} {R : α → Fmt} {x : Bytes} {v : α} (h : R v x) : Each t R [(t, x)] [v] := by
  rw [Each, if_pos rfl]
  exact ⟨v, [], rfl, h, rfl⟩

/-! ## The head -/

/-- No NUL characters in the strings of the head. -/
def plainTag (t : List Char × List Char) : Prop := '\x00' ∉ t.1 ∧ '\x00' ∉ t.2

instance (t) : Decidable (plainTag t) := by unfold plainTag; infer_instance

def tagPair (t : List Char × List Char) : List Char × Bytes := (tTag, (tagBlk t).body)

theorem tag_pair {t : List Char × List Char} (h : TagOk t) (hp : plainTag t) : IsTag true t (tagPair t).2 := by
  have := (⟨_, _, rfl, varString_enc hp.1 h.1.2, varString_enc hp.2 h.2.2⟩ :
    (VarString true t.1 ⨾ VarString true t.2) (tagPair t).2)
  obtain ⟨a, b, e, ha, hb⟩ := this
  exact ⟨a, b, e, ha, then_any hb⟩

def flowPair (f : FlowIn) : List Char × Bytes := (tFlow, (flowBlk f).body)

theorem flow_pair {f : FlowIn} (h : f.Ok) (hp : '\x00' ∉ f.format) : IsFlow true f.toFlow (flowPair f).2 := by
  obtain ⟨⟨h1, h2⟩, h3, h4, h5, h6⟩ := h
  obtain ⟨d, hd⟩ := Option.isSome_iff_exists.1 h5
  have e : encodeUtf8 f.toFlow.data = f.data := by
    simp only [FlowIn.toFlow, hd, Option.getD_some]
    exact encodeUtf8_of_decodeUtf8 f.data d hd
  refine ⟨_, _, rfl, ⟨h1, rfl⟩, _, _, rfl, ⟨h2, rfl⟩, _, _, rfl, fixString_enc hp h4, then_any ?_⟩
  rw [e]
  exact ⟨_, _, rfl, u4 (by omega), rfl⟩

/-- No NUL characters in the strings of a segment. -/
def plainSegm (sg : SegmIn) : Prop := (∀ f ∈ sg.flow, '\x00' ∉ f.format) ∧ ∀ t ∈ sg.tags, plainTag t

instance (sg) : Decidable (plainSegm sg) := by unfold plainSegm; infer_instance

def segmPair (sg : SegmIn) : List Char × Bytes := (tSegm, (segmBlk sg).body)

theorem segm_pair {sg : SegmIn} (h : sg.Ok) (hp : plainSegm sg) : IsSegm true sg.toSegm (segmPair sg).2 := by
  obtain ⟨h1, h2, h3, h4, h5⟩ := h
  refine ⟨_, _, rfl, u2 h2, _, _, rfl, ⟨h1, rfl⟩, _, _, rfl,
    signed_enc (v := sg.count) (by omega) (by simp; omega) (by simp; omega), ?_⟩
  have e : Verif.Gsf.segmKids sg = (sg.flow.toList.map flowPair ++ sg.tags.map tagPair).map blk := by
    simp only [List.map_append, List.map_map]
    rfl
  rw [e]
  apply blocks_enc
  · constructor
    · have := each_append (t := tFlow) (R := IsFlow true) (l' := sg.tags.map tagPair) (vs' := [])
        (each_map flowPair FlowIn.toFlow sg.flow.toList (fun f hf => ⟨rfl, by
          have hf := Option.mem_toList.1 hf
          exact flow_pair (h4 f hf) (hp.1 f hf)⟩)) (each_other tagPair (fun _ => rfl))
      rw [List.append_nil] at this
      unfold AtMostOne
      have e2 : sg.toSegm.flow.toList = sg.flow.toList.map FlowIn.toFlow := by
        simp only [SegmIn.toSegm]; cases sg.flow <;> rfl
      rw [e2]
      exact this
    · have := each_append (t := tTag) (R := IsTag true) (l := sg.flow.toList.map flowPair) (vs := [])
        (each_other flowPair (fun _ => rfl))
        (each_map tagPair id sg.tags (fun t ht => ⟨rfl, tag_pair (h5 t ht) (hp.2 t ht)⟩))
      rw [List.map_id, List.nil_append] at this
      exact this
  · intro x hx
    rcases List.mem_append.1 hx with hx | hx
    · obtain ⟨f, hf, rfl⟩ := List.mem_map.1 hx
      exact ⟨flowBlk_ok (h4 f (Option.mem_toList.1 hf)), known (t := tFlow)⟩
    · obtain ⟨t, ht, rfl⟩ := List.mem_map.1 hx
      exact ⟨tagBlk_ok t, known (t := tTag)⟩

theorem sum_ge (f : α → Nat) : ∀ {l : List α} {a : α}, a ∈ l → f a ≤ (l.map f).sum
  | b :: l, a, h => by
    rw [List.map_cons, List.sum_cons]
    rcases List.mem_cons.1 h with rfl | h
    · omega
    · have := sum_ge f h; omega

/-- What a written head says. -/
def ofHead (h : Head) : DocHead := ⟨h.id, some h.created, h.segments, h.tags⟩

def plainHead (h : HeadIn) : Prop := (∀ sg ∈ h.segments, plainSegm sg) ∧ ∀ t ∈ h.tags, plainTag t

instance (h) : Decidable (plainHead h) := by unfold plainHead; infer_instance

theorem date_enc {d : DateTime} (h : d.Valid) : Date (some d) (encodeSint d.year 2 ++ (encodeUint d.month 1 ++
    (encodeUint d.day 1 ++ (encodeUint d.hour 1 ++ (encodeUint d.minute 1 ++ encodeUint d.second 1))))) := by
  refine ⟨h, ?_⟩
  obtain ⟨h1, h2, h3, h4, h5, h6, h7, h8, h9⟩ := h
  have h6' : daysInMonth d.year d.month ≤ 31 := by
    unfold daysInMonth; repeat' split
    all_goals omega
  exact ⟨_, _, rfl, signed_enc (by omega) (by simp; omega) (by simp; omega), _, _, rfl, unsigned_enc (by omega),
    _, _, rfl, unsigned_enc (by omega), _, _, rfl, unsigned_enc (by omega), _, _, rfl, unsigned_enc (by omega),
    unsigned_enc (by omega)⟩

theorem head_enc {h : HeadIn} (w : h.Ok) (hp : plainHead h) :
    IsHead true (ofHead h.toHead) (headBlk h).body := by
  have hd := date_enc w.2.1
  have hs := w.2.2.2.2
  unfold headSize at hs
  have key : (Uuid h.id ⨾ Date (some h.created) ⨾ Blocks (fun l => Each tSegm (IsSegm true) l h.toHead.segments ∧
      Each tTag (IsTag true) l h.toHead.tags)) (h.id ++ ((encodeSint h.created.year 2 ++
      (encodeUint h.created.month 1 ++ (encodeUint h.created.day 1 ++ (encodeUint h.created.hour 1 ++
      (encodeUint h.created.minute 1 ++ encodeUint h.created.second 1))))) ++ blksBytes (Verif.Gsf.headKids h))) := by
    refine ⟨_, _, rfl, ⟨w.1, rfl⟩, _, _, rfl, hd, ?_⟩
    have e : Verif.Gsf.headKids h = (h.segments.map segmPair ++ h.tags.map tagPair).map blk := by
      simp only [List.map_append, List.map_map]
      rfl
    rw [e]
    apply blocks_enc
    · constructor
      · have := each_append (t := tSegm) (R := IsSegm true) (l' := h.tags.map tagPair) (vs' := [])
          (each_map segmPair SegmIn.toSegm h.segments
            (fun sg hs => ⟨rfl, segm_pair (w.2.2.1 sg hs) (hp.1 sg hs)⟩)) (each_other tagPair (fun _ => rfl))
        rw [List.append_nil] at this
        exact this
      · have := each_append (t := tTag) (R := IsTag true) (l := h.segments.map segmPair) (vs := [])
          (each_other segmPair (fun _ => rfl))
          (each_map tagPair id h.tags (fun t ht => ⟨rfl, tag_pair (w.2.2.2.1 t ht) (hp.2 t ht)⟩))
        rw [List.map_id, List.nil_append] at this
        exact this
    · intro x hx
      rcases List.mem_append.1 hx with hx | hx
      · obtain ⟨sg, hsg, rfl⟩ := List.mem_map.1 hx
        refine ⟨?_, known (t := tSegm)⟩
        have hsz := segmBlk_size sg (w.2.2.1 sg hsg).wf
        have hle := sum_ge segmBlockSize hsg
        exact mkBlk_ok (t := tSegm) tc tne (show (segmBlk sg).size < 2 ^ 32 by omega)
      · obtain ⟨t, ht, rfl⟩ := List.mem_map.1 hx
        exact ⟨tagBlk_ok t, known (t := tTag)⟩
  have e : (headBlk h).body = h.id ++ ((encodeSint h.created.year 2 ++
      (encodeUint h.created.month 1 ++ (encodeUint h.created.day 1 ++ (encodeUint h.created.hour 1 ++
      (encodeUint h.created.minute 1 ++ encodeUint h.created.second 1))))) ++ blksBytes (Verif.Gsf.headKids h)) := by
    unfold headBlk mkBlk headFixed
    simp only [List.append_assoc]
  rw [e]
  exact key

/-! ## Grains -/

theorem counted_enc {R : β → Fmt} (enc : α → Bytes) (g : α → β) {l : List α} (hl : l.length < 2 ^ 16)
    (h : ∀ a ∈ l, R (g a) (enc a)) : Counted R (l.map g) (encodeUint l.length 2 ++ l.flatMap enc) :=
  ⟨_, _, rfl, by rw [List.length_map]; exact u2 hl, seq_enc enc g l h⟩

theorem canonRate_nonneg (n d : Nat) : 0 ≤ (canonRate n d).num := by
  unfold canonRate
  by_cases hz : n = 0 ∨ d = 0
  · rw [if_pos hz]; decide
  · rw [if_neg hz, Rat.num_mkRat]
    split
    · omega
    · apply Int.ediv_nonneg <;> omega

theorem label_enc {l : TimeLabel} (h : l.Ok) (hp : '\x00' ∉ l.tag) : Label true l.canon (encodeTimeLabel l) := by
  obtain ⟨h1, h2, h3, h4, h5⟩ := h
  have e : encodeTimeLabel l = padString l.tag 16 ++ (encodeUint l.frames 4 ++
      ((encodeUint l.rateNum 4 ++ encodeUint l.rateDen 4) ++ encodeBool l.drop)) := by
    simp [encodeTimeLabel, encodeBool]
  rw [e]
  refine ⟨canonRate l.rateNum l.rateDen, (Int.toNat_of_nonneg (canonRate_nonneg _ _)).symm, rfl, _, _, rfl,
    fixString_enc hp h2, _, _, rfl, u4 h3, _, _, rfl, rational_raw h4 h5, boolean_enc _⟩

theorem tils_enc {ls : List TimeLabel} (hl : ls.length < 2 ^ 16) (h : ∀ l ∈ ls, l.Ok ∧ '\x00' ∉ l.tag) :
    IsTils true (ls.map TimeLabel.canon) (tilsBlk ls).body :=
  then_any (counted_enc encodeTimeLabel TimeLabel.canon hl (fun l hl => label_enc (h l hl).1 (h l hl).2))

theorem offsets_canon : ∀ (n : Nat) (cs : List Component), Offsets n (canonComps n cs)
  | _, [] => trivial
  | n, c :: cs => ⟨rfl, offsets_canon (n + c.length) cs⟩

theorem comps_seq : ∀ (n : Nat) (cs : List Component), (∀ c ∈ cs, c.Ok) →
    Seq (fun (c : Component) => Unsigned 4 c.width ⨾ Unsigned 4 c.height ⨾ Unsigned 4 c.stride ⨾
      Unsigned 4 c.length) (canonComps n cs) (cs.flatMap encodeComponent)
  | _, [], _ => rfl
  | n, c :: cs, h => by
    obtain ⟨h1, h2, h3, h4⟩ := h c (by simp)
    have e : encodeComponent c = encodeUint c.width 4 ++ (encodeUint c.height 4 ++ (encodeUint c.stride 4 ++
        encodeUint c.length 4)) := by simp [encodeComponent]
    refine ⟨encodeComponent c, cs.flatMap encodeComponent, rfl, ?_,
      comps_seq (n + c.length) cs (fun x hx => h x (by simp [hx]))⟩
    rw [e]
    exact ⟨_, _, rfl, u4 h1, _, _, rfl, u4 h2, _, _, rfl, u4 h3, u4 h4⟩

theorem canonComps_length : ∀ (n : Nat) (cs : List Component), (canonComps n cs).length = cs.length
  | _, [] => rfl
  | n, c :: cs => by simp [canonComps, canonComps_length (n + c.length) cs]

theorem comp_enc {cs : List Component} (hl : cs.length < 2 ^ 16) (h : ∀ c ∈ cs, c.Ok) :
    IsComp (canonComps 0 cs) (compBlk cs).body :=
  ⟨offsets_canon 0 cs, then_any ⟨_, _, rfl, by rw [canonComps_length]; exact u2 hl, comps_seq 0 cs h⟩⟩

theorem aspect_enc {q : Option Rat} (h : AspectOk q) : Aspect (canonAspect q) (encodeAspect q) := by
  refine ⟨q.getD 0, rational_enc h, ?_⟩
  unfold canonAspect
  by_cases hz : q.getD 0 = 0
  · rw [if_neg (by simpa using hz), if_pos hz]
  · rw [if_pos hz, if_neg hz]

theorem vghd_enc {v : VideoHdr} (h : v.Ok) : IsVghd v.canon (vghdBlk v).body := by
  obtain ⟨h1, h2, h3, h4, h5, h6, h7, h8, h9⟩ := h
  refine ⟨_, _, rfl, u4 h1, _, _, rfl, u4 h2, _, _, rfl, u4 h3, _, _, rfl, u4 h4, _, _, rfl, u4 h5,
    _, _, rfl, aspect_enc h6, _, _, rfl, aspect_enc h7, ?_⟩
  unfold compKids
  by_cases hc : v.components.length > 0
  · rw [if_pos hc]
    refine blocks_enc (l := [(tComp, (compBlk v.components).body)])
      ⟨some (canonComps 0 v.components), each_one (comp_enc h8 h9), rfl⟩ ?_
    intro x hx
    obtain rfl := List.mem_singleton.1 hx
    exact ⟨compBlk_ok _ h8, known (t := tComp)⟩
  · rw [if_neg hc]
    have e : v.components = [] := List.eq_nil_of_length_eq_zero (by omega)
    refine blocks_enc (l := []) ⟨none, rfl, ?_⟩ (by simp)
    simp [VideoHdr.canon, e, canonComps]

theorem keyFrame_enc (k : Option Bool) : KeyFrame (canonKey 9 k) (encodeKeyFrame k) := by
  match k with
  | none => exact ⟨3, unsigned_enc (by omega), rfl⟩
  | some true => exact ⟨1, unsigned_enc (by omega), rfl⟩
  | some false => exact ⟨0, unsigned_enc (by omega), rfl⟩

theorem temporal_enc {t : Option Int} (h : TemporalOk t) : Temporal (canonTemporal 9 t) (encodeTemporal t) := by
  refine ⟨t.getD 0x7fffffff, ?_, rfl⟩
  obtain ⟨h1, h2⟩ := h
  cases t with
  | none => exact signed_enc (by omega) (by decide) (by decide)
  | some t =>
    simp only [Option.getD_some] at h1 h2
    exact signed_enc (v := t) (by omega) (by simp; omega) (by simp; omega)

theorem cghd_enc {c : CodedVideoHdr} (h : c.Ok) : IsCghd (c.canon 9) (cghdBlk c).body := by
  obtain ⟨h1, h2, h3, h4, h5, h6, h7, h8, h9⟩ := h
  refine ⟨_, _, rfl, u4 h1, _, _, rfl, u4 h2, _, _, rfl, u4 h3, _, _, rfl, u4 h4, _, _, rfl, u4 h5,
    _, _, rfl, u4 h6, encodeKeyFrame c.isKeyFrame,
    encodeTemporal c.temporalOffset ++ blksBytes (unofKids c.offsets), by rw [List.append_assoc],
    keyFrame_enc _, _, _, rfl, temporal_enc h7, ?_⟩
  unfold unofKids
  have e : (c.canon 9).unitOffsets = if c.offsets.length > 0 then some c.offsets else none := rfl
  rw [e]
  by_cases hc : c.offsets.length > 0
  · rw [if_pos hc, if_pos hc]
    refine blocks_enc (l := [(tUnof, (unofBlk c.offsets).body)]) (each_one ?_) ?_
    · have := counted_enc (R := Unsigned 4) (fun (o : Nat) => encodeUint o 4) id h8 (fun o ho => u4 (h9 o ho))
      rw [List.map_id] at this
      exact then_any this
    · intro x hx
      obtain rfl := List.mem_singleton.1 hx
      exact ⟨unofBlk_ok _ h8, known (t := tUnof)⟩
  · rw [if_neg hc, if_neg hc]
    exact blocks_enc (l := []) rfl (by simp)

theorem aghd_enc {a : AudioHdr} (h : a.Ok) : IsAghd a (aghdBlk a).body := by
  obtain ⟨h1, h2, h3, h4⟩ := h
  exact ⟨_, _, rfl, u4 h1, _, _, rfl, u2 h2, _, _, rfl, u4 h3, then_any (u4 h4)⟩

theorem cahd_enc {a : CodedAudioHdr} (h : a.Ok) : IsCahd a (cahdBlk a).body := by
  obtain ⟨h1, h2, h3, h4, h5, h6⟩ := h
  exact ⟨_, _, rfl, u4 h1, _, _, rfl, u2 h2, _, _, rfl, u4 h3, _, _, rfl, u4 h4, _, _, rfl, u4 h5,
    then_any (u4 h6)⟩

theorem eghd_enc : IsEghd 0 eghdBlk.body := then_any (unsigned_enc (by omega))

def tilsPairs (ls : List TimeLabel) : List (List Char × Bytes) :=
  if ls.length > 0 then [(tTils, (tilsBlk ls).body)] else []

theorem tilsPairs_map (ls) : (tilsPairs ls).map blk = tilsKids ls := by
  unfold tilsPairs tilsKids
  split <;> rfl

theorem tilsPairs_tag {ls x} (h : x ∈ tilsPairs ls) : x = (tTils, (tilsBlk ls).body) := by
  unfold tilsPairs at h
  split at h
  · exact List.mem_singleton.1 h
  · simp at h

theorem tilsPairs_none {ls} {t : List Char} {R : α → Fmt} (h : tTils ≠ t) : Each t R (tilsPairs ls) [] :=
  each_none (fun x hx => by rw [tilsPairs_tag hx]; exact h)

def bodyPairs : Body → List (List Char × Bytes)
  | .empty => []
  | .event => [(tEghd, eghdBlk.body)]
  | .video v => [(tVghd, (vghdBlk v).body)]
  | .codedVideo c => [(tCghd, (cghdBlk c).body)]
  | .audio a => [(tAghd, (aghdBlk a).body)]
  | .codedAudio a => [(tCahd, (cahdBlk a).body)]

theorem bodyPairs_map (b) : (bodyPairs b).map blk = bodyKids b := by cases b <;> rfl

/-- No NUL characters in the tags of the time labels. -/
def plainGrain (g : Grain) : Prop := ∀ l ∈ g.timelabels, '\x00' ∉ l.tag

instance (g) : Decidable (plainGrain g) := by unfold plainGrain; infer_instance

theorem body_each {t : List Char} {R : α → Fmt} {ls : List TimeLabel} {l vs} (ht : tTils ≠ t) (h : Each t R l vs) :
    Each t R (tilsPairs ls ++ l) vs := by
  have := each_append (tilsPairs_none (ls := ls) (R := R) ht) h
  rwa [List.nil_append] at this

theorem one_other {t u : List Char} {R : α → Fmt} {x : Bytes} (h : u ≠ t := by decide) : Each t R [(u, x)] [] :=
  each_none (by intro y hy; rw [List.mem_singleton.1 hy]; exact h)

theorem gbhd_enc {g : Grain} (h : g.Ok 9) (hp : plainGrain g) : IsGbhd true (g.toMeta 9) (gbhdBlk 9 g).body := by
  have e : (gbhdBlk 9 g).body = g.sourceId ++ (g.flowId ++ (encodeTs g.origin ++ (encodeTs g.sync ++
      (encodeRational g.rate ++ (encodeRational g.duration ++ blksBytes (Verif.Gsf.gbhdKids g)))))) := by
    unfold gbhdBlk mkBlk encodeGbhdFixed
    simp only [if_neg (show ¬ (9 : Nat) = 7 by decide), List.append_assoc]
  have ek : Verif.Gsf.gbhdKids g = (tilsPairs g.timelabels ++ bodyPairs g.body).map blk := by
    rw [List.map_append, tilsPairs_map, bodyPairs_map]; rfl
  rw [e, ek]
  have m1 : (g.toMeta 9).sourceId = g.sourceId ∧ (g.toMeta 9).flowId = g.flowId ∧ (g.toMeta 9).origin = g.origin ∧
      (g.toMeta 9).sync = g.sync ∧ (g.toMeta 9).rate = g.rate ∧ (g.toMeta 9).duration = g.duration ∧
      (g.toMeta 9).timelabels =
        if g.timelabels.length > 0 then some (g.timelabels.map TimeLabel.canon) else none := by
    unfold Grain.toMeta Meta.addTils
    by_cases hl : g.timelabels.length > 0
    · rw [if_pos hl, if_pos hl]
      cases g.body <;> exact ⟨rfl, rfl, rfl, rfl, rfl, rfl, rfl⟩
    · rw [if_neg hl, if_neg hl]
      cases g.body <;> exact ⟨rfl, rfl, rfl, rfl, rfl, rfl, rfl⟩
  obtain ⟨e1, e2, e3, e4, e5, e6, e7⟩ := m1
  refine ⟨_, _, rfl, ?_, _, _, rfl, ?_, _, _, rfl, ?_, _, _, rfl, ?_, _, _, rfl, ?_, _, _, rfl, ?_, ?_⟩
  · rw [e1]; exact ⟨h.wf.1, rfl⟩
  · rw [e2]; exact ⟨h.wf.2.1, rfl⟩
  · rw [e3]; exact timestamp_enc h.origin
  · rw [e4]; exact timestamp_enc h.sync
  · rw [e5]; exact rational_enc h.rate
  · rw [e6]; exact rational_enc h.duration
  · apply blocks_enc
    · constructor
      · unfold AtMostOne
        rw [e7]
        have hb : Each tTils (IsTils true) (bodyPairs g.body) [] := by
          cases g.body
          · rfl
          all_goals exact one_other
        have := each_append (l := tilsPairs g.timelabels)
          (vs := (if g.timelabels.length > 0 then some (g.timelabels.map TimeLabel.canon) else none).toList)
          (by
            unfold tilsPairs
            by_cases hl : g.timelabels.length > 0
            · rw [if_pos hl, if_pos hl]
              exact each_one (tils_enc h.tils (fun l hl => ⟨h.til l hl, hp l hl⟩))
            · rw [if_neg hl, if_neg hl]; rfl) hb
        rwa [List.append_nil] at this
      · have hbo := h.body
        unfold AtMostOne Grain.toMeta Meta.addTils
        have hbase : ∀ (m : Meta), m = (g.baseMeta 9) ∨ m = { g.baseMeta 9 with timelabels := some (g.timelabels.map TimeLabel.canon) } →
            m.grainType = none ∧ m.cogFrame = none ∧ m.cogCodedFrame = none ∧ m.cogAudio = none ∧
              m.cogCodedAudio = none := by
          rintro m (rfl | rfl) <;> exact ⟨rfl, rfl, rfl, rfl, rfl⟩
        have hm := hbase (if g.timelabels.length > 0 then
            { g.baseMeta 9 with timelabels := some (g.timelabels.map TimeLabel.canon) } else g.baseMeta 9) (by
          split
          · exact .inr rfl
          · exact .inl rfl)
        revert hm
        generalize (if g.timelabels.length > 0 then
            { g.baseMeta 9 with timelabels := some (g.timelabels.map TimeLabel.canon) } else g.baseMeta 9) = m
        rintro ⟨n1, n2, n3, n4, n5⟩
        cases hb : g.body with
        | empty =>
          simp only [Meta.addBody, n1, n2, n3, n4, n5, Option.toList, bodyPairs]
          exact ⟨body_each (by decide) rfl, body_each (by decide) rfl, body_each (by decide) rfl,
            body_each (by decide) rfl, none, body_each (by decide) rfl, rfl⟩
        | event =>
          simp only [Meta.addBody, n1, n2, n3, n4, n5, Option.toList, bodyPairs]
          exact ⟨body_each (by decide) one_other, body_each (by decide) one_other,
            body_each (by decide) one_other, body_each (by decide) one_other, some 0,
            body_each (by decide) (each_one eghd_enc), rfl⟩
        | video v =>
          rw [hb] at hbo
          simp only [Meta.addBody, n1, n2, n3, n4, n5, Option.toList, bodyPairs]
          exact ⟨body_each (by decide) (each_one (vghd_enc hbo)), body_each (by decide) one_other,
            body_each (by decide) one_other, body_each (by decide) one_other, none,
            body_each (by decide) one_other, rfl⟩
        | codedVideo c =>
          rw [hb] at hbo
          simp only [Meta.addBody, n1, n2, n3, n4, n5, Option.toList, bodyPairs]
          exact ⟨body_each (by decide) one_other, body_each (by decide) (each_one (cghd_enc hbo)),
            body_each (by decide) one_other, body_each (by decide) one_other, none,
            body_each (by decide) one_other, rfl⟩
        | audio a =>
          rw [hb] at hbo
          simp only [Meta.addBody, n1, n2, n3, n4, n5, Option.toList, bodyPairs]
          exact ⟨body_each (by decide) one_other, body_each (by decide) one_other,
            body_each (by decide) (each_one (aghd_enc hbo)), body_each (by decide) one_other, none,
            body_each (by decide) one_other, rfl⟩
        | codedAudio a =>
          rw [hb] at hbo
          simp only [Meta.addBody, n1, n2, n3, n4, n5, Option.toList, bodyPairs]
          exact ⟨body_each (by decide) one_other, body_each (by decide) one_other,
            body_each (by decide) one_other, body_each (by decide) (each_one (cahd_enc hbo)), none,
            body_each (by decide) one_other, rfl⟩
    · intro x hx
      rcases List.mem_append.1 hx with hx | hx
      · rw [tilsPairs_tag hx]
        exact ⟨tilsBlk_ok _ h.tils, known (t := tTils)⟩
      · have hbo := h.body
        cases hb : g.body with
        | empty => rw [hb] at hx; simp [bodyPairs] at hx
        | event =>
          rw [hb] at hx
          rw [List.mem_singleton.1 hx]
          exact ⟨mkBlk_ok tc tne (show eghdBlk.size < 2 ^ 32 by decide), known⟩
        | video v =>
          rw [hb] at hx hbo
          rw [List.mem_singleton.1 hx]
          have h1 := vghdSize_lt hbo.2.2.2.2.2.2.2.1
          have h2 := vghdBlk_size v
          exact ⟨mkBlk_ok tc tne (show (vghdBlk v).size < 2 ^ 32 by omega), known (t := tVghd)⟩
        | codedVideo c =>
          rw [hb] at hx hbo
          rw [List.mem_singleton.1 hx]
          have h1 := cghdSize_lt hbo.2.2.2.2.2.2.2.1
          have h2 := cghdBlk_size c
          exact ⟨mkBlk_ok tc tne (show (cghdBlk c).size < 2 ^ 32 by omega), known (t := tCghd)⟩
        | audio a =>
          rw [hb] at hx
          rw [List.mem_singleton.1 hx]
          exact ⟨mkBlk_ok tc tne (show (aghdBlk a).size < 2 ^ 32 by simp [aghdBlk, mkBlk]), known (t := tAghd)⟩
        | codedAudio a =>
          rw [hb] at hx
          rw [List.mem_singleton.1 hx]
          exact ⟨mkBlk_ok tc tne (show (cahdBlk a).size < 2 ^ 32 by simp [cahdBlk, mkBlk]), known (t := tCahd)⟩

/-- What a written grain says. -/
def ofGrain (x : Nat × Grain) : DocGrain := ⟨x.1, x.2.toMeta 9, x.2.data.getD []⟩

theorem grain_size {major : Nat} (lid : Nat) {g : Grain} (h : g.Ok major) : (graiBlk major lid g).size < 2 ^ 32 := by
  have h1 := encodeGrain_length major lid g h.wf
  rw [encodeGrain_eq _ _ _ h.wf, graiBlk, mkBlk_length _ _ tl4] at h1
  have := h.size
  show (mkBlk tGrai _).size < _
  exact Nat.lt_of_le_of_lt (Nat.le_of_eq h1) this

theorem grain_enc {x : Nat × Grain} (hx : x.1 < 2 ^ 16) (h : x.2.Ok 9) (hp : plainGrain x.2) :
    IsGrain true (ofGrain x) (graiBlk 9 x.1 x.2).body := by
  refine ⟨_, _, rfl, u2 hx, ?_⟩
  refine blocks_enc (l := [(tGbhd, (gbhdBlk 9 x.2).body), (tGrdt, x.2.data.getD [])])
    ⟨[], (gbhdBlk 9 x.2).body, [], [], rfl, gbhd_enc h hp, by intro y hy; simp at hy, fun _ => rfl⟩ ?_
  intro y hy
  rcases List.mem_cons.1 hy with rfl | hy
  · exact ⟨(decoGbhd_self h).ok, known (t := tGbhd)⟩
  · rw [List.mem_singleton.1 hy]
    refine ⟨mkBlk_ok tc tne ?_, known (t := tGrdt)⟩
    have h1 := h.wf.2.2
    have h2 := h.size
    unfold graiSize at h2
    show 8 + (x.2.data.getD []).length < _
    omega

def graiPair (x : Nat × Grain) : List Char × Bytes := (tGrai, (graiBlk 9 x.1 x.2).body)

/-! ## Files -/

/-- What a written file says. -/
def ofFile (f : FileSpec) : Contents := ⟨f.minor, ofHead f.head.toHead, f.grains.map ofGrain⟩

def plainFile (f : FileSpec) : Prop := plainHead f.head ∧ ∀ x ∈ f.grains, plainGrain x.2

instance (f) : Decidable (plainFile f) := by unfold plainFile; infer_instance

theorem grains_bytes : ∀ (gs : List (Nat × Grain)), (∀ x ∈ gs, x.1 < 2 ^ 16 ∧ x.2.Ok 9) →
    gs.flatMap (fun x => encodeGrain 9 x.1 x.2) = blksBytes ((gs.map graiPair).map blk)
  | [], _ => rfl
  | x :: gs, h => by
    rw [List.flatMap_cons, encodeGrain_eq _ _ _ (h x (by simp)).2.wf, List.map_cons, List.map_cons, blksBytes_cons,
      grains_bytes gs (fun y hy => h y (by simp [hy]))]
    rfl

theorem file_enc {f : FileSpec} (h : f.Ok) (h9 : f.major = 9) (hp : plainFile f) :
    IsFile true (ofFile f) f.bytes := by
  have hg := h.grains
  have e : f.bytes = tagBytes tSSBB ++ (tagBytes tGrsg ++ (encodeUint 9 2 ++ (encodeUint f.minor 2 ++
      (blksBytes (((tHead, (headBlk f.head).body) :: f.grains.map graiPair).map blk) ++ terminator)))) := by
    unfold FileSpec.bytes encodeFileHeader
    rw [encodeHead_eq _ h.head.wf, h9, List.map_cons, blksBytes_cons]
    rw [h9] at hg
    rw [grains_bytes f.grains hg]
    simp only [List.append_assoc]
    rfl
  rw [h9] at hg
  rw [e]
  refine ⟨_, _, rfl, tag_enc (by decide) (by decide), _, _, rfl, tag_enc (by decide) (by decide), _, _, rfl,
    unsigned_enc (by omega), _, _, rfl, u2 h.minor, _, _, rfl, ?_, ?_⟩
  · refine blocks_enc ⟨[], (headBlk f.head).body, f.grains.map graiPair, rfl, by intro y hy; simp at hy,
      head_enc h.head hp.1, ?_, ?_⟩ ?_
    · intro y hy
      obtain ⟨x, _, rfl⟩ := List.mem_map.1 hy
      exact show tGrai ∉ [tHead] by decide
    · exact each_map graiPair ofGrain f.grains
        (fun x hx => ⟨rfl, grain_enc (hg x hx).1 (hg x hx).2 (hp.2 x hx)⟩)
    · intro y hy
      rcases List.mem_cons.1 hy with rfl | hy
      · exact ⟨(decoHead_self h.head).ok, known (t := tHead)⟩
      · obtain ⟨x, hx, rfl⟩ := List.mem_map.1 hy
        exact ⟨mkBlk_ok (t := tGrai) tc tne (grain_size x.1 (hg x hx).2), known (t := tGrai)⟩
  · right
    exact ⟨tagBytes tGrai, encodeUint 0 4, rfl, tag_enc (by decide) (by decide), encodeUint 0 4, [], by simp,
      u4 (by omega), blocks_enc (l := []) (by intro y hy; simp at hy) (by simp)⟩

end Verif.Gsf.Doc

import Verif.Gsf.Document
import Verif.Gsf.Whole

/-!
# Reading what the format documents describe
-/

namespace Verif.Gsf.Doc

open Verif

/-- `m` reads exactly what the format describes. -/
def RT (m : Rd α) (P : Fmt) (a : α) : Prop := ∀ bs, P bs → Reads m bs a

/-- `m` gets its value from what the format describes, and may leave some of it. -/
def Gets (m : Rd α) (P : Fmt) (a : α) : Prop := ∀ s p bs, P bs → At s p bs → ∃ q, m s p = .ok (a, q)

/-- `m` reads what the format describes if that ends at position `e`. -/
def RE (e : Nat) (m : Rd α) (P : Fmt) (a : α) : Prop :=
  ∀ s p bs, P bs → p + bs.length = e → ReadsAt s p m bs a

theorem RT.bind {m : Rd α} {f : α → Rd β} {P Q a b} (h1 : RT m P a) (h2 : RT (f a) Q b) :
    RT (m >>= f) (P ⨾ Q) b := by
  rintro _ ⟨x, y, rfl, hx, hy⟩
  exact (h1 x hx).bind (h2 y hy)

theorem RT.bind_pure {m : Rd α} {f : α → β} {P a} (h1 : RT m P a) :
    RT (m >>= fun x => Pure.pure (f x)) P (f a) := fun bs h => (h1 bs h).bind_pure

theorem Gets.bind {m : Rd α} {f : α → Rd β} {P Q a b} (h1 : RT m P a) (h2 : Gets (f a) Q b) :
    Gets (m >>= f) (P ⨾ Q) b := by
  rintro s p _ ⟨x, y, rfl, hx, hy⟩ hat
  rw [Rd.bind_of_ok (h1 x hx s p hat.left)]
  exact h2 s _ y hy hat.right

theorem Gets.pure (P : Fmt) (a : α) : Gets (Pure.pure a) P a := fun _ p _ _ _ => ⟨p, rfl⟩

theorem RT.gets {m : Rd α} {P Q a} (h : RT m P a) : Gets m (P ⨾ Q) a := by
  rintro s p _ ⟨x, y, rfl, hx, hy⟩ hat
  exact ⟨_, h x hx s p hat.left⟩

theorem Gets.bind_pure {m : Rd α} {f : α → β} {P a} (h1 : Gets m P a) :
    Gets (m >>= fun x => Pure.pure (f x)) P (f a) := by
  intro s p bs hP hat
  obtain ⟨q, hq⟩ := h1 s p bs hP hat
  exact ⟨q, by rw [Rd.bind_of_ok hq]; rfl⟩

theorem RE.bind {m : Rd α} {f : α → Rd β} {P Q a b e} (h1 : RT m P a) (h2 : RE e (f a) Q b) :
    RE e (m >>= f) (P ⨾ Q) b := by
  rintro s p _ ⟨x, y, rfl, hx, hy⟩ he
  refine (h1 x hx).bindAt (h2 s _ y hy ?_)
  rw [List.length_append] at he; omega

/-! ## Data types -/

theorem value_eq (bs : Bytes) : value bs = uintOf bs := by
  induction bs with
  | nil => rfl
  | cons b bs ih => simp [value, uintOf, ih]

theorem unsigned_lt {n v bs} (h : Unsigned n v bs) : v < 256 ^ n := by
  rw [← h.2, ← h.1, value_eq]; exact uintOf_lt bs

theorem unsigned (n v) : RT (readUint n) (Unsigned n v) v := by
  intro bs h s p hat
  simp only [readUint]
  rw [Rd.bind_of_ok (reads_exact h.1 s p hat)]
  simp only [Rd.pure_apply, ← value_eq, h.2]

/-- The bytes of a number are those the encoder writes. -/
theorem unsigned_bytes {n v bs} (h : Unsigned n v bs) : bs = encodeUint v n := by
  have key : ∀ bs : Bytes, encodeUint (uintOf bs : Nat) bs.length = bs := by
    intro bs
    induction bs with
    | nil => rfl
    | cons b bs ih =>
      have h1 : ((uintOf (b :: bs) : Nat) : Int) % 256 = (b.toNat : Int) := by
        have := b.toNat_lt
        simp only [uintOf]; omega
      have h2 : ((uintOf (b :: bs) : Nat) : Int) / 256 = (uintOf bs : Nat) := by
        have := b.toNat_lt
        simp only [uintOf]; omega
      simp only [List.length_cons, encodeUint, h1, h2, ih]
      simp
  rw [← h.2, value_eq, ← h.1, key]

theorem signed {n : Nat} (hn : 0 < n) (v : Int) : RT (readSint n) (Signed n v) v := by
  intro bs h
  have h1 := (unsigned n (value bs) bs ⟨h.1, rfl⟩).bind_pure (f := fun r => signFix r n)
  have hlt : value bs < 256 ^ n := by rw [← h.1, value_eq]; exact uintOf_lt bs
  rw [signFix_spec _ n hn hlt] at h1
  have hv := h.2
  have hp := pow256_int n
  have hpow : 256 ^ n = 2 ^ (8 * n) := by
    rw [show (256 : Nat) = 2 ^ 8 by rfl, ← Nat.pow_mul]
  have hsplit : 2 ^ (8 * n) = 2 * 2 ^ (8 * n - 1) := by
    rw [← Nat.pow_succ']
    congr 1
    omega
  have : v = if value bs < 2 ^ (8 * n - 1) then (value bs : Int) else value bs - ((2 ^ (8 * n) : Nat) : Int) := by
    rw [hv, hp]
    by_cases hc : 2 * value bs < 256 ^ n
    · rw [if_pos hc, if_pos (by omega)]
    · rw [if_neg hc, if_neg (by omega)]
  rw [← this] at h1
  exact h1

theorem boolean (v : Bool) : RT readBool (Boolean v) v := by
  rintro bs ⟨n, hn, rfl⟩
  exact (unsigned 1 n bs hn).bind_pure (f := fun n => decide (n ≠ 0))

theorem rational (v : Rat) : RT readRational (Rational v) v := by
  rintro bs ⟨n, d, h, rfl⟩
  obtain ⟨x, y, rfl, hx, hy⟩ := h
  unfold readRational
  apply Reads.bind (unsigned 4 n x hx)
  rw [← List.append_nil y]
  apply Reads.bind (unsigned 4 d y hy)
  by_cases hz : n = 0 ∨ d = 0
  · rw [if_pos hz, if_pos hz]; exact Reads.pure _
  · rw [if_neg hz, if_neg hz, Rat.mkRat_eq_div]
    exact Reads.pure _

theorem uuid (v : Bytes) : RT readUuid (Uuid v) v := by
  rintro bs ⟨h, rfl⟩
  exact reads_exact h

theorem timestamp (v : Int) : RT readTimestamp (Timestamp v) v := by
  rintro bs ⟨pos, secs, nanos, h, hn, hv⟩
  obtain ⟨x, _, rfl, hx, y, z, rfl, hy, hz⟩ := h
  unfold readTimestamp
  apply Reads.bind (boolean pos x hx)
  apply Reads.bind (unsigned 6 secs y hy)
  have := (unsigned 4 nanos z hz).bind_pure (f := fun n => mkTimestamp secs n (if pos then 1 else -1))
  have hs := unsigned_lt hy
  have e : mkTimestamp secs nanos (if pos = true then 1 else -1) = v := by
    rw [hv]
    unfold mkTimestamp
    simp only [nsPerSec, maxTs]
    cases pos
    · simp only [Bool.false_eq_true, if_false]
      rw [if_neg (by omega), if_neg (by omega)]
    · simp only [if_true]
      rw [if_neg (by omega), if_neg (by omega)]
  rw [e] at this
  exact this

theorem strOk_of_noNul {s : List Char} (h : '\x00' ∉ s) : StrOk s := by
  constructor
  · intro h1; exact h (List.mem_of_mem_head? h1)
  · intro h1; exact h (List.mem_of_mem_getLast? h1)

theorem zeros_eq {r : Bytes} (h : ∀ b ∈ r, b = 0) : r = List.replicate r.length 0 :=
  List.eq_replicate_of_mem h

theorem fixString (n : Nat) (s : List Char) : RT (readString n) (FixString true n s) s := by
  rintro bs ⟨hl, hn, h⟩
  have hs := strOk_of_noNul hn
  rcases h with rfl | ⟨r, rfl, hr⟩
  · have := reads_string_bytes hl (decodeUtf8_encodeUtf8 s)
    rwa [cleanString_ok hs] at this
  · have e : encodeUtf8 s ++ 0 :: r = encodeUtf8 (s ++ List.replicate (r.length + 1) '\x00') := by
      rw [encodeUtf8_append, encodeUtf8_nuls, List.replicate_succ, ← zeros_eq (hr rfl)]
    rw [e] at hl ⊢
    have := reads_string_bytes hl (decodeUtf8_encodeUtf8 _)
    rwa [cleanString_pad hs] at this

theorem varString (s : List Char) : RT readVarstring (VarString true s) s := by
  rintro bs ⟨n, h⟩
  exact RT.bind (f := readString) (unsigned 2 n) (fixString n s) bs h

theorem varByteArray (d : Bytes) : RT readVarbytes (VarByteArray d) d := by
  refine RT.bind (f := fun n => readRaw n) (unsigned 4 d.length) ?_
  rintro _ rfl s p hat
  exact readRaw_at hat

theorem date (d : DateTime) : RT readDatetime (Date (some d)) d := by
  rintro bs ⟨hv, h⟩
  have key : RT readDatetime (Signed 2 d.year ⨾ Unsigned 1 d.month ⨾ Unsigned 1 d.day ⨾ Unsigned 1 d.hour ⨾
        Unsigned 1 d.minute ⨾ Unsigned 1 d.second) d := by
    unfold readDatetime
    refine RT.bind (signed (by omega) _) ?_
    refine RT.bind (unsigned _ _) ?_
    refine RT.bind (unsigned _ _) ?_
    refine RT.bind (unsigned _ _) ?_
    refine RT.bind (unsigned _ _) ?_
    intro x hx
    rw [← List.append_nil x]
    apply Reads.bind (unsigned 1 _ x hx)
    simp only
    rw [if_pos hv]
    exact Reads.pure _
  exact key bs h

/-- The null date is rejected. -/
theorem date_null {s p} (hat : At s p [0, 0, 0, 0, 0, 0, 0]) : readDatetime s p = .error .value := by
  have h1 := signed (n := 2) (by omega) 0 [0, 0] ⟨rfl, rfl⟩ s p (hat.left (b := [0, 0, 0, 0, 0]))
  have r1 := hat.right (a := [0, 0])
  have u : ∀ q, At s q [0] → readUint 1 s q = .ok (0, q + [(0 : UInt8)].length) :=
    fun q hq => unsigned 1 0 [0] ⟨rfl, rfl⟩ s q hq
  have h2 := u _ (r1.left (b := [0, 0, 0, 0]))
  have r2 := r1.right (a := [0])
  have h3 := u _ (r2.left (b := [0, 0, 0]))
  have r3 := r2.right (a := [0])
  have h4 := u _ (r3.left (b := [0, 0]))
  have r4 := r3.right (a := [0])
  have h5 := u _ (r4.left (b := [0]))
  have h6 := u _ (r4.right (a := [0]))
  unfold readDatetime
  rw [Rd.bind_of_ok h1, Rd.bind_of_ok h2, Rd.bind_of_ok h3, Rd.bind_of_ok h4, Rd.bind_of_ok h5,
    Rd.bind_of_ok h6]
  rfl

theorem label (l : TimeLabel) : RT readTimeLabel (Label true l) l := by
  rintro bs ⟨rate, h1, h2, h⟩
  have hs : StrOk l.tag := by
    obtain ⟨x, y, -, ⟨_, hn, _⟩, -⟩ := h
    exact strOk_of_noNul hn
  have key : RT readTimeLabel (FixString true 16 l.tag ⨾ Unsigned 4 l.frames ⨾ Rational rate ⨾ Boolean l.drop) l := by
    unfold readTimeLabel
    refine RT.bind (fixString 16 l.tag) ?_
    refine RT.bind (unsigned 4 l.frames) ?_
    refine RT.bind (rational rate) ?_
    have := RT.bind_pure (f := fun d => TimeLabel.mk (lstripNul (rstripNul l.tag)) l.frames rate.num.toNat rate.den d)
      (boolean l.drop)
    rw [rstripNul_ok hs.2, lstripNul_ok hs.1, h1, h2] at this
    rw [rstripNul_ok hs.2, lstripNul_ok hs.1, h1, h2]
    exact this
  exact key bs h

theorem seq {m : Rd α} {R : α → Fmt} (h : ∀ a, RT m (R a) a) : ∀ l, RT (repeatRd l.length m) (Seq R l) l
  | [] => by rintro _ rfl; exact Reads.pure _
  | a :: l => RT.bind (h a) (RT.bind_pure (f := fun t => a :: t) (seq h l))

theorem counted {m : Rd α} {R : α → Fmt} (h : ∀ a, RT m (R a) a) (l : List α) :
    RT (do let n ← readUint 2; repeatRd n m) (Counted R l) l :=
  RT.bind (f := fun n => repeatRd n m) (unsigned 2 l.length) (seq h l)

/-! ## Blocks -/

theorem ascii_char {c : Char} (h : c.toNat < 128) : String.utf8EncodeChar c = [UInt8.ofNat c.toNat] := by
  have : c.val.toNat < 128 := h
  unfold String.utf8EncodeChar
  simp only [Char.toNat] at *
  rw [if_pos (by omega)]

theorem tag_bytes {t : List Char} {bs} (h : Tag t bs) : bs = tagBytes t := by
  obtain ⟨-, h2, rfl⟩ := h
  unfold tagBytes encodeUtf8
  induction t with
  | nil => rfl
  | cons c t ih =>
    rw [List.map_cons, List.flatMap_cons, ascii_char (h2 c (by simp)).2, ih (fun c hc => h2 c (by simp [hc]))]
    rfl

theorem tag_const {t : List Char} {bs} (h : Tag t bs) : TagConst t := by
  refine ⟨?_, strOk_of_noNul ?_⟩
  · rw [← tag_bytes h, h.2.2]; simp [h.1]
  · intro hm
    have := (h.2.1 _ hm).1
    revert this; decide

/-- A block of the documents as a block of the codec. -/
def blk (x : List Char × Bytes) : Blk := mkBlk x.1 x.2

theorem isBlock {x : List Char × Bytes} {bs} (h : IsBlock x bs) :
    bs = (blk x).bytes ∧ (blk x).Ok x.1 ∧ TagConst x.1 := by
  obtain ⟨h1, a, _, rfl, ha, b, _, rfl, hb, rfl⟩ := h
  have hs := unsigned_lt hb
  refine ⟨?_, mkBlk_ok (tag_const ha) h1 (by omega), tag_const ha⟩
  unfold blk
  rw [mkBlk_bytes, tag_bytes ha, unsigned_bytes hb]

theorem seqBlocks {l : List (List Char × Bytes)} {bs} (h : Seq IsBlock l bs) :
    bs = blksBytes (l.map blk) ∧ ∀ x ∈ l, (blk x).Ok x.1 ∧ TagConst x.1 := by
  induction l generalizing bs with
  | nil => obtain rfl := h; exact ⟨rfl, by simp⟩
  | cons x l ih =>
    obtain ⟨a, b, rfl, ha, hb⟩ := h
    obtain ⟨rfl, h1⟩ := isBlock ha
    obtain ⟨rfl, h2⟩ := ih hb
    refine ⟨rfl, fun y hy => ?_⟩
    rcases List.mem_cons.1 hy with rfl | hy
    · exact h1
    · exact h2 y hy

theorem atMostOne_hit {t : List Char} {R : α → Fmt} {x l v} (h : AtMostOne t R (x :: l) v) (hx : x.1 = t) :
    ∃ a, v = some a ∧ R a x.2 ∧ AtMostOne t R l none := by
  unfold AtMostOne at h
  rw [Each, if_pos hx] at h
  obtain ⟨a, vs, h1, h2, h3⟩ := h
  cases v with
  | none => simp at h1
  | some b =>
    simp only [Option.toList_some, List.cons.injEq] at h1
    obtain ⟨rfl, rfl⟩ := h1
    exact ⟨b, rfl, h2, h3⟩

theorem atMostOne_miss {t : List Char} {R : α → Fmt} {x l v} (h : AtMostOne t R (x :: l) v) (hx : x.1 ≠ t) :
    AtMostOne t R l v := by
  unfold AtMostOne at h
  rw [Each, if_neg hx] at h
  exact h

theorem atMostOne_nil {t : List Char} {R : α → Fmt} {v} (h : AtMostOne t R [] v) : v = none := by
  cases v with
  | none => rfl
  | some a => exact absurd h (by simp [AtMostOne, Each])

theorem each_hit {t : List Char} {R : α → Fmt} {x l vs} (h : Each t R (x :: l) vs) (hx : x.1 = t) :
    ∃ a vs', vs = a :: vs' ∧ R a x.2 ∧ Each t R l vs' := by
  rw [Each, if_pos hx] at h; exact h

theorem each_miss {t : List Char} {R : α → Fmt} {x l vs} (h : Each t R (x :: l) vs) (hx : x.1 ≠ t) :
    Each t R l vs := by
  rw [Each, if_neg hx] at h; exact h

/-- A child reader that gets its state from the payload. -/
theorem childGets {f : Block → σ → Rd σ} {x : List Char × Bytes} {st st'} (ht : TagConst x.1)
    (h : ∀ s p, At s (p + 8) x.2 → ∃ q, f ⟨p, 8 + x.2.length, x.1⟩ st s (p + 8) = .ok (st', q)) :
    ChildReads f (blk x) x.1 st st' := by
  intro s p hat
  unfold blk at hat
  rw [mkBlk_bytes, ← List.append_assoc] at hat
  have h2 := hat.right
  rw [List.length_append, encodeUint_length, ht.1] at h2
  exact h s p h2

theorem childSkips {f : Block → σ → Rd σ} {x : List Char × Bytes} {st}
    (h : ∀ b : Block, b.tag = x.1 → f b st = Pure.pure st) : ChildReads f (blk x) x.1 st st := by
  intro s p _
  exact ⟨p + 8, by rw [h _ rfl]; rfl⟩

/-- Sub-blocks at the end of a block. -/
theorem children {f : Block → σ → Rd σ} {C st st'} {b : Block}
    (h : ∀ l, C l → (∀ x ∈ l, (blk x).Ok x.1 ∧ TagConst x.1) → ChildrenRead f (l.map blk) st st') :
    RE (b.start + b.size) (forChildren b f st) (Blocks C) st' := by
  rintro s p bs ⟨l, hC, hl⟩ he
  obtain ⟨rfl, hok⟩ := seqBlocks hl
  exact readsAt_children (h l hC hok) he.symm

/-! ## The head -/

theorem isTag (t : List Char × List Char) : Gets readTagBody (IsTag true t) t := by
  unfold readTagBody
  refine Gets.bind (varString t.1) ?_
  exact Gets.bind (varString t.2) (Gets.pure _ _)

theorem isFlow (f : Flow) : Gets readFlowBody (IsFlow true f) f := by
  unfold readFlowBody
  refine Gets.bind (uuid f.sourceId) ?_
  refine Gets.bind (uuid f.flowId) ?_
  refine Gets.bind (fixString 64 f.format) ?_
  refine Gets.bind (varByteArray (encodeUtf8 f.data)) ?_
  rw [decodeUtf8_encodeUtf8]
  intro s p bs _ _
  exact ⟨p, rfl⟩

theorem segmKids : ∀ (l : List (List Char × Bytes)) (flow : Option Flow) (tags : List (List Char × List Char))
    (sg : Segm), AtMostOne tFlow (IsFlow true) l flow → Each tTag (IsTag true) l tags →
    (∀ x ∈ l, (blk x).Ok x.1 ∧ TagConst x.1) →
    ChildrenRead segmChild (l.map blk) sg { sg with flow := flow.or sg.flow, tags := sg.tags ++ tags } := by
  intro l
  induction l with
  | nil =>
    intro flow tags sg h1 h2 _
    obtain rfl := atMostOne_nil h1
    obtain rfl : tags = [] := h2
    simpa using ChildrenRead.nil (f := segmChild) sg
  | cons x l ih =>
    intro flow tags sg h1 h2 hok
    have hx := hok x (by simp)
    have hok' : ∀ y ∈ l, (blk y).Ok y.1 ∧ TagConst y.1 := fun y hy => hok y (by simp [hy])
    rw [List.map_cons]
    by_cases hf : x.1 = tFlow
    · obtain ⟨f, rfl, hR, h1'⟩ := atMostOne_hit h1 hf
      have h2' := each_miss h2 (by rw [hf]; decide)
      refine .cons (st1 := { sg with flow := some f }) hx.1 ?_ ?_
      · refine childGets hx.2 (fun s p hat => ?_)
        unfold segmChild
        rw [if_pos hf]
        exact (isFlow f).bind_pure s _ _ hR hat
      · simpa using ih none tags { sg with flow := some f } h1' h2' hok'
    · have h1' := atMostOne_miss h1 hf
      by_cases ht : x.1 = tTag
      · obtain ⟨t, ts, rfl, hR, h2'⟩ := each_hit h2 ht
        refine .cons (st1 := { sg with tags := sg.tags ++ [t] }) hx.1 ?_ ?_
        · refine childGets hx.2 (fun s p hat => ?_)
          unfold segmChild
          rw [if_neg hf, if_pos ht]
          exact (isTag t).bind_pure s _ _ hR hat
        · simpa using ih flow ts { sg with tags := sg.tags ++ [t] } h1' h2' hok'
      · refine .cons hx.1 (childSkips (fun b hb => ?_)) (ih flow tags sg h1' (each_miss h2 ht) hok')
        unfold segmChild
        rw [if_neg (by rwa [hb]), if_neg (by rwa [hb])]

theorem isSegm (sg : Segm) (b : Block) : RE (b.start + b.size) (readSegmBody b) (IsSegm true sg) sg := by
  unfold readSegmBody
  refine RE.bind (unsigned 2 sg.localId) ?_
  refine RE.bind (uuid sg.id) ?_
  refine RE.bind (signed (by omega) sg.count) ?_
  apply children
  rintro l ⟨h1, h2⟩ hok
  simpa using segmKids l sg.flow sg.tags ⟨sg.localId, sg.id, sg.count, none, []⟩ h1 h2 hok

/-- The payload of a block is read up to its end. -/
theorem RE.payload {m : Block → Rd α} {P a} (h : ∀ b : Block, RE (b.start + b.size) (m b) P a) {x : Bytes} (hx : P x)
    {s p} {t : List Char} (hat : At s (p + 8) x) :
    m ⟨p, 8 + x.length, t⟩ s (p + 8) = .ok (a, p + 8 + x.length) :=
  h ⟨p, 8 + x.length, t⟩ s (p + 8) x hx (by simp only; omega) hat

theorem headKids : ∀ (l : List (List Char × Bytes)) (segs : List Segm) (tags : List (List Char × List Char))
    (h : Head), Each tSegm (IsSegm true) l segs → Each tTag (IsTag true) l tags →
    (∀ x ∈ l, (blk x).Ok x.1 ∧ TagConst x.1) →
    ChildrenRead headChild (l.map blk) h { h with segments := h.segments ++ segs, tags := h.tags ++ tags } := by
  intro l
  induction l with
  | nil =>
    intro segs tags h h1 h2 _
    obtain rfl : segs = [] := h1
    obtain rfl : tags = [] := h2
    simpa using ChildrenRead.nil (f := headChild) h
  | cons x l ih =>
    intro segs tags h h1 h2 hok
    have hx := hok x (by simp)
    have hok' : ∀ y ∈ l, (blk y).Ok y.1 ∧ TagConst y.1 := fun y hy => hok y (by simp [hy])
    rw [List.map_cons]
    by_cases hf : x.1 = tSegm
    · obtain ⟨sg, sgs, rfl, hR, h1'⟩ := each_hit h1 hf
      have h2' := each_miss h2 (by rw [hf]; decide)
      refine .cons (st1 := { h with segments := h.segments ++ [sg] }) hx.1 ?_ ?_
      · refine childGets hx.2 (fun s p hat => ?_)
        unfold headChild
        rw [if_pos hf, Rd.bind_of_ok (RE.payload (isSegm sg) hR hat)]
        exact ⟨_, rfl⟩
      · simpa using ih sgs tags { h with segments := h.segments ++ [sg] } h1' h2' hok'
    · have h1' := each_miss h1 hf
      by_cases ht : x.1 = tTag
      · obtain ⟨t, ts, rfl, hR, h2'⟩ := each_hit h2 ht
        refine .cons (st1 := { h with tags := h.tags ++ [t] }) hx.1 ?_ ?_
        · refine childGets hx.2 (fun s p hat => ?_)
          unfold headChild
          rw [if_neg hf, if_pos ht]
          exact (isTag t).bind_pure s _ _ hR hat
        · simpa using ih segs ts { h with tags := h.tags ++ [t] } h1' h2' hok'
      · refine .cons hx.1 (childSkips (fun b hb => ?_)) (ih segs tags h h1' (each_miss h2 ht) hok')
        unfold headChild
        rw [if_neg (by rwa [hb]), if_neg (by rwa [hb])]

theorem isHead {h : DocHead} {d : DateTime} (hd : h.created = some d) (b : Block) :
    RE (b.start + b.size) (decodeHead b) (IsHead true h) ⟨h.id, d, h.segments, h.tags⟩ := by
  unfold decodeHead
  refine RE.bind (uuid h.id) ?_
  rw [hd]
  refine RE.bind (date d) ?_
  apply children
  rintro l ⟨h1, h2⟩ hok
  simpa using headKids l h.segments h.tags ⟨h.id, d, [], []⟩ h1 h2 hok

/-- A head with the null date cannot be read. -/
theorem isHead_null {h : DocHead} (hd : h.created = none) {tidy bs} (hh : IsHead tidy h bs) {s p}
    (hat : At s p bs) (b : Block) : decodeHead b s p = .error .value := by
  obtain ⟨x, _, rfl, hx, y, z, rfl, hy, -⟩ := hh
  rw [hd] at hy
  obtain rfl : y = _ := hy
  unfold decodeHead
  rw [Rd.bind_of_ok (uuid h.id x hx s p hat.left), Rd.bind_of_error (date_null hat.right.left)]

/-! ## Grain headers -/

theorem isTils (ls : List TimeLabel) : Gets readTils (IsTils true ls) ls := (counted label ls).gets

theorem components : ∀ (cs : List Component) (off : Nat), Offsets off cs →
    RT (readComponents cs.length off) (Seq (fun (c : Component) =>
      Unsigned 4 c.width ⨾ Unsigned 4 c.height ⨾ Unsigned 4 c.stride ⨾ Unsigned 4 c.length) cs) cs
  | [], _, _ => by rintro _ rfl; exact Reads.pure _
  | c :: cs, off, h => by
    rintro _ ⟨_, z, rfl, ⟨x1, _, rfl, h1, x2, _, rfl, h2, x3, x4, rfl, h3, h4⟩, hz⟩
    simp only [List.append_assoc, List.length_cons, readComponents]
    apply Reads.bind (unsigned _ _ _ h1)
    apply Reads.bind (unsigned _ _ _ h2)
    apply Reads.bind (unsigned _ _ _ h3)
    apply Reads.bind (unsigned _ _ _ h4)
    have := (components cs (off + c.length) h.2 z hz).bind_pure
      (f := fun rest => Component.mk c.width c.height c.stride c.length off :: rest)
    rw [show Component.mk c.width c.height c.stride c.length off = c by rw [← h.1]] at this ⊢
    exact this

theorem vghdKids : ∀ (l : List (List Char × Bytes)) (cs : Option (List Component)) (v : VideoHdr),
    AtMostOne tComp IsComp l cs → (∀ x ∈ l, (blk x).Ok x.1 ∧ TagConst x.1) →
    ChildrenRead vghdChild (l.map blk) v { v with components := cs.getD v.components } := by
  intro l
  induction l with
  | nil =>
    intro cs v h1 _
    obtain rfl := atMostOne_nil h1
    exact ChildrenRead.nil (f := vghdChild) v
  | cons x l ih =>
    intro cs v h1 hok
    have hx := hok x (by simp)
    have hok' : ∀ y ∈ l, (blk y).Ok y.1 ∧ TagConst y.1 := fun y hy => hok y (by simp [hy])
    rw [List.map_cons]
    by_cases hf : x.1 = tComp
    · obtain ⟨f, rfl, ⟨hoff, hR⟩, h1'⟩ := atMostOne_hit h1 hf
      refine .cons (st1 := { v with components := f }) hx.1 ?_ (ih none { v with components := f } h1' hok')
      refine childGets hx.2 (fun s p hat => ?_)
      unfold vghdChild
      rw [if_neg (by simpa using hf)]
      obtain ⟨y, z, hyz, ⟨y1, y2, rfl, hn, hs⟩, -⟩ := hR
      rw [hyz, List.append_assoc] at hat
      rw [Rd.bind_of_ok (unsigned _ _ _ hn s _ hat.left),
        Rd.bind_of_ok (components f 0 hoff _ hs s _ hat.right.left)]
      exact ⟨_, rfl⟩
    · refine .cons hx.1 (childSkips (fun b hb => ?_)) (ih cs v (atMostOne_miss h1 hf) hok')
      unfold vghdChild
      rw [if_pos (by rwa [hb])]

theorem aspect (v : Option Rat) (bs) (h : Aspect v bs) :
    ∃ q : Rat, Reads readRational bs q ∧ (if q ≠ 0 then some q else none) = v := by
  obtain ⟨q, hq, rfl⟩ := h
  refine ⟨q, rational q bs hq, ?_⟩
  by_cases hz : q = 0 <;> simp [hz]

theorem isVghd (v : VideoHdr) (b : Block) : RE (b.start + b.size) (readVghd b) (IsVghd v) v := by
  unfold readVghd
  refine RE.bind (unsigned _ _) ?_
  refine RE.bind (unsigned _ _) ?_
  refine RE.bind (unsigned _ _) ?_
  refine RE.bind (unsigned _ _) ?_
  refine RE.bind (unsigned _ _) ?_
  rintro s p _ ⟨x, _, rfl, hx, y, z, rfl, hy, hz⟩ he
  obtain ⟨q1, r1, e1⟩ := aspect _ _ hx
  obtain ⟨q2, r2, e2⟩ := aspect _ _ hy
  refine r1.bindAt (r2.bindAt ?_)
  rw [e1, e2]
  have key : RE (b.start + b.size) (forChildren b vghdChild
      ⟨v.format, v.layout, v.width, v.height, v.extension, v.srcAspect, v.pixAspect, []⟩)
      (Blocks (fun l => ∃ cs, AtMostOne tComp IsComp l cs ∧ v.components = cs.getD [])) v := by
    apply children
    rintro l ⟨cs, h1, h2⟩ hok
    have := vghdKids l cs ⟨v.format, v.layout, v.width, v.height, v.extension, v.srcAspect, v.pixAspect, []⟩ h1 hok
    simp only [← h2] at this
    exact this
  refine key s _ z hz ?_
  simp only [List.length_append] at he; omega

theorem cghdKids : ∀ (l : List (List Char × Bytes)) (us : Option (List Nat)) (c : CodedVideoHdr),
    AtMostOne tUnof IsUnof l us → (∀ x ∈ l, (blk x).Ok x.1 ∧ TagConst x.1) →
    ChildrenRead cghdChild (l.map blk) c { c with unitOffsets := us.or c.unitOffsets } := by
  intro l
  induction l with
  | nil =>
    intro us c h1 _
    obtain rfl := atMostOne_nil h1
    exact ChildrenRead.nil (f := cghdChild) c
  | cons x l ih =>
    intro us c h1 hok
    have hx := hok x (by simp)
    have hok' : ∀ y ∈ l, (blk y).Ok y.1 ∧ TagConst y.1 := fun y hy => hok y (by simp [hy])
    rw [List.map_cons]
    by_cases hf : x.1 = tUnof
    · obtain ⟨f, rfl, hR, h1'⟩ := atMostOne_hit h1 hf
      refine .cons (st1 := { c with unitOffsets := some f }) hx.1 ?_ (ih none { c with unitOffsets := some f } h1' hok')
      refine childGets hx.2 (fun s p hat => ?_)
      unfold cghdChild
      rw [if_neg (by simpa using hf)]
      obtain ⟨y, z, hyz, ⟨y1, y2, rfl, hn, hs⟩, -⟩ := hR
      rw [hyz, List.append_assoc] at hat
      rw [Rd.bind_of_ok (unsigned _ _ _ hn s _ hat.left),
        Rd.bind_of_ok (seq (unsigned 4) f _ hs s _ hat.right.left)]
      exact ⟨_, rfl⟩
    · refine .cons hx.1 (childSkips (fun b hb => ?_)) (ih us c (atMostOne_miss h1 hf) hok')
      unfold cghdChild
      rw [if_pos (by rwa [hb])]

theorem keyFrame (k : Option Bool) (t : Option Int) :
    RT (readKeyFrame 9) (KeyFrame k ⨾ Temporal t) (k, t) := by
  rintro _ ⟨x, y, rfl, ⟨n, hn, rfl⟩, ⟨i, hi, rfl⟩⟩
  unfold readKeyFrame
  rw [if_neg (by omega)]
  have h1 : Reads readOptionalBool x (if n = 0 then some false else if n = 1 then some true else none) := by
    unfold readOptionalBool
    rw [← List.append_nil x]
    apply Reads.bind (unsigned 1 n x hn)
    by_cases h0 : n = 0
    · subst h0; exact Reads.pure _
    · by_cases h1 : n = 1
      · subst h1; exact Reads.pure _
      · rw [if_neg h0, if_neg h1, if_pos (by omega)]; exact Reads.pure _
  have h2 : Reads (readOptionalSint 4 0x7fffffff) y (if i = 2147483647 then none else some i) := by
    unfold readOptionalSint
    rw [← List.append_nil y]
    apply Reads.bind (unsigned 4 (value y) y ⟨hi.1, rfl⟩)
    have hlt : value y < 256 ^ 4 := by rw [← hi.1, value_eq]; exact uintOf_lt y
    have hv := hi.2
    rw [signFix_spec _ 4 (by omega) hlt]
    by_cases hc : value y = 0x7fffffff
    · rw [if_pos hc]
      rw [hc] at hv
      rw [if_pos (by simpa using hv)]
      exact Reads.pure _
    · rw [if_neg hc]
      have e : i = if value y < 2 ^ (8 * 4 - 1) then (value y : Int) else value y - ((2 ^ (8 * 4) : Nat) : Int) := by
        rw [hv]
        by_cases h3 : 2 * value y < 256 ^ 4
        · rw [if_pos h3, if_pos (by omega)]
        · rw [if_neg h3, if_neg (by omega)]; rfl
      rw [← e]
      have : i ≠ 2147483647 := by
        rw [e]; split <;> omega
      rw [if_neg this]
      exact Reads.pure _
  apply Reads.bind h1
  exact h2.bind_pure

theorem isCghd (c : CodedVideoHdr) (b : Block) : RE (b.start + b.size) (readCghd 9 b) (IsCghd c) c := by
  unfold readCghd
  refine RE.bind (unsigned _ _) ?_
  refine RE.bind (unsigned _ _) ?_
  refine RE.bind (unsigned _ _) ?_
  refine RE.bind (unsigned _ _) ?_
  refine RE.bind (unsigned _ _) ?_
  refine RE.bind (unsigned _ _) ?_
  rintro s p _ ⟨x, _, rfl, hx, y, z, rfl, hy, hz⟩ he
  rw [← List.append_assoc]
  refine (keyFrame c.isKeyFrame c.temporalOffset _ ⟨x, y, rfl, hx, hy⟩).bindAt ?_
  have key : RE (b.start + b.size) (forChildren b cghdChild
      ⟨c.format, c.layout, c.originWidth, c.originHeight, c.codedWidth, c.codedHeight, c.isKeyFrame,
        c.temporalOffset, none⟩) (Blocks (fun l => AtMostOne tUnof IsUnof l c.unitOffsets)) c := by
    apply children
    intro l h1 hok
    simpa using cghdKids l c.unitOffsets ⟨c.format, c.layout, c.originWidth, c.originHeight, c.codedWidth, c.codedHeight,
      c.isKeyFrame, c.temporalOffset, none⟩ h1 hok
  refine key s _ z hz ?_
  simp only [List.length_append] at he ⊢; omega

theorem isAghd (a : AudioHdr) : Gets readAghd (IsAghd a) a := by
  unfold readAghd
  refine Gets.bind (unsigned _ _) ?_
  refine Gets.bind (unsigned _ _) ?_
  refine Gets.bind (unsigned _ _) ?_
  exact Gets.bind (unsigned _ _) (Gets.pure _ _)

theorem isCahd (a : CodedAudioHdr) : Gets readCahd (IsCahd a) a := by
  unfold readCahd
  refine Gets.bind (unsigned _ _) ?_
  refine Gets.bind (unsigned _ _) ?_
  refine Gets.bind (unsigned _ _) ?_
  refine Gets.bind (unsigned _ _) ?_
  refine Gets.bind (unsigned _ _) ?_
  exact Gets.bind (unsigned _ _) (Gets.pure _ _)

/-- The type a walk over type headers ends with: that of one of them, or the one before. -/
def Kind (old new : Option GType) (v c a ca e : Bool) : Prop :=
  (new = old ∧ v = false ∧ c = false ∧ a = false ∧ ca = false ∧ e = false) ∨ (new = some .video ∧ v = true) ∨
  (new = some .codedVideo ∧ c = true) ∨ (new = some .audio ∧ a = true) ∨ (new = some .codedAudio ∧ ca = true) ∨
  (new = some .event ∧ e = true)

theorem gbhdKids : ∀ (l : List (List Char × Bytes)) (tl : Option (List TimeLabel)) (v : Option VideoHdr)
    (c : Option CodedVideoHdr) (a : Option AudioHdr) (ca : Option CodedAudioHdr) (e : Option Nat) (m : Meta),
    AtMostOne tTils (IsTils true) l tl → AtMostOne tVghd IsVghd l v → AtMostOne tCghd IsCghd l c →
    AtMostOne tAghd IsAghd l a → AtMostOne tCahd IsCahd l ca → AtMostOne tEghd IsEghd l e →
    (∀ x ∈ l, (blk x).Ok x.1 ∧ TagConst x.1) →
    ∃ new, Kind m.grainType new v.isSome c.isSome a.isSome ca.isSome e.isSome ∧
      ChildrenRead (gbhdChild 9) (l.map blk) m { m with
        timelabels := tl.or m.timelabels, grainType := new, cogFrame := v.or m.cogFrame,
        cogCodedFrame := c.or m.cogCodedFrame, cogAudio := a.or m.cogAudio,
        cogCodedAudio := ca.or m.cogCodedAudio } := by
  intro l
  induction l with
  | nil =>
    intro tl v c a ca e m h1 h2 h3 h4 h5 h6 _
    obtain rfl := atMostOne_nil h1
    obtain rfl := atMostOne_nil h2
    obtain rfl := atMostOne_nil h3
    obtain rfl := atMostOne_nil h4
    obtain rfl := atMostOne_nil h5
    obtain rfl := atMostOne_nil h6
    exact ⟨m.grainType, .inl ⟨rfl, rfl, rfl, rfl, rfl, rfl⟩, ChildrenRead.nil (f := gbhdChild 9) m⟩
  | cons x l ih =>
    intro tl v c a ca e m h1 h2 h3 h4 h5 h6 hok
    have hx := hok x (by simp)
    have hok' : ∀ y ∈ l, (blk y).Ok y.1 ∧ TagConst y.1 := fun y hy => hok y (by simp [hy])
    rw [List.map_cons]
    by_cases t1 : x.1 = tTils
    · obtain ⟨f, rfl, hR, h1'⟩ := atMostOne_hit h1 t1
      obtain ⟨new, hk, hc⟩ := ih none v c a ca e { m with timelabels := some f } h1'
        (atMostOne_miss h2 (by rw [t1]; decide)) (atMostOne_miss h3 (by rw [t1]; decide))
        (atMostOne_miss h4 (by rw [t1]; decide)) (atMostOne_miss h5 (by rw [t1]; decide))
        (atMostOne_miss h6 (by rw [t1]; decide)) hok'
      refine ⟨new, hk, .cons (st1 := { m with timelabels := some f }) hx.1 ?_ hc⟩
      refine childGets hx.2 (fun s p hat => ?_)
      unfold gbhdChild
      rw [if_pos t1]
      exact (isTils f).bind_pure s _ _ hR hat
    have h1' := atMostOne_miss h1 t1
    by_cases t2 : x.1 = tVghd
    · obtain ⟨f, rfl, hR, h2'⟩ := atMostOne_hit h2 t2
      obtain ⟨new, hk, hc⟩ := ih tl none c a ca e { m with grainType := some .video, cogFrame := some f } h1' h2'
        (atMostOne_miss h3 (by rw [t2]; decide))
        (atMostOne_miss h4 (by rw [t2]; decide)) (atMostOne_miss h5 (by rw [t2]; decide))
        (atMostOne_miss h6 (by rw [t2]; decide)) hok'
      refine ⟨new, ?_, .cons (st1 := { m with grainType := some .video, cogFrame := some f }) hx.1 ?_ hc⟩
      · unfold Kind at hk ⊢; simp only [Option.isSome_some, Option.isSome_none] at hk ⊢; grind
      refine childGets hx.2 (fun s p hat => ?_)
      unfold gbhdChild
      rw [if_neg t1, if_pos t2, Rd.bind_of_ok (RE.payload (isVghd f) hR hat)]
      exact ⟨_, rfl⟩
    have h2' := atMostOne_miss h2 t2
    by_cases t3 : x.1 = tCghd
    · obtain ⟨f, rfl, hR, h3'⟩ := atMostOne_hit h3 t3
      obtain ⟨new, hk, hc⟩ := ih tl v none a ca e { m with grainType := some .codedVideo, cogCodedFrame := some f } h1' h2' h3'
        (atMostOne_miss h4 (by rw [t3]; decide)) (atMostOne_miss h5 (by rw [t3]; decide))
        (atMostOne_miss h6 (by rw [t3]; decide)) hok'
      refine ⟨new, ?_, .cons (st1 := { m with grainType := some .codedVideo, cogCodedFrame := some f }) hx.1 ?_ hc⟩
      · unfold Kind at hk ⊢; simp only [Option.isSome_some, Option.isSome_none] at hk ⊢; grind
      refine childGets hx.2 (fun s p hat => ?_)
      unfold gbhdChild
      rw [if_neg t1, if_neg t2, if_pos t3, Rd.bind_of_ok (RE.payload (isCghd f) hR hat)]
      exact ⟨_, rfl⟩
    have h3' := atMostOne_miss h3 t3
    by_cases t4 : x.1 = tAghd
    · obtain ⟨f, rfl, hR, h4'⟩ := atMostOne_hit h4 t4
      obtain ⟨new, hk, hc⟩ := ih tl v c none ca e { m with grainType := some .audio, cogAudio := some f } h1' h2' h3' h4'
        (atMostOne_miss h5 (by rw [t4]; decide)) (atMostOne_miss h6 (by rw [t4]; decide)) hok'
      refine ⟨new, ?_, .cons (st1 := { m with grainType := some .audio, cogAudio := some f }) hx.1 ?_ hc⟩
      · unfold Kind at hk ⊢; simp only [Option.isSome_some, Option.isSome_none] at hk ⊢; grind
      refine childGets hx.2 (fun s p hat => ?_)
      unfold gbhdChild
      rw [if_neg t1, if_neg t2, if_neg t3, if_pos t4]
      exact (isAghd f).bind_pure s _ _ hR hat
    have h4' := atMostOne_miss h4 t4
    by_cases t5 : x.1 = tCahd
    · obtain ⟨f, rfl, hR, h5'⟩ := atMostOne_hit h5 t5
      obtain ⟨new, hk, hc⟩ := ih tl v c a none e { m with grainType := some .codedAudio, cogCodedAudio := some f }
        h1' h2' h3' h4' h5' (atMostOne_miss h6 (by rw [t5]; decide)) hok'
      refine ⟨new, ?_, .cons (st1 := { m with grainType := some .codedAudio, cogCodedAudio := some f }) hx.1 ?_ hc⟩
      · unfold Kind at hk ⊢; simp only [Option.isSome_some, Option.isSome_none] at hk ⊢; grind
      refine childGets hx.2 (fun s p hat => ?_)
      unfold gbhdChild
      rw [if_neg t1, if_neg t2, if_neg t3, if_neg t4, if_pos t5]
      exact (isCahd f).bind_pure s _ _ hR hat
    have h5' := atMostOne_miss h5 t5
    by_cases t6 : x.1 = tEghd
    · obtain ⟨f, rfl, hR, h6'⟩ := atMostOne_hit h6 t6
      obtain ⟨new, hk, hc⟩ := ih tl v c a ca none { m with grainType := some .event } h1' h2' h3' h4' h5' h6' hok'
      refine ⟨new, ?_, .cons (st1 := { m with grainType := some .event }) hx.1 ?_ hc⟩
      · unfold Kind at hk ⊢; simp only [Option.isSome_some, Option.isSome_none] at hk ⊢; grind
      refine childGets hx.2 (fun s p hat => ?_)
      unfold gbhdChild
      rw [if_neg t1, if_neg t2, if_neg t3, if_neg t4, if_neg t5, if_pos t6]
      exact ⟨_, rfl⟩
    have h6' := atMostOne_miss h6 t6
    obtain ⟨new, hk, hc⟩ := ih tl v c a ca e m h1' h2' h3' h4' h5' h6' hok'
    refine ⟨new, hk, .cons hx.1 (childSkips (fun b hb => ?_)) hc⟩
    unfold gbhdChild
    rw [if_neg (by rwa [hb]), if_neg (by rwa [hb]), if_neg (by rwa [hb]), if_neg (by rwa [hb]),
      if_neg (by rwa [hb]), if_neg (by rwa [hb])]

theorem kind_of {old new : Option GType} {g : Option GType} {v c a ca e : Bool} (ho : old = none)
    (h : Kind old new v c a ca e) (hg : headersOf g = [v, c, a, ca, e]) : new = g := by
  subst ho
  unfold Kind at h
  rcases g with _ | g
  · simp only [headersOf, List.cons.injEq] at hg
    obtain ⟨rfl, rfl, rfl, rfl, rfl, -⟩ := hg
    simpa using h
  · cases g <;>
    · simp only [headersOf, List.cons.injEq] at hg
      obtain ⟨rfl, rfl, rfl, rfl, rfl, -⟩ := hg
      simpa using h

theorem isGbhd (m : Meta) (b : Block) : RE (b.start + b.size) (decodeGbhd 9 b) (IsGbhd true m) m := by
  rintro s p _ ⟨x1, _, rfl, h1, x2, _, rfl, h2, x3, _, rfl, h3, x4, _, rfl, h4, x5, _, rfl, h5, x6, z, rfl, h6, hz⟩ he
  have hfix : Reads (readGbhdFixed 9) (x1 ++ (x2 ++ (x3 ++ (x4 ++ (x5 ++ x6)))))
      { sourceId := m.sourceId, flowId := m.flowId, origin := m.origin, sync := m.sync, rate := m.rate,
        duration := m.duration } := by
    unfold readGbhdFixed
    apply Reads.bind (uuid _ _ h1)
    apply Reads.bind (uuid _ _ h2)
    rw [if_neg (by omega)]
    apply Reads.bind (timestamp _ _ h3)
    apply Reads.bind (timestamp _ _ h4)
    apply Reads.bind (rational _ _ h5)
    exact (rational _ _ h6).bind_pure
  unfold decodeGbhd
  rw [show x1 ++ (x2 ++ (x3 ++ (x4 ++ (x5 ++ (x6 ++ z))))) = (x1 ++ (x2 ++ (x3 ++ (x4 ++ (x5 ++ x6))))) ++ z by
    simp only [List.append_assoc]] at he ⊢
  refine hfix.bindAt ?_
  obtain ⟨l, ⟨c1, c2, c3, c4, c5, e, c6, hg⟩, hl⟩ := hz
  obtain ⟨rfl, hok⟩ := seqBlocks hl
  obtain ⟨new, hk, hc⟩ := gbhdKids l _ _ _ _ _ e
    { sourceId := m.sourceId, flowId := m.flowId, origin := m.origin, sync := m.sync, rate := m.rate,
      duration := m.duration } c1 c2 c3 c4 c5 c6 hok
  have hn := kind_of rfl hk hg
  subst hn
  simp only [Option.or_none] at hc
  refine readsAt_children hc ?_
  simp only [List.length_append] at he ⊢; omega

/-! ## Grains -/

/-- The payload of a block is 8 bytes after its start. -/
theorem at_payload {t : List Char} {x : Bytes} (ht : (tagBytes t).length = 4) {s q}
    (h : At s q (blk (t, x)).bytes) : At s (q + 8) x := by
  unfold blk at h
  rw [mkBlk_bytes, ← List.append_assoc] at h
  have h3 := h.right
  rwa [List.length_append, encodeUint_length, ht] at h3

/-- A grain header block. -/
theorem gbhdBlock {m : Meta} {x : Bytes} (hx : IsGbhd true m x) (hok : (blk (tGbhd, x)).Ok tGbhd) :
    Reads (readGbhdBlock 9) (blk (tGbhd, x)).bytes m := by
  intro s p hat
  simp only [readGbhdBlock]
  rw [Rd.bind_of_ok (enter_blk hat hok (.inr rfl))]
  have : Block.inRemaining ⟨p, (blk (tGbhd, x)).size, tGbhd⟩
      (decodeGbhd 9 ⟨p, (blk (tGbhd, x)).size, tGbhd⟩) s (p + 8) = .ok (m, p + (blk (tGbhd, x)).bytes.length) := by
    apply inRemaining_mk tc hat
    refine isGbhd m _ _ _ x hx ?_
    unfold blk mkBlk
    simp only; omega
  rw [Rd.bind_of_ok this]
  simp only [Block.exit, Rd.bind_apply, Rd.seek_apply, Rd.pure_apply, Block.endPos]
  rw [hok.length]

/-- A grain that has the data `d`. -/
def withData (d : Bytes) : Grain := ⟨[], [], 0, 0, 0, 0, [], .empty, d.length, some d⟩

/-- What a turn over a grain block does. -/
def out (o : Opts) (h : Hdr) (p : Nat) (g : DocGrain) (off : Nat) : Step :=
  if o.drops g.localId then .next h false else .yield ⟨g.info, o.dataOf (p + off) g.data, g.localId⟩

theorem grainTurn (o : Opts) (h : Hdr) (h9 : h.major = 9) {g : DocGrain} {x : Bytes} (hx : IsGrain true g x)
    (hok : (blk (tGrai, x)).Ok tGrai) :
    ∃ off, (∀ s p, At s p (blk (tGrai, x)).bytes → At s (p + off) g.data) ∧
      ∀ p, TurnAt o h false p (blk (tGrai, x)).bytes (out o h p g off) := by
  obtain ⟨lidb, _, rfl, hlid, l, ⟨pre, gb, mid, post, rfl, hgb, hwo, hpre⟩, hl⟩ := hx
  obtain rfl := hpre rfl
  obtain ⟨rfl, hbl⟩ := seqBlocks hl
  simp only [List.nil_append, List.map_cons, List.map_append, blksBytes_cons, blksBytes_append] at hok ⊢
  generalize hpay : lidb ++ ((blk (tGbhd, gb)).bytes ++ (blksBytes (mid.map blk) ++
    ((blk (tGrdt, g.data)).bytes ++ blksBytes (post.map blk)))) = payload at *
  have hlen := hok.length
  have hgok : (blk (tGbhd, gb)).Ok tGbhd := (hbl (tGbhd, gb) (by simp)).1
  have hdok : (blk (tGrdt, g.data)).Ok tGrdt := (hbl (tGrdt, g.data) (by simp)).1
  have hmid : Others [tGrdt] (mid.map blk) := by
    intro b hb
    obtain ⟨y, hy, rfl⟩ := List.mem_map.1 hb
    refine ⟨y.1, (hbl y (by simp [hy])).1, ?_⟩
    have := hwo y (by simp [hy])
    simp at this ⊢
    exact this.2
  have hsz : (blk (tGrai, payload)).size = 8 + payload.length := rfl
  have hat8 : ∀ s p, At s p (blk (tGrai, payload)).bytes → At s (p + 8) payload :=
    fun s p h2 => at_payload tl4 h2
  have hl2 := hlid.1
  have hgl : (blk (tGrdt, g.data)).bytes.length = 8 + g.data.length := mkBlk_length _ _ tl4
  refine ⟨10 + (blk (tGbhd, gb)).bytes.length + (blksBytes (mid.map blk)).length + 8, ?_, ?_⟩
  · intro s p hat
    have h3 := hat8 s p hat
    rw [← hpay] at h3
    have h5 := at_payload tl4 h3.right.right.right.left
    have e : p + 8 + lidb.length + (blk (tGbhd, gb)).bytes.length + (blksBytes (mid.map blk)).length + 8 =
      p + (10 + (blk (tGbhd, gb)).bytes.length + (blksBytes (mid.map blk)).length + 8) := by omega
    rwa [e] at h5
  · intro p s hat
    have hin := hat8 s p hat
    rw [← hpay] at hin
    have hend : Block.endPos ⟨p, (blk (tGrai, payload)).size, tGrai⟩ = p + (blk (tGrai, payload)).bytes.length := by
      rw [hlen]; rfl
    unfold grainsStep
    rw [if_neg (by simp), Rd.bind_of_ok (enter_blk hat hok (.inl rfl)), if_neg (by simp), if_neg (by simp only; omega)]
    rw [Rd.bind_of_ok (unsigned _ _ _ hlid s _ hin.left)]
    unfold out Opts.drops
    by_cases hdr : (o.localIds.any (fun ids => !ids.contains g.localId)) = true
    · rw [if_pos hdr, if_pos hdr]
      simp only [Block.exit, Rd.bind_apply, Rd.seek_apply, Rd.pure_apply, hend]
    · rw [if_neg hdr, if_neg hdr, h9]
      have h1 := hin.right
      rw [Rd.bind_of_ok (gbhdBlock hgb hgok s _ h1.left)]
      have h2 := h1.right
      rw [← List.append_assoc] at h2
      have hdl := hdok.sizeLt
      have hrd := readGrdt_read o (g := withData g.data) hmid h2.left (by
        exact hdl) ⟨p, (blk (tGrai, payload)).size, tGrai⟩ (by
        rw [hsz, ← hpay]
        simp only [List.length_append, hgl, withData, Option.getD_some, hl2]
        omega)
      rw [Rd.bind_of_ok hrd]
      simp only [Block.exit, Rd.bind_apply, Rd.seek_apply, Rd.pure_apply, hend, hl2, withData, Option.getD_some]
      have e : p + 8 + 2 + (blk (tGbhd, gb)).bytes.length + (blksBytes (mid.map blk)).length + 8 =
        p + (10 + (blk (tGbhd, gb)).bytes.length + (blksBytes (mid.map blk)).length + 8) := by omega
      rw [e]

/-- What a reader is to see of a grain. -/
def seen (o : Opts) (g : DocGrain) : Meta × Option Bytes × Nat :=
  (g.info, if o.defers = false ∧ o.mode = .loadNever then none else if g.data = [] then none else some g.data,
    g.localId)

theorem grainTurns (o : Opts) (h : Hdr) (h9 : h.major = 9) : ∀ (l : List (List Char × Bytes)) (gs : List DocGrain),
    Each tGrai (IsGrain true) l gs → (∀ x ∈ l, (blk x).Ok x.1 ∧ TagConst x.1) → ∀ p,
    ∃ items, Turns o p h false (blksBytes (l.map blk)) items h false ∧
      ∀ file, At ⟨0, file⟩ p (blksBytes (l.map blk)) →
        items.map (Item.view file) = (gs.filter (fun g => !o.drops g.localId)).map (seen o) := by
  intro l
  induction l with
  | nil =>
    intro gs hE _ p
    obtain rfl : gs = [] := hE
    exact ⟨[], .nil, fun _ _ => rfl⟩
  | cons x l ih =>
    intro gs hE hok p
    have hx := hok x (by simp)
    have hok' : ∀ y ∈ l, (blk y).Ok y.1 ∧ TagConst y.1 := fun y hy => hok y (by simp [hy])
    rw [List.map_cons, blksBytes_cons]
    by_cases ht : x.1 = tGrai
    · obtain ⟨g, gs, rfl, hR, hE'⟩ := each_hit hE ht
      obtain ⟨t, y⟩ := x
      simp only at ht
      subst ht
      obtain ⟨off, hdat, hturn⟩ := grainTurn o h h9 hR hx.1
      obtain ⟨items, h1, h2⟩ := ih gs hE' hok' (p + (blk (tGrai, y)).bytes.length)
      have hturn := hturn p
      unfold out at hturn
      cases hdr : o.drops g.localId with
      | true =>
        rw [hdr, if_pos rfl] at hturn
        refine ⟨items, .next hturn h1, fun file hat => ?_⟩
        rw [h2 file hat.right, List.filter_cons_of_neg (by simp [hdr])]
      | false =>
        rw [hdr, if_neg (by simp)] at hturn
        refine ⟨_ :: items, .yield hturn h1, fun file hat => ?_⟩
        rw [List.map_cons, h2 file hat.right, List.filter_cons_of_pos (by simp [hdr]), List.map_cons]
        congr 1
        unfold Item.view seen
        simp only
        rw [o.dataOf_load (hdat _ _ hat.left)]
    · obtain ⟨items, h1, h2⟩ := ih gs (each_miss hE ht) hok' (p + (blk x).bytes.length)
      exact ⟨items, .next (turn_other o h p hx.1 ht) h1, fun file hat => h2 file hat.right⟩

/-! ## Files -/

theorem others_of {ts : List (List Char)} {l : List (List Char × Bytes)} {t : List Char} (ht : t ∈ ts)
    (h : Without ts l) (hok : ∀ x ∈ l, (blk x).Ok x.1 ∧ TagConst x.1) : Others [t] (l.map blk) := by
  intro b hb
  obtain ⟨y, hy, rfl⟩ := List.mem_map.1 hb
  refine ⟨y.1, (hok y hy).1, ?_⟩
  intro hm
  rw [List.mem_singleton] at hm
  exact h y hy (hm ▸ ht)

/-- The signature and version. -/
theorem ssb {minor : Nat} {bs} (h : (Tag tSSBB ⨾ Tag tGrsg ⨾ Unsigned 2 9 ⨾ Unsigned 2 minor) bs) :
    Reads (decodeSsb false) bs (9, minor) := by
  obtain ⟨a, _, rfl, ha, b, _, rfl, hb, c, d, rfl, hc, hd⟩ := h
  have : a ++ (b ++ (c ++ d)) = padString (tSSBB ++ tGrsg) 8 ++ (c ++ d) := by
    rw [show padString (tSSBB ++ tGrsg) 8 = tagBytes tSSBB ++ tagBytes tGrsg by decide, tag_bytes ha, tag_bytes hb]
    simp only [List.append_assoc]
  rw [this]
  unfold decodeSsb
  simp only [Bool.not_false, if_true]
  apply Reads.bind (reads_padString (by decide) (by decide))
  rw [if_neg (by simp)]
  apply Reads.bind (unsigned _ _ _ hc)
  exact (unsigned _ _ _ hd).bind_pure

/-- What happens when a file of the documents is opened. -/
theorem opening {minor : Nat} {h : DocHead} {tidy : Bool} {x : Bytes} (hx : IsHead tidy h x)
    (hok : (blk (tHead, x)).Ok tHead) {pre : List (List Char × Bytes)} (hpre : Others [tHead] (pre.map blk))
    {v : Bytes} (hv : (Tag tSSBB ⨾ Tag tGrsg ⨾ Unsigned 2 9 ⨾ Unsigned 2 minor) v) {s : Stream} {p : Nat}
    (hat : At s p (v ++ (blksBytes (pre.map blk) ++ (blk (tHead, x)).bytes))) :
    (∀ d, h.created = some d → tidy = true → decodeFileHeaders false s p =
      .ok (⟨9, minor, ⟨h.id, d, h.segments, h.tags⟩⟩,
        p + (v ++ (blksBytes (pre.map blk) ++ (blk (tHead, x)).bytes)).length)) ∧
    (h.created = none → decodeFileHeaders false s p = .error .value) := by
  have h0 := ssb hv s p hat.left
  have h1 := hat.right
  have hent := (enter_past hpre h1).trans (enter_blk h1.right hok (.inr rfl))
  constructor
  · intro d hd ht
    subst ht
    unfold decodeFileHeaders
    rw [Rd.bind_of_ok h0]
    simp only
    rw [if_pos (by simp)]
    have key : decodeHeadBlock s (p + v.length) = .ok (⟨h.id, d, h.segments, h.tags⟩,
        p + (v ++ (blksBytes (pre.map blk) ++ (blk (tHead, x)).bytes)).length) := by
      unfold decodeHeadBlock
      rw [Rd.bind_of_ok hent]
      have : Block.inRemaining ⟨p + v.length + (blksBytes (pre.map blk)).length, (blk (tHead, x)).size, tHead⟩
          (decodeHead ⟨p + v.length + (blksBytes (pre.map blk)).length, (blk (tHead, x)).size, tHead⟩) s
          (p + v.length + (blksBytes (pre.map blk)).length + 8) = .ok (⟨h.id, d, h.segments, h.tags⟩,
          p + v.length + (blksBytes (pre.map blk)).length + (blk (tHead, x)).bytes.length) := by
        apply inRemaining_mk tc h1.right
        refine isHead hd _ _ _ x hx ?_
        unfold blk mkBlk
        simp only; omega
      rw [Rd.bind_of_ok this]
      simp only [Block.exit, Rd.bind_apply, Rd.seek_apply, Rd.pure_apply, Block.endPos]
      rw [List.length_append, List.length_append, hok.length]
      simp only [Nat.add_assoc]
    have : Rd.eofToDecode decodeHeadBlock s (p + v.length) = .ok (⟨h.id, d, h.segments, h.tags⟩,
        p + (v ++ (blksBytes (pre.map blk) ++ (blk (tHead, x)).bytes)).length) := by
      simp only [Rd.eofToDecode, key]
    rw [Rd.bind_of_ok this]
    rfl
  · intro hd
    unfold decodeFileHeaders
    rw [Rd.bind_of_ok h0]
    simp only
    rw [if_pos (by simp)]
    have key : decodeHeadBlock s (p + v.length) = .error .value := by
      unfold decodeHeadBlock
      rw [Rd.bind_of_ok hent]
      apply Rd.bind_of_error
      have h3' : At s (p + v.length + (blksBytes (pre.map blk)).length + 8) x := at_payload tl4 h1.right
      have e : (((p + v.length + (blksBytes (pre.map blk)).length : Nat) : Int) + ((8 + x.length : Nat) : Int) -
        ((p + v.length + (blksBytes (pre.map blk)).length + 8 : Nat) : Int)).toNat = x.length := by omega
      simp only [Block.inRemaining, blk, mkBlk, e, h3'.take]
      rw [isHead_null hd hx (at_self _ _)]
    have : Rd.eofToDecode decodeHeadBlock s (p + v.length) = .error .value := by
      simp only [Rd.eofToDecode, key]
    rw [Rd.bind_of_error this]

end Verif.Gsf.Doc

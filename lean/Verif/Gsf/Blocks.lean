import Verif.Gsf.Codec

/-!
# Blocks: a tag, a size and a body

Lemmas about walking over well-formed blocks.
-/

namespace Verif.Gsf

open Verif

/-- A block as bytes: four tag bytes, the size field and the body. -/
structure Blk where
  tb : Bytes
  size : Nat
  body : Bytes
  deriving DecidableEq, Repr

def Blk.bytes (b : Blk) : Bytes := b.tb ++ (encodeUint b.size 4 ++ b.body)

/-- Well-formed with tag string `t`: the tag bytes decode to `t`, which is not the file signature, and
the body is as long as the size says (sizes below 8 stand for an 8 byte block, `gsf.py:521-523`). -/
structure Blk.Ok (b : Blk) (t : List Char) : Prop where
  tbLen : b.tb.length = 4
  tagOk : (decodeUtf8 b.tb).map cleanString = some t
  notSig : t ≠ tSSBB
  sizeLt : b.size < 2 ^ 32
  bodyLen : b.body.length + 8 = max 8 b.size

theorem Blk.length_eq (b : Blk) (h : b.tb.length = 4) : b.bytes.length = 8 + b.body.length := by
  simp [Blk.bytes, h]; omega

theorem Blk.Ok.length {b : Blk} {t} (h : b.Ok t) : b.bytes.length = max 8 b.size := by
  rw [b.length_eq h.tbLen]; have := h.bodyLen; omega

/-- The block the encoder writes for a tag and a body. -/
def mkBlk (t : List Char) (body : Bytes) : Blk := ⟨tagBytes t, 8 + body.length, body⟩

theorem mkBlk_bytes (t : List Char) (body : Bytes) :
    (mkBlk t body).bytes = tagBytes t ++ (encodeUint (8 + body.length : Nat) 4 ++ body) := rfl

/-- A tag constant: four characters, one byte each, no NUL at the ends. -/
def TagConst (t : List Char) : Prop := (tagBytes t).length = 4 ∧ StrOk t

instance (t : List Char) : Decidable (TagConst t) := by unfold TagConst; infer_instance

theorem mkBlk_ok {t : List Char} {body : Bytes} (ht : TagConst t) (hs : t ≠ tSSBB)
    (hl : 8 + body.length < 2 ^ 32) : (mkBlk t body).Ok t where
  tbLen := ht.1
  tagOk := by simp [mkBlk, tagBytes, decodeUtf8_encodeUtf8, cleanString_ok ht.2]
  notSig := hs
  sizeLt := hl
  bodyLen := by simp [mkBlk]; omega

theorem mkBlk_length (t : List Char) (body : Bytes) (h : (tagBytes t).length = 4) :
    (mkBlk t body).bytes.length = 8 + body.length := by
  rw [Blk.length_eq _ h]; rfl

theorem readHeader_hdr {s p} {tb : Bytes} {t : List Char} {size : Nat}
    (h : At s p (tb ++ encodeUint size 4)) (hl : tb.length = 4)
    (ht : (decodeUtf8 tb).map cleanString = some t) (hs : t ≠ tSSBB) (hz : size < 2 ^ 32) :
    readHeader s p = .ok ((t, size), p + 8) := by
  cases hu : decodeUtf8 tb with
  | none => simp [hu] at ht
  | some u =>
    rw [hu] at ht
    simp only [Option.map_some, Option.some.injEq] at ht
    have h1 := reads_string_bytes hl hu s p h.left
    rw [ht, hl] at h1
    have h2 := reads_uint (n := 4) (v := size) (by omega) s _ h.right
    simp only [encodeUint_length, hl] at h2
    simp only [readHeader]
    rw [Rd.bind_of_ok h1, if_neg hs, Rd.bind_of_ok h2]
    rfl

theorem readHeader_blk {s p} {b : Blk} {t} (h : At s p b.bytes) (hb : b.Ok t) :
    readHeader s p = .ok ((t, b.size), p + 8) := by
  unfold Blk.bytes at h
  rw [← List.append_assoc] at h
  exact readHeader_hdr h.left hb.tbLen hb.tagOk hb.notSig hb.sizeLt

theorem enter_blk {s p} {b : Blk} {t want r} (h : At s p b.bytes) (hb : b.Ok t)
    (hw : want = none ∨ want = some t) :
    enter want r s p = .ok (⟨p, b.size, t⟩, p + 8) := by
  rw [enter_eq _ _ _ _ h.base, readHeader_blk h hb]
  simp only [hw, if_true]

theorem enter_skip {s p} {b : Blk} {t want} (h : At s p b.bytes) (hb : b.Ok t)
    (hw : ¬ (want = none ∨ want = some t)) :
    enter want false s p = enter want false s (p + b.bytes.length) := by
  rw [enter_eq _ _ _ _ h.base, readHeader_blk h hb]
  simp only [hw, if_false, hb.length]
  rfl

/-- The child reader `f` accepts block `b` (tag `t`) and turns state `st` into `st'`. -/
def ChildReads (f : Block → σ → Rd σ) (b : Blk) (t : List Char) (st st' : σ) : Prop :=
  ∀ s p, At s p b.bytes → ∃ q, f ⟨p, b.size, t⟩ st s (p + 8) = .ok (st', q)

/-- `f` accepts a list of blocks in turn. -/
inductive ChildrenRead (f : Block → σ → Rd σ) : List Blk → σ → σ → Prop where
  | nil (st : σ) : ChildrenRead f [] st st
  | cons {b : Blk} {t : List Char} {rest : List Blk} {st st1 st2 : σ} :
    b.Ok t → ChildReads f b t st st1 → ChildrenRead f rest st1 st2 →
    ChildrenRead f (b :: rest) st st2

theorem ChildrenRead.append {f : Block → σ → Rd σ} {l1 l2 st st1 st2} (h1 : ChildrenRead f l1 st st1)
    (h2 : ChildrenRead f l2 st1 st2) : ChildrenRead f (l1 ++ l2) st st2 := by
  induction h1 with
  | nil => exact h2
  | cons a b _ ih => exact .cons a b (ih h2)

theorem ChildrenRead.single {f : Block → σ → Rd σ} {b t st st1} (h : b.Ok t)
    (hc : ChildReads f b t st st1) : ChildrenRead f [b] st st1 := .cons h hc (.nil _)

/-- A list that is written block by block and folded into the state element by element. -/
theorem ChildrenRead.map {f : Block → σ → Rd σ} {t : List Char} (blk : α → Blk) (upd : σ → α → σ)
    (l : List α) (h : ∀ a ∈ l, (blk a).Ok t ∧ ∀ st, ChildReads f (blk a) t st (upd st a)) (st : σ) :
    ChildrenRead f (l.map blk) st (l.foldl upd st) := by
  induction l generalizing st with
  | nil => exact .nil _
  | cons a l ih =>
    have ha := h a (by simp)
    refine .cons ha.1 (ha.2 st) (ih (fun b hb => h b (by simp [hb])) _)

/-- `Pad known l l'`: `l'` is `l` with blocks whose tag is not in `known` inserted anywhere. -/
inductive Pad (known : List (List Char)) : List Blk → List Blk → Prop where
  | nil : Pad known [] []
  | keep (b : Blk) {l l'} : Pad known l l' → Pad known (b :: l) (b :: l')
  | junk {b : Blk} {t : List Char} {l l'} : b.Ok t → t ∉ known → Pad known l l' → Pad known l (b :: l')

theorem Pad.refl (known) : ∀ l, Pad known l l
  | [] => .nil
  | b :: l => .keep b (Pad.refl known l)

/-- Inserting ignored blocks does not change what a list of children reads to. -/
theorem ChildrenRead.pad {f : Block → σ → Rd σ} {known l l' st st'} (hp : Pad known l l')
    (hf : ∀ child st, child.tag ∉ known → f child st = Pure.pure st)
    (h : ChildrenRead f l st st') : ChildrenRead f l' st st' := by
  induction hp generalizing st with
  | nil => exact h
  | keep b _ ih =>
    cases h with
    | cons h1 h2 h3 => exact .cons h1 h2 (ih h3)
  | junk hok ht _ ih =>
    refine .cons hok ?_ (ih h)
    intro s p _
    exact ⟨p + 8, by rw [hf _ _ ht]; rfl⟩

/-- Concatenated bytes of a list of blocks. -/
def blksBytes (l : List Blk) : Bytes := l.flatMap Blk.bytes

@[simp] theorem blksBytes_nil : blksBytes [] = [] := rfl
@[simp] theorem blksBytes_cons (b : Blk) (l) : blksBytes (b :: l) = b.bytes ++ blksBytes l := rfl
@[simp] theorem blksBytes_append (a b : List Blk) : blksBytes (a ++ b) = blksBytes a ++ blksBytes b := by
  simp [blksBytes]

/-- Walking over a parent's children ends exactly at the parent's end in the expected state. -/
theorem forChildren_read {f : Block → σ → Rd σ} {blks st st'} (h : ChildrenRead f blks st st')
    {s p} (hat : At s p (blksBytes blks)) (b : Block)
    (hend : b.start + b.size = p + (blksBytes blks).length) :
    forChildren b f st s p = .ok (st', p + (blksBytes blks).length) := by
  induction h generalizing p with
  | nil st =>
    rw [forChildren_eq _ _ _ _ _ hat.base]
    simp at hend ⊢
    rw [if_neg (by omega), if_pos (by omega)]
  | @cons blk t rest st st1 st2 hok hc _ ih =>
    rw [blksBytes_cons] at hat hend ⊢
    have h1 := hat.left
    have hlen := hok.length
    rw [forChildren_eq _ _ _ _ _ hat.base]
    rw [List.length_append] at hend ⊢
    rw [if_pos (by omega), enter_blk h1 hok (.inl rfl)]
    obtain ⟨q, hq⟩ := hc s p h1
    simp only [hq]
    have h2 := hat.right
    have := ih h2 (by omega)
    simp only [Block.endPos]
    rw [← hlen, this, Nat.add_assoc]

/-- Position-aware version of `Reads`. -/
def ReadsAt (s : Stream) (p : Nat) (m : Rd α) (bs : Bytes) (a : α) : Prop :=
  At s p bs → m s p = .ok (a, p + bs.length)

theorem Reads.at {m : Rd α} {bs a} (h : Reads m bs a) (s p) : ReadsAt s p m bs a := h s p

theorem Reads.bindAt {m : Rd α} {f : α → Rd β} {b1 b2 a b s p} (h1 : Reads m b1 a)
    (h2 : ReadsAt s (p + b1.length) (f a) b2 b) : ReadsAt s p (m >>= f) (b1 ++ b2) b := by
  intro h
  rw [Rd.bind_of_ok (h1 s p h.left), h2 h.right, List.length_append, Nat.add_assoc]

/-- A reader that ends with walking over the children of the block it is in. -/
theorem readsAt_children {f : Block → σ → Rd σ} {blks st st' s p b}
    (h : ChildrenRead f blks st st')
    (hend : b.start + b.size = p + (blksBytes blks).length) :
    ReadsAt s p (forChildren b f st) (blksBytes blks) st' :=
  fun hat => forChildren_read h hat b hend

/-- How the body of a block is read from a position-aware reader. -/
theorem childReads_of {f : Block → σ → Rd σ} {t body st st'} (ht : TagConst t)
    (h : ∀ s p, ReadsAt s (p + 8) (f ⟨p, 8 + body.length, t⟩ st) body st') :
    ChildReads f (mkBlk t body) t st st' := by
  intro s p hat
  rw [mkBlk_bytes, ← List.append_assoc] at hat
  have h2 := hat.right
  rw [List.length_append, encodeUint_length, ht.1] at h2
  exact ⟨_, h s p h2⟩

/-! ## Repeated fields -/

theorem reads_repeat {m : Rd α} (enc : α → Bytes) (l : List α) (h : ∀ a ∈ l, Reads m (enc a) a) :
    Reads (repeatRd l.length m) (l.flatMap enc) l := by
  induction l with
  | nil => exact Reads.pure _
  | cons a l ih =>
    rw [List.flatMap_cons]
    apply Reads.bind (h a (by simp))
    exact (ih (fun b hb => h b (by simp [hb]))).bind_pure

end Verif.Gsf

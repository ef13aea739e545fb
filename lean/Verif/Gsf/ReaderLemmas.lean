import Verif.Gsf.Reader

/-!
# Lemmas about the reader: progress, loop bounds, reading what is there
-/

namespace Verif.Gsf

open Verif

/-- End position of a stream. -/
def Stream.fin (s : Stream) : Nat := s.base + s.buf.length

/-! ## Shape of successful reads -/

theorem readRaw_eq (n : Nat) (s : Stream) (p : Nat) :
    readRaw n s p = .ok ((s.buf.drop (p - s.base)).take n,
      p + ((s.buf.drop (p - s.base)).take n).length) := rfl

theorem readExact_eq (n : Nat) (s : Stream) (p : Nat) :
    readExact n s p =
      if ((s.buf.drop (p - s.base)).take n).length = n then
        .ok ((s.buf.drop (p - s.base)).take n, p + n)
      else .error .eof := by
  simp only [readExact, Rd.bind_apply, readRaw_eq, Rd.ite_apply, Rd.fail_apply, Rd.pure_apply]
  by_cases h : ((s.buf.drop (p - s.base)).take n).length = n
  · rw [if_pos h, if_neg (by simp [h]), h]
  · rw [if_neg h, if_pos h]

/-- A successful exact read moves by exactly `n` and stays inside the stream. -/
theorem readExact_ok {n s p bs p'} (h : readExact n s p = .ok (bs, p')) :
    bs = (s.buf.drop (p - s.base)).take n ∧ bs.length = n ∧ p' = p + n := by
  rw [readExact_eq] at h
  split at h
  · rename_i hl
    simp only [Except.ok.injEq, Prod.mk.injEq] at h
    obtain ⟨rfl, rfl⟩ := h
    exact ⟨rfl, hl, rfl⟩
  · simp at h

theorem readExact_ok_fin {n s p bs p'} (hb : s.base ≤ p) (h : readExact n s p = .ok (bs, p'))
    (hn : 0 < n) : p + n ≤ s.fin := by
  obtain ⟨h1, h2, _⟩ := readExact_ok h
  rw [h1] at h2
  simp only [List.length_take, List.length_drop] at h2
  unfold Stream.fin
  omega

theorem readExact_err {n s p e} (h : readExact n s p = .error e) : e = .eof := by
  rw [readExact_eq] at h
  split at h <;> simp_all

theorem readUint_ok {n s p v p'} (h : readUint n s p = .ok (v, p')) :
    ∃ bs, readExact n s p = .ok (bs, p') ∧ v = uintOf bs := by
  simp only [readUint, Rd.bind_apply] at h
  split at h
  · rename_i bs q hq
    simp only [Rd.pure_apply, Except.ok.injEq, Prod.mk.injEq] at h
    obtain ⟨rfl, rfl⟩ := h
    exact ⟨bs, hq, rfl⟩
  · simp at h

theorem readUint_err {n s p e} (h : readUint n s p = .error e) : e = .eof := by
  simp only [readUint, Rd.bind_apply] at h
  split at h
  · simp at h
  · rename_i e' he
    simp only [Except.error.injEq] at h
    subst h; exact readExact_err he

theorem readString_ok {n s p t p'} (h : readString n s p = .ok (t, p')) :
    ∃ bs u, readExact n s p = .ok (bs, p') ∧ decodeUtf8 bs = some u ∧ t = cleanString u := by
  simp only [readString, Rd.bind_apply] at h
  split at h
  · rename_i bs q hq
    cases hu : decodeUtf8 bs with
    | none => simp [hu] at h
    | some u =>
      simp only [hu, Rd.ofOption_some, Rd.pure_apply, Except.ok.injEq, Prod.mk.injEq] at h
      obtain ⟨rfl, rfl⟩ := h
      exact ⟨bs, u, hq, hu, rfl⟩
  · simp at h

theorem readString_err {n s p e} (h : readString n s p = .error e) : e = .eof ∨ e = .decode := by
  simp only [readString, Rd.bind_apply] at h
  split at h
  · rename_i bs q hq
    cases hu : decodeUtf8 bs with
    | none => simp [hu] at h; exact .inr h.symm
    | some u => simp [hu] at h
  · rename_i e' he
    simp only [Except.error.injEq] at h
    subst h; exact .inl (readExact_err he)

/-- A header occupies exactly 8 bytes, all inside the stream. -/
theorem readHeader_ok {s p t n p'} (hb : s.base ≤ p) (h : readHeader s p = .ok ((t, n), p')) :
    p' = p + 8 ∧ p + 8 ≤ s.fin := by
  simp only [readHeader, Rd.bind_apply, Rd.ite_apply, Rd.fail_apply, Rd.pure_apply] at h
  split at h
  · rename_i a q hq
    obtain ⟨bs, u, h1, -, -⟩ := readString_ok hq
    obtain ⟨-, -, rfl⟩ := readExact_ok h1
    split at h
    · split at h
      · rename_i a' q' hq'
        obtain ⟨bs', u', h1', -, -⟩ := readString_ok hq'
        have := readExact_ok_fin (by omega) h1' (by omega)
        obtain ⟨-, -, rfl⟩ := readExact_ok h1'
        split at h
        · simp at h
        · simp at h; omega
      · simp at h
    · split at h
      · rename_i a' q' hq'
        obtain ⟨bs', h1', -⟩ := readUint_ok hq'
        have := readExact_ok_fin (by omega) h1' (by omega)
        obtain ⟨-, -, rfl⟩ := readExact_ok h1'
        simp at h; omega
      · simp at h
  · simp at h

theorem readHeader_err {s p e} (h : readHeader s p = .error e) : e = .eof ∨ e = .decode := by
  simp only [readHeader, Rd.bind_apply, Rd.ite_apply, Rd.fail_apply, Rd.pure_apply] at h
  split at h
  · split at h
    · split at h
      · split at h
        · simp at h; exact .inr h.symm
        · simp at h
      · rename_i he
        simp only [Except.error.injEq] at h
        subst h; exact readString_err he
    · split at h
      · simp at h
      · rename_i he
        simp only [Except.error.injEq] at h
        subst h; exact .inl (readUint_err he)
  · rename_i he
    simp only [Except.error.injEq] at h
    subst h; exact readString_err he

/-! ## `enter` without fuel -/

theorem enterLoop_fuel (want r) : ∀ (f1 f2 : Nat) (s : Stream) (p : Nat), s.base ≤ p →
    s.fin - p < f1 → s.fin - p < f2 → enterLoop want r f1 s p = enterLoop want r f2 s p := by
  intro f1
  induction f1 with
  | zero => intro f2 s p _ h1; omega
  | succ f1 ih =>
    intro f2 s p hb h1 h2
    cases f2 with
    | zero => omega
    | succ f2 =>
      simp only [enterLoop, Rd.bind_apply, Rd.tell_apply, Rd.ite_apply, Rd.fail_apply, Rd.pure_apply]
      cases hh : readHeader s p with
      | error e => rfl
      | ok v =>
        obtain ⟨⟨t, n⟩, q⟩ := v
        obtain ⟨rfl, hf⟩ := readHeader_ok hb hh
        simp only
        split
        · rfl
        · split
          · rfl
          · simp only [Rd.bind_apply, Rd.seek_apply, Block.endPos]
            apply ih <;> omega

/-- `__enter__` as a recursion without a bound. -/
theorem enter_eq (want : Option (List Char)) (r : Bool) (s : Stream) (p : Nat) (hb : s.base ≤ p) :
    enter want r s p =
      match readHeader s p with
      | .error e => .error e
      | .ok ((tag, size), q) =>
        if want = none ∨ want = some tag then .ok (⟨p, size, tag⟩, q)
        else if r then .error .decode
        else enter want r s (p + max 8 size) := by
  conv => lhs; simp only [enter]; rw [enterLoop]
  simp only [Rd.bind_apply, Rd.tell_apply, Rd.ite_apply, Rd.fail_apply, Rd.pure_apply]
  cases hh : readHeader s p with
  | error e => rfl
  | ok v =>
    obtain ⟨⟨t, n⟩, q⟩ := v
    obtain ⟨rfl, hf⟩ := readHeader_ok hb hh
    simp only
    split
    · rfl
    · split
      · rfl
      · simp only [Rd.bind_apply, Rd.seek_apply, Block.endPos]
        apply enterLoop_fuel
        · omega
        · unfold Stream.fin at *; omega
        · unfold Stream.fin at *; omega

/-- Strong induction on the bytes left. -/
theorem enter_ok {want r s p b q} (hb : s.base ≤ p) (h : enter want r s p = .ok (b, q)) :
    p ≤ b.start ∧ q = b.start + 8 ∧ b.start + 8 ≤ s.fin ∧ (want = none ∨ want = some b.tag) ∧
      (want = none → b.start = p) := by
  generalize hn : s.fin - p = n
  induction n using Nat.strongRecOn generalizing p with
  | _ n ih =>
    rw [enter_eq _ _ _ _ hb] at h
    cases hh : readHeader s p with
    | error e => simp [hh] at h
    | ok v =>
      obtain ⟨⟨t, sz⟩, q'⟩ := v
      obtain ⟨rfl, hf⟩ := readHeader_ok hb hh
      simp only [hh] at h
      split at h
      · rename_i hw
        simp only [Except.ok.injEq, Prod.mk.injEq] at h
        obtain ⟨rfl, rfl⟩ := h
        exact ⟨Nat.le_refl _, rfl, hf, hw, fun _ => rfl⟩
      · rename_i hw
        split at h
        · simp at h
        · have := ih (s.fin - (p + max 8 sz)) (by omega) (by omega) h rfl
          refine ⟨by omega, this.2.1, this.2.2.1, this.2.2.2.1, ?_⟩
          intro hw'; simp [hw'] at hw

theorem enter_err {want r s p e} (hb : s.base ≤ p) (h : enter want r s p = .error e) :
    e = .eof ∨ e = .decode := by
  generalize hn : s.fin - p = n
  induction n using Nat.strongRecOn generalizing p with
  | _ n ih =>
    rw [enter_eq _ _ _ _ hb] at h
    cases hh : readHeader s p with
    | error e =>
      simp only [hh, Except.error.injEq] at h
      subst h
      exact readHeader_err hh
    | ok v =>
      obtain ⟨⟨t, sz⟩, q'⟩ := v
      obtain ⟨rfl, hf⟩ := readHeader_ok hb hh
      simp only [hh] at h
      split at h
      · simp at h
      · split at h
        · simp at h; exact .inr h.symm
        · exact ih (s.fin - (p + max 8 sz)) (by omega) (by omega) h rfl

/-! ## `forChildren` without fuel -/

theorem hasChild_eq (b : Block) (s : Stream) (p : Nat) :
    b.hasChild s p =
      if p + 8 ≤ b.start + b.size then .ok (true, p)
      else if p ≠ b.start + b.size then .error .decode
      else .ok (false, p) := by
  simp only [Block.hasChild, Block.remaining, Rd.bind_apply, Rd.ite_apply, Rd.fail_apply,
    Rd.pure_apply]
  by_cases h1 : p + 8 ≤ b.start + b.size
  · rw [if_pos (by omega), if_pos h1]
  · rw [if_neg (by omega), if_neg h1]
    by_cases h2 : p ≠ b.start + b.size
    · rw [if_pos (by omega), if_pos h2]
    · rw [if_neg (by omega), if_neg h2]

theorem forChildrenLoop_fuel (b : Block) (body : Block → σ → Rd σ) :
    ∀ (f1 f2 : Nat) (st : σ) (s : Stream) (p : Nat), s.base ≤ p →
    s.fin - p < f1 → s.fin - p < f2 →
    forChildrenLoop b body f1 st s p = forChildrenLoop b body f2 st s p := by
  intro f1
  induction f1 with
  | zero => intro f2 st s p _ h1; omega
  | succ f1 ih =>
    intro f2 st s p hb h1 h2
    cases f2 with
    | zero => omega
    | succ f2 =>
      simp only [forChildrenLoop, Rd.bind_apply]
      cases hc : b.hasChild s p with
      | error e => rfl
      | ok v =>
        obtain ⟨c, q⟩ := v
        have hq : q = p := by
          rw [hasChild_eq] at hc
          split at hc
          · simp at hc; omega
          · split at hc
            · simp at hc
            · simp at hc; omega
        subst hq
        cases c with
        | false => rfl
        | true =>
          simp only [if_true, Rd.bind_apply]
          cases he : enter none false s q with
          | error e => rfl
          | ok v =>
            obtain ⟨child, q'⟩ := v
            obtain ⟨h3, h4, h5, -, -⟩ := enter_ok hb he
            simp only
            cases hbd : body child st s q' with
            | error e => rfl
            | ok v =>
              simp only [Block.exit, Rd.seek_apply]
              have : child.endPos ≥ child.start + 8 := by unfold Block.endPos; omega
              apply ih <;> omega

/-- `for child in block.child_blocks()` as a recursion without a bound. -/
theorem forChildren_eq (b : Block) (body : Block → σ → Rd σ) (st : σ) (s : Stream) (p : Nat)
    (hb : s.base ≤ p) :
    forChildren b body st s p =
      if p + 8 ≤ b.start + b.size then
        match enter none false s p with
        | .error e => .error e
        | .ok (child, q) =>
          match body child st s q with
          | .error e => .error e
          | .ok (st', _) => forChildren b body st' s child.endPos
      else if p ≠ b.start + b.size then .error .decode
      else .ok (st, p) := by
  simp only [forChildren]
  rw [forChildrenLoop]
  simp only [Rd.bind_apply, hasChild_eq]
  by_cases h1 : p + 8 ≤ b.start + b.size
  · rw [if_pos h1, if_pos h1]
    simp only [if_true, Rd.bind_apply]
    cases he : enter none false s p with
    | error e => rfl
    | ok v =>
      obtain ⟨child, q'⟩ := v
      obtain ⟨h3, h4, h5, -, -⟩ := enter_ok hb he
      simp only
      cases hbd : body child st s q' with
      | error e => rfl
      | ok v =>
        simp only [Block.exit, Rd.seek_apply]
        have : child.endPos ≥ child.start + 8 := by unfold Block.endPos; omega
        apply forChildrenLoop_fuel
        · omega
        · unfold Stream.fin at *; omega
        · unfold Stream.fin at *; omega
  · rw [if_neg h1, if_neg h1]
    by_cases h2 : p ≠ b.start + b.size
    · rw [if_pos h2, if_pos h2]
    · rw [if_neg h2, if_neg h2]; rfl

/-! ## Reading bytes that are there -/

/-- The bytes `bs` are in stream `s` at position `p`. -/
def At (s : Stream) (p : Nat) (bs : Bytes) : Prop :=
  s.base ≤ p ∧ bs <+: s.buf.drop (p - s.base)

theorem At.base {s p bs} (h : At s p bs) : s.base ≤ p := h.1

theorem at_append {s p a b} : At s p (a ++ b) ↔ At s p a ∧ At s (p + a.length) b := by
  unfold At
  constructor
  · rintro ⟨hb, t, ht⟩
    refine ⟨⟨hb, ⟨b ++ t, by rw [← ht, List.append_assoc]⟩⟩, by omega, t, ?_⟩
    have : p + a.length - s.base = (p - s.base) + a.length := by omega
    rw [this, ← List.drop_drop, ← ht, List.append_assoc, List.drop_left]
  · rintro ⟨⟨hb, t, ht⟩, _, u, hu⟩
    refine ⟨hb, u, ?_⟩
    have : p + a.length - s.base = (p - s.base) + a.length := by omega
    rw [this, ← List.drop_drop, ← ht, List.drop_left] at hu
    rw [List.append_assoc, hu, ht]

theorem At.left {s p a b} (h : At s p (a ++ b)) : At s p a := (at_append.1 h).1
theorem At.right {s p a b} (h : At s p (a ++ b)) : At s (p + a.length) b := (at_append.1 h).2

theorem At.len {s p bs} (h : At s p bs) (hne : 0 < bs.length) : p + bs.length ≤ s.fin := by
  obtain ⟨hb, t, ht⟩ := h
  have := congrArg List.length ht
  simp only [List.length_append, List.length_drop] at this
  unfold Stream.fin
  omega

theorem at_self (p : Nat) (bs : Bytes) : At ⟨p, bs⟩ p bs := by
  refine ⟨Nat.le_refl _, ?_⟩
  simp

theorem at_self_append (p : Nat) (bs t : Bytes) : At ⟨p, bs ++ t⟩ p bs := by
  refine ⟨Nat.le_refl _, t, ?_⟩
  simp

theorem at_mid (pre bs post : Bytes) : At ⟨0, pre ++ (bs ++ post)⟩ pre.length bs := by
  refine ⟨Nat.zero_le _, post, ?_⟩
  simp

theorem At.take {s p bs} (h : At s p bs) : (s.buf.drop (p - s.base)).take bs.length = bs := by
  obtain ⟨_, t, ht⟩ := h
  rw [← ht]; simp

theorem readRaw_at {s p bs} (h : At s p bs) : readRaw bs.length s p = .ok (bs, p + bs.length) := by
  rw [readRaw_eq, h.take]

/-- `m` reads exactly the bytes `bs`, wherever they are, and returns `a`. -/
def Reads (m : Rd α) (bs : Bytes) (a : α) : Prop :=
  ∀ s p, At s p bs → m s p = .ok (a, p + bs.length)

theorem Reads.pure (a : α) : Reads (Pure.pure a : Rd α) [] a := by
  intro s p _; rfl

theorem Reads.bind {m : Rd α} {f : α → Rd β} {b1 b2 a b} (h1 : Reads m b1 a) (h2 : Reads (f a) b2 b) :
    Reads (m >>= f) (b1 ++ b2) b := by
  intro s p h
  rw [Rd.bind_of_ok (h1 s p h.left), h2 s _ h.right, List.length_append, Nat.add_assoc]

theorem Reads.bind_pure {m : Rd α} {f : α → β} {b1 a} (h1 : Reads m b1 a) :
    Reads (m >>= fun x => Pure.pure (f x)) b1 (f a) := by
  have := Reads.bind (f := fun x => Pure.pure (f x)) h1 (Reads.pure (f a))
  rwa [List.append_nil] at this

theorem reads_exact {n : Nat} {bs : Bytes} (h : bs.length = n) : Reads (readExact n) bs bs := by
  intro s p hat
  rw [readExact_eq, ← h, hat.take, if_pos rfl]

theorem reads_uint {n v : Nat} (h : v < 256 ^ n) : Reads (readUint n) (encodeUint v n) v := by
  intro s p hat
  simp only [readUint]
  rw [Rd.bind_of_ok (reads_exact (encodeUint_length v n) s p hat)]
  simp only [Rd.pure_apply, uintOf_encodeUint_nat v n h]

/-- Any value, in range or not: what is read back is the value modulo the field size. -/
theorem reads_uint_int {n : Nat} (v : Int) :
    Reads (readUint n) (encodeUint v n) (v % (256 : Int) ^ n).toNat := by
  intro s p hat
  simp only [readUint]
  rw [Rd.bind_of_ok (reads_exact (encodeUint_length v n) s p hat)]
  have := uintOf_encodeUint v n
  simp only [Rd.pure_apply]
  congr 3
  omega

theorem reads_uuid {b : Bytes} (h : b.length = 16) : Reads readUuid b b := reads_exact h

theorem reads_bool (b : Bool) : Reads readBool (encodeBool b) b := by
  have h : Reads (readUint 1) (encodeBool b) (if b then 1 else 0) := by
    cases b
    · exact reads_uint (n := 1) (v := 0) (by decide)
    · exact reads_uint (n := 1) (v := 1) (by decide)
  have := h.bind_pure (f := fun n => decide (n ≠ 0))
  cases b <;> exact this

end Verif.Gsf

import Verif.Props.C09
import Verif.Gsf.Total

/-!
# C26: malformed nesting is rejected, not misread
-/

namespace Verif.Props

open Verif Verif.Gsf

/-! ## Specification: what well nested means -/

/-- The number of bytes the block at the start of `bs` claims: its size field, at least the eight bytes of
the header; the file signature counts as a block of eight bytes. -/
def claimed (bs : Bytes) : Nat :=
  if bs.take 8 = tagBytes tSSBB ++ tagBytes tGrsg then 8 else max 8 (uintOf ((bs.drop 4).take 4))

/-- The bytes are exactly a sequence of blocks: no stray bytes, and no block claims more than there is. -/
inductive Tiled : Bytes → Prop where
  | nil : Tiled []
  | cons {bs : Bytes} : 8 ≤ bs.length → claimed bs ≤ bs.length → Tiled (bs.drop (claimed bs)) → Tiled bs

/-- The size of the fixed fields at the start of a grain header. -/
def fixedLen (major : Nat) : Nat := if major = 7 then 84 else 70

/-! ## Errors of the header readers -/

/-- Only `EOFError` and `GSFDecodeError`, and never before the start of the stream. -/
structure Nice (m : Rd α) : Prop where
  fwd : ∀ {s p a q}, s.base ≤ p → m s p = .ok (a, q) → s.base ≤ q
  err : ∀ {s p e}, s.base ≤ p → m s p = .error e → e = .eof ∨ e = .decode

theorem Nice.pure (a : α) : Nice (Pure.pure a : Rd α) where
  fwd hb h := by simp at h; omega
  err _ h := by simp at h

theorem Nice.bind {m : Rd α} {f : α → Rd β} (h1 : Nice m) (h2 : ∀ a, Nice (f a)) : Nice (m >>= f) where
  fwd hb h := by
    obtain ⟨a, q, e1, e2⟩ := Rd.bind_ok h
    exact (h2 a).fwd (h1.fwd hb e1) e2
  err hb h := by
    rcases Rd.bind_err h with e | ⟨a, q, e1, e2⟩
    · exact h1.err hb e
    · exact (h2 a).err (h1.fwd hb e1) e2

theorem Nice.ite {c : Prop} [Decidable c] {m1 m2 : Rd α} (h1 : Nice m1) (h2 : Nice m2) :
    Nice (if c then m1 else m2) := by
  split <;> assumption

theorem Nice.of_safe {m : Rd α} (h : Safe m) (he : ∀ {s p e}, m s p = .error e → e = .eof ∨ e = .decode) :
    Nice m := ⟨h.fwd, fun _ h => he h⟩

theorem readUint_nice (n : Nat) : Nice (readUint n) := .of_safe (readUint_safe n) fun h => .inl (readUint_err h)
theorem readUuid_nice : Nice readUuid := .of_safe readUuid_safe fun h => .inl (readExact_err h)
theorem readBool_nice : Nice readBool := (readUint_nice 1).bind fun _ => .pure _
theorem readOptionalBool_nice : Nice readOptionalBool :=
  (readUint_nice 1).bind fun _ => .ite (.pure _) (.pure _)
theorem readSint_nice (n : Nat) : Nice (readSint n) := (readUint_nice n).bind fun _ => .pure _
theorem readOptionalSint_nice (n v : Nat) : Nice (readOptionalSint n v) :=
  (readUint_nice n).bind fun _ => .ite (.pure _) (.pure _)
theorem readString_nice (n : Nat) : Nice (readString n) := .of_safe (readString_safe n) readString_err
theorem skip_nice (n : Nat) : Nice (skip n) := .of_safe (skip_safe n) fun h => by simp [skip] at h
theorem readTimestampV7_nice : Nice readTimestampV7 :=
  (readUint_nice 6).bind fun _ => (readUint_nice 4).bind fun _ => .pure _
theorem readTimestamp_nice : Nice readTimestamp :=
  readBool_nice.bind fun _ => (readUint_nice 6).bind fun _ => (readUint_nice 4).bind fun _ => .pure _
theorem readRational_nice : Nice readRational :=
  (readUint_nice 4).bind fun _ => (readUint_nice 4).bind fun _ => .ite (.pure _) (.pure _)

theorem repeatRd_nice {m : Rd α} (h : Nice m) : ∀ n, Nice (repeatRd n m)
  | 0 => .pure _
  | n + 1 => h.bind fun _ => (repeatRd_nice h n).bind fun _ => .pure _

theorem forChildren_nice (b : Block) {f : Block → σ → Rd σ} (hs : ∀ c st, Safe (f c st))
    (hf : ∀ c st, Nice (f c st)) (st : σ) : Nice (forChildren b f st) where
  fwd := (forChildren_safe b hs st).fwd
  err := by
    intro s p e hb h
    generalize hn : s.fin - p = n
    induction n using Nat.strongRecOn generalizing p st with
    | _ n ih =>
      rw [forChildren_eq _ _ _ _ _ hb] at h
      split at h
      · cases he : enter none false s p with
        | error e =>
          simp only [he, Except.error.injEq] at h
          subst h
          exact enter_err hb he
        | ok v =>
          obtain ⟨c, q1⟩ := v
          simp only [he] at h
          obtain ⟨a1, a2, a3, -, -⟩ := enter_ok hb he
          cases hb2 : f c st s q1 with
          | error e =>
            simp only [hb2, Except.error.injEq] at h
            subst h
            exact (hf c st).err (by omega) hb2
          | ok v =>
            simp only [hb2] at h
            have : c.endPos ≥ c.start + 8 := by unfold Block.endPos; omega
            exact ih (s.fin - c.endPos) (by omega) _ (by omega) h rfl
      · split at h
        · simp at h; exact .inr h.symm
        · simp at h

theorem readTils_nice : Nice readTils :=
  (readUint_nice 2).bind fun n => repeatRd_nice ((readString_nice 16).bind fun _ => (readUint_nice 4).bind fun _ =>
    readRational_nice.bind fun _ => readBool_nice.bind fun _ => .pure _) n

theorem readComponents_nice : ∀ n off, Nice (readComponents n off)
  | 0, _ => .pure _
  | n + 1, off => (readUint_nice 4).bind fun _ => (readUint_nice 4).bind fun _ => (readUint_nice 4).bind fun _ =>
      (readUint_nice 4).bind fun l => (readComponents_nice n (off + l)).bind fun _ => .pure _

theorem vghdChild_nice (c v) : Nice (vghdChild c v) :=
  .ite (.pure _) ((readUint_nice 2).bind fun n => (readComponents_nice n 0).bind fun _ => .pure _)

theorem readVghd_nice (b) : Nice (readVghd b) :=
  (readUint_nice 4).bind fun _ => (readUint_nice 4).bind fun _ => (readUint_nice 4).bind fun _ =>
    (readUint_nice 4).bind fun _ => (readUint_nice 4).bind fun _ => readRational_nice.bind fun _ =>
    readRational_nice.bind fun _ => forChildren_nice _ vghdChild_safe vghdChild_nice _

theorem cghdChild_nice (c v) : Nice (cghdChild c v) :=
  .ite (.pure _) ((readUint_nice 2).bind fun n => (repeatRd_nice (readUint_nice 4) n).bind fun _ => .pure _)

theorem readKeyFrame_nice (major) : Nice (readKeyFrame major) :=
  .ite (readBool_nice.bind fun _ => (readSint_nice 4).bind fun _ => .pure _)
    (readOptionalBool_nice.bind fun _ => (readOptionalSint_nice 4 _).bind fun _ => .pure _)

theorem readCghd_nice (major b) : Nice (readCghd major b) :=
  (readUint_nice 4).bind fun _ => (readUint_nice 4).bind fun _ => (readUint_nice 4).bind fun _ =>
    (readUint_nice 4).bind fun _ => (readUint_nice 4).bind fun _ => (readUint_nice 4).bind fun _ =>
    (readKeyFrame_nice major).bind fun _ => forChildren_nice _ cghdChild_safe cghdChild_nice _

theorem readAghd_nice : Nice readAghd :=
  (readUint_nice 4).bind fun _ => (readUint_nice 2).bind fun _ => (readUint_nice 4).bind fun _ =>
    (readUint_nice 4).bind fun _ => .pure _

theorem readCahd_nice : Nice readCahd :=
  (readUint_nice 4).bind fun _ => (readUint_nice 2).bind fun _ => (readUint_nice 4).bind fun _ =>
    (readUint_nice 4).bind fun _ => (readUint_nice 4).bind fun _ => (readUint_nice 4).bind fun _ => .pure _

theorem gbhdChild_nice (major c m) : Nice (gbhdChild major c m) :=
  .ite (readTils_nice.bind fun _ => .pure _) (.ite ((readVghd_nice c).bind fun _ => .pure _)
    (.ite ((readCghd_nice major c).bind fun _ => .pure _) (.ite (readAghd_nice.bind fun _ => .pure _)
      (.ite (readCahd_nice.bind fun _ => .pure _) (.ite (.pure _) (.pure _))))))

theorem readGbhdFixed_nice (major) : Nice (readGbhdFixed major) :=
  readUuid_nice.bind fun _ => readUuid_nice.bind fun _ => .ite
    ((skip_nice 16).bind fun _ => readTimestampV7_nice.bind fun _ => readTimestampV7_nice.bind fun _ =>
      readRational_nice.bind fun _ => readRational_nice.bind fun _ => .pure _)
    (readTimestamp_nice.bind fun _ => readTimestamp_nice.bind fun _ =>
      readRational_nice.bind fun _ => readRational_nice.bind fun _ => .pure _)

theorem decodeGbhd_nice (major b) : Nice (decodeGbhd major b) :=
  (readGbhdFixed_nice major).bind fun _ => forChildren_nice _ (gbhdChild_safe major) (gbhdChild_nice major) _

/-! ## Walking over children succeeds only on tiled bytes -/

theorem rstripNul_prefix (u : List Char) : rstripNul u <+: u := by
  unfold rstripNul
  have h := List.dropWhile_suffix (fun c => c == '\x00') (l := u.reverse)
  have := List.reverse_prefix.2 h
  simpa using this

/-- Four bytes that read as the four character tag `t` are the bytes of `t`. -/
theorem tag_bytes {bs : Bytes} {u t : List Char} (hd : decodeUtf8 bs = some u) (hl : bs.length = 4)
    (ht : (tagBytes t).length = 4) (hc : cleanString u = t) : bs = tagBytes t := by
  have hne : t ≠ [] := by rintro rfl; simp [tagBytes, encodeUtf8] at ht
  have hr : rstripNul u = t := by
    unfold cleanString at hc
    split at hc
    · exact absurd hc.symm hne
    · rename_i c r h
      split at hc
      · exact absurd hc.symm hne
      · rw [h, hc]
  obtain ⟨r, hr'⟩ := rstripNul_prefix u
  rw [hr] at hr'
  have h1 := encodeUtf8_of_decodeUtf8 _ _ hd
  rw [← hr', encodeUtf8_append] at h1
  have h2 := congrArg List.length h1
  unfold tagBytes at ht ⊢
  rw [List.length_append, ht, hl] at h2
  have : encodeUtf8 r = [] := List.length_eq_zero_iff.1 (by omega)
  rw [← h1, this, List.append_nil]

theorem readHeader_claimed {s p t n q} (hge : s.base ≤ p) (h : readHeader s p = .ok ((t, n), q)) :
    max 8 n = claimed (s.buf.drop (p - s.base)) ∧ (s.buf.drop (p - s.base)).length ≥ 8 := by
  simp only [readHeader, Rd.bind_apply, Rd.ite_apply, Rd.fail_apply, Rd.pure_apply] at h
  cases h1 : readString 4 s p with
  | error e => simp [h1] at h
  | ok v =>
    obtain ⟨tag, q1⟩ := v
    obtain ⟨bs, w, e1, e2, e3⟩ := readString_ok h1
    obtain ⟨e4, e5, rfl⟩ := readExact_ok e1
    simp only [h1] at h
    have hlen4 : 4 ≤ (s.buf.drop (p - s.base)).length := by
      rw [e4, List.length_take] at e5; omega
    have hsplit : (s.buf.drop (p - s.base)).take 8 = bs ++ ((s.buf.drop (p - s.base)).drop 4).take 4 := by
      rw [e4, ← List.take_add]
    have hsecond : ∀ bs', bs' = (s.buf.drop (p + 4 - s.base)).take 4 → bs'.length = 4 →
        ((s.buf.drop (p - s.base)).drop 4).take 4 = bs' ∧ (s.buf.drop (p - s.base)).length ≥ 8 := by
      intro bs' hb hl
      have e : p + 4 - s.base = p - s.base + 4 := by omega
      rw [e, ← List.drop_drop] at hb
      refine ⟨hb.symm, ?_⟩
      rw [hb, List.length_take, List.length_drop] at hl
      omega
    have hS : (tagBytes tSSBB).length = 4 := by decide
    have hG : (tagBytes tGrsg).length = 4 := by decide
    unfold claimed
    rw [hsplit]
    split at h
    · rename_i ht
      split at h
      · rename_i g q2 hg
        obtain ⟨bs', w', f1, f2, f3⟩ := readString_ok hg
        obtain ⟨f4, f5, -⟩ := readExact_ok f1
        obtain ⟨h2, h3⟩ := hsecond bs' f4 f5
        split at h
        · simp at h
        · rename_i hg'
          simp only [ne_eq, Decidable.not_not] at hg'
          simp only [Except.ok.injEq, Prod.mk.injEq] at h
          rw [h2, tag_bytes e2 e5 hS (e3.symm.trans ht), tag_bytes f2 f5 hG (f3.symm.trans hg'), if_pos rfl]
          exact ⟨by omega, h3⟩
      · simp at h
    · rename_i ht
      split at h
      · rename_i m q2 hg
        obtain ⟨bs', f1, f2⟩ := readUint_ok hg
        obtain ⟨f4, f5, -⟩ := readExact_ok f1
        obtain ⟨h2, h3⟩ := hsecond bs' f4 f5
        simp only [Except.ok.injEq, Prod.mk.injEq] at h
        rw [h2, if_neg, ← f2, h.1.2]
        · exact ⟨rfl, h3⟩
        · intro he
          have := (List.append_inj he (by rw [e5, hS])).1
          rw [this] at e2
          have h4 : decodeUtf8 (tagBytes tSSBB) = some tSSBB := by decide
          rw [h4] at e2
          have h5 : cleanString tSSBB = tSSBB := by decide
          exact ht (by rw [e3, ← Option.some.inj e2, h5])
      · simp at h

theorem forChildren_tiled {b : Block} {f : Block → σ → Rd σ} (st : σ) {s : Stream} {p : Nat} {r q}
    (hb : s.base ≤ p) (hp : p ≤ s.fin) (hend : b.start + b.size = s.fin)
    (h : forChildren b f st s p = .ok (r, q)) : Tiled (s.buf.drop (p - s.base)) := by
  generalize hn : s.fin - p = n
  induction n using Nat.strongRecOn generalizing p st with
  | _ n ih =>
    rw [forChildren_eq _ _ _ _ _ hb] at h
    split at h
    · cases he : enter none false s p with
      | error e => simp [he] at h
      | ok v =>
        obtain ⟨c, q1⟩ := v
        simp only [he] at h
        obtain ⟨a1, a2, a3, -, a5⟩ := enter_ok hb he
        rw [enter_eq _ _ _ _ hb] at he
        cases hh : readHeader s p with
        | error e => simp [hh] at he
        | ok v =>
          obtain ⟨⟨t, sz⟩, q2⟩ := v
          obtain ⟨hc1, hc2⟩ := readHeader_claimed hb hh
          simp only [hh, true_or, if_true, Except.ok.injEq, Prod.mk.injEq] at he
          obtain ⟨rfl, -⟩ := he
          cases hb2 : f ⟨p, sz, t⟩ st s q1 with
          | error e => simp [hb2] at h
          | ok v =>
            simp only [hb2, Block.endPos, hc1] at h
            have h8 : 8 ≤ claimed (s.buf.drop (p - s.base)) := by omega
            have hle : p + claimed (s.buf.drop (p - s.base)) ≤ s.fin := by
              rw [forChildren_eq _ _ _ _ _ (by omega)] at h
              split at h
              · omega
              · split at h
                · simp at h
                · omega
            refine .cons hc2 ?_ ?_
            · rw [List.length_drop]
              unfold Stream.fin at hle
              omega
            · have := ih (s.fin - (p + claimed (s.buf.drop (p - s.base)))) (by omega) _ (by omega) hle h rfl
              rw [List.drop_drop]
              have e : p + claimed (s.buf.drop (p - s.base)) - s.base = p - s.base + claimed (s.buf.drop (p - s.base)) := by
                omega
              rwa [e] at this
    · split at h
      · simp at h
      · rename_i h1 h2
        have : s.buf.drop (p - s.base) = [] := by
          apply List.drop_eq_nil_of_le
          unfold Stream.fin at hend
          omega
        rw [this]
        exact .nil

/-- The fixed part takes exactly its bytes. -/
theorem readGbhdFixed_ok {major s p m q} (hb : s.base ≤ p) (h : readGbhdFixed major s p = .ok (m, q)) :
    q = p + fixedLen major ∧ q ≤ s.fin := by
  unfold readGbhdFixed at h
  obtain ⟨a, q1, e1, h⟩ := Rd.bind_ok h
  obtain ⟨-, -, rfl⟩ := readExact_ok e1
  obtain ⟨a, q1, e1, h⟩ := Rd.bind_ok h
  obtain ⟨-, -, rfl⟩ := readExact_ok e1
  have hu : ∀ {n s p v q}, 0 < n → s.base ≤ p → readUint n s p = .ok (v, q) → q = p + n ∧ q ≤ s.fin := by
    intro n s p v q hn hb h
    obtain ⟨bs, h1, -⟩ := readUint_ok h
    have := readExact_ok_fin hb h1 hn
    obtain ⟨-, -, rfl⟩ := readExact_ok h1
    exact ⟨rfl, this⟩
  have hr : ∀ {s p v q}, s.base ≤ p → readRational s p = .ok (v, q) → q = p + 8 ∧ q ≤ s.fin := by
    intro s p v q hb h
    unfold readRational at h
    obtain ⟨a, q1, e1, h⟩ := Rd.bind_ok h
    obtain ⟨rfl, -⟩ := hu (by omega) hb e1
    obtain ⟨a, q1, e1, h⟩ := Rd.bind_ok h
    obtain ⟨rfl, h2⟩ := hu (by omega) (by omega) e1
    rw [Rd.ite_apply] at h
    split at h
    · simp at h; omega
    · simp at h; omega
  unfold fixedLen
  rw [Rd.ite_apply] at h
  split at h
  · rename_i hm
    rw [if_pos hm]
    obtain ⟨a, q1, e1, h⟩ := Rd.bind_ok h
    simp only [skip, Rd.bind_apply, Rd.tell_apply, Rd.seek_apply, Except.ok.injEq, Prod.mk.injEq, true_and] at e1
    subst e1
    have ht : ∀ {s p v q}, s.base ≤ p → readTimestampV7 s p = .ok (v, q) → q = p + 10 ∧ q ≤ s.fin := by
      intro s p v q hb h
      unfold readTimestampV7 at h
      obtain ⟨a, q1, e1, h⟩ := Rd.bind_ok h
      obtain ⟨rfl, -⟩ := hu (by omega) hb e1
      obtain ⟨a, q1, e1, h⟩ := Rd.bind_ok h
      obtain ⟨rfl, h2⟩ := hu (by omega) (by omega) e1
      simp at h; omega
    obtain ⟨a, q1, e1, h⟩ := Rd.bind_ok h
    obtain ⟨rfl, -⟩ := ht (by omega) e1
    obtain ⟨a, q1, e1, h⟩ := Rd.bind_ok h
    obtain ⟨rfl, -⟩ := ht (by omega) e1
    obtain ⟨a, q1, e1, h⟩ := Rd.bind_ok h
    obtain ⟨rfl, -⟩ := hr (by omega) e1
    obtain ⟨a, q1, e1, h⟩ := Rd.bind_ok h
    obtain ⟨rfl, h2⟩ := hr (by omega) e1
    simp at h; omega
  · rename_i hm
    rw [if_neg hm]
    have ht : ∀ {s p v q}, s.base ≤ p → readTimestamp s p = .ok (v, q) → q = p + 11 ∧ q ≤ s.fin := by
      intro s p v q hb h
      unfold readTimestamp readBool at h
      obtain ⟨a, q1, e1, h⟩ := Rd.bind_ok h
      obtain ⟨a, q2, e2, e1⟩ := Rd.bind_ok e1
      obtain ⟨rfl, -⟩ := hu (by omega) hb e2
      simp only [Rd.pure_apply, Except.ok.injEq, Prod.mk.injEq] at e1
      obtain ⟨-, rfl⟩ := e1
      obtain ⟨a, q1, e1, h⟩ := Rd.bind_ok h
      obtain ⟨rfl, -⟩ := hu (by omega) (by omega) e1
      obtain ⟨a, q1, e1, h⟩ := Rd.bind_ok h
      obtain ⟨rfl, h2⟩ := hu (by omega) (by omega) e1
      simp at h; omega
    obtain ⟨a, q1, e1, h⟩ := Rd.bind_ok h
    obtain ⟨rfl, -⟩ := ht (by omega) e1
    obtain ⟨a, q1, e1, h⟩ := Rd.bind_ok h
    obtain ⟨rfl, -⟩ := ht (by omega) e1
    obtain ⟨a, q1, e1, h⟩ := Rd.bind_ok h
    obtain ⟨rfl, -⟩ := hr (by omega) e1
    obtain ⟨a, q1, e1, h⟩ := Rd.bind_ok h
    obtain ⟨rfl, h2⟩ := hr (by omega) e1
    simp at h; omega

theorem decodeGbhd_tiled {major p : Nat} {body : Bytes} {m q}
    (h : decodeGbhd major ⟨p, 8 + body.length, tGbhd⟩ ⟨p + 8, body⟩ (p + 8) = .ok (m, q)) :
    fixedLen major ≤ body.length ∧ Tiled (body.drop (fixedLen major)) := by
  unfold decodeGbhd at h
  obtain ⟨a, q1, e1, h⟩ := Rd.bind_ok h
  obtain ⟨rfl, h1⟩ := readGbhdFixed_ok (Nat.le_refl _) e1
  simp only [Stream.fin] at h1
  have h2 := forChildren_tiled (s := ⟨p + 8, body⟩) _ (by simp only; omega) (by simp only [Stream.fin]; omega)
    (by simp only [Stream.fin]; omega) h
  simp only [Nat.add_sub_cancel_left] at h2
  exact ⟨by omega, h2⟩

theorem readGbhdBlock_at (major : Nat) {s : Stream} {p : Nat} {body : Bytes} (hl : 8 + body.length < 2 ^ 32)
    (hat : At s p (mkBlk tGbhd body).bytes) :
    readGbhdBlock major s p =
      match decodeGbhd major ⟨p, 8 + body.length, tGbhd⟩ ⟨p + 8, body⟩ (p + 8) with
      | .ok (m, _) => .ok (m, p + 8 + body.length)
      | .error e => .error e := by
  have hok : (mkBlk tGbhd body).Ok tGbhd := mkBlk_ok tc tne hl
  unfold readGbhdBlock
  rw [Rd.bind_of_ok (enter_blk hat hok (.inr rfl))]
  have h2 := hat
  rw [mkBlk_bytes, ← List.append_assoc] at h2
  have h3 := h2.right
  have hS : (tagBytes tGbhd).length = 4 := by decide
  rw [List.length_append, encodeUint_length, hS] at h3
  have ht := h3.take
  simp only [Rd.bind_apply, Block.inRemaining, mkBlk]
  have e : (((p : Nat) : Int) + ((8 + body.length : Nat) : Int) - ((p + 8 : Nat) : Int)).toNat = body.length := by omega
  rw [e, show p + (4 + 4) = p + 8 from rfl] at *
  rw [ht]
  cases hd : decodeGbhd major ⟨p, 8 + body.length, tGbhd⟩ ⟨p + 8, body⟩ (p + 8) with
  | error e => rfl
  | ok v =>
    simp only [Block.exit, Rd.seek_apply, Rd.pure_apply, Block.endPos]
    congr 2
    omega

/-- **C26, confinement.** What a grain header decodes to, or which error it raises, depends on nothing
but the bytes inside it: neither on what comes before or after it in the file nor on the file's length. -/
theorem C26_confined (major : Nat) {s s' : Stream} {p : Nat} {body : Bytes} (hl : 8 + body.length < 2 ^ 32)
    (hat : At s p (mkBlk tGbhd body).bytes) (hat' : At s' p (mkBlk tGbhd body).bytes) :
    readGbhdBlock major s p = readGbhdBlock major s' p := by
  rw [readGbhdBlock_at major hl hat, readGbhdBlock_at major hl hat']

/-- **C26, rejection.** A grain whose header is too short, leaves stray bytes, or has a child that claims
to extend past it, is never yielded: the turn of the decoder loop raises `GSFDecodeError`, or `EOFError`
(which ends the generator). -/
theorem C26_malformed_rejected (o : Opts) (h : Hdr) {s : Stream} {p lid size : Nat} {body : Bytes}
    (hl : 8 + body.length < 2 ^ 32) (hlid : lid < 2 ^ 16) (hsz : size < 2 ^ 32) (hsz0 : size ≠ 0)
    (hwant : o.drops lid = false)
    (hat : At s p ((tagBytes tGrai ++ encodeUint size 4) ++ (encodeUint lid 2 ++ (mkBlk tGbhd body).bytes)))
    (hbad : body.length < fixedLen h.major ∨ ¬ Tiled (body.drop (fixedLen h.major))) :
    grainsStep o h false s p = .error .decode ∨ grainsStep o h false s p = .error .eof := by
  have hG : (tagBytes tGrai).length = 4 := by decide
  have h1 := readHeader_hdr hat.left hG (t := tGrai) (by decide) (by decide) hsz
  have he : enter none false s p = .ok (⟨p, size, tGrai⟩, p + 8) := by
    rw [enter_eq _ _ _ _ hat.base, h1]; rfl
  have h2 := hat.right
  rw [List.length_append, hG, encodeUint_length] at h2
  have h3 := reads_uint (n := 2) (v := lid) (by omega) s _ h2.left
  have h4 := h2.right
  rw [encodeUint_length] at h3 h4
  unfold grainsStep
  rw [if_neg (by simp), Rd.bind_of_ok he]
  simp only [ne_eq, not_true_eq_false, if_false]
  rw [if_neg hsz0, Rd.bind_of_ok h3]
  unfold Opts.drops at hwant
  rw [if_neg (by rw [hwant]; simp)]
  have h5 := readGbhdBlock_at h.major hl h4
  cases hd : decodeGbhd h.major ⟨p + (4 + 4) + 2, 8 + body.length, tGbhd⟩ ⟨p + (4 + 4) + 2 + 8, body⟩ (p + (4 + 4) + 2 + 8) with
  | ok v =>
    obtain ⟨h6, h7⟩ := decodeGbhd_tiled hd
    rcases hbad with hbad | hbad
    · omega
    · exact absurd h7 hbad
  | error e =>
    rw [hd] at h5
    have h8 := (decodeGbhd_nice _ _).err (Nat.le_refl _) hd
    rw [Rd.bind_of_error h5]
    rcases h8 with rfl | rfl
    · exact .inr rfl
    · exact .inl rfl

/-- A child claiming one byte too many, and three stray bytes, are not tiled; a written header is. -/
example : ¬ Tiled (tagBytes tTils ++ encodeUint 11 4 ++ [0, 0]) ∧ ¬ Tiled [1, 2, 3] ∧
    Tiled (tagBytes tTils ++ encodeUint 10 4 ++ [0, 0]) := by
  refine ⟨?_, ?_, ?_⟩
  · intro h
    cases h with
    | cons h1 h2 h3 => revert h2; decide +kernel
  · intro h
    cases h with
    | cons h1 h2 h3 => revert h1; decide
  · refine .cons (by decide +kernel) (by decide +kernel) ?_
    have : (tagBytes tTils ++ encodeUint 10 4 ++ [0, 0]).drop (claimed (tagBytes tTils ++ encodeUint 10 4 ++ [0, 0])) = [] := by
      decide +kernel
    rw [this]; exact .nil

/-- A grain header whose audio block is only 8 bytes long, followed by a block with an unknown tag. -/
def shortAghd : Bytes :=
  encodeGbhdFixed 9 gAudio ++ ((mkBlk tAghd []).bytes ++ (mkBlk ['x', 't', 'r', 'a'] [9, 0, 0, 0, 7, 0, 0, 0]).bytes)

/-- **A limit of C26**: a child that claims too *little* is not detected; its fields are then taken from
the blocks that follow it inside the header. -/
theorem C26_short_child_misread :
    Tiled (shortAghd.drop (fixedLen 9)) ∧
      ∃ m, (readGbhdBlock 9 ⟨0, (mkBlk tGbhd shortAghd).bytes⟩ 0).toOption.map Prod.fst = some m ∧
        m.cogAudio = some ⟨uintOf (tagBytes ['x', 't', 'r', 'a']), 16, 589824, 458752⟩ := by
  refine ⟨?_, ?_⟩
  · refine .cons (by decide +kernel) (by decide +kernel) (.cons (by decide +kernel) (by decide +kernel) ?_)
    have : ((shortAghd.drop (fixedLen 9)).drop (claimed (shortAghd.drop (fixedLen 9)))).drop
        (claimed ((shortAghd.drop (fixedLen 9)).drop (claimed (shortAghd.drop (fixedLen 9))))) = [] := by decide +kernel
    rw [this]; exact .nil
  · have h : ((readGbhdBlock 9 ⟨0, (mkBlk tGbhd shortAghd).bytes⟩ 0).toOption.map Prod.fst).bind (fun m => m.cogAudio) =
      some ⟨uintOf (tagBytes ['x', 't', 'r', 'a']), 16, 589824, 458752⟩ := by decide +kernel
    cases hm : (readGbhdBlock 9 ⟨0, (mkBlk tGbhd shortAghd).bytes⟩ 0).toOption.map Prod.fst with
    | none => rw [hm] at h; simp at h
    | some m => rw [hm] at h; exact ⟨m, rfl, h⟩

end Verif.Props

import Verif.Gsf.Whole

/-!
# Cutting a stream short

A read that succeeds on a stream either gives the same result on the stream cut short, or runs out of
bytes.
-/

namespace Verif.Gsf

open Verif

/-- The stream with only its first `n` bytes. -/
def Stream.cut (s : Stream) (n : Nat) : Stream := ⟨s.base, s.buf.take n⟩

@[simp] theorem Stream.cut_base (s : Stream) (n) : (s.cut n).base = s.base := rfl

structure Mono (m : Rd α) : Prop where
  fwd : ∀ {s p a q}, s.base ≤ p → m s p = .ok (a, q) → s.base ≤ q
  cut : ∀ {s p a q} (n : Nat), s.base ≤ p → m s p = .ok (a, q) →
    m (s.cut n) p = .ok (a, q) ∨ m (s.cut n) p = .error .eof
  err : ∀ {s p e} (n : Nat), s.base ≤ p → m s p = .error e →
    m (s.cut n) p = .error e ∨ m (s.cut n) p = .error .eof

theorem Mono.pure (a : α) : Mono (Pure.pure a : Rd α) where
  fwd hb h := by simp at h; omega
  cut n _ h := .inl h
  err n _ h := .inl h

theorem Mono.bind {m : Rd α} {f : α → Rd β} (h1 : Mono m) (h2 : ∀ a, Mono (f a)) : Mono (m >>= f) where
  fwd hb h := by
    obtain ⟨a, q, e1, e2⟩ := Rd.bind_ok h
    exact (h2 a).fwd (h1.fwd hb e1) e2
  cut n hb h := by
    obtain ⟨a, q, e1, e2⟩ := Rd.bind_ok h
    rcases h1.cut n hb e1 with e | e
    · rw [Rd.bind_of_ok e]
      exact (h2 a).cut n (h1.fwd hb e1) e2
    · rw [Rd.bind_of_error e]
      exact .inr rfl
  err := by
    intro s p e n hb h
    cases e1 : m s p with
    | error e' =>
      rw [Rd.bind_of_error e1] at h
      rcases h1.err n hb e1 with e2 | e2
      · rw [Rd.bind_of_error e2]; exact .inl h
      · rw [Rd.bind_of_error e2]; exact .inr rfl
    | ok v =>
      obtain ⟨a, q⟩ := v
      rw [Rd.bind_of_ok e1] at h
      rcases h1.cut n hb e1 with e2 | e2
      · rw [Rd.bind_of_ok e2]
        exact (h2 a).err n (h1.fwd hb e1) h
      · rw [Rd.bind_of_error e2]; exact .inr rfl

theorem Mono.fail (e : Err) : Mono (Rd.fail e : Rd α) where
  fwd _ h := by simp at h
  cut _ _ h := by simp at h
  err _ _ h := .inl h

theorem Mono.ite {c : Prop} [Decidable c] {m1 m2 : Rd α} (h1 : Mono m1) (h2 : Mono m2) :
    Mono (if c then m1 else m2) := by
  split <;> assumption

theorem Mono.ofOption (e : Err) (o : Option α) : Mono (Rd.ofOption e o) := by
  cases o with
  | none => exact Mono.fail e
  | some a => exact Mono.pure a

theorem readExact_mono (n : Nat) : Mono (readExact n) where
  fwd hb h := by
    obtain ⟨-, -, rfl⟩ := readExact_ok h
    omega
  cut := by
    intro s p a q N hb h
    have h0 := h
    obtain ⟨h1, h2, rfl⟩ := readExact_ok h
    rw [readExact_eq]
    by_cases hl : (((s.cut N).buf.drop (p - (s.cut N).base)).take n).length = n
    · left
      rw [if_pos hl]
      have : ((s.cut N).buf.drop (p - (s.cut N).base)).take n = (s.buf.drop (p - s.base)).take n := by
        simp only [Stream.cut, List.drop_take, List.take_take] at hl ⊢
        rw [List.length_take] at hl
        congr 1
        omega
      rw [this, ← h1]
    · right; rw [if_neg hl]
  err := by
    intro s p e N hb h
    rw [readExact_eq] at h
    split at h
    · simp at h
    · rename_i hl
      right
      rw [readExact_eq, if_neg]
      intro hl2
      apply hl
      simp only [Stream.cut, List.length_take, List.length_drop] at hl2 ⊢
      omega

theorem readUint_mono (n : Nat) : Mono (readUint n) := (readExact_mono n).bind fun _ => .pure _
theorem readBool_mono : Mono readBool := (readUint_mono 1).bind fun _ => .pure _
theorem readOptionalBool_mono : Mono readOptionalBool :=
  (readUint_mono 1).bind fun _ => .ite (.pure _) (.pure _)
theorem readSint_mono (n : Nat) : Mono (readSint n) := (readUint_mono n).bind fun _ => .pure _
theorem readOptionalSint_mono (n v : Nat) : Mono (readOptionalSint n v) :=
  (readUint_mono n).bind fun _ => .ite (.pure _) (.pure _)
theorem readString_mono (n : Nat) : Mono (readString n) :=
  (readExact_mono n).bind fun _ => (Mono.ofOption _ _).bind fun _ => .pure _
theorem readVarstring_mono : Mono readVarstring := (readUint_mono 2).bind fun n => readString_mono n
theorem readUuid_mono : Mono readUuid := readExact_mono 16
theorem skip_mono (n : Nat) : Mono (skip n) where
  fwd hb h := by simp [skip] at h; omega
  cut N hb h := .inl (by simpa [skip] using h)
  err N hb h := .inl (by simpa [skip] using h)
theorem readTimestampV7_mono : Mono readTimestampV7 :=
  (readUint_mono 6).bind fun _ => (readUint_mono 4).bind fun _ => .pure _
theorem readTimestamp_mono : Mono readTimestamp :=
  readBool_mono.bind fun _ => (readUint_mono 6).bind fun _ => (readUint_mono 4).bind fun _ => .pure _
theorem readRational_mono : Mono readRational :=
  (readUint_mono 4).bind fun _ => (readUint_mono 4).bind fun _ => .ite (.pure _) (.pure _)

theorem repeatRd_mono {m : Rd α} (h : Mono m) : ∀ n, Mono (repeatRd n m)
  | 0 => .pure _
  | n + 1 => h.bind fun _ => (repeatRd_mono h n).bind fun _ => .pure _

theorem readHeader_mono : Mono readHeader :=
  (readString_mono 4).bind fun _ => .ite ((readString_mono 4).bind fun _ => .ite (.fail _) (.pure _))
    ((readUint_mono 4).bind fun _ => .pure _)

theorem enter_mono (want r) : Mono (enter want r) where
  fwd hb h := by
    have := enter_ok hb h
    omega
  cut := by
    intro s p a q N hb h
    generalize hn : s.fin - p = n
    induction n using Nat.strongRecOn generalizing p with
    | _ n ih =>
      rw [enter_eq _ _ _ _ hb] at h
      rw [enter_eq _ _ _ _ (by simpa using hb)]
      cases hh : readHeader s p with
      | error e => simp [hh] at h
      | ok v =>
        obtain ⟨⟨t, sz⟩, q'⟩ := v
        obtain ⟨rfl, hf⟩ := readHeader_ok hb hh
        rcases readHeader_mono.cut N hb hh with e | e
        · rw [e]
          simp only [hh] at h ⊢
          split at h
          · rename_i hw
            rw [if_pos hw]
            exact .inl h
          · rename_i hw
            rw [if_neg hw]
            split at h
            · simp at h
            · rename_i hr
              rw [if_neg hr]
              exact ih (s.fin - (p + max 8 sz)) (by omega) (by omega) h rfl
        · rw [e]; exact .inr rfl
  err := by
    intro s p a N hb h
    generalize hn : s.fin - p = n
    induction n using Nat.strongRecOn generalizing p with
    | _ n ih =>
      rw [enter_eq _ _ _ _ hb] at h
      rw [enter_eq _ _ _ _ (by simpa using hb)]
      cases hh : readHeader s p with
      | error e =>
        simp only [hh] at h
        rcases readHeader_mono.err N hb hh with e2 | e2
        · rw [e2]; exact .inl h
        · rw [e2]; exact .inr rfl
      | ok v =>
        obtain ⟨⟨t, sz⟩, q'⟩ := v
        obtain ⟨rfl, hf⟩ := readHeader_ok hb hh
        rcases readHeader_mono.cut N hb hh with e | e
        · rw [e]
          simp only [hh] at h ⊢
          split at h
          · simp at h
          · rename_i hw
            rw [if_neg hw]
            split at h
            · rename_i hr
              rw [if_pos hr]
              exact .inl h
            · rename_i hr
              rw [if_neg hr]
              exact ih (s.fin - (p + max 8 sz)) (by omega) (by omega) h rfl
        · rw [e]; exact .inr rfl

theorem forChildren_mono (b : Block) {f : Block → σ → Rd σ} (hf : ∀ c st, Mono (f c st)) (st : σ) :
    Mono (forChildren b f st) where
  fwd := by
    intro s p a q hb h
    generalize hn : s.fin - p = n
    induction n using Nat.strongRecOn generalizing p st with
    | _ n ih =>
      rw [forChildren_eq _ _ _ _ _ hb] at h
      split at h
      · cases he : enter none false s p with
        | error e => simp [he] at h
        | ok v =>
          obtain ⟨c, q1⟩ := v
          simp only [he] at h
          obtain ⟨a1, a2, a3, -, -⟩ := enter_ok hb he
          cases hb2 : f c st s q1 with
          | error e => simp [hb2] at h
          | ok v =>
            simp only [hb2] at h
            have : c.endPos ≥ c.start + 8 := by unfold Block.endPos; omega
            exact ih (s.fin - c.endPos) (by omega) _ (by omega) h rfl
      · split at h
        · simp at h
        · simp at h; omega
  cut := by
    intro s p a q N hb h
    generalize hn : s.fin - p = n
    induction n using Nat.strongRecOn generalizing p st with
    | _ n ih =>
      rw [forChildren_eq _ _ _ _ _ hb] at h
      rw [forChildren_eq _ _ _ _ _ (by simpa using hb)]
      by_cases h1 : p + 8 ≤ b.start + b.size
      · rw [if_pos h1] at h ⊢
        cases he : enter none false s p with
        | error e => simp [he] at h
        | ok v =>
          obtain ⟨c, q1⟩ := v
          simp only [he] at h
          obtain ⟨a1, a2, a3, -, -⟩ := enter_ok hb he
          rcases (enter_mono none false).cut N hb he with e | e
          · rw [e]
            cases hb2 : f c st s q1 with
            | error e => simp [hb2] at h
            | ok v =>
              obtain ⟨st', q2⟩ := v
              simp only [hb2] at h
              have : c.endPos ≥ c.start + 8 := by unfold Block.endPos; omega
              rcases (hf c st).cut N (by omega) hb2 with e | e
              · simp only [e]
                exact ih (s.fin - c.endPos) (by omega) _ (by omega) h rfl
              · simp [e]
          · rw [e]; exact .inr rfl
      · rw [if_neg h1] at h ⊢
        exact .inl h
  err := by
    intro s p a N hb h
    generalize hn : s.fin - p = n
    induction n using Nat.strongRecOn generalizing p st with
    | _ n ih =>
      rw [forChildren_eq _ _ _ _ _ hb] at h
      rw [forChildren_eq _ _ _ _ _ (by simpa using hb)]
      by_cases h1 : p + 8 ≤ b.start + b.size
      · rw [if_pos h1] at h ⊢
        cases he : enter none false s p with
        | error e =>
          simp only [he] at h
          rcases (enter_mono none false).err N hb he with e2 | e2
          · rw [e2]; exact .inl h
          · rw [e2]; exact .inr rfl
        | ok v =>
          obtain ⟨c, q1⟩ := v
          simp only [he] at h
          obtain ⟨a1, a2, a3, -, -⟩ := enter_ok hb he
          rcases (enter_mono none false).cut N hb he with e | e
          · rw [e]
            cases hb2 : f c st s q1 with
            | error e =>
              simp only [hb2] at h
              rcases (hf c st).err N (by omega) hb2 with e | e
              · simp only [e]; exact .inl h
              · simp [e]
            | ok v =>
              obtain ⟨st', q2⟩ := v
              simp only [hb2] at h
              have : c.endPos ≥ c.start + 8 := by unfold Block.endPos; omega
              rcases (hf c st).cut N (by omega) hb2 with e | e
              · simp only [e]
                exact ih (s.fin - c.endPos) (by omega) _ (by omega) h rfl
              · simp [e]
          · rw [e]; exact .inr rfl
      · rw [if_neg h1] at h ⊢
        exact .inl h

theorem readTimeLabel_mono : Mono readTimeLabel :=
  (readString_mono 16).bind fun _ => (readUint_mono 4).bind fun _ => readRational_mono.bind fun _ =>
    readBool_mono.bind fun _ => .pure _

theorem readTils_mono : Mono readTils :=
  (readUint_mono 2).bind fun n => repeatRd_mono readTimeLabel_mono n

theorem readComponents_mono : ∀ n off, Mono (readComponents n off)
  | 0, _ => .pure _
  | n + 1, off =>
    (readUint_mono 4).bind fun _ => (readUint_mono 4).bind fun _ => (readUint_mono 4).bind fun _ =>
      (readUint_mono 4).bind fun l => (readComponents_mono n (off + l)).bind fun _ => .pure _

theorem vghdChild_mono (c v) : Mono (vghdChild c v) :=
  .ite (.pure _) ((readUint_mono 2).bind fun n => (readComponents_mono n 0).bind fun _ => .pure _)

theorem readVghd_mono (b) : Mono (readVghd b) :=
  (readUint_mono 4).bind fun _ => (readUint_mono 4).bind fun _ => (readUint_mono 4).bind fun _ =>
    (readUint_mono 4).bind fun _ => (readUint_mono 4).bind fun _ => readRational_mono.bind fun _ =>
    readRational_mono.bind fun _ => forChildren_mono _ vghdChild_mono _

theorem cghdChild_mono (c v) : Mono (cghdChild c v) :=
  .ite (.pure _) ((readUint_mono 2).bind fun n => (repeatRd_mono (readUint_mono 4) n).bind fun _ => .pure _)

theorem readKeyFrame_mono (major) : Mono (readKeyFrame major) :=
  .ite (readBool_mono.bind fun _ => (readSint_mono 4).bind fun _ => .pure _)
    (readOptionalBool_mono.bind fun _ => (readOptionalSint_mono 4 _).bind fun _ => .pure _)

theorem readCghd_mono (major b) : Mono (readCghd major b) :=
  (readUint_mono 4).bind fun _ => (readUint_mono 4).bind fun _ => (readUint_mono 4).bind fun _ =>
    (readUint_mono 4).bind fun _ => (readUint_mono 4).bind fun _ => (readUint_mono 4).bind fun _ =>
    (readKeyFrame_mono major).bind fun _ => forChildren_mono _ cghdChild_mono _

theorem readAghd_mono : Mono readAghd :=
  (readUint_mono 4).bind fun _ => (readUint_mono 2).bind fun _ => (readUint_mono 4).bind fun _ =>
    (readUint_mono 4).bind fun _ => .pure _

theorem readCahd_mono : Mono readCahd :=
  (readUint_mono 4).bind fun _ => (readUint_mono 2).bind fun _ => (readUint_mono 4).bind fun _ =>
    (readUint_mono 4).bind fun _ => (readUint_mono 4).bind fun _ => (readUint_mono 4).bind fun _ => .pure _

theorem gbhdChild_mono (major c m) : Mono (gbhdChild major c m) :=
  .ite (readTils_mono.bind fun _ => .pure _) <|
  .ite ((readVghd_mono _).bind fun _ => .pure _) <|
  .ite ((readCghd_mono _ _).bind fun _ => .pure _) <|
  .ite (readAghd_mono.bind fun _ => .pure _) <|
  .ite (readCahd_mono.bind fun _ => .pure _) <|
  .ite (.pure _) (.pure _)

theorem readGbhdFixed_mono (major) : Mono (readGbhdFixed major) :=
  readUuid_mono.bind fun _ => readUuid_mono.bind fun _ => .ite
    ((skip_mono 16).bind fun _ => readTimestampV7_mono.bind fun _ => readTimestampV7_mono.bind fun _ =>
      readRational_mono.bind fun _ => readRational_mono.bind fun _ => .pure _)
    (readTimestamp_mono.bind fun _ => readTimestamp_mono.bind fun _ =>
      readRational_mono.bind fun _ => readRational_mono.bind fun _ => .pure _)

theorem decodeGbhd_mono (major b) : Mono (decodeGbhd major b) :=
  (readGbhdFixed_mono major).bind fun _ => forChildren_mono _ (gbhdChild_mono major) _

theorem inRemaining_cut {m : Rd α} (hm : Mono m) (b : Block) {s p a q} (N : Nat)
    (h : b.inRemaining m s p = .ok (a, q)) :
    (∃ q', b.inRemaining m (s.cut N) p = .ok (a, q')) ∨ b.inRemaining m (s.cut N) p = .error .eof := by
  simp only [Block.inRemaining] at h ⊢
  generalize ((b.start : Int) + b.size - p).toNat = k at h ⊢
  have e : ((s.cut N).buf.drop (p - (s.cut N).base)).take k =
      ((s.buf.drop (p - s.base)).take k).take (N - (p - s.base)) := by
    simp only [Stream.cut, List.drop_take, List.take_take]
    congr 1
    omega
  rw [e]
  cases hx : m ⟨p, (s.buf.drop (p - s.base)).take k⟩ p with
  | error e => simp [hx] at h
  | ok v =>
    obtain ⟨a', q'⟩ := v
    simp only [hx, Except.ok.injEq, Prod.mk.injEq] at h
    obtain ⟨rfl, -⟩ := h
    rcases hm.cut (N - (p - s.base)) (Nat.le_refl _) hx with e1 | e1
    · left; simp only [Stream.cut] at e1 ⊢; rw [e1]; exact ⟨_, rfl⟩
    · right; simp only [Stream.cut] at e1 ⊢; rw [e1]

theorem inRemaining_err {m : Rd α} (hm : Mono m) (b : Block) {s p e} (N : Nat)
    (h : b.inRemaining m s p = .error e) :
    b.inRemaining m (s.cut N) p = .error e ∨ b.inRemaining m (s.cut N) p = .error .eof := by
  simp only [Block.inRemaining] at h ⊢
  generalize ((b.start : Int) + b.size - p).toNat = k at h ⊢
  have e : ((s.cut N).buf.drop (p - (s.cut N).base)).take k =
      ((s.buf.drop (p - s.base)).take k).take (N - (p - s.base)) := by
    simp only [Stream.cut, List.drop_take, List.take_take]
    congr 1
    omega
  rw [e]
  cases hx : m ⟨p, (s.buf.drop (p - s.base)).take k⟩ p with
  | ok v => simp [hx] at h
  | error e' =>
    simp only [hx, Except.error.injEq] at h
    subst h
    rcases hm.err (N - (p - s.base)) (Nat.le_refl _) hx with e1 | e1
    · left; simp only [Stream.cut] at e1 ⊢; rw [e1]
    · right; simp only [Stream.cut] at e1 ⊢; rw [e1]

theorem readGbhdBlock_mono (major) : Mono (readGbhdBlock major) where
  fwd hb h := by
    simp only [readGbhdBlock] at h
    obtain ⟨b, q1, h1, h⟩ := Rd.bind_ok h
    obtain ⟨x, q2, h2, h⟩ := Rd.bind_ok h
    have := enter_ok hb h1
    simp only [Block.exit, Rd.bind_apply, Rd.seek_apply, Rd.pure_apply, Except.ok.injEq, Prod.mk.injEq] at h
    have : b.endPos ≥ b.start := by unfold Block.endPos; omega
    omega
  cut := by
    intro s p a q N hb h
    simp only [readGbhdBlock] at h ⊢
    obtain ⟨b, q1, h1, h⟩ := Rd.bind_ok h
    obtain ⟨x, q2, h2, h⟩ := Rd.bind_ok h
    rcases (enter_mono _ _).cut N hb h1 with e | e
    · rw [Rd.bind_of_ok e]
      rcases inRemaining_cut (decodeGbhd_mono major b) b N h2 with ⟨q', e⟩ | e
      · rw [Rd.bind_of_ok e]
        left
        simpa [Block.exit] using h
      · rw [Rd.bind_of_error e]; exact .inr rfl
    · rw [Rd.bind_of_error e]; exact .inr rfl
  err := by
    intro s p a N hb h
    simp only [readGbhdBlock] at h ⊢
    cases h1 : enter (some tGbhd) true s p with
    | error e =>
      rw [Rd.bind_of_error h1] at h
      rcases (enter_mono _ _).err N hb h1 with e2 | e2
      · rw [Rd.bind_of_error e2]; exact .inl h
      · rw [Rd.bind_of_error e2]; exact .inr rfl
    | ok v =>
      obtain ⟨b, q1⟩ := v
      rw [Rd.bind_of_ok h1] at h
      rcases (enter_mono _ _).cut N hb h1 with e | e
      · rw [Rd.bind_of_ok e]
        cases h2 : b.inRemaining (decodeGbhd major b) s q1 with
        | error e' =>
          rw [Rd.bind_of_error h2] at h
          rcases inRemaining_err (decodeGbhd_mono major b) b N h2 with e2 | e2
          · rw [Rd.bind_of_error e2]; exact .inl h
          · rw [Rd.bind_of_error e2]; exact .inr rfl
        | ok v =>
          obtain ⟨x, q2⟩ := v
          rw [Rd.bind_of_ok h2] at h
          simp [Block.exit] at h
      · rw [Rd.bind_of_error e]; exact .inr rfl

/-- The data of a grain on a cut stream: the same, or a prefix of the bytes read. -/
def DataCut (d d' : Data) : Prop := d' = d ∨ ∃ bs k, d = .bytes bs ∧ d' = .bytes (bs.take k)

theorem readRaw_cut (n : Nat) (s : Stream) (p N : Nat) :
    ∃ k q, readRaw n (s.cut N) p = .ok (((s.buf.drop (p - s.base)).take n).take k, q) := by
  refine ⟨N - (p - s.base), p + (((s.cut N).buf.drop (p - (s.cut N).base)).take n).length, ?_⟩
  · rw [readRaw_eq]
    have e : ((s.cut N).buf.drop (p - (s.cut N).base)).take n =
        ((s.buf.drop (p - s.base)).take n).take (N - (p - s.base)) := by
      simp only [Stream.cut, List.drop_take, List.take_take]
      congr 1
      omega
    rw [e]

theorem readGrdt_cut (o : Opts) (grai : Block) {s p d q} (N : Nat) (hb : s.base ≤ p)
    (h : readGrdt o grai s p = .ok (d, q)) :
    (∃ d' q', DataCut d d' ∧ readGrdt o grai (s.cut N) p = .ok (d', q')) ∨
      readGrdt o grai (s.cut N) p = .error .eof := by
  simp only [readGrdt] at h ⊢
  obtain ⟨c, q1, h1, h⟩ := Rd.bind_ok h
  have h1' : grai.hasChild (s.cut N) p = .ok (c, q1) := by
    rw [hasChild_eq] at h1 ⊢; exact h1
  have hq : q1 = p := by
    rw [hasChild_eq] at h1
    split at h1
    · simp at h1; omega
    · split at h1
      · simp at h1
      · simp at h1; omega
  subst hq
  rw [Rd.bind_of_ok h1']
  cases c with
  | false =>
    simp only [Bool.false_eq_true, if_false] at h ⊢
    exact .inl ⟨d, q, .inl rfl, h⟩
  | true =>
    simp only [if_true] at h ⊢
    obtain ⟨b, q2, h2, h⟩ := Rd.bind_ok h
    rcases (enter_mono _ _).cut N hb h2 with e | e
    · rw [Rd.bind_of_ok e]
      left
      simp only [Rd.bind_apply, Block.remaining] at h ⊢
      split at h
      · rename_i hr
        rw [if_pos hr]
        split at h
        · rename_i hd
          rw [if_pos hd]
          exact ⟨d, q, .inl rfl, h⟩
        · rename_i hd
          rw [if_neg hd]
          split at h
          · rename_i hn
            rw [if_pos hn]
            exact ⟨d, q, .inl rfl, h⟩
          · rename_i hn
            rw [if_neg hn]
            simp only [Rd.bind_apply, readRaw_eq, Block.exit, Rd.seek_apply, Rd.pure_apply, Except.ok.injEq,
              Prod.mk.injEq] at h
            obtain ⟨k, q', hk⟩ := readRaw_cut ((b.start : Int) + b.size - q2).toNat s q2 N
            rw [Rd.bind_of_ok hk]
            exact ⟨_, _, .inr ⟨_, k, h.1.symm, rfl⟩, rfl⟩
      · rename_i hr
        rw [if_neg hr]
        exact ⟨d, q, .inl rfl, h⟩
    · rw [Rd.bind_of_error e]; exact .inr rfl

theorem readGrdt_err (o : Opts) (grai : Block) {s p e} (N : Nat) (hb : s.base ≤ p)
    (h : readGrdt o grai s p = .error e) :
    readGrdt o grai (s.cut N) p = .error e ∨ readGrdt o grai (s.cut N) p = .error .eof := by
  simp only [readGrdt] at h ⊢
  have hx : grai.hasChild (s.cut N) p = grai.hasChild s p := by rw [hasChild_eq, hasChild_eq]
  cases h1 : grai.hasChild s p with
  | error e' =>
    rw [Rd.bind_of_error h1] at h
    rw [Rd.bind_of_error (hx.trans h1)]
    exact .inl h
  | ok v =>
    obtain ⟨c, q1⟩ := v
    have hq : q1 = p := by
      rw [hasChild_eq] at h1
      split at h1
      · simp at h1; omega
      · split at h1
        · simp at h1
        · simp at h1; omega
    subst hq
    rw [Rd.bind_of_ok h1] at h
    rw [Rd.bind_of_ok (hx.trans h1)]
    cases c with
    | false => simp at h
    | true =>
      simp only [if_true] at h ⊢
      cases h2 : enter (some tGrdt) false s q1 with
      | error e' =>
        rw [Rd.bind_of_error h2] at h
        rcases (enter_mono _ _).err N hb h2 with e2 | e2
        · rw [Rd.bind_of_error e2]; exact .inl h
        · rw [Rd.bind_of_error e2]; exact .inr rfl
      | ok v =>
        obtain ⟨b, q2⟩ := v
        rw [Rd.bind_of_ok h2] at h
        simp only [Rd.bind_apply, Block.remaining, Rd.ite_apply, Rd.tell_apply, Block.exit, Rd.seek_apply,
          Rd.pure_apply, readRaw_eq] at h
        split at h
        · split at h
          · simp at h
          · split at h <;> simp at h
        · simp at h

/-- A turn on a cut stream: the same outcome, or a grain with a prefix of its data. -/
def StepCut (st st' : Step) : Prop :=
  st' = st ∨ ∃ it d', st = .yield it ∧ st' = .yield { it with data := d' } ∧ DataCut it.data d'

theorem grainsStep_cut {o : Opts} {h : Hdr} {s p st q} (N : Nat) (hb : s.base ≤ p)
    (hs : grainsStep o h false s p = .ok (st, q)) :
    (∃ st', StepCut st st' ∧ grainsStep o h false (s.cut N) p = .ok (st', q)) ∨
      grainsStep o h false (s.cut N) p = .error .eof := by
  unfold grainsStep at hs ⊢
  rw [if_neg (by simp)] at hs ⊢
  obtain ⟨b, q1, h1, hs⟩ := Rd.bind_ok hs
  have hb1 := enter_ok hb h1
  rcases (enter_mono _ _).cut N hb h1 with e | e
  · rw [Rd.bind_of_ok e]
    by_cases ht : b.tag ≠ tGrai
    · rw [if_pos ht] at hs ⊢
      left
      refine ⟨st, .inl rfl, ?_⟩
      simpa only [Block.exit, Rd.bind_apply, Rd.seek_apply, Rd.ite_apply, Rd.pure_apply] using hs
    · rw [if_neg ht] at hs ⊢
      by_cases hz : b.size = 0
      · rw [if_pos hz] at hs ⊢
        left
        refine ⟨st, .inl rfl, ?_⟩
        simpa only [Block.exit, Rd.bind_apply, Rd.seek_apply, Rd.ite_apply, Rd.pure_apply] using hs
      · rw [if_neg hz] at hs ⊢
        obtain ⟨lid, q2, h2, hs⟩ := Rd.bind_ok hs
        have hb2 := (readUint_mono 2).fwd (by omega) h2
        rcases (readUint_mono 2).cut N (by omega) h2 with e | e
        · rw [Rd.bind_of_ok e]
          by_cases hd : (o.localIds.any (fun ids => !ids.contains lid)) = true
          · rw [if_pos hd] at hs ⊢
            left
            refine ⟨st, .inl rfl, ?_⟩
            simpa only [Block.exit, Rd.bind_apply, Rd.seek_apply, Rd.ite_apply, Rd.pure_apply] using hs
          · rw [if_neg hd] at hs ⊢
            obtain ⟨info, q3, h3, hs⟩ := Rd.bind_ok hs
            have hb3 := (readGbhdBlock_mono _).fwd hb2 h3
            rcases (readGbhdBlock_mono _).cut N hb2 h3 with e | e
            · rw [Rd.bind_of_ok e]
              obtain ⟨data, q4, h4, hs⟩ := Rd.bind_ok hs
              simp only [Block.exit, Rd.bind_apply, Rd.seek_apply, Rd.pure_apply, Except.ok.injEq,
                Prod.mk.injEq] at hs
              obtain ⟨rfl, rfl⟩ := hs
              rcases readGrdt_cut o b N hb3 h4 with ⟨d', q', hdc, e⟩ | e
              · rw [Rd.bind_of_ok e]
                left
                exact ⟨_, .inr ⟨_, d', rfl, rfl, hdc⟩, rfl⟩
              · rw [Rd.bind_of_error e]; exact .inr rfl
            · rw [Rd.bind_of_error e]; exact .inr rfl
        · rw [Rd.bind_of_error e]; exact .inr rfl
  · rw [Rd.bind_of_error e]; exact .inr rfl

/-- A turn that fails fails on a cut stream in the same way or by running out of bytes. -/
theorem grainsStep_err {o : Opts} {h : Hdr} {s p e} (N : Nat) (hb : s.base ≤ p)
    (hs : grainsStep o h false s p = .error e) :
    grainsStep o h false (s.cut N) p = .error e ∨ grainsStep o h false (s.cut N) p = .error .eof := by
  unfold grainsStep at hs ⊢
  rw [if_neg (by simp)] at hs ⊢
  cases h1 : enter none false s p with
  | error e' =>
    rw [Rd.bind_of_error h1] at hs
    rcases (enter_mono _ _).err N hb h1 with e2 | e2
    · rw [Rd.bind_of_error e2]; exact .inl hs
    · rw [Rd.bind_of_error e2]; exact .inr rfl
  | ok v =>
    obtain ⟨b, q1⟩ := v
    rw [Rd.bind_of_ok h1] at hs
    have hb1 := enter_ok hb h1
    rcases (enter_mono _ _).cut N hb h1 with e | e
    · rw [Rd.bind_of_ok e]
      by_cases ht : b.tag ≠ tGrai
      · rw [if_pos ht] at hs
        simp only [Block.exit, Rd.bind_apply, Rd.seek_apply, Rd.ite_apply, Rd.pure_apply] at hs
        split at hs
        · split at hs <;> simp at hs
        · simp at hs
      · rw [if_neg ht] at hs ⊢
        by_cases hz : b.size = 0
        · rw [if_pos hz] at hs
          simp only [Block.exit, Rd.bind_apply, Rd.seek_apply, Rd.ite_apply, Rd.pure_apply] at hs
          split at hs <;> simp at hs
        · rw [if_neg hz] at hs ⊢
          cases h2 : readUint 2 s q1 with
          | error e' =>
            rw [Rd.bind_of_error h2] at hs
            rcases (readUint_mono 2).err N (by omega) h2 with e2 | e2
            · rw [Rd.bind_of_error e2]; exact .inl hs
            · rw [Rd.bind_of_error e2]; exact .inr rfl
          | ok v =>
            obtain ⟨lid, q2⟩ := v
            rw [Rd.bind_of_ok h2] at hs
            have hb2 := (readUint_mono 2).fwd (by omega) h2
            rcases (readUint_mono 2).cut N (by omega) h2 with e | e
            · rw [Rd.bind_of_ok e]
              by_cases hd : (o.localIds.any (fun ids => !ids.contains lid)) = true
              · rw [if_pos hd] at hs
                simp [Block.exit] at hs
              · rw [if_neg hd] at hs ⊢
                cases h3 : readGbhdBlock h.major s q2 with
                | error e' =>
                  rw [Rd.bind_of_error h3] at hs
                  rcases (readGbhdBlock_mono _).err N hb2 h3 with e2 | e2
                  · rw [Rd.bind_of_error e2]; exact .inl hs
                  · rw [Rd.bind_of_error e2]; exact .inr rfl
                | ok v =>
                  obtain ⟨info, q3⟩ := v
                  rw [Rd.bind_of_ok h3] at hs
                  have hb3 := (readGbhdBlock_mono _).fwd hb2 h3
                  rcases (readGbhdBlock_mono _).cut N hb2 h3 with e | e
                  · rw [Rd.bind_of_ok e]
                    cases h4 : readGrdt o b s q3 with
                    | error e' =>
                      rw [Rd.bind_of_error h4] at hs
                      rcases readGrdt_err o b N hb3 h4 with e2 | e2
                      · rw [Rd.bind_of_error e2]; exact .inl hs
                      · rw [Rd.bind_of_error e2]; exact .inr rfl
                    | ok v =>
                      rw [Rd.bind_of_ok h4] at hs
                      simp [Block.exit] at hs
                  · rw [Rd.bind_of_error e]; exact .inr rfl
            · rw [Rd.bind_of_error e]; exact .inr rfl
    · rw [Rd.bind_of_error e]; exact .inr rfl

end Verif.Gsf

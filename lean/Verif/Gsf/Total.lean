import Verif.Gsf.Trunc

/-!
# The loop bounds of the model are never reached, and the turns of the loop as a relation
-/

namespace Verif.Gsf

open Verif

/-- Never runs out of fuel, never goes before the start of the stream. -/
structure Safe (m : Rd α) : Prop where
  fwd : ∀ {s p a q}, s.base ≤ p → m s p = .ok (a, q) → s.base ≤ q
  noFuel : ∀ {s p}, s.base ≤ p → m s p ≠ .error .fuel

theorem Safe.pure (a : α) : Safe (Pure.pure a : Rd α) where
  fwd hb h := by simp at h; omega
  noFuel _ := by simp

theorem Safe.bind {m : Rd α} {f : α → Rd β} (h1 : Safe m) (h2 : ∀ a, Safe (f a)) : Safe (m >>= f) where
  fwd hb h := by
    obtain ⟨a, q, e1, e2⟩ := Rd.bind_ok h
    exact (h2 a).fwd (h1.fwd hb e1) e2
  noFuel hb h := by
    rcases Rd.bind_err h with e | ⟨a, q, e1, e2⟩
    · exact h1.noFuel hb e
    · exact (h2 a).noFuel (h1.fwd hb e1) e2

theorem Safe.fail {e : Err} (h : e ≠ .fuel) : Safe (Rd.fail e : Rd α) where
  fwd _ h := by simp at h
  noFuel _ h' := by simp at h'; exact h h'

theorem Safe.ite {c : Prop} [Decidable c] {m1 m2 : Rd α} (h1 : Safe m1) (h2 : Safe m2) :
    Safe (if c then m1 else m2) := by
  split <;> assumption

theorem Safe.ofOption {e : Err} (h : e ≠ .fuel) (o : Option α) : Safe (Rd.ofOption e o) := by
  cases o with
  | none => exact Safe.fail h
  | some a => exact Safe.pure a

theorem readRaw_safe (n : Nat) : Safe (readRaw n) where
  fwd hb h := by simp [readRaw] at h; omega
  noFuel _ h := by simp [readRaw] at h

theorem readExact_safe (n : Nat) : Safe (readExact n) :=
  (readRaw_safe n).bind fun _ => .ite (.fail (by simp)) (.pure _)

theorem readUint_safe (n : Nat) : Safe (readUint n) := (readExact_safe n).bind fun _ => .pure _
theorem readBool_safe : Safe readBool := (readUint_safe 1).bind fun _ => .pure _
theorem readOptionalBool_safe : Safe readOptionalBool :=
  (readUint_safe 1).bind fun _ => .ite (.pure _) (.pure _)
theorem readSint_safe (n : Nat) : Safe (readSint n) := (readUint_safe n).bind fun _ => .pure _
theorem readOptionalSint_safe (n v : Nat) : Safe (readOptionalSint n v) :=
  (readUint_safe n).bind fun _ => .ite (.pure _) (.pure _)
theorem readString_safe (n : Nat) : Safe (readString n) :=
  (readExact_safe n).bind fun _ => (Safe.ofOption (by simp) _).bind fun _ => .pure _
theorem readVarstring_safe : Safe readVarstring := (readUint_safe 2).bind fun n => readString_safe n
theorem readUuid_safe : Safe readUuid := readExact_safe 16
theorem readVarbytes_safe : Safe readVarbytes := (readUint_safe 4).bind fun n => readRaw_safe n
theorem skip_safe (n : Nat) : Safe (skip n) where
  fwd hb h := by simp [skip] at h; omega
  noFuel _ h := by simp [skip] at h
theorem readDatetime_safe : Safe readDatetime :=
  (readSint_safe 2).bind fun _ => (readUint_safe 1).bind fun _ => (readUint_safe 1).bind fun _ =>
    (readUint_safe 1).bind fun _ => (readUint_safe 1).bind fun _ => (readUint_safe 1).bind fun _ =>
    .ite (.pure _) (.fail (by simp))
theorem readTimestampV7_safe : Safe readTimestampV7 :=
  (readUint_safe 6).bind fun _ => (readUint_safe 4).bind fun _ => .pure _
theorem readTimestamp_safe : Safe readTimestamp :=
  readBool_safe.bind fun _ => (readUint_safe 6).bind fun _ => (readUint_safe 4).bind fun _ => .pure _
theorem readRational_safe : Safe readRational :=
  (readUint_safe 4).bind fun _ => (readUint_safe 4).bind fun _ => .ite (.pure _) (.pure _)

theorem repeatRd_safe {m : Rd α} (h : Safe m) : ∀ n, Safe (repeatRd n m)
  | 0 => .pure _
  | n + 1 => h.bind fun _ => (repeatRd_safe h n).bind fun _ => .pure _

theorem enter_safe (want r) : Safe (enter want r) where
  fwd hb h := by have := enter_ok hb h; omega
  noFuel hb h := by rcases enter_err hb h with e | e <;> simp at e

theorem forChildren_safe (b : Block) {f : Block → σ → Rd σ} (hf : ∀ c st, Safe (f c st)) (st : σ) :
    Safe (forChildren b f st) where
  fwd := by
    intro s p a q hb h
    generalize hn : s.fin - p = n
    induction n using Nat.strongRecOn generalizing p st with
    | _ n ih =>
      rw [forChildren_eq _ _ _ _ _ hb] at h
      split at h
      · cases he : enter none false s p with
        | error e => simp [he] at h
        | ok v =>
          obtain ⟨c, q1⟩ := v
          simp only [he] at h
          obtain ⟨a1, a2, a3, -, -⟩ := enter_ok hb he
          cases hb2 : f c st s q1 with
          | error e => simp [hb2] at h
          | ok v =>
            simp only [hb2] at h
            have : c.endPos ≥ c.start + 8 := by unfold Block.endPos; omega
            exact ih (s.fin - c.endPos) (by omega) _ (by omega) h rfl
      · split at h
        · simp at h
        · simp at h; omega
  noFuel := by
    intro s p hb h
    generalize hn : s.fin - p = n
    induction n using Nat.strongRecOn generalizing p st with
    | _ n ih =>
      rw [forChildren_eq _ _ _ _ _ hb] at h
      split at h
      · cases he : enter none false s p with
        | error e =>
          simp only [he] at h
          rcases enter_err hb he with e' | e' <;> simp [e'] at h
        | ok v =>
          obtain ⟨c, q1⟩ := v
          simp only [he] at h
          obtain ⟨a1, a2, a3, -, -⟩ := enter_ok hb he
          cases hb2 : f c st s q1 with
          | error e =>
            simp only [hb2, Except.error.injEq] at h
            subst h
            exact (hf c st).noFuel (by omega) hb2
          | ok v =>
            simp only [hb2] at h
            have : c.endPos ≥ c.start + 8 := by unfold Block.endPos; omega
            exact ih (s.fin - c.endPos) (by omega) _ (by omega) h rfl
      · split at h <;> simp at h

theorem exit_safe {b : Block} {s : Stream} (h : s.base ≤ b.start) {p a q}
    (he : b.exit s p = .ok (a, q)) : s.base ≤ q := by
  simp [Block.exit] at he
  unfold Block.endPos at he
  omega

theorem inRemaining_safe {m : Rd α} (hm : Safe m) (b : Block) : Safe (b.inRemaining m) where
  fwd hb h := by
    simp only [Block.inRemaining] at h
    split at h
    · simp at h; omega
    · simp at h
  noFuel hb h := by
    simp only [Block.inRemaining] at h
    split at h
    · simp at h
    · rename_i e he
      simp only [Except.error.injEq] at h
      subst h
      exact hm.noFuel (Nat.le_refl _) he

theorem readTagBody_safe : Safe readTagBody :=
  readVarstring_safe.bind fun _ => readVarstring_safe.bind fun _ => .pure _
theorem readFlowBody_safe : Safe readFlowBody :=
  readUuid_safe.bind fun _ => readUuid_safe.bind fun _ => (readString_safe 64).bind fun _ =>
    readVarbytes_safe.bind fun _ => (Safe.ofOption (by simp) _).bind fun _ => .pure _
theorem segmChild_safe (c sg) : Safe (segmChild c sg) :=
  .ite (readFlowBody_safe.bind fun _ => .pure _) (.ite (readTagBody_safe.bind fun _ => .pure _) (.pure _))
theorem readSegmBody_safe (b) : Safe (readSegmBody b) :=
  (readUint_safe 2).bind fun _ => readUuid_safe.bind fun _ => (readSint_safe 8).bind fun _ =>
    forChildren_safe b segmChild_safe _
theorem headChild_safe (c h) : Safe (headChild c h) :=
  .ite ((readSegmBody_safe _).bind fun _ => .pure _) (.ite (readTagBody_safe.bind fun _ => .pure _) (.pure _))
theorem decodeHead_safe (b) : Safe (decodeHead b) :=
  readUuid_safe.bind fun _ => readDatetime_safe.bind fun _ => forChildren_safe b headChild_safe _
theorem readTimeLabel_safe : Safe readTimeLabel :=
  (readString_safe 16).bind fun _ => (readUint_safe 4).bind fun _ => readRational_safe.bind fun _ =>
    readBool_safe.bind fun _ => .pure _
theorem readTils_safe : Safe readTils := (readUint_safe 2).bind fun n => repeatRd_safe readTimeLabel_safe n
theorem readComponents_safe : ∀ n off, Safe (readComponents n off)
  | 0, _ => .pure _
  | n + 1, _ => (readUint_safe 4).bind fun _ => (readUint_safe 4).bind fun _ => (readUint_safe 4).bind fun _ =>
    (readUint_safe 4).bind fun _ => (readComponents_safe n _).bind fun _ => .pure _
theorem vghdChild_safe (c v) : Safe (vghdChild c v) :=
  .ite (.pure _) ((readUint_safe 2).bind fun n => (readComponents_safe n 0).bind fun _ => .pure _)
theorem readVghd_safe (b) : Safe (readVghd b) :=
  (readUint_safe 4).bind fun _ => (readUint_safe 4).bind fun _ => (readUint_safe 4).bind fun _ =>
    (readUint_safe 4).bind fun _ => (readUint_safe 4).bind fun _ => readRational_safe.bind fun _ =>
    readRational_safe.bind fun _ => forChildren_safe b vghdChild_safe _
theorem cghdChild_safe (c v) : Safe (cghdChild c v) :=
  .ite (.pure _) ((readUint_safe 2).bind fun n => (repeatRd_safe (readUint_safe 4) n).bind fun _ => .pure _)
theorem readKeyFrame_safe (major) : Safe (readKeyFrame major) :=
  .ite (readBool_safe.bind fun _ => (readSint_safe 4).bind fun _ => .pure _)
    (readOptionalBool_safe.bind fun _ => (readOptionalSint_safe 4 _).bind fun _ => .pure _)
theorem readCghd_safe (major b) : Safe (readCghd major b) :=
  (readUint_safe 4).bind fun _ => (readUint_safe 4).bind fun _ => (readUint_safe 4).bind fun _ =>
    (readUint_safe 4).bind fun _ => (readUint_safe 4).bind fun _ => (readUint_safe 4).bind fun _ =>
    (readKeyFrame_safe major).bind fun _ => forChildren_safe b cghdChild_safe _
theorem readAghd_safe : Safe readAghd :=
  (readUint_safe 4).bind fun _ => (readUint_safe 2).bind fun _ => (readUint_safe 4).bind fun _ =>
    (readUint_safe 4).bind fun _ => .pure _
theorem readCahd_safe : Safe readCahd :=
  (readUint_safe 4).bind fun _ => (readUint_safe 2).bind fun _ => (readUint_safe 4).bind fun _ =>
    (readUint_safe 4).bind fun _ => (readUint_safe 4).bind fun _ => (readUint_safe 4).bind fun _ => .pure _
theorem gbhdChild_safe (major c m) : Safe (gbhdChild major c m) :=
  .ite (readTils_safe.bind fun _ => .pure _) <| .ite ((readVghd_safe _).bind fun _ => .pure _) <|
    .ite ((readCghd_safe _ _).bind fun _ => .pure _) <| .ite (readAghd_safe.bind fun _ => .pure _) <|
    .ite (readCahd_safe.bind fun _ => .pure _) <| .ite (.pure _) (.pure _)
theorem readGbhdFixed_safe (major) : Safe (readGbhdFixed major) :=
  readUuid_safe.bind fun _ => readUuid_safe.bind fun _ => .ite
    ((skip_safe 16).bind fun _ => readTimestampV7_safe.bind fun _ => readTimestampV7_safe.bind fun _ =>
      readRational_safe.bind fun _ => readRational_safe.bind fun _ => .pure _)
    (readTimestamp_safe.bind fun _ => readTimestamp_safe.bind fun _ =>
      readRational_safe.bind fun _ => readRational_safe.bind fun _ => .pure _)
theorem decodeGbhd_safe (major b) : Safe (decodeGbhd major b) :=
  (readGbhdFixed_safe major).bind fun _ => forChildren_safe b (gbhdChild_safe major) _

/-- Entering a block, doing something and leaving it. -/
theorem enter_then_safe {want r} {f : Block → Rd α} {g : Block → α → Rd β} (hf : ∀ b, Safe (f b))
    (hg : ∀ b a, Safe (g b a)) :
    Safe (do let b ← enter want r; let a ← f b; b.exit; g b a : Rd β) where
  fwd := by
    intro s p a q hb h
    obtain ⟨b, q1, h1, h⟩ := Rd.bind_ok h
    obtain ⟨x, q2, h2, h⟩ := Rd.bind_ok h
    obtain ⟨_, q3, h3, h⟩ := Rd.bind_ok h
    have := enter_ok hb h1
    exact (hg b x).fwd (exit_safe (by omega) h3) h
  noFuel := by
    intro s p hb h
    rcases Rd.bind_err h with e | ⟨b, q1, h1, h⟩
    · exact (enter_safe want r).noFuel hb e
    have hen := enter_ok hb h1
    rcases Rd.bind_err h with e | ⟨x, q2, h2, h⟩
    · exact (hf b).noFuel (by omega) e
    rcases Rd.bind_err h with e | ⟨_, q3, h3, h⟩
    · simp [Block.exit] at e
    · exact (hg b x).noFuel (exit_safe (by omega) h3) h

theorem decodeHeadBlock_safe : Safe decodeHeadBlock :=
  enter_then_safe (f := fun b => b.inRemaining (decodeHead b)) (g := fun _ h => Pure.pure h)
    (fun b => inRemaining_safe (decodeHead_safe b) b) (fun _ _ => .pure _)

theorem readGbhdBlock_safe (major) : Safe (readGbhdBlock major) :=
  enter_then_safe (f := fun b => b.inRemaining (decodeGbhd major b)) (g := fun _ h => Pure.pure h)
    (fun b => inRemaining_safe (decodeGbhd_safe major b) b) (fun _ _ => .pure _)

theorem eofToDecode_safe {m : Rd α} (h : Safe m) : Safe (Rd.eofToDecode m) where
  fwd hb hh := h.fwd hb (Rd.eofToDecode_ok hh)
  noFuel hb hh := by
    unfold Rd.eofToDecode at hh
    split at hh
    · simp at hh
    · simp at hh
    · rename_i e he; simp only [Except.error.injEq] at hh; subst hh; exact h.noFuel hb ‹_›

theorem decodeSsb_safe (known) : Safe (decodeSsb known) :=
  .ite ((readString_safe 8).bind fun _ => .ite (.fail (by simp))
    ((readUint_safe 2).bind fun _ => (readUint_safe 2).bind fun _ => .pure _))
    ((readUint_safe 2).bind fun _ => (readUint_safe 2).bind fun _ => .pure _)

theorem decodeFileHeaders_safe (known) : Safe (decodeFileHeaders known) :=
  (decodeSsb_safe known).bind fun _ => .ite ((eofToDecode_safe decodeHeadBlock_safe).bind fun _ => .pure _)
    (.fail (by simp))

theorem readGrdt_noFuel (o grai) {s p} (hb : s.base ≤ p) : readGrdt o grai s p ≠ .error .fuel := by
  intro h
  unfold readGrdt at h
  rcases Rd.bind_err h with e | ⟨c, q, h1, h⟩
  · rw [hasChild_eq] at e
    split at e
    · simp at e
    · split at e <;> simp at e
  · have hq : q = p := by
      rw [hasChild_eq] at h1
      split at h1
      · simp at h1; omega
      · split at h1
        · simp at h1
        · simp at h1; omega
    subst hq
    cases c with
    | false => simp at h
    | true =>
      rw [if_pos rfl] at h
      rcases Rd.bind_err h with e | ⟨b, q1, h2, h⟩
      · exact (enter_safe _ _).noFuel hb e
      · rcases Rd.bind_err h with e | ⟨r, q2, h3, h⟩
        · simp [Block.remaining] at e
        · simp only [Rd.ite_apply, Block.exit, Rd.bind_apply, Rd.tell_apply, Rd.seek_apply, Rd.pure_apply,
            readRaw] at h
          split at h
          · split at h
            · simp at h
            · split at h <;> simp at h
          · simp at h

/-- No turn of the loop runs out of fuel. -/
theorem grainsStep_noFuel (o h hc) {s p} (hb : s.base ≤ p) : grainsStep o h hc s p ≠ .error .fuel := by
  intro hh
  unfold grainsStep at hh
  cases hc with
  | true =>
    rw [if_pos rfl] at hh
    rcases Rd.bind_err hh with e | ⟨_, _, _, hh⟩
    · exact (decodeFileHeaders_safe true).noFuel hb e
    · simp at hh
  | false =>
    rw [if_neg (by simp)] at hh
    rcases Rd.bind_err hh with e | ⟨b, q1, h1, hh⟩
    · exact (enter_safe _ _).noFuel hb e
    have hen := enter_ok hb h1
    rw [Rd.ite_apply] at hh
    split at hh
    · simp only [Block.exit, Rd.bind_apply, Rd.seek_apply, Rd.ite_apply, Rd.pure_apply] at hh
      split at hh
      · split at hh <;> simp at hh
      · simp at hh
    · rw [Rd.ite_apply] at hh
      split at hh
      · simp only [Block.exit, Rd.bind_apply, Rd.seek_apply, Rd.ite_apply, Rd.pure_apply] at hh
        split at hh <;> simp at hh
      · rcases Rd.bind_err hh with e | ⟨lid, q2, h2, hh⟩
        · exact (readUint_safe 2).noFuel (by omega) e
        have hb2 := (readUint_safe 2).fwd (by omega) h2
        rw [Rd.ite_apply] at hh
        split at hh
        · simp [Block.exit] at hh
        · rcases Rd.bind_err hh with e | ⟨info, q3, h3, hh⟩
          · exact (readGbhdBlock_safe _).noFuel hb2 e
          have hb3 := (readGbhdBlock_safe _).fwd hb2 h3
          rcases Rd.bind_err hh with e | ⟨data, q4, h4, hh⟩
          · exact readGrdt_noFuel o b hb3 e
          · simp [Block.exit] at hh

theorem run_noFuel (o s) : ∀ (h hc p), s.base ≤ p → (run o s h hc p).ending ≠ .err .fuel := by
  intro h hc p hb
  generalize hn : s.fin - p = n
  induction n using Nat.strongRecOn generalizing p h hc with
  | _ n ih =>
    rw [run_eq _ _ _ _ _ hb]
    cases hs : grainsStep o h hc s p with
    | error e =>
      cases e with
      | fuel => exact absurd hs (grainsStep_noFuel o h hc hb)
      | _ => simp
    | ok v =>
      obtain ⟨st, q⟩ := v
      have := grainsStep_progress hb hs
      cases st with
      | stop => simp
      | next h' hc' => exact ih (s.fin - q) (by omega) _ _ _ (by omega) rfl
      | yield it => exact ih (s.fin - q) (by omega) h false q (by omega) rfl

/-! ## Turns as a relation -/

/-- The state of the loop between two turns. -/
structure LState where
  hdr : Hdr
  hc : Bool
  pos : Nat
  deriving DecidableEq, Repr

/-- `n` turns lead from one state to another and yield `items`. -/
inductive Steps (o : Opts) (s : Stream) : Nat → LState → List Item → LState → Prop where
  | refl (a : LState) : Steps o s 0 a [] a
  | next {n a h' hc' q items b} : grainsStep o a.hdr a.hc s a.pos = .ok (.next h' hc', q) →
      Steps o s n ⟨h', hc', q⟩ items b → Steps o s (n + 1) a items b
  | yield {n a it q items b} : grainsStep o a.hdr a.hc s a.pos = .ok (.yield it, q) →
      Steps o s n ⟨a.hdr, false, q⟩ items b → Steps o s (n + 1) a (it :: items) b

/-- How the loop ends at a state: the outcome of the turn there that is neither `continue` nor `yield`. -/
inductive Ends (o : Opts) (s : Stream) (b : LState) : End → Prop where
  | eof : grainsStep o b.hdr b.hc s b.pos = .error .eof → Ends o s b .eof
  | err {e} : grainsStep o b.hdr b.hc s b.pos = .error e → e ≠ .eof → Ends o s b (.err e)
  | stop {q} : grainsStep o b.hdr b.hc s b.pos = .ok (.stop, q) → Ends o s b .break_

theorem Steps.run {o s n a items b} (h : Steps o s n a items b) (hb : s.base ≤ a.pos) :
    run o s a.hdr a.hc a.pos = (run o s b.hdr b.hc b.pos).prepend items := by
  induction h with
  | refl a => simp
  | next h1 _ ih =>
    have := grainsStep_progress hb h1
    rw [run_eq _ _ _ _ _ hb, h1]
    exact ih (by simp only; omega)
  | yield h1 _ ih =>
    have := grainsStep_progress hb h1
    rw [run_eq _ _ _ _ _ hb, h1]
    simp only
    rw [ih (by simp only; omega), Run.prepend_prepend]
    rfl

theorem Ends.run {o s b e} (h : Ends o s b e) (hb : s.base ≤ b.pos) :
    Gsf.run o s b.hdr b.hc b.pos = ⟨[], b.hdr, e⟩ := by
  rw [run_eq _ _ _ _ _ hb]
  cases h with
  | eof h => rw [h]
  | err h he => rw [h]; rename_i e; cases e <;> first | rfl | exact absurd rfl he
  | stop h => rw [h]

/-- The loop always comes to an end after finitely many turns. -/
theorem steps_exist (o : Opts) (s : Stream) (a : LState) (hb : s.base ≤ a.pos) :
    ∃ n items b e, Steps o s n a items b ∧ Ends o s b e ∧ s.base ≤ b.pos := by
  generalize hn : s.fin - a.pos = n
  induction n using Nat.strongRecOn generalizing a with
  | _ n ih =>
    cases hs : grainsStep o a.hdr a.hc s a.pos with
    | error e =>
      by_cases he : e = .eof
      · subst he
        exact ⟨0, [], a, .eof, .refl a, .eof hs, hb⟩
      · exact ⟨0, [], a, .err e, .refl a, .err hs he, hb⟩
    | ok v =>
      obtain ⟨st, q⟩ := v
      have := grainsStep_progress hb hs
      cases st with
      | stop => exact ⟨0, [], a, .break_, .refl a, .stop hs, hb⟩
      | next h' hc' =>
        obtain ⟨m, items, b, e, h1, h2, h3⟩ := ih (s.fin - q) (by omega) ⟨h', hc', q⟩ (by simp only; omega) rfl
        exact ⟨m + 1, items, b, e, .next hs h1, h2, h3⟩
      | yield it =>
        obtain ⟨m, items, b, e, h1, h2, h3⟩ := ih (s.fin - q) (by omega) ⟨a.hdr, false, q⟩ (by simp only; omega) rfl
        exact ⟨m + 1, it :: items, b, e, .yield hs h1, h2, h3⟩

theorem Steps.progress {o s n a items b} (h : Steps o s n a items b) (hb : s.base ≤ a.pos)
    (hf : a.pos ≤ s.fin) : a.pos + 8 * n ≤ b.pos ∧ (0 < n → 8 * n ≤ s.fin - a.pos) := by
  induction h with
  | refl a => omega
  | next h1 h2 ih =>
    rename_i n a h' hc' q items b
    have := grainsStep_progress hb h1
    by_cases hq : q ≤ s.fin
    · have := ih (by simp only; omega) hq
      simp only at this
      refine ⟨by omega, fun _ => ?_⟩
      rcases Nat.eq_zero_or_pos n with h0 | h0
      · omega
      · have := this.2 h0; omega
    · cases h2 with
      | refl => simp only; omega
      | next h3 _ => have := grainsStep_progress (by simp only; omega) h3; simp only at this; omega
      | yield h3 _ => have := grainsStep_progress (by simp only; omega) h3; simp only at this; omega
  | yield h1 h2 ih =>
    rename_i n a it q items b
    have := grainsStep_progress hb h1
    by_cases hq : q ≤ s.fin
    · have := ih (by simp only; omega) hq
      simp only at this
      refine ⟨by omega, fun _ => ?_⟩
      rcases Nat.eq_zero_or_pos n with h0 | h0
      · omega
      · have := this.2 h0; omega
    · cases h2 with
      | refl => simp only; omega
      | next h3 _ => have := grainsStep_progress (by simp only; omega) h3; simp only at this; omega
      | yield h3 _ => have := grainsStep_progress (by simp only; omega) h3; simp only at this; omega

end Verif.Gsf

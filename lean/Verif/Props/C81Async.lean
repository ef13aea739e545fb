import Verif.Props.C24
import Verif.Props.C81

/-!
# C81 for the asynchronous decoder
-/

namespace Verif.Props

open Verif Verif.Gsf Verif.Attrs Verif.Objects

/-! ## Specification -/

/-- The data that the constructor of a grain is given when the generator makes the grain: the bytes, if they were read, and nothing that it could look
into if they are still to be awaited. -/
def dataThen : Data → Option Bytes
  | .bytes b => some b
  | _ => none

/-- What a program may see of one operation: a grain, which is made, or is an event whose data is not that of an event; the end of the generator, as it is
meant or by an exception that is listed here; the data of a grain, or the exception for awaiting one a second time or for data that is not there. -/
def Expected (lib : Lib) (now : Int) (strict : Bool) (o : Opts) : AEv → Prop
  | .item it => (∃ g, Objects.read lib now it.info (dataThen it.data) = .ok g) ∨
      (it.info.grainType = some .event ∧ ∃ b x, it.data = .bytes b ∧ (Event.setData blank (.bytes b)).2 = .error x ∧
        Objects.read lib now it.info (dataThen it.data) = .error (ofEErr x))
  | .stopped (.err e) => if o.concat then IsGsfError e ∨ e = .unicode ∨ e = .value else e = .decode
  | .stopped .attribute => o.defers = true
  | .stopped _ => True
  | .awaited (.data _) => True
  | .awaited .runtimeError => True
  | .awaited .eofError => strict = true
  | .awaited .keyError => False
  | .nothing => True

/-! ## Proofs -/

namespace C81

theorem stepA {strict : Bool} {o : Opts} {h : Hdr} {hc : Bool} {s : Stream} {p : Nat} :
    grainsStepA strict o h hc s p = grainsStep o h hc s p ∨ grainsStepA strict o h hc s p = .error .eof ∨
      (hc = true ∧ grainsStepA strict o h hc s p = .error .decode) := by
  cases strict with
  | false => rw [grainsStepA_false]; exact .inl rfl
  | true => exact step_strict o h hc s p

/-- Data is deferred only if the options say so. -/
def Defers (o : Opts) : Step → Prop
  | .yield it => ∀ a n, it.data = .deferred a n → o.defers = true
  | _ => True

theorem step_defers (o : Opts) (h : Hdr) (hc : Bool) : Yields (Defers o) (grainsStep o h hc) := by
  have hg : ∀ b, Yields (fun d : Data => ∀ a n, d = .deferred a n → o.defers = true) (readGrdt o b) := by
    intro b
    unfold readGrdt
    refine .bind fun _ => .ite (.bind fun _ => .bind fun _ => .ite ?_ (.bind fun _ => .pure (by simp))) (.pure (by simp))
    show Yields _ (if o.defers = true then _ else _)
    by_cases hd : o.defers = true
    · rw [if_pos hd]
      exact .bind fun _ => .bind fun _ => .pure (fun _ _ _ => hd)
    · rw [if_neg hd]
      exact .ite (.bind fun _ => .pure (by simp)) (.bind fun _ => .bind fun _ => .pure (by simp))
  unfold grainsStep
  exact .ite (.bind fun _ => .pure trivial) (.bind fun b => .ite
      (.bind fun _ => .ite (.ite (.pure trivial) (.pure trivial)) (.pure trivial))
      (.ite (.bind fun _ => .ite (.pure trivial) (.pure trivial))
        (.bind fun _ => .ite (.bind fun _ => .pure trivial) (.bind fun _ => .bind' (hg b) fun d hd => .bind fun _ => .pure hd))))

/-- What a suspended generator may give. -/
def Given (o : Opts) (fin : Nat) : Pull → Prop
  | .done _ (.err e) => if o.concat then IsGsfError e ∨ e = .unicode ∨ e = .value else e = .decode
  | .done _ _ => True
  | .item it f _ p => Coherent it.info ∧ 1 ≤ f ∧ fin + 1 ≤ f + p ∧ (∀ a n, it.data = .deferred a n → o.defers = true)

theorem pullA (strict : Bool) (o : Opts) (s : Stream) (hs : s.base = 0) : ∀ (f : Nat) (h : Hdr) (hc : Bool) (p : Nat),
    (o.concat = false → hc = false) → 1 ≤ f → s.fin + 1 ≤ f + p → Given o s.fin (Gsf.pull strict o s f h hc p)
  | 0, _, _, _, _, hf, _ => by omega
  | f + 1, h, hc, p, hcc, _, hf => by
    rw [Gsf.pull]
    rcases stepA (strict := strict) (o := o) (h := h) (hc := hc) (s := s) (p := p) with e | e | ⟨h1, e⟩
    · rw [e]
      have hnf := grainsStep_noFuel o h hc (s := s) (p := p) (by omega)
      cases hst : grainsStep o h hc s p with
      | error x =>
        by_cases hx : x = .eof
        · subst hx; trivial
        have hd : Given o s.fin (.done h (.err x)) := by
          show if o.concat then _ else _
          cases hc with
          | false =>
            rcases step hst with rfl | rfl | rfl
            · exact absurd rfl hx
            · split
              · exact .inl trivial
              · rfl
            · exact absurd hst hnf
          | true =>
            have hcat : o.concat = true := by
              cases hcat : o.concat with
              | true => rfl
              | false => exact absurd (hcc hcat) (by simp)
            rw [if_pos hcat]
            unfold grainsStep at hst
            rw [if_pos rfl] at hst
            have hh : decodeFileHeaders true s p = .error x := by
              cases h3 : decodeFileHeaders true s p with
              | error e' => rw [Rd.bind_of_error h3] at hst; cases hst; rfl
              | ok v => obtain ⟨a, q⟩ := v; rw [Rd.bind_of_ok h3] at hst; simp at hst
            rcases (headers hh).1 with h | h | h | h | h
            · exact absurd h hx
            · subst h; exact absurd hst (by
                intro _
                apply hnf
                unfold grainsStep
                rw [if_pos rfl, Rd.bind_of_error hh])
            · exact .inl h
            · exact .inr (.inl h)
            · exact .inr (.inr h)
        cases x <;> first | exact absurd rfl hx | exact hd
      | ok v =>
        obtain ⟨st, q⟩ := v
        obtain ⟨k1, k2⟩ := grainsStep_progress (by omega) hst
        cases st with
        | stop => trivial
        | next h' hc' =>
          refine pullA strict o s hs f h' hc' q ?_ (by omega) (by omega)
          intro hcat
          have := hcc hcat
          subst this
          exact (grainsStep_single hcat hst).2
        | yield it =>
          exact ⟨step_coherent o h hc _ _ _ _ hst, by omega, by omega, step_defers o h hc _ _ _ _ hst⟩
    · rw [e]; trivial
    · rw [e]
      show if o.concat then _ else _
      have hcat : o.concat = true := by
        cases hcat : o.concat with
        | true => rfl
        | false => exact absurd (hcc hcat) (by simp [h1])
      rw [if_pos hcat]
      exact .inl trivial

/-- What holds of a session all the time. -/
structure Sound (file : Bytes) (st : Sess) : Prop where
  gen : ∀ f h hc, st.gen = some (f, h, hc) → hc = false ∧ 1 ≤ f ∧ file.length + 1 ≤ f + st.pos
  table : ∀ k g, st.lazies[k]? = some g → g.co = .pending → st.table.contains k = true

theorem sound_step (lib : Lib) (now : Int) (strict : Bool) (o : Opts) (file : Bytes) {st : Sess} (hs : Sound file st) (op : AOp) :
    Expected lib now strict o (st.step strict o file op).1 ∧ Sound file (st.step strict o file op).2 := by
  have hfin : (⟨0, file⟩ : Stream).fin = file.length := by simp [Stream.fin]
  cases op with
  | next =>
    cases hg : st.gen with
    | none => simp only [Sess.step, hg]; exact ⟨trivial, hs⟩
    | some v =>
      obtain ⟨f, h, hc⟩ := v
      obtain ⟨rfl, h1, h2⟩ := hs.gen _ _ _ hg
      have hp := pullA strict o ⟨0, file⟩ rfl f h false st.pos (fun _ => rfl) h1 (by rw [hfin]; exact h2)
      simp only [Sess.step, hg]
      cases hpl : Gsf.pull strict o ⟨0, file⟩ f h false st.pos with
      | done h' e =>
        rw [hpl] at hp
        refine ⟨?_, ⟨fun _ _ _ h => by simp at h, hs.table⟩⟩
        cases e with
        | err e => exact hp
        | eof => trivial
        | break_ => trivial
      | item it f' h' p' =>
        rw [hpl, hfin] at hp
        obtain ⟨k1, k2, k3, k4⟩ := hp
        simp only
        by_cases hr : it.refused = true
        · simp only [hr, if_true]
          refine ⟨?_, ⟨fun _ _ _ h => by simp at h, hs.table⟩⟩
          unfold Item.refused at hr
          split at hr
          · rename_i a n hd
            exact k4 a n hd
          · cases hr
        · simp only [hr, Bool.false_eq_true, if_false]
          have hmade : Expected lib now strict o (.item it) := by
            rcases read_any lib now k1 (dataThen it.data) with h | ⟨h1, b, x, h2, h3, h4⟩
            · exact .inl h
            · refine .inr ⟨h1, b, x, ?_, h3, h4⟩
              cases hd : it.data with
              | bytes b' => rw [hd] at h2; simp only [dataThen, Option.some.injEq] at h2; rw [h2]
              | deferred a n => rw [hd] at h2; simp [dataThen] at h2
              | none => rw [hd] at h2; simp [dataThen] at h2
          have hgen : ∀ f'' h'' hc'', some (f', h', false) = some (f'', h'', hc'') → hc'' = false ∧ 1 ≤ f'' ∧ file.length + 1 ≤ f'' + p' := by
            intro f'' h'' hc'' he
            cases he
            exact ⟨rfl, k2, k3⟩
          cases hd : it.data with
          | deferred a n =>
            refine ⟨hmade, hgen, ?_⟩
            intro k g hk hco
            simp only at hk ⊢
            rw [List.getElem?_append] at hk
            split at hk
            · have := hs.table k g hk hco
              simp only [List.contains_eq_mem, List.mem_append, decide_eq_true_eq] at this ⊢
              exact .inl this
            · rename_i hlt
              have : k = st.lazies.length := by
                by_cases hk0 : k - st.lazies.length = 0
                · omega
                · rw [List.getElem?_eq_none (by simp; omega)] at hk; cases hk
              subst this
              simp
          | bytes b => exact ⟨hmade, hgen, hs.table⟩
          | none => exact ⟨hmade, hgen, hs.table⟩
  | await k =>
    cases hk : st.lazies[k]? with
    | none => simp only [Sess.step, hk]; exact ⟨trivial, hs⟩
    | some g =>
      simp only [Sess.step, hk]
      have hset : ∀ g' t, g'.co = .finished → (∀ j, j ≠ k → st.table.contains j = true → t.contains j = true) →
          ∀ j x, (st.lazies.set k g')[j]? = some x → x.co = .pending → List.contains t j = true := by
        intro g' t hg' ht j x hj hx
        rcases getElem?_set_cases hj with ⟨rfl, rfl⟩ | ⟨h1, h2⟩
        · rw [hg'] at hx; cases hx
        · exact ht j h1 (hs.table j x h2 hx)
      unfold Sess.await
      split
      · exact ⟨trivial, hs⟩
      · split
        · exact ⟨trivial, hs⟩
        · exact ⟨trivial, hs⟩
        · rename_i hco
          have htab := hs.table k g hk hco
          split
          · simp only [htab, if_true]
            split
            · rename_i hsh
              simp only [Bool.and_eq_true, decide_eq_true_eq] at hsh
              refine ⟨hsh.1, ?_, ?_⟩
              · intro f h hc hg
                obtain ⟨j1, j2, j3⟩ := hs.gen f h hc hg
                refine ⟨j1, j2, ?_⟩
                have := hsh.2
                simp only [List.length_take, List.length_drop] at this ⊢
                omega
              · refine hset _ _ rfl ?_
                intro j hj hc
                simp only [List.contains_eq_mem, decide_eq_true_eq] at hc ⊢
                exact (List.mem_erase_of_ne hj).2 hc
            · refine ⟨trivial, hs.gen, ?_⟩
              refine hset _ _ rfl ?_
              intro j hj hc
              simp only [List.contains_eq_mem, decide_eq_true_eq] at hc ⊢
              exact (List.mem_erase_of_ne hj).2 hc
          · exact ⟨trivial, hs.gen, hset _ _ rfl (fun _ _ h => h)⟩
  | assign k d =>
    cases hk : st.lazies[k]? with
    | none => simp only [Sess.step, hk]; exact ⟨trivial, hs⟩
    | some g =>
      simp only [Sess.step, hk]
      refine ⟨trivial, hs.gen, ?_⟩
      intro j x hj hx
      rcases getElem?_set_cases hj with ⟨rfl, rfl⟩ | ⟨h1, h2⟩
      · cases hx
      · exact hs.table j x h2 hx

theorem sound_steps (lib : Lib) (now : Int) (strict : Bool) (o : Opts) (file : Bytes) : ∀ (ops : List AOp) {st : Sess}, Sound file st →
    ∀ ev ∈ (st.steps strict o file ops).1, Expected lib now strict o ev
  | [], _, _ => fun _ h => by simp [Sess.steps] at h
  | op :: ops, st, hs => by
    obtain ⟨h1, h2⟩ := sound_step lib now strict o file hs op
    intro ev hev
    simp only [Sess.steps, List.mem_cons] at hev
    rcases hev with rfl | hev
    · exact h1
    · exact sound_steps lib now strict o file ops h2 ev hev

end C81

/-! ## Theorem -/

/-- **C81** for the asynchronous decoder, with a file object whose reads may be short (`strict = false`) and with `AsyncBytesIO` (`strict = true`).
Whatever the bytes: opening raises what the synchronous decoder may raise, and whatever a program does with an open session, asking for grains, awaiting
them and assigning data in any order, it sees what is listed in `Expected`. -/
theorem C81_async (lib : Lib) (now : Int) (strict : Bool) (o : Opts) (file : Bytes) :
    (∃ e, openA strict file = .error e ∧ ((e = .eof ∧ file.length < 12) ∨ IsGsfError e ∨ e = .unicode ∨ e = .value)) ∨
    ∃ st, openA strict file = .ok st ∧ ∀ ops : List AOp, ∀ ev ∈ (st.steps strict o file ops).1, Expected lib now strict o ev := by
  have hst : decodeFileHeadersA strict false ⟨0, file⟩ 0 = decodeFileHeaders false ⟨0, file⟩ 0 ∨
      decodeFileHeadersA strict false ⟨0, file⟩ 0 = .error .decode := by
    cases strict with
    | false => rw [decodeFileHeadersA_false]; exact .inl rfl
    | true => exact headers_strict false _ _
  unfold openA
  rcases hst with e | e
  · rw [e]
    cases hh : decodeFileHeaders false ⟨0, file⟩ 0 with
    | error x =>
      refine .inl ⟨x, rfl, ?_⟩
      rcases C81_any_bytes lib now o file with ⟨e', h1, h2⟩ | ⟨gs, out, r, h1, -⟩
      · unfold readGrains decodeFile at h1
        rw [hh] at h1
        cases h1
        exact h2
      · unfold readGrains decodeFile at h1
        rw [hh] at h1
        cases h1
    | ok v =>
      obtain ⟨h, p⟩ := v
      refine .inr ⟨_, rfl, fun ops => C81.sound_steps lib now strict o file ops ⟨?_, ?_⟩⟩
      · intro f h' hc he
        cases he
        exact ⟨rfl, by omega, by simp only; omega⟩
      · intro k g hk
        simp at hk
  · rw [e]
    exact .inl ⟨_, rfl, .inr (.inl trivial)⟩

/-! ## Examples -/

/-- What is shown of an event. -/
def briefA : AEv → String
  | .item it => match it.data with | .deferred _ _ => "to be awaited" | _ => "grain"
  | .stopped .attribute => "AttributeError"
  | .stopped (.err _) => "exception"
  | .stopped _ => "end"
  | .awaited (.data _) => "data"
  | .awaited .runtimeError => "RuntimeError"
  | .awaited .eofError => "EOFError"
  | .awaited .keyError => "KeyError"
  | .nothing => ""

/-- Two bytes of the data of the first grain are missing: `AsyncBytesIO` raises `EOFError` and then `RuntimeError`, the other file objects give three bytes. -/
example : (openA true (sample.bytes.take 540)).toOption.map (fun st =>
      (st.steps true {} (sample.bytes.take 540) [.next, .await 0, .await 0, .next]).1.map briefA) =
      some ["to be awaited", "EOFError", "RuntimeError", "end"] ∧
    (openA false (sample.bytes.take 540)).toOption.map (fun st =>
      (st.steps false {} (sample.bytes.take 540) [.next, .await 0, .await 0, .next]).1.map briefA) =
      some ["to be awaited", "data", "data", "end"] := by
  decide +kernel

/-- The event of the sample file is the seventh grain. -/
example : (openA true sample.bytes).toOption.map (fun st =>
      (st.steps true {} sample.bytes (List.replicate 8 .next)).1.map briefA) =
      some ["to be awaited", "to be awaited", "grain", "to be awaited", "to be awaited", "grain", "AttributeError", "end"] ∧
    (openA true sample.bytes).toOption.map (fun st =>
      (st.steps true { mode := .loadImmediately } sample.bytes (List.replicate 8 .next)).1.map briefA) =
      some ["grain", "grain", "grain", "grain", "grain", "grain", "grain", "end"] := by
  decide +kernel

end Verif.Props

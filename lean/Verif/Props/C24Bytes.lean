import Verif.Gsf.Pipe
import Verif.Props.C24

/-!
# C24: `AsyncBytesIO` over complete files

On files that were written whole, the asynchronous decoder does the same over an `AsyncBytesIO`, where a
short read is an `EOFError`, as over the file wrappers, for every program.
-/

namespace Verif.Props

open Verif Verif.Gsf

namespace AsyncBytes

/-- Resuming the generator again and again is the loop over that device. -/
theorem grainsLoopD_pull (o : Opts) (s : Stream) : ∀ (f : Nat) (h : Hdr) (hc : Bool) (p : Nat),
    grainsLoopD .asyncBytesIO o s f h hc p = match pull true o s f h hc p with
      | .done h' e => ⟨[], h', e⟩
      | .item it f' h' p' =>
        ⟨it :: (grainsLoopD .asyncBytesIO o s f' h' false p').items, (grainsLoopD .asyncBytesIO o s f' h' false p').hdr,
          (grainsLoopD .asyncBytesIO o s f' h' false p').ending⟩ := by
  intro f
  induction f with
  | zero => intro h hc p; rfl
  | succ f ih =>
    intro h hc p
    rw [grainsLoopD, pull, Dev.asyncBytesIO, grainsStepD_strict]
    rcases grainsStepA true o h hc s p with (e | ⟨st, q⟩)
    · cases e <;> rfl
    · cases st with
      | stop => rfl
      | next h' hc' => exact ih _ _ _
      | yield it => rfl

/-- The two devices see the same from here on, and no data lies outside the file. -/
def Agree (o : Opts) (file : Bytes) (f : Nat) (h : Hdr) (hc : Bool) (p : Nat) : Prop :=
  (grainsLoopD .asyncBytesIO o ⟨0, file⟩ f h hc p).items = (grainsLoop o ⟨0, file⟩ f h hc p).items ∧
  (grainsLoopD .asyncBytesIO o ⟨0, file⟩ f h hc p).ending = (grainsLoop o ⟨0, file⟩ f h hc p).ending ∧
  ∀ it ∈ (grainsLoop o ⟨0, file⟩ f h hc p).items, it.Inside file

structure Inv (o : Opts) (file : Bytes) (st : Sess) : Prop where
  gen : ∀ f h hc, st.gen = some (f, h, hc) → Agree o file f h hc st.pos
  lazies : ∀ g ∈ st.lazies, g.start + g.length ≤ file.length

theorem await_same {file : Bytes} {st : Sess} {k : Nat} {g : LGrain} (h : g.start + g.length ≤ file.length) :
    st.await true file k g = st.await false file k g := by
  have e : ((file.drop g.start).take g.length).length = g.length := by
    simp only [List.length_take, List.length_drop]; omega
  unfold Sess.await
  split
  · rfl
  · split
    · rfl
    · rfl
    · split
      · split
        · simp only [e]
          rw [if_neg (by simp), if_neg (by simp)]
        · rfl
      · rfl

/-- Awaiting and assigning change neither the generator nor the position (over complete files), and keep
the grains where they are. -/
theorem await_inv {o : Opts} {file : Bytes} {st : Sess} (hi : Inv o file st) {k : Nat} {g : LGrain}
    (hg : st.lazies[k]? = some g) : Inv o file (st.await false file k g).2 := by
  have hgm : g ∈ st.lazies := List.mem_of_getElem? hg
  have set_ok : ∀ g' : LGrain, g'.start = g.start → g'.length = g.length →
      ∀ x ∈ st.lazies.set k g', x.start + x.length ≤ file.length := by
    intro g' h1 h2 x hx
    rcases List.mem_or_eq_of_mem_set hx with hx | rfl
    · exact hi.lazies x hx
    · rw [h1, h2]; exact hi.lazies g hgm
  unfold Sess.await
  split
  · exact hi
  · split
    · exact hi
    · exact hi
    · split
      · split
        · simp only
          rw [if_neg (by simp)]
          exact ⟨hi.gen, set_ok _ rfl rfl⟩
        · exact ⟨hi.gen, set_ok _ rfl rfl⟩
      · exact ⟨hi.gen, set_ok _ rfl rfl⟩

theorem step_same {o : Opts} {file : Bytes} {st : Sess} (hi : Inv o file st) (op : AOp) :
    st.step true o file op = st.step false o file op ∧ Inv o file (st.step false o file op).2 := by
  cases op with
  | assign k d =>
    refine ⟨rfl, ?_⟩
    simp only [Sess.step]
    cases hk : st.lazies[k]? with
    | none => exact hi
    | some g =>
      refine ⟨hi.gen, fun x hx => ?_⟩
      rcases List.mem_or_eq_of_mem_set hx with hx | rfl
      · exact hi.lazies x hx
      · exact hi.lazies g (List.mem_of_getElem? hk)
  | await k =>
    simp only [Sess.step]
    cases hk : st.lazies[k]? with
    | none => exact ⟨rfl, hi⟩
    | some g =>
      simp only
      rw [await_same (hi.lazies g (List.mem_of_getElem? hk))]
      exact ⟨rfl, await_inv hi hk⟩
  | next =>
    simp only [Sess.step]
    cases hg : st.gen with
    | none => exact ⟨rfl, hi⟩
    | some v =>
      obtain ⟨f, h, hc⟩ := v
      simp only
      obtain ⟨a1, a2, a3⟩ := hi.gen f h hc hg
      have e1 := grainsLoopD_pull o ⟨0, file⟩ f h hc st.pos
      have e2 := grainsLoop_pull o ⟨0, file⟩ f h hc st.pos
      rcases pull_strict o ⟨0, file⟩ f h hc st.pos with e | ⟨h', e⟩
      · rw [e]
        rw [e] at e1
        cases hp : pull false o ⟨0, file⟩ f h hc st.pos with
        | done h' en => exact ⟨rfl, ⟨(fun _ _ _ h => by simp at h), hi.lazies⟩⟩
        | item it f' h' p' =>
          rw [hp] at e1 e2
          simp only at e1 e2
          rw [e1, e2] at a1 a2
          rw [e2] at a3
          simp only [List.cons.injEq] at a1
          have ag : Agree o file f' h' false p' := ⟨a1.2, a2, fun x hx => a3 x (by simp [hx])⟩
          refine ⟨rfl, ?_⟩
          simp only
          split
          · exact ⟨(fun _ _ _ h => by simp at h), hi.lazies⟩
          · have gen : ∀ f h hc, some (f', h', false) = some (f, h, hc) → Agree o file f h hc p' := by
              intro f h hc he
              cases he
              exact ag
            cases hd : it.data with
            | none => exact ⟨gen, hi.lazies⟩
            | bytes b => exact ⟨gen, hi.lazies⟩
            | deferred a n =>
              refine ⟨gen, fun g hg => ?_⟩
              simp only [List.mem_append, List.mem_singleton] at hg
              rcases hg with hg | rfl
              · exact hi.lazies g hg
              · exact a3 it (by simp) a n hd
      · obtain ⟨en, he⟩ : ∃ en, pull true o ⟨0, file⟩ f h hc st.pos = .done h' en := by
          rcases e with e | e <;> exact ⟨_, e⟩
        rw [he] at e1
        simp only at e1
        rw [e1] at a1 a2
        cases hp : pull false o ⟨0, file⟩ f h hc st.pos with
        | item it f' h' p' =>
          rw [hp] at e2
          simp only at e2
          rw [e2] at a1
          cases a1
        | done h'' en' =>
          rw [hp] at e2
          simp only at e2
          rw [e2] at a2
          simp only at a2
          subst a2
          rw [he]
          exact ⟨rfl, ⟨(fun _ _ _ h => by simp at h), hi.lazies⟩⟩

theorem steps_same {o : Opts} {file : Bytes} : ∀ (ops : List AOp) {st : Sess}, Inv o file st →
    st.steps true o file ops = st.steps false o file ops ∧ Inv o file (st.steps false o file ops).2
  | [], _, hi => ⟨rfl, hi⟩
  | op :: ops, st, hi => by
    obtain ⟨h1, h2⟩ := step_same hi op
    obtain ⟨h3, h4⟩ := steps_same ops h2
    simp only [Sess.steps]
    rw [h1, h3]
    exact ⟨rfl, h4⟩

theorem killLoop_same {o : Opts} {file : Bytes} : ∀ (ks : List Nat) {st : Sess}, Inv o file st →
    st.killLoop true file ks = st.killLoop false file ks
  | [], _, _ => rfl
  | k :: ks, st, hi => by
    simp only [Sess.killLoop]
    cases hk : st.lazies[k]? with
    | none => rfl
    | some g =>
      simp only
      rw [await_same (hi.lazies g (List.mem_of_getElem? hk))]
      have h2 := await_inv hi hk
      rcases ha : st.await false file k g with ⟨r, st'⟩
      rw [ha] at h2
      cases r with
      | data d => simp only; rw [killLoop_same ks h2]
      | _ => rfl

/-- Two devices that decode to the same run open to the same session. -/
theorem open_inv {o : Opts} {file : Bytes} {r : Run} (h1 : decodeD .asyncBytesIO o file = .ok r)
    (h2 : decodeD .file o file = .ok r) (h3 : ∀ it ∈ r.items, it.Inside file) :
    ∃ st, openA true file = .ok st ∧ openA false file = .ok st ∧ Inv o file st := by
  unfold decodeD at h1 h2
  rw [Dev.asyncBytesIO, decodeFileHeadersD_strict] at h1
  rw [Dev.file, decodeFileHeadersD_strict, decodeFileHeadersA_false] at h2
  unfold openA
  rw [decodeFileHeadersA_false]
  have hs := headers_strict false ⟨0, file⟩ 0
  cases ha : decodeFileHeadersA true false ⟨0, file⟩ 0 with
  | error e => rw [ha] at h1; cases h1
  | ok v =>
    rw [ha] at h1 hs
    rcases hs with hs | hs
    · rw [← hs] at h2 ⊢
      refine ⟨_, rfl, rfl, ?_, by simp⟩
      simp only [Except.ok.injEq] at h1 h2
      intro f h hc he
      simp only [Option.some.injEq, Prod.mk.injEq] at he
      obtain ⟨rfl, rfl, rfl⟩ := he
      rw [← Dev.file.eq_1, grainsLoopD_file] at h2
      unfold Agree
      rw [Dev.asyncBytesIO, h1, h2]
      exact ⟨rfl, rfl, h3⟩
    · cases hs

end AsyncBytes

/-- The same session is opened, every program sees the same and leaves the same session, and leaving the
context ends the same way. -/
def SameAsync (o : Opts) (file : Bytes) : Prop :=
  ∃ st, openA true file = .ok st ∧ openA false file = .ok st ∧
    ∀ ops, st.steps true o file ops = st.steps false o file ops ∧
      (st.steps true o file ops).2.leave true file = (st.steps false o file ops).2.leave false file

/-- **C24** for `AsyncBytesIO`, files written whole (any number of them one after the other, with unknown
blocks): no difference to the file wrappers for any program. -/
theorem C24_bytesio_complete (o : Opts) (hc : o.concat = true) (f : FileSpec) (bs : Bytes) (hf : f.Ok)
    (hd : DecoFile f bs) (fs : List (FileSpec × Bytes)) (hfs : ∀ x ∈ fs, x.1.Ok ∧ DecoFile x.1 x.2) :
    SameAsync o (bs ++ fs.flatMap Prod.snd) := by
  obtain ⟨r, h1, -, -, -, h5⟩ := decodeD_concat hc hf hd hfs
  obtain ⟨st, o1, o2, hi⟩ := AsyncBytes.open_inv (h1 _) (h1 _) h5
  refine ⟨st, o1, o2, fun ops => ?_⟩
  obtain ⟨s1, s2⟩ := AsyncBytes.steps_same ops hi
  refine ⟨s1, ?_⟩
  rw [s1]
  exact AsyncBytes.killLoop_same (o := o) _ ⟨s2.gen, s2.lazies⟩

/-- **C24** for `AsyncBytesIO` without concatenation support: one file written whole, followed by
anything. -/
theorem C24_bytesio_single (o : Opts) (hc : o.concat = false) (f : FileSpec) (bs : Bytes) (hf : f.Ok)
    (hd : DecoFile f bs) (rest : Bytes) : SameAsync o (bs ++ rest) := by
  obtain ⟨r, h1, -, -, -, h5⟩ := decodeD_single hc hf hd rest
  obtain ⟨st, o1, o2, hi⟩ := AsyncBytes.open_inv (h1 _) (h1 _) h5
  refine ⟨st, o1, o2, fun ops => ?_⟩
  obtain ⟨s1, s2⟩ := AsyncBytes.steps_same ops hi
  refine ⟨s1, ?_⟩
  rw [s1]
  exact AsyncBytes.killLoop_same (o := o) _ ⟨s2.gen, s2.lazies⟩

/-- The hypotheses are met by the sample with three deferred grains. -/
example : asyncSample.Ok ∧ DecoFile asyncSample asyncSample.bytes :=
  ⟨by decide +kernel, decoFile_self (by decide +kernel)⟩

end Verif.Props

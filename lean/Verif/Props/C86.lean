import Verif.Gsf.AwaitEach
import Verif.Props.C24Bytes
import Verif.Props.C83
import Verif.Props.C85
import Verif.Props.C05

/-!
# C86: an asynchronous program that awaits each grain reads what a synchronous one reads

* `C86_awaited`: for all bytes, with what happens at events whose data is deferred.
* `C86_same`: without such events, no difference.
* `C86_written`, `C86_cut`, `C86_joined`, `C86_documented`: files written whole, cut, joined, and written by others.
* `C86_bytesio`: `AsyncBytesIO`.
-/

namespace Verif.Props

open Verif Verif.Gsf

/-! ## Specification -/

/-- `n` turns of a loop that gives `vs` and then ends with `e`. -/
def turns (n : Nat) (vs : List (Meta × Option Bytes × Nat)) (e : AEnd) : List (Meta × Option Bytes × Nat) × LoopEnd :=
  (vs.take n, if n ≤ vs.length then .running else .generator e)

/-- An asynchronous session gives this grain: it is not an event, or its data is not deferred. -/
def Awaitable (o : Opts) (m : Meta) : Prop := m.grainType ≠ some .event ∨ o.defers = false

/-! ## Proofs -/

namespace C86

theorem each {file : Bytes} {o : Opts} : ∀ (n : Nat) {st : Sess} {sp : Spec} {items : List Item} {e : AEnd},
    SessInv file o st sp → sp.rest = some (items, e) →
    awaitEach false o file n st = turns n (items.map (Item.view file)) e
  | 0, st, sp, items, e, _, _ => by simp [awaitEach, turns]
  | n + 1, st, sp, [], e, hi, hr => by
    obtain ⟨h1, -⟩ := hi.step .next
    simp only [Spec.step, hr] at h1
    rw [awaitEach]
    unfold awaitNext
    generalize hs : st.step false o file .next = x at h1
    obtain ⟨ev, st1⟩ := x
    simp only at h1
    subst h1
    simp [turns]
  | n + 1, st, sp, it :: items, e, hi, hr => by
    obtain ⟨h1, h2⟩ := hi.step .next
    simp only [Spec.step, hr] at h1 h2
    rw [awaitEach]
    unfold awaitNext
    generalize hs : st.step false o file .next = x at h1 h2
    obtain ⟨ev, st1⟩ := x
    simp only at h1 h2
    subst h1
    have fin : ∀ {st' : Sess} {sp' : Spec}, SessInv file o st' sp' → sp'.rest = some (items, e) →
        (it.view file :: (awaitEach false o file n st').1, (awaitEach false o file n st').2) =
          turns (n + 1) ((it :: items).map (Item.view file)) e := by
      intro st' sp' hi' hr'
      rw [each n hi' hr']
      simp [turns]
    cases hd : it.data with
    | none => rw [hd] at h2; simp only [hd]; exact fin h2 rfl
    | bytes bs => rw [hd] at h2; simp only [hd]; exact fin h2 rfl
    | deferred p k =>
      rw [hd] at h2
      simp only at h2
      have hl := h2.len
      simp only [List.length_append, List.length_singleton] at hl
      obtain ⟨h3, h4⟩ := h2.step (.await (st1.lazies.length - 1))
      have hget : (sp.seen ++ [(Data.load file (.deferred p k), false)])[st1.lazies.length - 1]? =
          some (Data.load file (.deferred p k), false) := by
        rw [hl, Nat.add_sub_cancel, List.getElem?_append_right (Nat.le_refl _)]
        simp
      simp only [Spec.step, hget] at h3 h4
      simp only [hd]
      generalize hs2 : st1.step false o file (.await (st1.lazies.length - 1)) = y at h3 h4
      obtain ⟨ev2, st2⟩ := y
      simp only at h3 h4
      subst h3
      simp only
      have := fin h4 rfl
      unfold Item.view at this ⊢
      rw [hd] at this
      exact this

theorem next_same {o : Opts} {file : Bytes} {st : Sess} (h : ∀ ops, st.steps true o file ops = st.steps false o file ops) (op : AOp) :
    st.step true o file op = st.step false o file op ∧
      ∀ ops, (st.step false o file op).2.steps true o file ops = (st.step false o file op).2.steps false o file ops := by
  have h1 : st.step true o file op = st.step false o file op := by
    have := h [op]
    simp only [Sess.steps, Prod.mk.injEq, List.cons.injEq, and_true] at this
    exact Prod.ext this.1 this.2
  refine ⟨h1, fun ops => ?_⟩
  have := h (op :: ops)
  simp only [Sess.steps, Prod.mk.injEq, List.cons.injEq, h1, true_and] at this
  exact Prod.ext this.1 this.2

theorem each_same {o : Opts} {file : Bytes} : ∀ (n : Nat) {st : Sess}, (∀ ops, st.steps true o file ops = st.steps false o file ops) →
    awaitEach true o file n st = awaitEach false o file n st
  | 0, _, _ => rfl
  | n + 1, st, h => by
    obtain ⟨h1, h2⟩ := next_same h .next
    rw [awaitEach, awaitEach]
    unfold awaitNext
    rw [h1]
    generalize st.step false o file .next = x at h2
    obtain ⟨ev, st1⟩ := x
    cases ev with
    | item it =>
      simp only
      cases it.data with
      | none => simp only [each_same n h2]
      | bytes bs => simp only [each_same n h2]
      | deferred p k =>
        simp only at h2
        obtain ⟨h3, h4⟩ := next_same h2 (.await (st1.lazies.length - 1))
        simp only [h3]
        generalize st1.step false o file (.await (st1.lazies.length - 1)) = y at h4
        obtain ⟨ev2, st2⟩ := y
        cases ev2 with
        | awaited r => cases r <;> simp only [each_same n h4]
        | item it' => rfl
        | stopped e => rfl
        | nothing => rfl
    | stopped e => rfl
    | awaited r => rfl
    | nothing => rfl

theorem kept {o : Opts} (ho : o.defers = false) {grai : Block} {s : Stream} {p q : Nat} {d : Data}
    (h : readGrdt o grai s p = .ok (d, q)) : ∀ a n, d ≠ .deferred a n := by
  unfold Opts.defers at ho
  unfold readGrdt at h
  simp only [ho, Bool.false_eq_true, if_false] at h
  obtain ⟨c, q1, -, h⟩ := Rd.bind_ok h
  rw [Rd.ite_apply] at h
  split at h
  · obtain ⟨b, q2, -, h⟩ := Rd.bind_ok h
    obtain ⟨r, q3, -, h⟩ := Rd.bind_ok h
    rw [Rd.ite_apply] at h
    split at h
    · rw [Rd.ite_apply] at h
      split at h
      · obtain ⟨_, q4, -, h⟩ := Rd.bind_ok h
        simp only [Rd.pure_apply, Except.ok.injEq, Prod.mk.injEq] at h
        rw [← h.1]; intro a n h'; cases h'
      · obtain ⟨_, q4, -, h⟩ := Rd.bind_ok h
        obtain ⟨_, q5, -, h⟩ := Rd.bind_ok h
        simp only [Rd.pure_apply, Except.ok.injEq, Prod.mk.injEq] at h
        rw [← h.1]; intro a n h'; cases h'
    · obtain ⟨_, q4, -, h⟩ := Rd.bind_ok h
      simp only [Rd.pure_apply, Except.ok.injEq, Prod.mk.injEq] at h
      rw [← h.1]; intro a n h'; cases h'
  · simp only [Rd.pure_apply, Except.ok.injEq, Prod.mk.injEq] at h
    rw [← h.1]; intro a n h'; cases h'

theorem step_kept {o : Opts} (ho : o.defers = false) {h : Hdr} {hc : Bool} {s : Stream} {p q : Nat} {it : Item}
    (hs : grainsStep o h hc s p = .ok (.yield it, q)) : ∀ a n, it.data ≠ .deferred a n := by
  unfold grainsStep at hs
  simp only [Rd.ite_apply] at hs
  split at hs
  · obtain ⟨_, _, -, hs⟩ := Rd.bind_ok hs
    simp at hs
  · obtain ⟨b, q1, -, hs⟩ := Rd.bind_ok hs
    simp only [Rd.ite_apply] at hs
    split at hs
    · obtain ⟨_, _, -, hs⟩ := Rd.bind_ok hs
      simp only [Rd.ite_apply] at hs
      split at hs
      · split at hs <;> simp at hs
      · simp at hs
    · split at hs
      · obtain ⟨_, _, -, hs⟩ := Rd.bind_ok hs
        simp only [Rd.ite_apply] at hs
        split at hs <;> simp at hs
      · obtain ⟨l, q2, -, hs⟩ := Rd.bind_ok hs
        simp only [Rd.ite_apply] at hs
        split at hs
        · obtain ⟨_, _, -, hs⟩ := Rd.bind_ok hs
          simp at hs
        · obtain ⟨i, q3, -, hs⟩ := Rd.bind_ok hs
          obtain ⟨d, q4, hd, hs⟩ := Rd.bind_ok hs
          obtain ⟨_, _, -, hs⟩ := Rd.bind_ok hs
          simp only [Rd.pure_apply, Except.ok.injEq, Prod.mk.injEq, Step.yield.injEq] at hs
          rw [← hs.1]
          exact kept ho hd

theorem loop_kept {o : Opts} (ho : o.defers = false) (s : Stream) : ∀ (k : Nat) (h : Hdr) (hc : Bool) (p : Nat),
    ∀ it ∈ (grainsLoop o s k h hc p).items, ∀ a n, it.data ≠ .deferred a n
  | 0, h, hc, p => by intro it hit; simp [grainsLoop] at hit
  | k + 1, h, hc, p => by
    intro it hit
    rw [grainsLoop] at hit
    cases hs : grainsStep o h hc s p with
    | error e => rw [hs] at hit; cases e <;> simp at hit
    | ok v =>
      obtain ⟨st, q⟩ := v
      rw [hs] at hit
      cases st with
      | stop => simp at hit
      | next h' hc' => exact loop_kept ho s k h' hc' q it hit
      | yield it' =>
        simp only [List.mem_cons] at hit
        rcases hit with rfl | hit
        · exact step_kept ho hs
        · exact loop_kept ho s k h false q it hit

theorem not_refused {o : Opts} {file : Bytes} {r : Run} (hr : decodeFile o file = .ok r)
    (hev : ∀ v ∈ r.view file, Awaitable o v.1) : ∀ it ∈ r.items, it.refused = false := by
  intro it hit
  unfold Item.refused
  cases hd : it.data with
  | none => rfl
  | bytes bs => rfl
  | deferred a n =>
    simp only
    rcases hev (it.view file) (List.mem_map_of_mem hit) with h | h
    · have h : it.info.grainType ≠ some .event := h
      simp [h]
    · exfalso
      unfold decodeFile at hr
      cases hh : decodeFileHeaders false ⟨0, file⟩ 0 with
      | error e => rw [hh] at hr; cases hr
      | ok v =>
        rw [hh] at hr
        simp only [Except.ok.injEq] at hr
        rw [← hr] at hit
        exact loop_kept h _ _ _ _ _ it hit a n hd

end C86

/-! ## Theorems -/

/-- **C86**, for all bytes.  Opening raises what the synchronous decoder raises.  Otherwise the program gets the synchronous decoder's
grains with their data, in order, and its end; but at an event whose data is deferred it gets an `AttributeError`. -/
theorem C86_awaited (o : Opts) (file : Bytes) (n : Nat) :
    awaitFile false o file n = (decodeFile o file).map (fun r => turns n ((cutRun r).1.map (Item.view file)) (cutRun r).2) := by
  have h := openA_inv o file
  unfold awaitFile
  cases hd : decodeFile o file with
  | error e => rw [hd] at h; simp only at h; rw [h]; rfl
  | ok r =>
    rw [hd] at h
    obtain ⟨st, h1, h2⟩ := h
    rw [h1]
    simp only [C86.each n h2 rfl]
    rfl

/-- **C86.**  If no event has deferred data, there is no difference. -/
theorem C86_same (o : Opts) (file : Bytes) (r : Run) (hr : decodeFile o file = .ok r) (hev : ∀ v ∈ r.view file, Awaitable o v.1) (n : Nat) :
    awaitFile false o file n = .ok (turns n (r.view file) r.ending.toA) := by
  rw [C86_awaited, hr]
  simp only [Except.map, cutRun_plain r (C86.not_refused hr hev)]
  rfl

/-- **C86** for one or more files written whole, with blocks that the decoder does not know. -/
theorem C86_written (o : Opts) (hc : o.concat = true) (f : FileSpec) (bs : Bytes) (hf : f.Ok) (hd : DecoFile f bs)
    (fs : List (FileSpec × Bytes)) (hfs : ∀ x ∈ fs, x.1.Ok ∧ DecoFile x.1 x.2)
    (hev : ∀ x ∈ (f, bs) :: fs, ∀ y ∈ x.1.grains, Awaitable o (y.2.toMeta x.1.major)) (n : Nat) :
    awaitFile false o (bs ++ fs.flatMap Prod.snd) n = .ok (turns n
      (((f, bs) :: fs).flatMap (fun x => (x.1.grains.filter (fun y => !o.drops y.1)).map (o.viewOf x.1.major))) .eof) := by
  obtain ⟨r, h1, h2, -, h4⟩ := decodeFile_concat hc hf hd hfs
  rw [C86_same o _ r h1 (by
    intro v hv
    rw [h2] at hv
    obtain ⟨x, hx, hv⟩ := List.mem_flatMap.1 hv
    obtain ⟨y, hy, rfl⟩ := List.mem_map.1 hv
    exact hev x hx y (List.mem_filter.1 hy).1) n, h2, h4]
  rfl

/-- **C86** for `AsyncBytesIO` and files written whole. -/
theorem C86_bytesio (o : Opts) (hc : o.concat = true) (f : FileSpec) (bs : Bytes) (hf : f.Ok) (hd : DecoFile f bs)
    (fs : List (FileSpec × Bytes)) (hfs : ∀ x ∈ fs, x.1.Ok ∧ DecoFile x.1 x.2) (n : Nat) :
    awaitFile true o (bs ++ fs.flatMap Prod.snd) n = awaitFile false o (bs ++ fs.flatMap Prod.snd) n := by
  obtain ⟨st, h1, h2, h3⟩ := C24_bytesio_complete o hc f bs hf hd fs hfs
  unfold awaitFile
  rw [h1, h2]
  simp only [Except.ok.injEq]
  exact C86.each_same n (fun ops => (h3 ops).1)

/-- **C86** for a file that is cut behind its head. -/
theorem C86_cut (f : FileSpec) (hf : f.Ok) (o : Opts) (m : Nat) (hm : grainsEnd f 0 ≤ m)
    (hev : ∀ y ∈ f.grains, Awaitable o (y.2.toMeta f.major)) (n : Nat) :
    ∃ k tail e, k ≤ f.grains.length ∧ grainsEnd f k ≤ m ∧ (k < f.grains.length → m < grainsEnd f (k + 1)) ∧ CutGrain o f m k tail ∧
      (e = .eof ∨ e = .break_ ∧ o.concat = false) ∧
      awaitFile false o (f.bytes.take m) n =
        .ok (turns n (((f.grains.take k).filter (fun x => !o.drops x.1)).map (o.viewOf f.major) ++ tail) e) := by
  obtain ⟨r, k, tail, h1, -, h3, h4, h5, h6, h7, h8⟩ := C05_truncated f hf o m hm
  refine ⟨k, tail, r.ending.toA, h4, h5, h6, h8, ?_, ?_⟩
  · rcases h3 with h | ⟨h, h'⟩
    · rw [h]; exact .inl rfl
    · rw [h]; exact .inr ⟨rfl, h'⟩
  · rw [C86_same o _ r h1 (by
      intro v hv
      rw [h7] at hv
      rcases List.mem_append.1 hv with hv | hv
      · obtain ⟨y, hy, rfl⟩ := List.mem_map.1 hv
        exact hev y (List.mem_of_mem_take (List.mem_filter.1 hy).1)
      · rcases h8 with h8 | ⟨x, d, hx, -, h8, -⟩
        · rw [h8] at hv; cases hv
        · rw [h8] at hv
          rw [List.mem_singleton.1 hv]
          exact hev x (List.mem_of_getElem? hx)) n, h7]

/-- **C86** for joined files whose writers may not have finished. -/
theorem C86_joined {o : Opts} (hc : o.concat = true) {x : Piece} {xs : List Piece} (hx : ∀ y ∈ x :: xs, y.spec.Ok)
    (hev : ∀ y ∈ x :: xs, ∀ z ∈ y.spec.grains, Awaitable o (z.2.toMeta y.spec.major)) (n : Nat) :
    awaitFile false o ((x :: xs).flatMap Piece.bytes) n = .ok (turns n ((x :: xs).flatMap (Piece.seen o)) .eof) := by
  obtain ⟨r, h1, h2, -, h4⟩ := C83_joined hc hx
  rw [C86_same o _ r h1 (by
    intro v hv
    rw [h2] at hv
    obtain ⟨y, hy, hv⟩ := List.mem_flatMap.1 hv
    obtain ⟨z, hz, rfl⟩ := List.mem_map.1 hv
    exact hev y hy z (List.mem_filter.1 hz).1) n, h2, h4]
  rfl

/-- **C86** for files that follow the format documents, whoever wrote them. -/
theorem C86_documented {c : Doc.Contents} {bs : Bytes} (h : Doc.IsFile true c bs) {d : DateTime} (hd : c.head.created = some d) (o : Opts)
    (hev : ∀ g ∈ c.grains, Awaitable o (Doc.seen o g).1) (n : Nat) :
    ∃ e, (e = .eof ∨ o.concat = false ∧ e = .break_) ∧
      awaitFile false o bs n = .ok (turns n ((c.grains.filter (fun g => !o.drops g.localId)).map (Doc.seen o)) e) := by
  obtain ⟨r, h1, -, h3, h4⟩ := C85_read_partial h hd o
  refine ⟨r.ending.toA, ?_, ?_⟩
  · rcases h4 with h | ⟨h', h⟩
    · rw [h]; exact .inl rfl
    · rw [h]; exact .inr ⟨h', rfl⟩
  · rw [C86_same o _ r h1 (by
      intro v hv
      rw [h3] at hv
      obtain ⟨y, hy, rfl⟩ := List.mem_map.1 hv
      exact hev y (List.mem_filter.1 hy).1) n, h3]

/-- **C86** for files that were damaged as in C82, if data is loaded at once: the asynchronous loop sees the same replies as the synchronous one. -/
theorem C86_damaged (o : Opts) (ho : o.defers = false) {f : FileSpec} (hf : f.Ok) {hb : Bytes} {ps : List ((Nat × Grain) × Bytes)} {file : Bytes}
    (hd : Damaged f hb ps file) (n : Nat) :
    (hb ≠ encodeHead f.head ∧ ∃ e, (IsGsfError e ∨ e = .unicode ∨ e = .value) ∧ awaitFile false o file n = .error e) ∨
    ∃ rs, Replies o f.major ps rs ∧
      awaitFile false o file n = .ok (turns n (loopOf (usualEnd o) rs).1 (loopOf (usualEnd o) rs).2.toA) := by
  rcases C82_contained o hf hd with ⟨h1, e, h2, h3, -⟩ | ⟨h, rs, -, -, -, h1, ⟨r, h2, h3⟩, -⟩
  · refine .inl ⟨h1, e, h2, ?_⟩
    rw [C86_awaited, h3]
    rfl
  · refine .inr ⟨rs, h1, ?_⟩
    rw [C86_same o _ r h2 (fun v _ => .inr ho) n, ← h3]

/-- **C86 fails** for a file with an event in the default mode: `AttributeError` after the grains before it.  Loading at once it does not. -/
theorem C86_event_counterexample :
    (awaitFile false {} sample.bytes 8).toOption.map (fun r => (r.1.length, r.2)) = some (6, .generator .attribute) ∧
    (awaitFile false { mode := .loadImmediately } sample.bytes 8).toOption.map (fun r => (r.1.length, r.2)) = some (7, .generator .eof) := by
  decide +kernel

/-- On `AsyncBytesIO` awaiting a grain whose data is cut raises; from a file it gives what is there. -/
theorem C86_bytesio_counterexample :
    (awaitFile true {} (asyncSample.bytes.take 915) 9).toOption.map (fun r => (r.1.map (fun v => v.2.1), r.2)) =
      some ([some [1, 2, 3, 4, 5], some [255, 0], none], .await .eofError) ∧
    (awaitFile false {} (asyncSample.bytes.take 915) 9).toOption.map (fun r => (r.1.map (fun v => v.2.1), r.2)) =
      some ([some [1, 2, 3, 4, 5], some [255, 0], none, some [0, 0]], .generator .eof) := by
  decide +kernel

/-! ## Witnesses -/

/-- A file without events in the default mode, a file with one if data is loaded at once. -/
example : asyncSample.Ok ∧ (∀ y ∈ asyncSample.grains, (y.2.toMeta asyncSample.major).grainType ≠ some .event) ∧ asyncSample.grains.length = 4 ∧
    sample.Ok ∧ ({ mode := .loadImmediately } : Opts).defers = false ∧ grainsEnd asyncSample 0 ≤ 915 ∧ 915 < asyncSample.bytes.length ∧
    (∃ y ∈ sample.grains, (y.2.toMeta sample.major).grainType = some .event) := by
  refine ⟨by decide +kernel, by decide +kernel, by decide +kernel, by decide +kernel, rfl, by decide +kernel, by decide +kernel, ?_⟩
  decide +kernel

/-- The whole sample, awaited. -/
example : (awaitFile false {} asyncSample.bytes 9).toOption.map (fun r => (r.1.map (fun v => (v.2.1, v.2.2)), r.2)) =
      some ((asyncSample.grains.map (fun y => (y.2.payload, y.1))), .generator .eof) := by
  decide +kernel

end Verif.Props

import Verif.Gsf.AsyncLemmas
import Verif.Gsf.Whole
import Verif.Props.Sample

/-!
# C24, C25: the asynchronous decoder

The synchronous result is `decodeFile o file`: the grains with their ids in order, and how the generator
ended.  The specification of an asynchronous program is `Spec.steps`: it is given the list of grains and
answers `next` with the next one, and `await k` with the bytes of the file the `k`th deferred grain refers
to (or the data assigned to it).
-/

namespace Verif.Props

open Verif Verif.Gsf

/-- **C24**, opening: the asynchronous decoder fails to open exactly when the synchronous one does, with
the same error. (A file object whose `read` may be short: `AsyncFileWrapper`, `AsyncBytesIOWrapper`.) -/
theorem C24_open (o : Opts) (file : Bytes) (e : Err) :
    decodeFile o file = .error e ↔ openA false file = .error e := by
  have h := openA_inv o file
  constructor
  · intro h'; rw [h'] at h; exact h
  · intro h'
    cases hd : decodeFile o file with
    | error e' => rw [hd] at h; simp only at h; rw [h'] at h; cases h; rfl
    | ok r =>
      rw [hd] at h
      obtain ⟨st, h1, _⟩ := h
      rw [h'] at h1; cases h1

/-- **C24.** Any byte string, any options, and any program that resumes the generator, awaits grains (one
at a time, in any order, any number of times) and assigns data: what it sees is what the synchronous list
of grains says.  The one difference is that the generator stops with an `AttributeError` at the first event
grain with deferred data (`cutRun`). -/
theorem C24_schedules (o : Opts) (file : Bytes) (r : Run) (hr : decodeFile o file = .ok r) :
    ∃ st, openA false file = .ok st ∧ ∀ ops : List AOp,
      (st.steps false o file ops).1 = (Spec.steps file ⟨[], some (cutRun r)⟩ ops).1 := by
  have h := openA_inv o file
  rw [hr] at h
  obtain ⟨st, h1, h2⟩ := h
  exact ⟨st, h1, fun ops => (h2.steps ops).1⟩

/-- Without event grains whose data is deferred nothing is cut. -/
theorem cutRun_plain (r : Run) (h : ∀ it ∈ r.items, it.refused = false) : cutRun r = (r.items, r.ending.toA) := by
  have h1 : r.items.takeWhile (fun it => !it.refused) = r.items := by
    generalize r.items = l at h
    induction l with
    | nil => rfl
    | cons it l ih =>
      rw [List.takeWhile_cons, h it (List.mem_cons_self ..)]
      simp only [Bool.not_false, if_true]
      rw [ih (fun it hit => h it (List.mem_cons_of_mem _ hit))]
  have h2 : r.items.any Item.refused = false := by
    rw [List.any_eq_false]; intro it hit; simp [h it hit]
  unfold cutRun
  rw [h1, h2]; rfl

/-- The grains among the events. -/
def itemsOf (evs : List AEv) : List Item := evs.filterMap (fun e => match e with | .item it => some it | _ => none)

/-- The `next`s among the operations. -/
def nexts (ops : List AOp) : Nat := (ops.filter (· == .next)).length

theorem spec_items (file : Bytes) : ∀ (ops : List AOp) (sp : Spec) (items : List Item) (e : AEnd),
    sp.rest = some (items, e) → itemsOf (sp.steps file ops).1 = items.take (nexts ops) := by
  have over : ∀ (ops : List AOp) (sp : Spec), sp.rest = none → itemsOf (sp.steps file ops).1 = [] := by
    intro ops
    induction ops with
    | nil => intro _ _; rfl
    | cons op ops ih =>
      intro sp h
      cases op with
      | next => simp only [Spec.steps, Spec.step, h]; exact ih _ h
      | await k =>
        simp only [Spec.steps, Spec.step]
        split <;> exact ih _ h
      | assign k d =>
        simp only [Spec.steps, Spec.step]
        split <;> exact ih _ h
  intro ops
  induction ops with
  | nil => intro _ _ _ _; rfl
  | cons op ops ih =>
    intro sp items e h
    cases op with
    | next =>
      cases items with
      | nil =>
        simp only [Spec.steps, Spec.step, h, List.take_nil]
        exact over _ _ rfl
      | cons it its =>
        simp only [Spec.steps, Spec.step, h]
        have hn : nexts (.next :: ops) = nexts ops + 1 := rfl
        rw [hn, List.take_succ_cons]
        have := ih ⟨match it.data with
                     | .deferred _ _ => sp.seen ++ [(it.data.load file, false)]
                     | _ => sp.seen, some (its, e)⟩ its e rfl
        rw [← this]; rfl
    | await k =>
      have hn : nexts (.await k :: ops) = nexts ops := rfl
      rw [hn]
      simp only [Spec.steps, Spec.step]
      split <;> exact ih _ items e h
    | assign k d =>
      have hn : nexts (.assign k d :: ops) = nexts ops := rfl
      rw [hn]
      simp only [Spec.steps, Spec.step]
      split <;> exact ih _ items e h

/-- **C24**, the grains: whatever is awaited in between, resuming the generator `n` times gives the first
`n` grains of the synchronous decoder, with their metadata and ids, when no event grain has deferred
data. -/
theorem C24_same_grains (o : Opts) (file : Bytes) (r : Run) (hr : decodeFile o file = .ok r)
    (hev : ∀ it ∈ r.items, it.refused = false) :
    ∃ st, openA false file = .ok st ∧ ∀ ops : List AOp,
      itemsOf (st.steps false o file ops).1 = r.items.take (nexts ops) := by
  obtain ⟨st, h1, h2⟩ := C24_schedules o file r hr
  refine ⟨st, h1, fun ops => ?_⟩
  rw [h2, cutRun_plain r hev]
  exact spec_items file ops _ _ _ rfl

/-- The grains with deferred data, in order. -/
def deferredItems (items : List Item) : List Item :=
  items.filter (fun it => match it.data with | .deferred _ _ => true | _ => false)

theorem spec_append (file : Bytes) : ∀ (a b : List AOp) (sp : Spec),
    sp.steps file (a ++ b) = ((sp.steps file a).1 ++ ((sp.steps file a).2.steps file b).1,
      ((sp.steps file a).2.steps file b).2)
  | [], _, _ => rfl
  | op :: a, b, sp => by
    simp only [List.cons_append, Spec.steps]
    rw [spec_append file a b]

theorem sess_append (strict : Bool) (o : Opts) (file : Bytes) : ∀ (a b : List AOp) (st : Sess),
    st.steps strict o file (a ++ b) = ((st.steps strict o file a).1 ++
      ((st.steps strict o file a).2.steps strict o file b).1, ((st.steps strict o file a).2.steps strict o file b).2)
  | [], _, _ => rfl
  | op :: a, b, st => by
    simp only [List.cons_append, Sess.steps]
    rw [sess_append strict o file a b]

/-- The items still to come. -/
def Spec.toCome (sp : Spec) : List Item := (sp.rest.map Prod.fst).getD []

/-- What the specification says of the deferred grains after a program without assignments. -/
theorem spec_seen (file : Bytes) : ∀ (ops : List AOp) (sp : Spec) (pre : List Item),
    (∀ j d, AOp.assign j d ∉ ops) →
    sp.seen.map Prod.fst = (deferredItems pre).map (fun it => it.data.load file) →
    (sp.steps file ops).2.seen.map Prod.fst =
      (deferredItems (pre ++ (Spec.toCome sp).take (nexts ops))).map (fun it => it.data.load file)
  | [], sp, pre, _, h => by
    have hz : nexts [] = 0 := rfl
    rw [hz, List.take_zero, List.append_nil]; exact h
  | op :: ops, sp, pre, hno, h => by
    have hno' : ∀ j d, AOp.assign j d ∉ ops := fun j d hm => hno j d (List.mem_cons_of_mem _ hm)
    cases op with
    | assign j d => exact absurd (List.mem_cons_self ..) (hno j d)
    | await j =>
      have hn : nexts (.await j :: ops) = nexts ops := rfl
      rw [hn]
      cases hsj : sp.seen[j]? with
      | none => simp only [Spec.steps, Spec.step, hsj]; exact spec_seen file ops sp pre hno' h
      | some v =>
        obtain ⟨d, t⟩ := v
        simp only [Spec.steps, Spec.step, hsj]
        refine spec_seen file ops { sp with seen := sp.seen.set j (d, true) } pre hno' ?_
        rw [← h]
        apply List.ext_getElem?
        intro i
        rw [List.getElem?_map, List.getElem?_map]
        by_cases hij : j = i
        · subst hij; rw [List.getElem?_set_self (lt_of_get hsj), hsj]; rfl
        · rw [List.getElem?_set_ne hij]
    | next =>
      have hn : nexts (.next :: ops) = nexts ops + 1 := rfl
      rw [hn]
      cases hr : sp.rest with
      | none =>
        have hc : Spec.toCome sp = [] := by unfold Spec.toCome; rw [hr]; rfl
        have := spec_seen file ops sp pre hno' h
        rw [hc] at this ⊢
        simp only [Spec.steps, Spec.step, hr]
        simpa using this
      | some v =>
        obtain ⟨items, e⟩ := v
        have hc : Spec.toCome sp = items := by unfold Spec.toCome; rw [hr]; rfl
        rw [hc]
        cases items with
        | nil =>
          simp only [Spec.steps, Spec.step, hr]
          have := spec_seen file ops { sp with rest := none } pre hno' h
          simpa [Spec.toCome] using this
        | cons it its =>
          simp only [Spec.steps, Spec.step, hr]
          rw [List.take_succ_cons]
          have := spec_seen file ops ⟨match it.data with
                     | .deferred _ _ => sp.seen ++ [(it.data.load file, false)]
                     | _ => sp.seen, some (its, e)⟩ (pre ++ [it]) hno' (by
              unfold deferredItems at h ⊢
              rw [List.filter_append, List.map_append, ← h]
              cases hd : it.data with
              | none => simp [hd]
              | bytes bs => simp [hd]
              | deferred p n => simp [hd])
          rw [List.append_assoc] at this
          exact this

/-- **C24**, awaiting: after any program that did not assign data, awaiting the `k`th grain with deferred
data gives the bytes the synchronous decoder's grain gives when its data is accessed. -/
theorem C24_await (o : Opts) (file : Bytes) (r : Run) (hr : decodeFile o file = .ok r)
    (hev : ∀ it ∈ r.items, it.refused = false) :
    ∃ st, openA false file = .ok st ∧ ∀ (ops : List AOp) (k : Nat) (it : Item),
      (∀ j d, AOp.assign j d ∉ ops) → (deferredItems (r.items.take (nexts ops)))[k]? = some it →
      (st.steps false o file (ops ++ [.await k])).1 =
        (st.steps false o file ops).1 ++ [.awaited (.data (it.data.load file))] := by
  obtain ⟨st, h1, h2⟩ := C24_schedules o file r hr
  refine ⟨st, h1, fun ops k it hno hk => ?_⟩
  rw [h2, h2, cutRun_plain r hev, spec_append]
  congr 1
  have hs := spec_seen file ops ⟨[], some (r.items, r.ending.toA)⟩ [] hno rfl
  simp only [Spec.toCome, Option.map_some, Option.getD_some, List.nil_append] at hs
  have : ((Spec.steps file ⟨[], some (r.items, r.ending.toA)⟩ ops).2.seen.map Prod.fst)[k]?
      = some (it.data.load file) := by
    rw [hs, List.getElem?_map, hk]; rfl
  rw [List.getElem?_map] at this
  cases hsk : (Spec.steps file ⟨[], some (r.items, r.ending.toA)⟩ ops).2.seen[k]? with
  | none => rw [hsk] at this; cases this
  | some v =>
    obtain ⟨d, t⟩ := v
    rw [hsk] at this
    simp only [Option.map_some, Option.some.injEq] at this
    simp only [Spec.steps, Spec.step, hsk, this]

/-- The deferred grains of a session are the ones of the specification. -/
theorem leave_facts {o : Opts} {file : Bytes} {st : Sess} {sp : Spec} (hi : SessInv file o st sp) :
    st.table.Nodup ∧ (∀ k ∈ st.table, ∃ g, st.lazies[k]? = some g ∧
      (g.co = .gone ∨ (g.co = .pending ∧ g.data = none ∧ g.onExit = (o.mode == .alwaysLoadDeferIfPossible)))) := by
  refine ⟨hi.sorted.imp (fun h => Nat.ne_of_lt h), ?_⟩
  intro k hk
  obtain ⟨g, h1, h2⟩ := hi.known k hk
  refine ⟨g, h1, ?_⟩
  obtain ⟨e, h3, h4⟩ := hi.seen h1
  rcases h4 with ⟨_, e2, e3, _, e5⟩ | ⟨_, e2, _, _⟩
  · exact .inr ⟨e2, e3, e5⟩
  · left; cases hc : g.co with
    | gone => rfl
    | pending => exact absurd hc e2
    | finished => exact absurd hc h2

/-- **C24**, leaving in defer mode: after any program, leaving the context ends normally; grains that were
awaited or assigned keep their data, all other grains have no data, and awaiting one of these later is a
`RuntimeError`. -/
theorem C24_leave (o : Opts) (hm : o.mode ≠ .alwaysLoadDeferIfPossible) (file : Bytes) (r : Run)
    (hr : decodeFile o file = .ok r) :
    ∃ st, openA false file = .ok st ∧ ∀ ops : List AOp, ∃ st',
      (st.steps false o file ops).2.leave false file = (.normal, st') ∧
      ∀ (k : Nat) d t, (Spec.steps file ⟨[], some (cutRun r)⟩ ops).2.seen[k]? = some (d, t) →
        ∃ g, st'.lazies[k]? = some g ∧ g.data = (if t then d else none) ∧
          (t = false → (st'.await false file k g).1 = .runtimeError) := by
  have h := openA_inv o file
  rw [hr] at h
  obtain ⟨st, h1, h2⟩ := h
  refine ⟨st, h1, fun ops => ?_⟩
  have hi := (h2.steps ops).2
  generalize (st.steps false o file ops).2 = s1 at hi ⊢
  generalize (Spec.steps file ⟨[], some (cutRun r)⟩ ops).2 = sp1 at hi ⊢
  have hmf : (o.mode == Mode.alwaysLoadDeferIfPossible) = false := by simpa using hm
  obtain ⟨f1, f2⟩ := leave_facts hi
  obtain ⟨st', e1, _, e3, _, e5⟩ := killLoop_defer (strict := false) (file := file) s1.table
    { s1 with exiting := true } rfl f1 (by
      intro k hk
      obtain ⟨g, g1, g2⟩ := f2 k hk
      rw [hmf] at g2
      exact ⟨g, g1, g2⟩)
  refine ⟨st', e1, ?_⟩
  intro k d t hk
  have hlt : k < s1.lazies.length := by rw [hi.len]; exact lt_of_get hk
  obtain ⟨g', g1, g2, g3⟩ := e5 k s1.lazies[k] (List.getElem?_eq_getElem hlt)
  have hok := hi.ok k _ _ (List.getElem?_eq_getElem hlt) hk
  refine ⟨g', g1, ?_, ?_⟩
  · rw [g2]
    rcases hok with ⟨e1, _, e3, _, _⟩ | ⟨e1, _, e3, _⟩
    · simp only at e1; rw [e1, e3]; rfl
    · simp only at e1; rw [e1]; exact e3
  · intro ht
    rcases hok with ⟨e1, f2, f3, _, _⟩ | ⟨e1, _, _, _⟩
    · have hfin := g3 (hi.pending k _ (List.getElem?_eq_getElem hlt) f2) f2
      unfold Sess.await
      rw [g2, f3, hfin]
    · simp only at e1; rw [ht] at e1; cases e1

/-- **C25 fails.** In `ALWAYS_LOAD_DEFER_IF_POSSIBLE` mode, after any program: when every grain with
deferred data was awaited or assigned, leaving ends normally; otherwise it raises `RuntimeError` after
loading the first remaining grain `k0`, and all the later ones have no data. -/
theorem C25_leave_exact (o : Opts) (hm : o.mode = .alwaysLoadDeferIfPossible) (file : Bytes) (r : Run)
    (hr : decodeFile o file = .ok r) :
    ∃ st, openA false file = .ok st ∧ ∀ ops : List AOp,
      let seen := (Spec.steps file ⟨[], some (cutRun r)⟩ ops).2.seen
      let out := (st.steps false o file ops).2.leave false file
      ((∀ (k : Nat) e, seen[k]? = some e → e.2 = true) ∧ out.1 = .normal ∧
        ∀ (k : Nat) e, seen[k]? = some e → (out.2.lazies[k]?).map LGrain.data = some e.1) ∨
      (∃ (k0 : Nat) (e0 : Option Bytes × Bool), seen[k0]? = some e0 ∧ e0.2 = false ∧ (∀ k < k0, ∀ e, seen[k]? = some e → e.2 = true) ∧
        out.1 = .runtimeError ∧
        ∀ (k : Nat) e, seen[k]? = some e →
          (out.2.lazies[k]?).map LGrain.data = some (if e.2 = true ∨ k = k0 then e.1 else none)) := by
  have h := openA_inv o file
  rw [hr] at h
  obtain ⟨st, h1, h2⟩ := h
  refine ⟨st, h1, fun ops => ?_⟩
  have hi := (h2.steps ops).2
  generalize (st.steps false o file ops).2 = s1 at hi ⊢
  generalize (Spec.steps file ⟨[], some (cutRun r)⟩ ops).2 = sp1 at hi ⊢
  have hmt : (o.mode == Mode.alwaysLoadDeferIfPossible) = true := by simpa using hm
  obtain ⟨f1, f2⟩ := leave_facts hi
  have data_of : ∀ (k : Nat) e, sp1.seen[k]? = some e → ∃ g, s1.lazies[k]? = some g ∧ GrainOk file o g e := by
    intro k e hk
    have hlt : k < s1.lazies.length := by rw [hi.len]; exact lt_of_get hk
    exact ⟨s1.lazies[k], List.getElem?_eq_getElem hlt, hi.ok k _ _ (List.getElem?_eq_getElem hlt) hk⟩
  -- split the table at the first pending grain
  have split : ∀ l : List Nat, (∀ k ∈ l, ∃ g, s1.lazies[k]? = some g ∧ (g.co = .gone ∨ g.co = .pending)) →
      (∀ k ∈ l, ∃ g, s1.lazies[k]? = some g ∧ g.co = .gone) ∨
      ∃ pre k0 post g, l = pre ++ k0 :: post ∧ s1.lazies[k0]? = some g ∧ g.co = .pending ∧
        ∀ k ∈ pre, ∃ g, s1.lazies[k]? = some g ∧ g.co = .gone := by
    intro l
    induction l with
    | nil => intro _; left; simp
    | cons k l ih =>
      intro hl
      obtain ⟨g, g1, g2⟩ := hl k (List.mem_cons_self ..)
      rcases g2 with g2 | g2
      · rcases ih (fun j hj => hl j (List.mem_cons_of_mem _ hj)) with hh | ⟨pre, k0, post, g', q1, q2, q3, q4⟩
        · left
          intro j hj
          rcases List.mem_cons.1 hj with rfl | hj
          · exact ⟨g, g1, g2⟩
          · exact hh j hj
        · right
          refine ⟨k :: pre, k0, post, g', by rw [q1]; rfl, q2, q3, ?_⟩
          intro j hj
          rcases List.mem_cons.1 hj with rfl | hj
          · exact ⟨g, g1, g2⟩
          · exact q4 j hj
      · right
        exact ⟨[], k, l, g, rfl, g1, g2, by simp⟩
  rcases split s1.table (by
    intro k hk
    obtain ⟨g, g1, g2⟩ := f2 k hk
    exact ⟨g, g1, g2.imp id (·.1)⟩) with hall | ⟨pre, k0, post, g, q1, q2, q3, q4⟩
  · left
    refine ⟨?_, ?_, ?_⟩
    · intro k e hk
      obtain ⟨g, g1, g2⟩ := data_of k e hk
      rcases g2 with ⟨_, e2, _, _, _⟩ | ⟨e1, _, _, _⟩
      · obtain ⟨g', j1, j2⟩ := hall k (hi.pending k g g1 e2)
        rw [g1] at j1; cases j1; rw [e2] at j2; cases j2
      · exact e1
    · unfold Sess.leave
      rw [killLoop_gone s1.table { s1 with exiting := true } hall]
    · intro k e hk
      unfold Sess.leave
      rw [killLoop_gone s1.table { s1 with exiting := true } hall]
      obtain ⟨g, g1, g2⟩ := data_of k e hk
      simp only
      rw [g1]
      rcases g2 with ⟨_, e2, _, _, _⟩ | ⟨e1, _, e3, _⟩
      · obtain ⟨g', j1, j2⟩ := hall k (hi.pending k g g1 e2)
        rw [g1] at j1; cases j1; rw [e2] at j2; cases j2
      · rw [Option.map_some, e3]
  · right
    obtain ⟨e0, s1', s2'⟩ := hi.seen q2
    have s3' := s2'.resolve_right (fun hh => hh.2.1 q3)
    obtain ⟨t1, t2, t3, t4, t5⟩ := s3'
    have hk0 : k0 ∈ s1.table := by rw [q1]; simp
    have hout := killLoop_load (file := file) (st := { s1 with exiting := true }) (post := post) q2 q3 t3
      (by rw [t5, hmt]) hk0 pre q4
    rw [← q1] at hout
    have hout' := show s1.leave false file = _ from hout
    refine ⟨k0, e0, s1', t1, ?_, by rw [hout'], ?_⟩
    · intro k hk e he
      obtain ⟨g', g1, g2⟩ := data_of k e he
      rcases g2 with ⟨_, e2, _, _, _⟩ | ⟨e1, _, _, _⟩
      · have hm' := hi.pending k g' g1 e2
        have hs := hi.sorted
        rw [q1] at hm' hs
        rcases List.mem_append.1 hm' with hm' | hm'
        · obtain ⟨g'', j1, j2⟩ := q4 k hm'
          rw [g1] at j1; cases j1; rw [e2] at j2; cases j2
        · rcases List.mem_cons.1 hm' with rfl | hm'
          · omega
          · have hs2 := (List.pairwise_append.1 hs).2.1
            have := (List.pairwise_cons.1 hs2).1 k hm'
            omega
      · exact e1
    · intro k e he
      rw [hout']
      simp only
      obtain ⟨g', g1, g2⟩ := data_of k e he
      by_cases hkk : k0 = k
      · subst hkk
        rw [List.getElem?_set_self (lt_of_get q2)]
        rw [s1'] at he; cases he
        rw [if_pos (.inr rfl), t4]
        rfl
      · rw [List.getElem?_set_ne hkk, g1]
        rcases g2 with ⟨e1, _, e3, _, _⟩ | ⟨e1, _, e3, _⟩
        · rw [if_neg (by rw [e1]; rintro (h | h); cases h; exact hkk h.symm), Option.map_some, e3]
        · rw [if_pos (.inl e1), Option.map_some, e3]

/-! ## `AsyncBytesIO`: a short read is an `EOFError` -/

/-- Same result, or an `EOFError` instead. -/
def Near (m m' : Rd α) : Prop := ∀ s p, m s p = m' s p ∨ m s p = .error .eof

theorem Near.refl (m : Rd α) : Near m m := fun _ _ => .inl rfl

theorem Near.bind {m m' : Rd α} {f f' : α → Rd β} (h : Near m m') (hf : ∀ a, Near (f a) (f' a)) :
    Near (m >>= f) (m' >>= f') := by
  intro s p
  rcases h s p with e | e
  · simp only [Rd.bind_apply, e]
    cases m' s p with
    | error e' => exact .inl rfl
    | ok v => exact hf v.1 s v.2
  · right; simp only [Rd.bind_apply, e]

theorem Near.ite {c : Prop} [Decidable c] {m m' n n' : Rd α} (h1 : Near m m') (h2 : Near n n') :
    Near (if c then m else n) (if c then m' else n') := by
  split <;> assumption

theorem near_readRaw (n : Nat) : Near (readRawA true n) (readRaw n) := by
  intro s p
  unfold readRawA readRaw
  simp only
  split
  · exact .inr rfl
  · exact .inl rfl

theorem near_inRemaining (b : Block) (m : Rd α) : Near (b.inRemainingA true m) (b.inRemaining m) := by
  intro s p
  unfold Block.inRemainingA Block.inRemaining
  simp only
  split
  · exact .inr rfl
  · exact .inl rfl

theorem near_head : Near (decodeHeadBlockA true) decodeHeadBlock :=
  (Near.refl _).bind fun _ => (near_inRemaining _ _).bind fun _ => .refl _

theorem near_gbhd (major : Nat) : Near (readGbhdBlockA true major) (readGbhdBlock major) :=
  (Near.refl _).bind fun _ => (near_inRemaining _ _).bind fun _ => .refl _

theorem near_grdt (o : Opts) (b : Block) : Near (readGrdtA true o b) (readGrdt o b) :=
  (Near.refl _).bind fun _ => .ite ((Near.refl _).bind fun _ => (Near.refl _).bind fun _ =>
    .ite (.ite (.refl _) (.ite (.refl _) ((near_readRaw _).bind fun _ => .refl _))) (.refl _)) (.refl _)

/-- Same, or `EOFError`, or (when the header of a file is being read) `GSFDecodeError`. -/
theorem headers_strict (known : Bool) (s : Stream) (p : Nat) :
    decodeFileHeadersA true known s p = decodeFileHeaders known s p ∨
      decodeFileHeadersA true known s p = .error .decode := by
  unfold decodeFileHeadersA decodeFileHeaders
  simp only [Rd.bind_apply]
  cases decodeSsb known s p with
  | error e => exact .inl rfl
  | ok v =>
    obtain ⟨⟨major, minor⟩, q⟩ := v
    simp only [Rd.ite_apply]
    split
    · simp only [Rd.bind_apply, Rd.eofToDecode]
      rcases near_head s q with e | e
      · rw [e]; exact .inl rfl
      · rw [e]; exact .inr rfl
    · exact .inl rfl

theorem step_strict (o : Opts) (h : Hdr) (hc : Bool) (s : Stream) (p : Nat) :
    grainsStepA true o h hc s p = grainsStep o h hc s p ∨ grainsStepA true o h hc s p = .error .eof ∨
      (hc = true ∧ grainsStepA true o h hc s p = .error .decode) := by
  cases hc with
  | true =>
    unfold grainsStepA grainsStep
    rw [if_pos rfl, if_pos rfl]
    simp only [Rd.bind_apply]
    rcases headers_strict true s p with e | e
    · rw [e]; exact .inl rfl
    · rw [e]; exact .inr (.inr ⟨trivial, rfl⟩)
  | false =>
    have : Near (grainsStepA true o h false) (grainsStep o h false) := by
      unfold grainsStepA grainsStep
      rw [if_neg (c := false = true) (by simp), if_neg (c := false = true) (by simp)]
      exact (Near.refl _).bind fun _ => .ite (.refl _) (.ite (.refl _) ((Near.refl _).bind fun _ =>
        .ite (.refl _) ((near_gbhd _).bind fun _ => (near_grdt _ _).bind fun _ => .refl _)))
    rcases this s p with e | e
    · exact .inl e
    · exact .inr (.inl e)

theorem pull_strict (o : Opts) (s : Stream) : ∀ (f : Nat) (h : Hdr) (hc : Bool) (p : Nat),
    pull true o s f h hc p = pull false o s f h hc p ∨
      ∃ h', pull true o s f h hc p = .done h' .eof ∨ pull true o s f h hc p = .done h' (.err .decode)
  | 0, _, _, _ => .inl rfl
  | f + 1, h, hc, p => by
    rw [pull, pull, grainsStepA_false]
    rcases step_strict o h hc s p with e | e | ⟨_, e⟩
    · rw [e]
      rcases grainsStep o h hc s p with (e | ⟨st, q⟩)
      · cases e <;> exact .inl rfl
      · cases st with
        | stop => exact .inl rfl
        | next h' hc' => exact pull_strict o s f h' hc' q
        | yield it => exact .inl rfl
    · rw [e]; exact .inr ⟨h, .inl rfl⟩
    · rw [e]; exact .inr ⟨h, .inr rfl⟩

/-- **C24** for `AsyncBytesIO`, any bytes and any state of the session: an operation gives what it gives
with the other file objects and leaves the same session, or the missing bytes are reported: the generator
ends (silently, or with a `GSFDecodeError`), or awaiting raises `EOFError`. -/
theorem C24_bytesio_partial (o : Opts) (file : Bytes) (st : Sess) (op : AOp) :
    st.step true o file op = st.step false o file op ∨
      (st.step true o file op).1 = .stopped .eof ∨ (st.step true o file op).1 = .stopped (.err .decode) ∨
      (st.step true o file op).1 = .awaited .eofError := by
  cases op with
  | assign k d => exact .inl rfl
  | await k =>
    simp only [Sess.step]
    cases hk : st.lazies[k]? with
    | none => exact .inl rfl
    | some g =>
      simp only
      by_cases h : ∃ st', st.await true file k g = (.eofError, st')
      · obtain ⟨st', h⟩ := h
        rw [h]; exact .inr (.inr (.inr rfl))
      · left
        have : st.await true file k g = st.await false file k g := by
          revert h
          unfold Sess.await
          simp only
          split
          · intro _; rfl
          · split
            · intro _; rfl
            · intro _; rfl
            · split
              · split
                · by_cases hl : ((file.drop g.start).take g.length).length < g.length
                  · intro h
                    exact absurd ⟨_, by rw [if_pos (by simpa using hl)]⟩ h
                  · intro _
                    rw [if_neg (by simpa using hl), if_neg (by simp)]
                · intro _; rfl
              · intro _; rfl
        rw [this]
  | next =>
    simp only [Sess.step]
    cases hg : st.gen with
    | none => exact .inl rfl
    | some v =>
      obtain ⟨f, h, hc⟩ := v
      simp only
      rcases pull_strict o ⟨0, file⟩ f h hc st.pos with e | ⟨h', e | e⟩
      · rw [e]; exact .inl rfl
      · rw [e]; exact .inr (.inl rfl)
      · rw [e]; exact .inr (.inr (.inl rfl))

/-! ## Witnesses -/

/-- The sample file without its event grain: its data is deferred and nothing is cut. -/
def asyncSample : FileSpec := ⟨9, 0, sampleHead, [(1, gVideo), (300, gAudio), (1, gEmpty), (1, gCoded)]⟩

theorem asyncSample_items : ((decodeFile {} asyncSample.bytes).toOption.map
    (fun r => (r.items.map (·.data), r.items.any Item.refused))) =
      some ([.deferred 537 5, .deferred 660 2, .none, .deferred 913 3], false) := by
  decide +kernel

/-- The hypotheses of `C24_same_grains`, `C24_await` and `C24_leave` are met by a file with three deferred
grains. -/
example : ∃ r, decodeFile {} asyncSample.bytes = .ok r ∧ (∀ it ∈ r.items, it.refused = false) ∧
    (deferredItems r.items).length = 3 := by
  have h := asyncSample_items
  cases hd : decodeFile {} asyncSample.bytes with
  | error e => rw [hd] at h; cases h
  | ok r =>
    rw [hd] at h
    simp only [Except.toOption, Option.map_some, Option.some.injEq, Prod.mk.injEq] at h
    refine ⟨r, rfl, ?_, ?_⟩
    · intro it hit
      have := h.2
      rw [List.any_eq_false] at this
      simpa using this it hit
    · have e : (deferredItems r.items).length = ((r.items.map (·.data)).filter
          (fun d => match d with | .deferred _ _ => true | _ => false)).length := by
        unfold deferredItems
        rw [List.filter_map, List.length_map]; rfl
      rw [e, h.1]; rfl

/-- A program that awaits out of order, twice, and in between: all awaits give the right bytes. -/
example : ((openA false asyncSample.bytes).toOption.map (fun st =>
    ((st.steps false {} asyncSample.bytes [.next, .next, .await 1, .next, .await 0, .next, .await 1, .await 2]).1.filter
      (fun e => match e with | .awaited _ => true | _ => false)))) =
    some [.awaited (.data (some [255, 0])), .awaited (.data (some [1, 2, 3, 4, 5])),
      .awaited (.data (some [255, 0])), .awaited (.data (some [0, 0, 1]))] := by
  decide +kernel

/-- **C24 fails** for event grains: with the default loading mode the synchronous decoder gives all seven
grains of the sample, the asynchronous one raises `AttributeError` in place of the event grain. -/
theorem C24_event_counterexample :
    (decodeFile {} sample.bytes).toOption.map (fun r => (r.items.length, r.ending)) = some (7, .eof) ∧
    (openA false sample.bytes).toOption.map (fun st =>
      let evs := (st.steps false {} sample.bytes (List.replicate 7 .next)).1
      ((itemsOf evs).length, evs.getLast?)) = some (6, some (.stopped .attribute)) := by
  constructor <;> decide +kernel

/-- **C24 fails** for `AsyncBytesIO` on a file cut inside the data of its last grain: the synchronous
decoder gives the grain with the bytes that are there, the asynchronous one ends without it. -/
theorem C24_bytesio_counterexample :
    (decodeFile { mode := .loadImmediately } (asyncSample.bytes.take 915)).toOption.map
      (fun r => (r.items.map (·.data), r.ending)) =
        some ([.bytes [1, 2, 3, 4, 5], .bytes [255, 0], .none, .bytes [0, 0]], .eof) ∧
    (openA true (asyncSample.bytes.take 915)).toOption.map (fun st =>
      let evs := (st.steps true { mode := .loadImmediately } (asyncSample.bytes.take 915) (List.replicate 4 .next)).1
      ((itemsOf evs).map (·.data), evs.getLast?)) =
        some ([.bytes [1, 2, 3, 4, 5], .bytes [255, 0], .none], some (.stopped .eof)) := by
  constructor <;> decide +kernel

/-- **C24 fails** when grains are awaited at the same time (`asyncio.gather`): both coroutines seek before
either reads, so the first grain gets bytes of the second (and the second the bytes after), and the file is
left where the first grain's data starts, not where the generator had it. -/
theorem C24_concurrent_counterexample :
    let gs : List LGrain := [⟨537, 5, false, .pending, none⟩, ⟨660, 2, false, .pending, none⟩]
    Part.runs asyncSample.bytes gs 662 [.begin 0, .read 0, .finish 0, .begin 1, .read 1, .finish 1] =
      ([(0, [1, 2, 3, 4, 5]), (1, [255, 0])], 662) ∧
    Part.runs asyncSample.bytes gs 662 [.begin 0, .begin 1, .read 0, .read 1, .finish 0, .finish 1] =
      ([(0, [255, 0, 103, 114, 97]), (1, [105, 96])], 537) := by
  decide +kernel

/-- Without overlap the three parts are one uninterrupted `await`, in any order of grains. -/
theorem C24_one_at_a_time (file : Bytes) (gs : List LGrain) (pos : Nat) (ks : List Nat)
    (hk : ∀ k ∈ ks, k < gs.length) :
    Part.runs file gs pos (ks.flatMap (fun k => [.begin k, .read k, .finish k])) =
      (ks.map (fun k => (k, ((gs[k]?).map (fun g => (file.drop g.start).take g.length)).getD [])), pos) := by
  have key : ∀ (ks : List Nat) (acc : List (Nat × Bytes)), (∀ k ∈ ks, k < gs.length) →
      (ks.flatMap (fun k => [Part.begin k, .read k, .finish k])).foldl (Part.run file gs) (pos, [], acc) =
        (pos, [], acc ++ ks.map (fun k => (k, ((gs[k]?).map (fun g => (file.drop g.start).take g.length)).getD []))) := by
    intro ks
    induction ks with
    | nil => intro acc _; simp
    | cons k ks ih =>
      intro acc hk
      have hg := List.getElem?_eq_getElem (hk k (List.mem_cons_self ..))
      rw [List.flatMap_cons, List.foldl_append]
      have e : [Part.begin k, .read k, .finish k].foldl (Part.run file gs) (pos, [], acc) =
          (pos, [], acc ++ [(k, ((gs[k]?).map (fun g => (file.drop g.start).take g.length)).getD [])]) := by
        simp [Part.run, hg]
      rw [e, ih _ (fun j hj => hk j (List.mem_cons_of_mem _ hj)), List.map_cons, List.append_assoc]
      rfl
  unfold Part.runs
  rw [key ks [] hk]
  rfl

/-- **C25 fails**: with nothing awaited, leaving the context of a file with three deferred grains raises
`RuntimeError` and loads only the first. -/
theorem C25_counterexample :
    (openA false asyncSample.bytes).toOption.map (fun st =>
      let o : Opts := { mode := .alwaysLoadDeferIfPossible }
      let out := (st.steps false o asyncSample.bytes (List.replicate 4 .next)).2.leave false asyncSample.bytes
      (out.1, out.2.lazies.map LGrain.data)) =
    some (.runtimeError, [some [1, 2, 3, 4, 5], none, none]) := by
  decide +kernel

end Verif.Props

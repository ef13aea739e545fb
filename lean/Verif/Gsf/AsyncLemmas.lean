import Verif.Gsf.Async

/-!
# Facts about the asynchronous session

With a file whose `read` may be short (`strict = false`) every part of the asynchronous decoder is the
synchronous one; the table of grains not loaded yet is kept in step with the grains.
-/

namespace Verif.Gsf

theorem readRawA_false (n : Nat) : readRawA false n = readRaw n := by
  funext s p; simp [readRawA, readRaw]

theorem inRemainingA_false (b : Block) (m : Rd α) : b.inRemainingA false m = b.inRemaining m := by
  funext s p
  unfold Block.inRemainingA Block.inRemaining
  simp only [Bool.false_and, Bool.false_eq_true, if_false]
  rfl

theorem decodeHeadBlockA_false : decodeHeadBlockA false = decodeHeadBlock := by
  unfold decodeHeadBlockA decodeHeadBlock; simp only [inRemainingA_false]

theorem decodeFileHeadersA_false (k : Bool) : decodeFileHeadersA false k = decodeFileHeaders k := by
  unfold decodeFileHeadersA decodeFileHeaders; simp only [decodeHeadBlockA_false]

theorem readGrdtA_false (o : Opts) (b : Block) : readGrdtA false o b = readGrdt o b := by
  unfold readGrdtA readGrdt; simp only [readRawA_false]

theorem readGbhdBlockA_false (m : Nat) : readGbhdBlockA false m = readGbhdBlock m := by
  unfold readGbhdBlockA readGbhdBlock; simp only [inRemainingA_false]

theorem grainsStepA_false (o : Opts) (h : Hdr) (hc : Bool) : grainsStepA false o h hc = grainsStep o h hc := by
  unfold grainsStepA grainsStep
  simp only [decodeFileHeadersA_false, readGbhdBlockA_false, readGrdtA_false]

/-- Resuming the generator again and again is the loop of the synchronous decoder. -/
theorem grainsLoop_pull (o : Opts) (s : Stream) : ∀ (f : Nat) (h : Hdr) (hc : Bool) (p : Nat),
    grainsLoop o s f h hc p = match pull false o s f h hc p with
      | .done h' e => ⟨[], h', e⟩
      | .item it f' h' p' =>
        ⟨it :: (grainsLoop o s f' h' false p').items, (grainsLoop o s f' h' false p').hdr,
          (grainsLoop o s f' h' false p').ending⟩ := by
  intro f
  induction f with
  | zero => intro h hc p; rfl
  | succ f ih =>
    intro h hc p
    rw [show grainsLoop o s (f + 1) h hc p = _ from rfl, show pull false o s (f + 1) h hc p = _ from rfl,
      grainsLoop, pull, grainsStepA_false]
    rcases grainsStep o h hc s p with (e | ⟨st, q⟩)
    · cases e <;> rfl
    · cases st with
      | stop => rfl
      | next h' hc' => exact ih _ _ _
      | yield it => rfl

/-! ## The specification side: what each operation should give -/

/-- The grains a generator hands out before it stops, and how it stops: it stops with an
`AttributeError` at the first event grain with deferred data. -/
def cutRun (r : Run) : List Item × AEnd :=
  (r.items.takeWhile (fun it => !it.refused),
   if r.items.any Item.refused then .attribute else r.ending.toA)

/-- What a program should see, knowing the whole list of grains: `seen` says, for each grain with deferred
data handed out so far, the data it stands for and whether it was awaited or assigned already; `rest` is
what the generator has still to give. -/
structure Spec where
  seen : List (Option Bytes × Bool)
  rest : Option (List Item × AEnd)

def Spec.step (file : Bytes) (sp : Spec) : AOp → AEv × Spec
  | .next =>
    match sp.rest with
    | none => (.stopped .over, sp)
    | some ([], e) => (.stopped e, { sp with rest := none })
    | some (it :: its, e) =>
      (.item it, { seen := match it.data with
                     | .deferred _ _ => sp.seen ++ [(it.data.load file, false)]
                     | _ => sp.seen
                   rest := some (its, e) })
  | .await k =>
    match sp.seen[k]? with
    | none => (.nothing, sp)
    | some (d, _) => (.awaited (.data d), { sp with seen := sp.seen.set k (d, true) })
  | .assign k d =>
    match sp.seen[k]? with
    | none => (.nothing, sp)
    | some _ => (.nothing, { sp with seen := sp.seen.set k (d, true) })

def Spec.steps (file : Bytes) : Spec → List AOp → List AEv × Spec
  | sp, [] => ([], sp)
  | sp, op :: ops =>
    let (ev, sp') := sp.step file op
    let (evs, sp'') := Spec.steps file sp' ops
    (ev :: evs, sp'')

/-! ## The invariant -/

/-- A grain and what is expected of it. -/
def GrainOk (file : Bytes) (o : Opts) (g : LGrain) (e : Option Bytes × Bool) : Prop :=
  (e.2 = false ∧ g.co = .pending ∧ g.data = none ∧ e.1 = some ((file.drop g.start).take g.length) ∧
    g.onExit = (o.mode == .alwaysLoadDeferIfPossible)) ∨
  (e.2 = true ∧ g.co ≠ .pending ∧ g.data = e.1 ∧ (e.1 = none → g.co = .gone))

structure SessInv (file : Bytes) (o : Opts) (st : Sess) (sp : Spec) : Prop where
  inside : st.exiting = false
  len : st.lazies.length = sp.seen.length
  ok : ∀ (k : Nat) g e, st.lazies[k]? = some g → sp.seen[k]? = some e → GrainOk file o g e
  sorted : st.table.Pairwise (· < ·)
  known : ∀ k ∈ st.table, ∃ g, st.lazies[k]? = some g ∧ g.co ≠ .finished
  pending : ∀ (k : Nat) g, st.lazies[k]? = some g → g.co = .pending → k ∈ st.table
  gen : match st.gen with
    | none => sp.rest = none
    | some (f, h, hc) => sp.rest = some (cutRun (grainsLoop o ⟨0, file⟩ f h hc st.pos))

theorem lt_of_get {l : List α} {k : Nat} {a : α} (h : l[k]? = some a) : k < l.length := by
  rw [List.getElem?_eq_some_iff] at h; exact h.1

theorem SessInv.seen {file o st sp} (hi : SessInv file o st sp) {k : Nat} {g} (h : st.lazies[k]? = some g) :
    ∃ e, sp.seen[k]? = some e ∧ GrainOk file o g e := by
  have hk : k < sp.seen.length := by
    rw [← hi.len]; exact lt_of_get h
  exact ⟨sp.seen[k], List.getElem?_eq_getElem hk, hi.ok k g _ h (List.getElem?_eq_getElem hk)⟩

theorem SessInv.unseen {file o st sp} (hi : SessInv file o st sp) {k : Nat} (h : st.lazies[k]? = none) :
    sp.seen[k]? = none := by
  rw [List.getElem?_eq_none_iff] at *
  rw [← hi.len]; exact h

theorem mem_erase_sorted {l : List Nat} (h : l.Pairwise (· < ·)) (a b : Nat) :
    a ∈ l.erase b ↔ a ≠ b ∧ a ∈ l :=
  List.Nodup.mem_erase_iff (h.imp (fun hab => Nat.ne_of_lt hab))

/-- Replacing one grain. -/
theorem getElem?_set_cases {l : List α} {k j : Nat} {a b : α} (h : (l.set k a)[j]? = some b) :
    (j = k ∧ b = a) ∨ (j ≠ k ∧ l[j]? = some b) := by
  rw [List.getElem?_set] at h
  by_cases hj : k = j
  · rw [if_pos hj] at h
    split at h
    · left; exact ⟨hj.symm, by simpa using h.symm⟩
    · cases h
  · rw [if_neg hj] at h; right; exact ⟨fun e => hj e.symm, h⟩

/-- Awaiting a grain inside the context gives the data it stands for and keeps everything in step;
the file position is what it was. -/
theorem SessInv.await {file o st sp} (hi : SessInv file o st sp) {k : Nat} {g} (h : st.lazies[k]? = some g) :
    ∃ d t, sp.seen[k]? = some (d, t) ∧ (st.await false file k g).1 = .data d ∧
      (st.await false file k g).2.pos = st.pos ∧
      SessInv file o (st.await false file k g).2 { sp with seen := sp.seen.set k (d, true) } := by
  obtain ⟨⟨d, t⟩, h1, h2⟩ := hi.seen h
  refine ⟨d, t, h1, ?_⟩
  rcases h2 with ⟨e1, e2, e3, e4, e5⟩ | ⟨e1, e2, e3, e4⟩
  · have hm := hi.pending k g h e2
    have hc : st.table.contains k = true := by simpa using hm
    simp only at e4
    unfold Sess.await
    rw [e3]
    simp only [e2, hi.inside, Bool.not_false, Bool.or_true, if_true, hc, Bool.false_and, Bool.false_eq_true,
      if_false]
    refine ⟨by rw [e4], trivial, ?_⟩
    exact
      { inside := rfl
        len := by simpa using hi.len
        ok := by
          intro j g' e hj he
          rcases getElem?_set_cases hj with ⟨rfl, rfl⟩ | ⟨hn, hj⟩
          · rcases getElem?_set_cases he with ⟨_, rfl⟩ | ⟨hn, _⟩
            · right; exact ⟨rfl, by simp, by rw [e4], by rw [e4]; simp⟩
            · exact absurd rfl hn
          · rcases getElem?_set_cases he with ⟨rfl, _⟩ | ⟨_, he⟩
            · exact absurd rfl hn
            · exact hi.ok j g' e hj he
        sorted := hi.sorted.erase _
        known := by
          intro j hj
          rw [mem_erase_sorted hi.sorted] at hj
          obtain ⟨g', hg', hf⟩ := hi.known j hj.2
          exact ⟨g', by rw [List.getElem?_set_ne (fun e => hj.1 e.symm)]; exact hg', hf⟩
        pending := by
          intro j g' hj hp
          rcases getElem?_set_cases hj with ⟨rfl, rfl⟩ | ⟨hn, hj⟩
          · cases hp
          · exact (mem_erase_sorted hi.sorted _ _).2 ⟨hn, hi.pending j g' hj hp⟩
        gen := hi.gen }
  · simp only at e1 e3 e4
    subst e1
    have hset : sp.seen.set k (d, true) = sp.seen := by
      apply List.ext_getElem?
      intro j
      by_cases hj : k = j
      · subst hj
        rw [List.getElem?_set_self (lt_of_get h1)]
        exact h1.symm
      · rw [List.getElem?_set_ne hj]
    have hst : st.await false file k g = (.data d, st) := by
      unfold Sess.await
      rw [e3]
      cases d with
      | some d => rfl
      | none => rw [e4 rfl]
    rw [hst, hset]
    exact ⟨rfl, rfl, hi⟩

theorem SessInv.assign {file o st sp} (hi : SessInv file o st sp) {k : Nat} {g} (d : Option Bytes)
    (h : st.lazies[k]? = some g) :
    SessInv file o { st with lazies := st.lazies.set k { g with co := .gone, data := d } }
      { sp with seen := sp.seen.set k (d, true) } where
  inside := hi.inside
  len := by simpa using hi.len
  ok := by
    intro j g' e hj he
    rcases getElem?_set_cases hj with ⟨rfl, rfl⟩ | ⟨hn, hj⟩
    · rcases getElem?_set_cases he with ⟨_, rfl⟩ | ⟨hn, _⟩
      · right; exact ⟨rfl, by simp, rfl, fun _ => rfl⟩
      · exact absurd rfl hn
    · rcases getElem?_set_cases he with ⟨rfl, _⟩ | ⟨_, he⟩
      · exact absurd rfl hn
      · exact hi.ok j g' e hj he
  sorted := hi.sorted
  known := by
    intro j hj
    obtain ⟨g', hg', hf⟩ := hi.known j hj
    by_cases hk : k = j
    · subst hk
      refine ⟨{ g with co := .gone, data := d }, ?_, by simp⟩
      rw [List.getElem?_set_self (lt_of_get h)]
    · exact ⟨g', by rw [List.getElem?_set_ne hk]; exact hg', hf⟩
  pending := by
    intro j g' hj hp
    rcases getElem?_set_cases hj with ⟨rfl, rfl⟩ | ⟨hn, hj⟩
    · cases hp
    · exact hi.pending j g' hj hp
  gen := hi.gen

/-- One operation inside the context gives what the specification says. -/
theorem SessInv.step {file o st sp} (hi : SessInv file o st sp) (op : AOp) :
    (st.step false o file op).1 = (sp.step file op).1 ∧
      SessInv file o (st.step false o file op).2 (sp.step file op).2 := by
  cases op with
  | await k =>
    cases h : st.lazies[k]? with
    | none => simp only [Sess.step, Spec.step, h, hi.unseen h]; exact ⟨trivial, hi⟩
    | some g =>
      obtain ⟨d, t, h1, h2, _, h4⟩ := hi.await h
      simp only [Sess.step, Spec.step, h, h1]
      exact ⟨by rw [h2], h4⟩
  | assign k d =>
    cases h : st.lazies[k]? with
    | none => simp only [Sess.step, Spec.step, h, hi.unseen h]; exact ⟨trivial, hi⟩
    | some g =>
      obtain ⟨e, h1, _⟩ := hi.seen h
      simp only [Sess.step, Spec.step, h, h1]
      exact ⟨trivial, hi.assign d h⟩
  | next =>
    have hg := hi.gen
    cases hgen : st.gen with
    | none =>
      rw [hgen] at hg
      simp only at hg
      simp only [Sess.step, Spec.step, hgen, hg]
      exact ⟨trivial, hi⟩
    | some v =>
      obtain ⟨f, h, hc⟩ := v
      rw [hgen] at hg
      simp only at hg
      rw [grainsLoop_pull] at hg
      cases hp : pull false o ⟨0, file⟩ f h hc st.pos with
      | done h' e =>
        rw [hp] at hg
        simp only [cutRun, List.takeWhile_nil, List.any_nil, Bool.false_eq_true, if_false] at hg
        simp only [Sess.step, Spec.step, hgen, hg, hp]
        exact ⟨trivial, { hi with gen := rfl }⟩
      | item it f' h' p' =>
        rw [hp] at hg
        simp only [cutRun, List.takeWhile_cons, List.any_cons] at hg
        rcases Bool.eq_false_or_eq_true it.refused with hr | hr
        · simp only [hr, Bool.not_true, Bool.false_eq_true, if_false, if_true, Bool.true_or] at hg
          simp only [Sess.step, Spec.step, hgen, hg, hp, hr, if_true]
          exact ⟨trivial, { hi with gen := rfl }⟩
        · simp only [hr, Bool.not_false, if_true, Bool.false_or] at hg
          simp only [Sess.step, Spec.step, hgen, hg, hp, hr, Bool.false_eq_true, if_false]
          cases hd : it.data with
          | none => exact ⟨rfl, { hi with gen := rfl }⟩
          | bytes bs => exact ⟨rfl, { hi with gen := rfl }⟩
          | deferred p n =>
            simp only
            refine ⟨trivial, ?_⟩
            have key : ∀ {α : Type} (l : List α) (a : α) (k : Nat) (b : α), (l ++ [a])[k]? = some b →
                (k = l.length ∧ b = a) ∨ (k < l.length ∧ l[k]? = some b) := by
              intro α l a k b hk
              by_cases hlt : k < l.length
              · rw [List.getElem?_append_left hlt] at hk; exact .inr ⟨hlt, hk⟩
              · rw [List.getElem?_append_right (by omega)] at hk
                left
                by_cases hz : k - l.length = 0
                · rw [hz] at hk; simp at hk; exact ⟨by omega, hk.symm⟩
                · rw [List.getElem?_eq_none (by simp; omega)] at hk; cases hk
            exact
              { inside := hi.inside
                len := by simpa using hi.len
                ok := by
                  intro k g e hk he
                  rcases key _ _ _ _ hk with ⟨rfl, rfl⟩ | ⟨hlt, hk⟩
                  · rcases key _ _ _ _ he with ⟨_, rfl⟩ | ⟨hlt, _⟩
                    · left; exact ⟨rfl, rfl, rfl, rfl, rfl⟩
                    · rw [hi.len] at hlt; omega
                  · rcases key _ _ _ _ he with ⟨e1, rfl⟩ | ⟨_, he⟩
                    · rw [hi.len] at hlt; omega
                    · exact hi.ok k g e hk he
                sorted := by
                  rw [List.pairwise_append]
                  refine ⟨hi.sorted, List.pairwise_singleton _ _, ?_⟩
                  intro a ha b hb
                  rw [List.mem_singleton] at hb
                  obtain ⟨g, hg1, _⟩ := hi.known a ha
                  subst hb
                  exact lt_of_get hg1
                known := by
                  intro k hk
                  rw [List.mem_append, List.mem_singleton] at hk
                  rcases hk with hk | rfl
                  · obtain ⟨g, hg1, hg2⟩ := hi.known k hk
                    have hlt : k < st.lazies.length := lt_of_get hg1
                    exact ⟨g, by rw [List.getElem?_append_left hlt]; exact hg1, hg2⟩
                  · exact ⟨⟨p, n, o.mode == .alwaysLoadDeferIfPossible, .pending, none⟩, by simp, by simp⟩
                pending := by
                  intro k g hk hpe
                  rw [List.mem_append, List.mem_singleton]
                  rcases key _ _ _ _ hk with ⟨rfl, rfl⟩ | ⟨hlt, hk⟩
                  · right; rfl
                  · left; exact hi.pending k g hk hpe
                gen := rfl }

theorem SessInv.steps {file o} : ∀ (ops : List AOp) {st sp}, SessInv file o st sp →
    (st.steps false o file ops).1 = (sp.steps file ops).1 ∧
      SessInv file o (st.steps false o file ops).2 (sp.steps file ops).2
  | [], _, _, hi => ⟨rfl, hi⟩
  | op :: ops, st, sp, hi => by
    obtain ⟨h1, h2⟩ := hi.step op
    obtain ⟨h3, h4⟩ := SessInv.steps ops h2
    simp only [Sess.steps, Spec.steps]
    exact ⟨by rw [h1, h3], h4⟩

theorem openA_inv (o : Opts) (file : Bytes) :
    match decodeFile o file with
    | .error e => openA false file = .error e
    | .ok r => ∃ st, openA false file = .ok st ∧ SessInv file o st ⟨[], some (cutRun r)⟩ := by
  unfold decodeFile openA
  rw [decodeFileHeadersA_false]
  cases h : decodeFileHeaders false ⟨0, file⟩ 0 with
  | error e => rfl
  | ok v =>
    obtain ⟨h, p⟩ := v
    simp only
    refine ⟨_, rfl, ?_⟩
    exact
      { inside := rfl
        len := rfl
        ok := by intro k g e hk; simp at hk
        sorted := List.Pairwise.nil
        known := by intro k hk; simp at hk
        pending := by intro k g hk; simp at hk
        gen := rfl }

/-! ## Leaving the context -/

/-- Awaiting a grain that has data, or no coroutine, changes nothing. -/
theorem await_settled {strict : Bool} {file : Bytes} {st : Sess} {k : Nat} {g : LGrain} (h : g.co = .gone) :
    st.await strict file k g = (.data g.data, st) := by
  unfold Sess.await
  cases hd : g.data with
  | none => simp only [h]
  | some d => rfl

/-- Leaving when no grain is to be loaded on exit: all coroutines end without reading. -/
theorem killLoop_defer {strict : Bool} {file : Bytes} : ∀ (ks : List Nat) (st : Sess), st.exiting = true →
    ks.Nodup →
    (∀ k ∈ ks, ∃ g, st.lazies[k]? = some g ∧ (g.co = .gone ∨ (g.co = .pending ∧ g.data = none ∧ g.onExit = false))) →
    ∃ st', Sess.killLoop strict file st ks = (.normal, st') ∧ st'.pos = st.pos ∧ st'.table = st.table ∧
      st'.exiting = true ∧
      ∀ k g, st.lazies[k]? = some g → ∃ g', st'.lazies[k]? = some g' ∧ g'.data = g.data ∧
        (k ∈ ks → g.co = .pending → g'.co = .finished)
  | [], st, he, _, _ => ⟨st, rfl, rfl, rfl, he, fun k g h => ⟨g, h, rfl, by simp⟩⟩
  | k :: ks, st, he, hn, hk => by
    rw [List.nodup_cons] at hn
    obtain ⟨g, h1, h2⟩ := hk k (List.mem_cons_self ..)
    rcases h2 with h2 | ⟨h2, h3, h4⟩
    · obtain ⟨st', e1, e2, e3, e4, e5⟩ := killLoop_defer (strict := strict) (file := file) ks st he hn.2
        (fun j hj => hk j (List.mem_cons_of_mem _ hj))
      refine ⟨st', ?_, e2, e3, e4, ?_⟩
      · simp only [Sess.killLoop, h1, await_settled h2, ne_eq, not_true_eq_false, if_false]
        exact e1
      · intro j g' hj
        obtain ⟨g'', f1, f2, f3⟩ := e5 j g' hj
        refine ⟨g'', f1, f2, ?_⟩
        intro hm hp
        rcases List.mem_cons.1 hm with rfl | hm
        · rw [h1] at hj; cases hj; rw [h2] at hp; cases hp
        · exact f3 hm hp
    · have haw : st.await strict file k g
          = (.data none, { st with lazies := st.lazies.set k { g with co := .finished } }) := by
        unfold Sess.await
        simp only [h3, h2, h4, he, Bool.not_true, Bool.or_false, Bool.false_eq_true, if_false]
      obtain ⟨st', e1, e2, e3, e4, e5⟩ := killLoop_defer (strict := strict) (file := file) ks
        { st with lazies := st.lazies.set k { g with co := .finished } } he hn.2 (by
          intro j hj
          obtain ⟨g', f1, f2⟩ := hk j (List.mem_cons_of_mem _ hj)
          refine ⟨g', ?_, f2⟩
          have : k ≠ j := fun e => hn.1 (e ▸ hj)
          simp only
          rw [List.getElem?_set_ne this]
          exact f1)
      refine ⟨st', ?_, e2, e3, e4, ?_⟩
      · simp only [Sess.killLoop, h1, haw, ne_eq, not_true_eq_false, if_false]
        exact e1
      · intro j g' hj
        by_cases hjk : k = j
        · subst hjk
          rw [h1] at hj; cases hj
          obtain ⟨g'', f1, f2, f3⟩ := e5 k { g with co := .finished }
            (by simp only; rw [List.getElem?_set_self (lt_of_get h1)])
          have hfin : g''.co = .finished ∨ True := .inr trivial
          refine ⟨g'', f1, f2, ?_⟩
          intro _ _
          -- untouched afterwards: `k` is not among the remaining keys
          have := killLoop_other (strict := strict) (file := file) ks
            { st with lazies := st.lazies.set k { g with co := .finished } } k hn.1
          rw [e1] at this
          simp only at this
          rw [List.getElem?_set_self (lt_of_get h1), f1] at this
          cases this
          rfl
        · obtain ⟨g'', f1, f2, f3⟩ := e5 j g' (by simp only; rw [List.getElem?_set_ne hjk]; exact hj)
          refine ⟨g'', f1, f2, ?_⟩
          intro hm hp
          rcases List.mem_cons.1 hm with rfl | hm
          · exact absurd rfl hjk
          · exact f3 hm hp
where
  /-- The loop only changes the grains whose keys it goes over. -/
  killLoop_other {strict : Bool} {file : Bytes} : ∀ (ks : List Nat) (st : Sess) (k : Nat), k ∉ ks →
      (Sess.killLoop strict file st ks).2.lazies[k]? = st.lazies[k]?
    | [], _, _, _ => rfl
    | j :: ks, st, k, hn => by
      rw [List.mem_cons, not_or] at hn
      cases h : st.lazies[j]? with
      | none => simp only [Sess.killLoop, h]
      | some g =>
        have haw : (st.await strict file j g).2.lazies[k]? = st.lazies[k]? := by
          have hs : ∀ (x : LGrain), (st.lazies.set j x)[k]? = st.lazies[k]? := fun x =>
            List.getElem?_set_ne (fun e => hn.1 e.symm)
          unfold Sess.await
          split
          · rfl
          · split
            · rfl
            · rfl
            · split
              · split
                · simp only; split <;> exact hs _
                · exact hs _
              · exact hs _
        simp only [Sess.killLoop, h]
        rcases hr : st.await strict file j g with ⟨r, st'⟩
        rw [hr] at haw
        simp only at haw
        cases r with
        | data d =>
          simp only
          split
          · exact haw
          · exact (killLoop_other ks st' k hn.2).trans haw
        | runtimeError => exact haw
        | eofError => exact haw
        | keyError => exact haw

/-- Leaving when every grain not settled is to be loaded on exit: nothing to do if there is none … -/
theorem killLoop_gone {strict : Bool} {file : Bytes} : ∀ (ks : List Nat) (st : Sess),
    (∀ k ∈ ks, ∃ g, st.lazies[k]? = some g ∧ g.co = .gone) → Sess.killLoop strict file st ks = (.normal, st)
  | [], _, _ => rfl
  | k :: ks, st, h => by
    obtain ⟨g, h1, h2⟩ := h k (List.mem_cons_self ..)
    simp only [Sess.killLoop, h1, await_settled h2, ne_eq, not_true_eq_false, if_false]
    exact killLoop_gone ks st (fun j hj => h j (List.mem_cons_of_mem _ hj))

/-- … and `RuntimeError` after loading the first one otherwise. -/
theorem killLoop_load {file : Bytes} {st : Sess} {k : Nat} {g : LGrain} {post : List Nat}
    (h1 : st.lazies[k]? = some g) (h2 : g.co = .pending) (h3 : g.data = none) (h4 : g.onExit = true)
    (h5 : k ∈ st.table) : ∀ (pre : List Nat),
    (∀ k ∈ pre, ∃ g, st.lazies[k]? = some g ∧ g.co = .gone) →
    Sess.killLoop false file st (pre ++ k :: post) =
      (.runtimeError, { st with
        table := st.table.erase k
        lazies := st.lazies.set k { g with co := .finished, data := some ((file.drop g.start).take g.length) } })
  | [], _ => by
    have hc : st.table.contains k = true := by simpa using h5
    have hl := List.length_erase_of_mem h5
    have hp := List.length_pos_of_mem h5
    simp only [List.nil_append, Sess.killLoop, h1, Sess.await, h3, h2, h4, Bool.true_or, if_true, hc,
      Bool.false_and, Bool.false_eq_true, if_false]
    rw [if_pos (by rw [hl]; omega)]
  | j :: pre, h => by
    obtain ⟨g', f1, f2⟩ := h j (List.mem_cons_self ..)
    simp only [List.cons_append, Sess.killLoop, f1, await_settled f2, ne_eq, not_true_eq_false, if_false]
    exact killLoop_load h1 h2 h3 h4 h5 pre (fun j hj => h j (List.mem_cons_of_mem _ hj))

end Verif.Gsf

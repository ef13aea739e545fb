import Verif.Grain.Lazy

/-!
# C30: lazily loaded data

The theorems follow a grain from one assignment of `data` to the next, whatever happened before.
-/

namespace Verif.Props

open Verif Verif.Grain

/-- Operations other than assigning `data`, and without awaits that overlap other operations. -/
def Quiet : Op → Bool
  | .assign _ | .assignAwaitable _ | .start | .finish _ => false
  | _ => true

/-- Reading operations. -/
def Reads : Op → Bool
  | .getData | .hasData | .getLength => true
  | _ => false

/-- What an operation must show while the data is `v`. -/
def loadedObs (v : DataVal) : Op → Obs
  | .await | .getData => .data (some v)
  | .hasData => .bool true
  | .getLength => .nat v.len
  | .setLength _ => .attributeError
  | _ => .unit

/-- What an operation must show when there is no data and nothing to load. -/
def absentObs : Op → Obs
  | .await | .getData => .data none
  | .hasData => .bool false
  | .getLength => .nat 0
  | .setLength _ => .attributeError
  | _ => .unit

/-- What an operation must show while a load is pending and `declared` is the declared length, and the
declared length afterwards. -/
def pendingObs (declared : Nat) : Op → Obs × Nat
  | .getData => (.data none, declared)
  | .hasData => (.bool false, declared)
  | .getLength => (.nat declared, declared)
  | .setLength n => (.unit, n)
  | _ => (.unit, declared)

def pendingRun : Nat → List Op → List Obs × Nat
  | d, [] => ([], d)
  | d, op :: ops =>
    let (o, d) := pendingObs d op
    let (os, d) := pendingRun d ops
    (o :: os, d)

theorem lazy_run_append (g : Lazy) (a b : List Op) :
    g.run (a ++ b) = ((g.run a).1 ++ ((g.run a).2.run b).1, ((g.run a).2.run b).2) := by
  induction a generalizing g with
  | nil => rfl
  | cons op a ih => simp only [List.cons_append, Lazy.run, ih]

theorem loaded_step (g : Lazy) {v : DataVal} (hv : g.data = some v) (op : Op) (hq : Quiet op = true) :
    g.step op = (loadedObs v op, g) := by
  cases op <;> first
    | exact absurd hq Bool.false_ne_true
    | simp only [Lazy.step, Lazy.start, hv, loadedObs, Option.isSome]

/-- **C30**, loaded data: while data is there, any number of awaits and reads in any order return it, its
real length is the length, nothing can change the length, and nothing at all changes: no coroutine is
started. -/
theorem C30_loaded (g : Lazy) (v : DataVal) (hv : g.data = some v) (ops : List Op)
    (hq : ops.all Quiet = true) : g.run ops = (ops.map (loadedObs v), g) := by
  induction ops with
  | nil => rfl
  | cons op ops ih =>
    simp only [List.all_cons, Bool.and_eq_true] at hq
    simp only [Lazy.run, loaded_step g hv op hq.1, ih hq.2, List.map_cons]

/-- **C30**, assignment: after assigning bytes-like data, whatever load was pending before, awaits and reads
give the assigned data, and no coroutine is started: the pending load is cancelled. -/
theorem C30_assign (g : Lazy) (v : DataVal) (ops : List Op) (hq : ops.all Quiet = true) :
    (g.run (.assign (some v) :: ops)).1 = .unit :: ops.map (loadedObs v) ∧
      (g.run (.assign (some v) :: ops)).2.coros = g.coros ∧
      (g.run (.assign (some v) :: ops)).2.data = some v := by
  have h := C30_loaded { g with data := some v, fetcher := none } v rfl ops hq
  simp only [Lazy.run, Lazy.step, h]
  exact ⟨trivial, trivial, trivial⟩

/-- Assigning `None` also cancels the pending load. -/
theorem C30_assign_none (g : Lazy) (ops : List Op) (hq : ops.all Quiet = true) :
    (g.run (.assign none :: ops)).2 = { g with data := none, fetcher := none } ∧
      (g.run (.assign none :: ops)).1 = .unit :: ops.map absentObs := by
  simp only [Lazy.run, Lazy.step]
  suffices h : ∀ (g : Lazy), g.data = none → g.fetcher = none → ∀ (ops : List Op), ops.all Quiet = true →
      g.run ops = (ops.map absentObs, g) by
    rw [h _ rfl rfl ops hq]; exact ⟨rfl, rfl⟩
  intro g h1 h2 ops hq
  induction ops with
  | nil => rfl
  | cons op ops ih =>
    simp only [List.all_cons, Bool.and_eq_true] at hq
    have : g.step op = (absentObs op, g) := by
      cases op <;> first
        | exact absurd hq.1 Bool.false_ne_true
        | simp only [Lazy.step, Lazy.start, h1, h2, absentObs, Option.isSome]
    simp only [Lazy.run, this, ih hq.2, List.map_cons]

/-- A pending load. -/
structure Pending (g : Lazy) (i : Nat) (v : DataVal) : Prop where
  data : g.data = none
  fetcher : g.fetcher = some i
  coro : ∃ n, g.coros[i]? = some ⟨.value (some v), false, n⟩

theorem pending_reads {g : Lazy} {i : Nat} (h1 : g.data = none) (h2 : g.fetcher = some i) (ops : List Op)
    (hq : ops.all Quiet = true) (hna : ∀ op ∈ ops, op ≠ .await) :
    (g.run ops).1 = (pendingRun g.fetcherLength ops).1 ∧
      (g.run ops).2 = { g with fetcherLength := (pendingRun g.fetcherLength ops).2 } := by
  induction ops generalizing g with
  | nil => exact ⟨rfl, rfl⟩
  | cons op ops ih =>
    simp only [List.all_cons, Bool.and_eq_true] at hq
    have hs : g.step op = ((pendingObs g.fetcherLength op).1,
        { g with fetcherLength := (pendingObs g.fetcherLength op).2 }) := by
      obtain ⟨d, f, fl, cs, ts⟩ := g
      simp only at h1 h2
      subst h1 h2
      cases op <;> first
        | exact absurd hq.1 Bool.false_ne_true
        | exact absurd rfl (hna _ (List.mem_cons_self ..))
        | simp only [Lazy.step, pendingObs, Option.isSome]
    have := ih (g := { g with fetcherLength := (pendingObs g.fetcherLength op).2 }) h1 h2 hq.2
      (fun op hop => hna op (List.mem_cons_of_mem _ hop))
    simp only [Lazy.run, pendingRun, hs]
    exact ⟨by rw [this.1], by rw [this.2]⟩

/-- **C30**, before the load: from the assignment of an awaitable until the first await, `data` is `None` and
`length` is the declared length (the last one set while a load was pending), and nothing is started. -/
theorem C30_pending (g : Lazy) (i : Nat) (ops : List Op) (hq : ops.all Quiet = true)
    (hna : ∀ op ∈ ops, op ≠ .await) :
    (g.run (.assignAwaitable i :: ops)).1 = .unit :: (pendingRun g.fetcherLength ops).1 ∧
      (g.run (.assignAwaitable i :: ops)).2.coros = g.coros ∧
      (g.run (.assignAwaitable i :: ops)).2.length = (pendingRun g.fetcherLength ops).2 := by
  have h := pending_reads (g := { g with data := none, fetcher := some i }) (i := i) rfl rfl ops hq hna
  simp only [Lazy.run, Lazy.step]
  exact ⟨by rw [h.1], by rw [h.2], by rw [h.2]; rfl⟩

/-- **C30**, loading once: a grain is given a fresh coroutine that will return the data `v`; then come any
reads and length assignments, then an await, then any awaits and reads.  The first await and all later ones
return `v`; after it the length is that of `v`; the body of the coroutine was started exactly once and no
other coroutine was started. -/
theorem C30_load_once (g : Lazy) (i : Nat) (v : DataVal)
    (hi : g.coros[i]? = some ⟨.value (some v), false, 0⟩) (before after : List Op)
    (hb : before.all Quiet = true) (hna : ∀ op ∈ before, op ≠ .await) (ha : after.all Quiet = true) :
    let r := g.run (.assignAwaitable i :: (before ++ .await :: after))
    r.1 = .unit :: ((pendingRun g.fetcherLength before).1 ++ .data (some v) :: after.map (loadedObs v)) ∧
      r.2.coros = g.coros.set i ⟨.value (some v), true, 1⟩ ∧ r.2.data = some v := by
  intro r
  have h := pending_reads (g := { g with data := none, fetcher := some i }) (i := i) rfl rfl before hb hna
  have hlt : i < g.coros.length := (List.getElem?_eq_some_iff.1 hi).1
  have hs : ∀ (d : Nat), ({ g with data := none, fetcher := some i, fetcherLength := d } : Lazy).step .await =
      (.data (some v), { g with data := some v, fetcher := some i, fetcherLength := d,
                                coros := g.coros.set i ⟨.value (some v), true, 1⟩,
                                tasks := g.tasks ++ [none] }) := by
    intro d
    simp only [Lazy.step, Lazy.start, hi, Bool.false_eq_true, if_false, Lazy.finish,
      List.getElem?_append_right (Nat.le_refl _), Nat.sub_self, List.getElem?_cons_zero, List.getElem?_set_self hlt,
      Option.map_some]
    rw [List.set_append_right _ _ (Nat.le_refl _), Nat.sub_self]
    rfl
  have hl := fun (d : Nat) => C30_loaded { g with
      data := some v, fetcher := some i, fetcherLength := d,
      coros := g.coros.set i ⟨.value (some v), true, 1⟩,
      tasks := g.tasks ++ [none] } v rfl after ha
  have hr : r = (.unit :: ((pendingRun g.fetcherLength before).1 ++ .data (some v) :: after.map (loadedObs v)),
      { g with data := some v, fetcher := some i, fetcherLength := (pendingRun g.fetcherLength before).2,
               coros := g.coros.set i ⟨.value (some v), true, 1⟩, tasks := g.tasks ++ [none] }) := by
    simp only [r, Lazy.run]
    have e : (g.step (.assignAwaitable i)) = (.unit, { g with data := none, fetcher := some i }) := rfl
    rw [e]
    simp only [lazy_run_append, h.1, h.2]
    simp only [Lazy.run, hs, hl]
  rw [hr]
  exact ⟨rfl, rfl, rfl⟩

/-- **C30**, no hidden I/O: in any state whatsoever, reading `data`, `has_data` or `length` changes nothing
and starts nothing. -/
theorem C30_reads_pure (g : Lazy) (ops : List Op) (hr : ops.all Reads = true) : (g.run ops).2 = g := by
  induction ops with
  | nil => rfl
  | cons op ops ih =>
    simp only [List.all_cons, Bool.and_eq_true] at hr
    have : (g.step op).2 = g := by
      cases op <;> first
        | exact absurd hr.1 Bool.false_ne_true
        | (simp only [Lazy.step]; done)
        | (simp only [Lazy.step]; split <;> rfl)
    simp only [Lazy.run, this, ih hr.2]

theorem started_once (g : Lazy) (h : ∀ c ∈ g.coros, c.runs = if c.started then 1 else 0) (op : Op) :
    ∀ c ∈ (g.step op).2.coros, c.runs = if c.started then 1 else 0 := by
  have hstart : ∀ c ∈ g.start.2.coros, c.runs = if c.started then 1 else 0 := by
    unfold Lazy.start
    split
    · exact h
    · exact h
    · split
      · exact h
      · rename_i i _ _ c hc
        split
        · exact h
        · rename_i hns
          intro c' hc'
          rcases List.mem_or_eq_of_mem_set hc' with hm | rfl
          · exact h c' hm
          · have := h c (List.mem_of_getElem? hc)
            rw [if_neg hns] at this
            simp [this]
  have hfin : ∀ (g : Lazy) (t : Nat), (g.finish t).2.coros = g.coros := by
    intro g t
    unfold Lazy.finish
    split
    · simp only; split <;> rfl
    · rfl
  cases op with
  | await =>
    simp only [Lazy.step]
    split
    · rename_i t g' he
      rw [hfin]
      rw [he] at hstart
      exact hstart
    · exact hstart
  | start => exact hstart
  | finish t => simp only [Lazy.step]; rw [hfin]; exact h
  | assign v => exact h
  | assignAwaitable i => exact h
  | getData => exact h
  | hasData => exact h
  | getLength => simp only [Lazy.step]; split <;> exact h
  | setLength n => simp only [Lazy.step]; split <;> exact h

/-- **C30**, at most once: over every history, also one in which awaits overlap each other and assignments,
and the same coroutine is assigned several times, no coroutine is started more than once. -/
theorem C30_at_most_once (g : Lazy) (h : ∀ c ∈ g.coros, c.started = false ∧ c.runs = 0) (ops : List Op) :
    ∀ c ∈ (g.run ops).2.coros, c.runs ≤ 1 := by
  have main : ∀ (ops : List Op) (g : Lazy), (∀ c ∈ g.coros, c.runs = if c.started then 1 else 0) →
      ∀ c ∈ (g.run ops).2.coros, c.runs = if c.started then 1 else 0 := by
    intro ops
    induction ops with
    | nil => intro g hg; exact hg
    | cons op ops ih => intro g hg; exact ih _ (started_once g hg op)
  intro c hc
  have := main ops g (fun c hc => by rw [(h c hc).1, (h c hc).2]; rfl) c hc
  rw [this]
  split <;> omega

/-- A fresh coroutine that loads three bytes, with the length declared in advance. -/
def lazySample : Lazy :=
  { data := none, fetcher := none, coros := [⟨.value (some (.bytes [1, 2, 3])), false, 0⟩, ⟨.value none, false, 0⟩] }

example : (lazySample.run [.assignAwaitable 0, .setLength 7, .getLength, .getData, .await, .await, .getLength,
    .setLength 4]).1 = [.unit, .unit, .nat 7, .data none, .data (some (.bytes [1, 2, 3])),
      .data (some (.bytes [1, 2, 3])), .nat 3, .attributeError] := by decide +kernel

/-- **C30 fails** when the load gives no data (`None`, as the decoder gives for an empty data block): the
second await does not return the same thing but raises. -/
theorem C30_none_counterexample :
    (lazySample.run [.assignAwaitable 1, .await, .await]).1 = [.unit, .data none, .runtimeError] := by
  decide +kernel

/-- **C30 fails** when data is assigned while an await is under way: the loaded data replaces the assigned
data. -/
theorem C30_overlap_assign_counterexample :
    (lazySample.run [.assignAwaitable 0, .start, .assign (some (.bytes [9])), .getData, .finish 0, .getData]).1 =
      [.unit, .started 0, .unit, .data (some (.bytes [9])), .data (some (.bytes [1, 2, 3])),
        .data (some (.bytes [1, 2, 3]))] := by decide +kernel

/-- **C30 fails** when two tasks await the same grain: the second raises. -/
theorem C30_overlap_await_counterexample :
    (lazySample.run [.assignAwaitable 0, .start, .start, .finish 0]).1 =
      [.unit, .started 0, .runtimeError, .data (some (.bytes [1, 2, 3]))] := by decide +kernel

/-- The declared length outlives the load it was declared for: a later awaitable gets it too. -/
theorem C30_stale_length :
    (lazySample.run [.assignAwaitable 0, .setLength 7, .await, .assignAwaitable 1, .getLength]).1 =
      [.unit, .unit, .data (some (.bytes [1, 2, 3])), .unit, .nat 7] := by decide +kernel

end Verif.Props

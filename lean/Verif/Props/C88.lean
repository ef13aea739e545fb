import Verif.Gsf.Lifetime
import Verif.Props.C24

/-!
# C88: asynchronous files are closed
-/

namespace Verif.Props

open Verif Verif.Gsf Verif.Gsf.Lifetime

/-- Calls on a file that is open or not at the beginning (`o`), as they should be: opened only if closed, closed only if open. The result
is whether it is open at the end. -/
def C88.after : Bool → List Ev → Option Bool
  | o, [] => some o
  | false, .opened :: l => C88.after true l
  | true, .closed :: l => C88.after false l
  | true, .opened :: _ => none
  | false, .closed :: _ => none

/-- The grains with deferred data that the program was given all were awaited or assigned. -/
def C88.AllTaken (file : Bytes) (r : Run) (ops : List AOp) : Prop :=
  ∀ (k : Nat) e, (Spec.steps file ⟨[], some (cutRun r)⟩ ops).2.seen[k]? = some e → e.2 = true

namespace C88L

theorem after_append : ∀ (o : Bool) (l m : List Ev) (p : Bool), C88.after o l = some p → C88.after o (l ++ m) = C88.after p m
  | o, [], m, p, h => by
    simp only [C88.after, Option.some.injEq] at h
    rw [h]; rfl
  | false, .opened :: l, m, p, h => by
    simp only [List.cons_append, C88.after] at h ⊢
    exact after_append true l m p h
  | true, .closed :: l, m, p, h => by
    simp only [List.cons_append, C88.after] at h ⊢
    exact after_append false l m p h
  | true, .opened :: l, m, p, h => by simp [C88.after] at h
  | false, .closed :: l, m, p, h => by simp [C88.after] at h

theorem use_after {d : Decoder} (ho : d.owns = true) (h : C88.after false d.log = some d.isOpen) (u : Use) :
    (d.use u).owns = true ∧ C88.after false (d.use u).log = some (d.use u).isOpen := by
  obtain ⟨ow, io, log⟩ := d
  simp only at ho h
  subst ho
  obtain ⟨a, b, c⟩ := u
  cases io <;> cases a <;> cases b <;> cases c <;>
    simp [Decoder.use, Decoder.enter, Decoder.exit, h, after_append _ _ _ _ h, C88.after]

theorem uses_after : ∀ (us : List Use) {d : Decoder}, d.owns = true → C88.after false d.log = some d.isOpen →
    (d.uses us).owns = true ∧ C88.after false (d.uses us).log = some (d.uses us).isOpen
  | [], _, ho, h => ⟨ho, h⟩
  | u :: us, d, ho, h => by
    obtain ⟨h1, h2⟩ := use_after ho h u
    exact uses_after us h1 h2

theorem uses_append (d : Decoder) (us : List Use) (u : Use) : d.uses (us ++ [u]) = (d.uses us).use u := by
  simp [Decoder.uses]

end C88L

/-- A decoder opens its file only if it is closed and closes it only if it is open, however often it is used and whatever fails. After a
use it is closed exactly if the headers were read and nothing failed on leaving, or if it could not be opened at all. -/
theorem C88_reader (us : List Use) (u : Use) :
    C88.after false ((Decoder.new true).uses us).log = some ((Decoder.new true).uses us).isOpen ∧
    C88.after false ((Decoder.new true).uses (us ++ [u])).log =
      some (!((u.headers && u.kills) || (!((Decoder.new true).uses us).isOpen && !u.opens))) := by
  obtain ⟨h1, h2⟩ := C88L.uses_after us (d := Decoder.new true) rfl rfl
  refine ⟨h2, ?_⟩
  obtain ⟨_, h4⟩ := C88L.use_after h1 h2 u
  rw [C88L.uses_append, h4]
  generalize (Decoder.new true).uses us = d at *
  obtain ⟨ow, io, log⟩ := d
  simp only at h1
  subst h1
  obtain ⟨a, b, c⟩ := u
  cases io <;> cases a <;> cases b <;> cases c <;> rfl

/-- A file that the program has opened itself is neither opened nor closed. -/
theorem C88_borrowed (us : List Use) : ((Decoder.new false).uses us).log = [] ∧ ∀ vs, encodes false vs = [] := by
  constructor
  · have : ∀ (us : List Use) (d : Decoder), d.owns = false → d.isOpen = true → d.log = [] → (d.uses us).log = [] := by
      intro us
      induction us with
      | nil => intro d _ _ h; exact h
      | cons u us ih =>
        rintro ⟨ow, io, log⟩ h1 h2 h3
        simp only at h1 h2 h3
        subst h1 h2 h3
        apply ih <;> obtain ⟨a, b, c⟩ := u <;> cases a <;> cases b <;> cases c <;> rfl
    exact this us _ rfl rfl rfl
  · intro vs
    induction vs with
    | nil => rfl
    | cons v vs ih =>
      unfold encodes at ih ⊢
      rw [List.flatMap_cons, ih]
      obtain ⟨a, b, c⟩ := v
      cases a <;> cases b <;> cases c <;> rfl

/-- A program that reads a file of any bytes in any way. Afterwards the file is closed if the headers can be read and, in the mode that
loads what is left on leaving, nothing is left. In all other cases it stays open. -/
theorem C88_read_partial (o : Opts) (file : Bytes) (ops : List AOp) :
    (∀ e, decodeFile o file = .error e → readOnce false o file ops = [.opened]) ∧
    (∀ r, decodeFile o file = .ok r →
      ((o.mode = .alwaysLoadDeferIfPossible → C88.AllTaken file r ops) → readOnce false o file ops = [.opened, .closed]) ∧
      (o.mode = .alwaysLoadDeferIfPossible → ¬ C88.AllTaken file r ops → readOnce false o file ops = [.opened])) := by
  constructor
  · intro e he
    have h := openA_inv o file
    rw [he] at h
    unfold readOnce
    rw [h]
    rfl
  · intro r hr
    by_cases hm : o.mode = .alwaysLoadDeferIfPossible
    · obtain ⟨st, h1, h2⟩ := C25_leave_exact o hm file r hr
      have h2 := h2 ops
      unfold readOnce
      rw [h1]
      simp only at h2 ⊢
      refine ⟨fun ha => ?_, fun _ hn => ?_⟩
      · rcases h2 with ⟨_, e, _⟩ | ⟨k0, e0, g1, g2, _⟩
        · rw [e]; rfl
        · have := ha hm k0 e0 g1
          rw [g2] at this
          cases this
      · rcases h2 with ⟨g, _, _⟩ | ⟨_, _, _, _, _, e, _⟩
        · exact absurd g hn
        · rw [e]; rfl
    · obtain ⟨st, h1, h2⟩ := C24_leave o hm file r hr
      obtain ⟨st', h3, _⟩ := h2 ops
      unfold readOnce
      rw [h1]
      simp only [h3]
      exact ⟨fun _ => rfl, fun h => absurd h hm⟩

/-- The asynchronous encoder opens its file at every use and never closes it: in the end it is open if it could be opened once, and from
the second time on it is opened while it is open. -/
theorem C88_writer_counterexample (us : List EncUse) :
    encodes true us = List.replicate (us.countP (fun u => u.opens)) .opened := by
  induction us with
  | nil => rfl
  | cons u us ih =>
    unfold encodes at ih ⊢
    rw [List.flatMap_cons, ih, List.countP_cons]
    obtain ⟨a, b, c⟩ := u
    cases a
    · cases b <;> cases c <;> simp [encodeOnce, OpenEnc.new, OpenEnc.startDump]
    · cases b <;> cases c <;>
        simp [encodeOnce, OpenEnc.new, OpenEnc.startDump, OpenEnc.endDump, List.replicate_succ]

/-- After one use of the encoder in which everything succeeds the file is open. -/
theorem C88_written_counterexample : C88.after false (encodes true [{}]) = some true ∧ C88.after false (encodes true [{}, {}]) = none :=
  ⟨rfl, rfl⟩

/-- A file whose headers cannot be read stays open. -/
theorem C88_headers_counterexample : readOnce false {} [] [] = [.opened] ∧ readOnce true {} [] [] = [.opened] := by decide +kernel

/-- Reading a good file and leaving with grains that were not awaited, in the mode that loads them then: the file stays open. -/
theorem C88_left_counterexample :
    readOnce false { mode := .alwaysLoadDeferIfPossible } asyncSample.bytes (List.replicate 4 .next) = [.opened] ∧
    readOnce false {} asyncSample.bytes (List.replicate 4 .next) = [.opened, .closed] := by decide +kernel

/-- The hypotheses: uses of all kinds one after the other. -/
example : ((Decoder.new true).uses [⟨true, true, true⟩, ⟨true, false, true⟩, ⟨false, true, false⟩, ⟨true, true, true⟩]).log =
    [.opened, .closed, .opened, .closed] := rfl

end Verif.Props

import Verif.Gsf.Waiting
import Verif.Props.C51
import Verif.Props.C80

/-!
# C84: a reader on a pipe is never behind

* `C84_prompt`: what a reader can give after any part of a file has arrived.
* `C84_pipeline`: a streaming dump into a pipe, and a reader at the other end.
-/

namespace Verif.Props

open Verif Verif.Gsf

/-! ## Proofs -/

namespace C84

theorem exitD_mono (b : Block) : Mono (b.exitD .pipe) where
  fwd := by
    intro s p a q hb h
    simp only [Block.exitD, Dev.pipe, if_true, Except.ok.injEq, Prod.mk.injEq, true_and] at h
    omega
  cut n _ h := .inl h
  err n _ h := by simp [Block.exitD] at h

theorem tell_mono : Mono Rd.tell where
  fwd hb h := by simp [Rd.tell] at h; omega
  cut n _ h := .inl h
  err n _ h := by simp [Rd.tell] at h

theorem remaining_mono (b : Block) : Mono b.remaining where
  fwd hb h := by simp [Block.remaining] at h; omega
  cut n _ h := .inl h
  err n _ h := by simp [Block.remaining] at h

theorem hasChild_mono (b : Block) : Mono b.hasChild :=
  (remaining_mono b).bind fun _ => .ite (.pure _) (.ite (.fail _) (.pure _))

theorem taken_cut (s : Stream) (p k N : Nat) :
    ((s.cut N).buf.drop (p - (s.cut N).base)).take k = ((s.buf.drop (p - s.base)).take k).take (N - (p - s.base)) := by
  simp only [Stream.cut, List.drop_take, List.take_take]
  congr 1
  omega

/-- A strict read of `k` bytes and something done with them. -/
theorem strict_mono {m : Rd α} (k : Nat → Nat) (body : Bytes → Nat → Except Err (α × Nat))
    (hm : ∀ s p, m s p = if ((s.buf.drop (p - s.base)).take (k p)).length < k p then .error .eof
      else body ((s.buf.drop (p - s.base)).take (k p)) p)
    (hbody : ∀ bs p a q, body bs p = .ok (a, q) → p ≤ q) : Mono m := by
  have key : ∀ (s : Stream) (p N : Nat), m (s.cut N) p = m s p ∨ m (s.cut N) p = .error .eof := by
    intro s p N
    rw [hm, hm, taken_cut]
    have hle : ((s.buf.drop (p - s.base)).take (k p)).length ≤ k p := by simp only [List.length_take]; omega
    generalize (s.buf.drop (p - s.base)).take (k p) = bs at *
    by_cases h : (bs.take (N - (p - s.base))).length < k p
    · rw [if_pos h]; exact .inr rfl
    · by_cases h2 : bs.length ≤ N - (p - s.base)
      · rw [List.take_of_length_le h2]; exact .inl rfl
      · exfalso
        apply h
        rw [List.length_take]
        omega
  refine ⟨?_, ?_, ?_⟩
  · intro s p a q hb h
    rw [hm] at h
    split at h
    · cases h
    · have := hbody _ _ _ _ h; omega
  · intro s p a q n _ h
    rw [← h]; exact key s p n
  · intro s p e n _ h
    rw [← h]; exact key s p n

theorem readRaw_mono (n : Nat) : Mono (readRawA true n) := by
  refine strict_mono (fun _ => n) (fun bs p => .ok (bs, p + bs.length)) (fun s p => ?_) (fun bs p a q h => ?_)
  · simp only [readRawA, Bool.true_and, decide_eq_true_eq]
  · simp only [Except.ok.injEq, Prod.mk.injEq] at h; omega

theorem inRemaining_mono (b : Block) (m : Rd α) : Mono (b.inRemainingA true m) := by
  refine strict_mono (fun p => ((b.start : Int) + b.size - p).toNat)
    (fun bs p => match m ⟨p, bs⟩ p with
      | .ok (a, _) => .ok (a, p + bs.length)
      | .error e => .error e) (fun s p => ?_) (fun bs p a q h => ?_)
  · simp only [Block.inRemainingA, Bool.true_and, decide_eq_true_eq]
    rfl
  · cases hm : m ⟨p, bs⟩ p with
    | error e => simp [hm] at h
    | ok v => simp only [hm, Except.ok.injEq, Prod.mk.injEq] at h; omega

theorem gbhd_mono (major : Nat) : Mono (readGbhdBlockD .pipe major) :=
  (enter_mono _ _).bind fun b => (inRemaining_mono b _).bind fun _ => (exitD_mono b).bind fun _ => .pure _

theorem grdt_mono (o : Opts) (b : Block) : Mono (readGrdtD .pipe o b) := by
  unfold readGrdtD skipD
  simp only [Dev.pipe, if_true]
  exact (hasChild_mono b).bind fun c => .ite
    ((enter_mono _ _).bind fun g => (remaining_mono g).bind fun r => .ite
      (.ite (tell_mono.bind fun _ => (exitD_mono g).bind fun _ => .pure _)
        (.ite (((readRaw_mono _).bind fun _ => .pure _).bind fun _ => (exitD_mono g).bind fun _ => .pure _)
          ((readRaw_mono _).bind fun _ => (exitD_mono g).bind fun _ => .pure _)))
      ((exitD_mono g).bind fun _ => .pure _))
    (.pure _)

/-- A turn over what has arrived does what it would do if all had arrived, or reads past the end. -/
theorem step_mono (o : Opts) (h : Hdr) : Mono (grainsStepD .pipe o h false) := by
  unfold grainsStepD
  simp only [Bool.false_eq_true, if_false]
  exact (enter_mono _ _).bind fun b => .ite
    ((exitD_mono b).bind fun _ => .ite (.ite (.pure _) (.pure _)) (.pure _))
    (.ite ((exitD_mono b).bind fun _ => .ite (.pure _) (.pure _))
      ((readUint_mono 2).bind fun l => .ite ((exitD_mono b).bind fun _ => .pure _)
        ((gbhd_mono _).bind fun _ => (grdt_mono o b).bind fun _ => (exitD_mono b).bind fun _ => .pure _)))

/-- The grain blocks of `gs`. -/
def body (major : Nat) (gs : List (Nat × Grain)) : Bytes := gs.flatMap (fun x => encodeGrain major x.1 x.2)

theorem body_cons (major : Nat) (x : Nat × Grain) (gs : List (Nat × Grain)) :
    body major (x :: gs) = encodeGrain major x.1 x.2 ++ body major gs := List.flatMap_cons

/-- A turn that would go to `q` if all had arrived does so if that much has arrived, and waits otherwise. -/
theorem next_of_step {o : Opts} {h : Hdr} {file : Bytes} {p q m : Nat} {st : Step} (k : Nat)
    (hs : grainsStepD .pipe o h false ⟨0, file⟩ p = .ok (st, q)) (hm : m ≤ file.length) (hq : m < q) :
    nextNow o (file.take m) (k + 1) h false p = .waits := by
  have hlen : (file.take m).length = m := by simp; omega
  simp only [nextNow]
  rw [take_stream]
  rcases (step_mono o h).cut m (Nat.zero_le p) hs with e | e
  · rw [e]
    cases st <;> simp only [hlen] <;> rw [if_neg (by omega)]
  · rw [e]

theorem grain_step (o : Opts) (h : Hdr) {x : Nat × Grain} (hx : x.1 < 2 ^ 16 ∧ x.2.Ok h.major) (s : Stream) (p : Nat)
    (hat : At s p (encodeGrain h.major x.1 x.2)) :
    ∃ off, grainsStepD .pipe o h false s p = .ok (o.grainOut h p x.1 x.2 off, p + (encodeGrain h.major x.1 x.2).length) ∧
      At s (p + off) (x.2.data.getD []) := by
  have hd := decoGrai_self (lid := x.1) hx.2
  rw [encodeGrain_eq _ _ _ hx.2.wf] at hat ⊢
  exact ⟨_, turnD_grain .pipe o h p hx.1 hx.2 hd s hat, hd.data_at hat⟩

theorem grain_pos {h : Hdr} {x : Nat × Grain} (hx : x.2.Ok h.major) : 0 < (encodeGrain h.major x.1 x.2).length := by
  have hd := decoGrai_self (lid := x.1) hx
  rw [encodeGrain_eq _ _ _ hx.wf]
  exact hd.ok.pos

/-- What the call after the last grain comes to. -/
def atEnd (o : Opts) (whole : Bool) : Now := if o.concat = false ∧ whole = true then .ends else .waits

theorem next_end (o : Opts) (h : Hdr) {file : Bytes} {m : Nat} (hm : m ≤ file.length) (p k : Nat) (hp : p ≤ m) (hk : m < k + p)
    (hat : At ⟨0, file⟩ p terminator) (hl : file.length = p + 8) :
    nextNow o (file.take m) k h false p = atEnd o (decide (file.length ≤ m)) := by
  have hs := terminatorD_step .pipe o h p ⟨0, file⟩ hat
  obtain ⟨k, rfl⟩ : ∃ j, k = j + 1 := ⟨k - 1, by omega⟩
  by_cases hw : file.length ≤ m
  · have hfull : file.take m = file := List.take_of_length_le hw
    rw [hfull]
    simp only [nextNow, atEnd]
    rw [hs]
    cases hc : o.concat with
    | false => simp only [Bool.false_eq_true, if_false]; rw [if_pos (by omega), if_pos ⟨trivial, by simpa using hw⟩]
    | true =>
      simp only [if_true]
      rw [if_pos (by omega), if_neg (by simp)]
      obtain ⟨k, rfl⟩ : ∃ j, k = j + 1 := ⟨k - 1, by omega⟩
      have he : grainsStepD .pipe o h false ⟨0, file⟩ (p + 8) = .error .eof := by
        unfold grainsStepD
        rw [if_neg (by simp), Rd.bind_of_error (enter_eof (Nat.zero_le _) (by simp [Stream.fin]; omega))]
      simp only [nextNow]
      rw [he]
  · rw [next_of_step k hs hm (by omega)]
    unfold atEnd
    rw [if_neg (by simp [hw])]

theorem next_fuel (o : Opts) (h : Hdr) {file : Bytes} {m : Nat} (hm : m ≤ file.length) :
    ∀ (gs : List (Nat × Grain)) (_ : ∀ x ∈ gs, x.1 < 2 ^ 16 ∧ x.2.Ok h.major) (p k k' : Nat), p ≤ m → m < k + p → m < k' + p →
      At ⟨0, file⟩ p (body h.major gs ++ terminator) → file.length = p + (body h.major gs).length + 8 →
      nextNow o (file.take m) k h false p = nextNow o (file.take m) k' h false p := by
  intro gs
  induction gs with
  | nil =>
    intro _ p k k' hp hk hk' hat hl
    rw [next_end o h hm p k hp hk hat (by simpa [body] using hl), next_end o h hm p k' hp hk' hat (by simpa [body] using hl)]
  | cons x gs ih =>
    intro hgs p k k' hp hk hk' hat hl
    have hx := hgs x (by simp)
    obtain ⟨k, rfl⟩ : ∃ j, k = j + 1 := ⟨k - 1, by omega⟩
    obtain ⟨k', rfl⟩ : ∃ j, k' = j + 1 := ⟨k' - 1, by omega⟩
    rw [body_cons, List.append_assoc] at hat
    rw [body_cons, List.length_append] at hl
    obtain ⟨off, hs, -⟩ := grain_step o h hx _ p hat.left
    by_cases hq : p + (encodeGrain h.major x.1 x.2).length ≤ m
    · have hpos := grain_pos (x := x) hx.2
      obtain ⟨off', hs', -⟩ := grain_step o h hx _ p (at_cut hat.left hq)
      have hlen : (file.take m).length = m := by simp; omega
      simp only [nextNow]
      rw [hs']
      unfold Opts.grainOut
      by_cases hd : o.drops x.1 = true
      · rw [if_pos hd]
        simp only
        rw [if_pos (by omega), if_pos (by omega)]
        exact ih (fun y hy => hgs y (by simp [hy])) _ k k' hq (by omega) (by omega) hat.right (by omega)
      · rw [if_neg hd]
    · rw [next_of_step k hs hm (by omega), next_of_step k' hs hm (by omega)]

theorem load_any {o : Opts} (ho : o.seekable = false) (q : Nat) (d a b : Bytes) : (o.dataOf q d).load a = (o.dataOf q d).load b := by
  have : o.defers = false := by unfold Opts.defers; rw [ho]; rfl
  unfold Opts.dataOf
  rw [this]
  simp only [Bool.false_eq_true, if_false]
  split
  · rfl
  · split <;> rfl

theorem all (o : Opts) (ho : o.seekable = false) (h : Hdr) {file : Bytes} {m : Nat} (hm : m ≤ file.length) :
    ∀ (gs : List (Nat × Grain)) (_ : ∀ x ∈ gs, x.1 < 2 ^ 16 ∧ x.2.Ok h.major) (p j k : Nat), p ≤ m → m < k + p →
      At ⟨0, file⟩ p (body h.major gs ++ terminator) → file.length = p + (body h.major gs).length + 8 →
      p + (body h.major (gs.take j)).length ≤ m → (j < gs.length → m < p + (body h.major (gs.take (j + 1))).length) →
      ∃ items, allNow o (file.take m) k h p = (items, atEnd o (decide (file.length ≤ m))) ∧
        ∀ later, items.map (Item.view later) = ((gs.take j).filter (fun x => !o.drops x.1)).map (o.viewOf h.major) := by
  intro gs
  induction gs with
  | nil =>
    intro _ p j k hp hk hat hl _ _
    obtain ⟨k, rfl⟩ : ∃ j, k = j + 1 := ⟨k - 1, by omega⟩
    refine ⟨[], ?_, by simp⟩
    have hlen : (file.take m).length = m := by simp; omega
    simp only [allNow]
    rw [next_end o h hm p _ hp (by omega) hat (by simpa [body] using hl)]
    unfold atEnd
    by_cases hc : o.concat = false ∧ decide (file.length ≤ m) = true
    · rw [if_pos hc]
    · rw [if_neg hc]
  | cons x gs ih =>
    intro hgs p j k hp hk hat hl hj hj'
    have hx := hgs x (by simp)
    have hlen : (file.take m).length = m := by simp; omega
    obtain ⟨k, rfl⟩ : ∃ j, k = j + 1 := ⟨k - 1, by omega⟩
    rw [body_cons, List.append_assoc] at hat
    rw [body_cons, List.length_append] at hl
    have hpos := grain_pos (x := x) hx.2
    cases j with
    | zero =>
      have hlt := hj' (by simp)
      simp only [Nat.zero_add, List.take_succ_cons, List.take_zero, body_cons, show body h.major [] = [] from rfl, List.append_nil] at hlt
      obtain ⟨off, hs, -⟩ := grain_step o h hx _ p hat.left
      refine ⟨[], ?_, by simp⟩
      simp only [allNow]
      rw [next_of_step _ hs hm hlt]
      unfold atEnd
      rw [if_neg (by simp; intro _; omega)]
    | succ j =>
      rw [List.take_succ_cons, body_cons, List.length_append] at hj
      have hq : p + (encodeGrain h.major x.1 x.2).length ≤ m := by omega
      obtain ⟨off, hs, hdat⟩ := grain_step o h hx _ p (at_cut hat.left hq)
      have hj2 : j < gs.length → m < p + (encodeGrain h.major x.1 x.2).length + (body h.major (gs.take (j + 1))).length := by
        intro hlt
        have := hj' (by simpa using hlt)
        rw [List.take_succ_cons, body_cons, List.length_append] at this
        omega
      rw [List.take_succ_cons]
      by_cases hd : o.drops x.1 = true
      · obtain ⟨items, h1, h2⟩ := ih (fun y hy => hgs y (by simp [hy])) (p + (encodeGrain h.major x.1 x.2).length) j (k + 1) hq (by omega)
          hat.right (by omega) (by omega) hj2
        refine ⟨items, ?_, fun later => by rw [List.filter_cons_of_neg (by simp [hd])]; exact h2 later⟩
        rw [← h1]
        have hn : nextNow o (file.take m) ((file.take m).length + 1) h false p =
            nextNow o (file.take m) ((file.take m).length + 1) h false (p + (encodeGrain h.major x.1 x.2).length) := by
          conv => lhs; simp only [nextNow]
          rw [hs]
          unfold Opts.grainOut
          rw [if_pos hd]
          simp only
          rw [if_pos (by omega)]
          exact next_fuel o h hm gs (fun y hy => hgs y (by simp [hy])) _ _ _ hq (by omega) (by omega) hat.right (by omega)
        simp only [allNow]
        rw [hn]
      · obtain ⟨items, h1, h2⟩ := ih (fun y hy => hgs y (by simp [hy])) (p + (encodeGrain h.major x.1 x.2).length) j k hq (by omega)
          hat.right (by omega) (by omega) hj2
        have hn : nextNow o (file.take m) ((file.take m).length + 1) h false p =
            .grain ⟨x.2.toMeta h.major, o.dataOf (p + off) (x.2.data.getD []), x.1⟩ h (p + (encodeGrain h.major x.1 x.2).length) := by
          simp only [nextNow]
          rw [hs]
          unfold Opts.grainOut
          rw [if_neg hd]
          simp only
          rw [if_pos (by omega)]
        refine ⟨_ :: items, by simp only [allNow]; rw [hn]; simp only; rw [h1], fun later => ?_⟩
        rw [List.map_cons, h2 later, List.filter_cons_of_pos (by simpa using hd), List.map_cons]
        congr 1
        unfold Item.view Opts.viewOf Grain.payload
        simp only
        rw [load_any ho _ _ later (file.take m), o.dataOf_load hdat]

theorem opens {f : FileSpec} (hf : f.Ok) {m : Nat} (hm : grainsEnd f 0 ≤ m) :
    decodeFileHeadersD .pipe false ⟨0, f.bytes.take m⟩ 0 = .ok (f.hdr, grainsEnd f 0) := by
  have hat : At ⟨0, f.bytes⟩ 0 ((encodeFileHeader f.major f.minor ++ (blksBytes [] ++ (headBlk f.head).bytes)) ++
      (body f.major f.grains ++ terminator)) := by
    have e : f.bytes = (encodeFileHeader f.major f.minor ++ (blksBytes [] ++ (headBlk f.head).bytes)) ++
        (body f.major f.grains ++ terminator) := by
      unfold FileSpec.bytes body
      rw [encodeHead_eq _ hf.head.wf]
      simp [blksBytes]
    rw [← e]
    exact at_self _ _
  have hl : (encodeFileHeader f.major f.minor ++ (blksBytes [] ++ (headBlk f.head).bytes)).length = grainsEnd f 0 := by
    unfold grainsEnd
    rw [encodeHead_eq _ hf.head.wf]
    simp [blksBytes]
  have h := fileHeadersD_read .pipe hf.major hf.minor hf.head (decoHead_self hf.head) (pre := []) (fun _ h => by simp at h)
    ⟨0, f.bytes.take m⟩ 0 (at_cut hat.left (by omega))
  rw [h, hl, Nat.zero_add]
  rfl

end C84

/-! ## Theorems -/

/-- **C84.** The first `m` bytes of a file have arrived at standard input, with the first `j` grains and less than one more.  Opening does
not wait, and going through the grains gives those of the first `j` that were asked for, with their data, before it waits.  It waits also
behind the last grain, unless one file was asked for and all of it has arrived. -/
theorem C84_prompt (f : FileSpec) (hf : f.Ok) (o : Opts) (m j : Nat) (hm : m ≤ f.bytes.length) (hj : grainsEnd f j ≤ m)
    (hnext : j < f.grains.length → m < grainsEnd f (j + 1)) :
    ∃ items, readNow o (f.bytes.take m) =
        some (f.hdr, items, if o.concat = false ∧ m = f.bytes.length then .ends else .waits) ∧
      ∀ later, items.map (Item.view later) = ((f.grains.take j).filter (fun x => !o.drops x.1)).map (o.viewOf f.major) := by
  have h0 : grainsEnd f 0 ≤ m := Nat.le_trans (grainsEnd_mono f (Nat.zero_le j)) hj
  have hlen : (f.bytes.take m).length = m := by simp; omega
  have hend : ∀ k, grainsEnd f k = grainsEnd f 0 + (C84.body f.major (f.grains.take k)).length := by
    intro k; unfold grainsEnd C84.body; simp
  have hat : At ⟨0, f.bytes⟩ (grainsEnd f 0) (C84.body f.major f.grains ++ terminator) := by
    have e : f.bytes = (encodeFileHeader f.major f.minor ++ encodeHead f.head) ++ (C84.body f.major f.grains ++ terminator) := by
      unfold FileSpec.bytes C84.body; simp
    have := at_self 0 f.bytes
    rw [e] at this
    have h2 := this.right
    rw [← e] at h2
    have e2 : 0 + (encodeFileHeader f.major f.minor ++ encodeHead f.head).length = grainsEnd f 0 := by unfold grainsEnd; simp
    rwa [e2] at h2
  have hbl : f.bytes.length = grainsEnd f 0 + (C84.body f.major f.grains).length + 8 := by
    have := hend f.grains.length
    rw [List.take_length] at this
    rw [← this]
    exact Follow80.bytes_len f
  obtain ⟨items, h1, h2⟩ := C84.all { o with seekable := false } rfl f.hdr hm f.grains hf.grains (grainsEnd f 0) j (m + 1) h0 (by omega) hat hbl
    (by rw [hend] at hj; exact hj) (fun h => by have := hnext h; rw [hend] at this; exact this)
  refine ⟨items, ?_, fun later => ?_⟩
  · unfold readNow
    rw [C84.opens hf h0]
    simp only
    rw [if_pos (by omega), hlen, h1]
    unfold C84.atEnd
    have hi : (o.concat = false ∧ decide (f.bytes.length ≤ m) = true) ↔ (o.concat = false ∧ m = f.bytes.length) := by
      rw [decide_eq_true_eq]
      constructor <;> (rintro ⟨a, b⟩; exact ⟨a, by omega⟩)
    by_cases hw : o.concat = false ∧ m = f.bytes.length
    · rw [if_pos hw, if_pos (hi.2 hw)]
    · rw [if_neg hw, if_neg (fun h => hw (hi.1 h))]
  · rw [h2 later, PipeLemmas.viewOf_pipe]
    rfl

/-- **C84**, both ends.  An encoder writes a streaming dump into a pipe, from which nothing was taken yet.  Once the dump was started, and
after any of the calls during it, a reader at the other end that got all that was written so far can give all the grains that were handed
over so far, and only then waits for more. -/
theorem C84_pipeline {e : Enc} (hb : Born e) (hsk : e.file.seekable = false) {start stop : Gsf.Op} (hp : StreamPair e.streaming start stop)
    {during : List Gsf.Op} (hd : Edits during) (hf : Fits e (handed e (start :: during))) (o : Opts) :
    let sent := ((e.runs (start :: during)).file.bytes).drop e.file.bytes.length
    ∃ hdr items, readNow o sent = some (hdr, items, .waits) ∧
      ∀ later, items.map (Item.view later) =
        ((handed e (start :: during)).filter (fun x => !o.drops x.1)).map (o.viewOf e.major) := by
  intro sent
  obtain ⟨hrun, -⟩ := stream_starts hb hp
  have hlen : e.handles.length = 0 := by rw [hb.handles]; rfl
  have hl := opened_live e false
  rw [hlen] at hl
  have h2 := hl.steps start_dumped (start_parents hb.parents) during hd
  rw [List.nil_append, ← hrun] at h2
  have hhand : handed e (start :: during) = e.pending ++ (start.run e).1.taken during := rfl
  have hdec : ∀ x ∈ (start.run e).1.taken during, x.1 ∈ e.lids := by
    intro x hx
    have := h2.declared x hx
    rw [hrun, start_eq] at this
    show x.1 ∈ (opened e).lids
    rw [← startSegs_lids _ false]; exact this
  have h1 := holds_plain e ((start.run e).1.taken during)
  rw [← hhand] at h1
  have hok := h1.ok hf
  have hgr := h1.grains
  have hmaj := h1.version.1
  rw [hrun] at h2
  have hbytes := Crash.live_bytes h2
  rw [← hrun] at hbytes
  have hfull : (plainSpec e false ((start.run e).1.taken during)).bytes = sent ++ terminator := by
    show _ = List.drop e.file.bytes.length (((start.run e).1.runs during).file.bytes) ++ terminator
    rw [hbytes]
    have hbase : Crash.base (opened e) = e.file.bytes := by
      unfold Crash.base
      show (if e.file.seekable = true then _ else _) = _
      rw [hsk]; rfl
    rw [hbase, List.drop_left]
    unfold FileSpec.bytes plainSpec
    simp only [List.append_assoc]
    rfl
  generalize plainSpec e false ((start.run e).1.taken during) = f at *
  have hlen2 := Follow80.bytes_len f
  have hsl : sent.length = grainsEnd f f.grains.length := by
    rw [hfull, List.length_append, show terminator.length = 8 from rfl] at hlen2
    omega
  have hsent : sent = f.bytes.take (grainsEnd f f.grains.length) := by
    rw [hfull, ← hsl, List.take_left]
  obtain ⟨items, g1, g2⟩ := C84_prompt f hok o (grainsEnd f f.grains.length) f.grains.length (by omega) (Nat.le_refl _) (fun h => absurd h (by omega))
  rw [← hsent, if_neg (by omega)] at g1
  refine ⟨_, items, g1, fun later => ?_⟩
  rw [g2 later, List.take_length, hgr, hmaj]

/-! ## Examples -/

/-- The hypotheses of `C84_prompt` in the middle of the third grain of `sample`. -/
example : sample.Ok ∧ grainsEnd sample 2 + 5 ≤ sample.bytes.length ∧ grainsEnd sample 2 ≤ grainsEnd sample 2 + 5 ∧
    grainsEnd sample 2 + 5 < grainsEnd sample 3 := by decide +kernel

/-- What can be given with any number of bytes of the last grain missing. -/
example : ((readNow {} (sample.bytes.take (grainsEnd sample 7 - 1))).map (fun r => (r.2.1.length, r.2.2))) = some (6, .waits) ∧
    ((readNow {} (sample.bytes.take (grainsEnd sample 7))).map (fun r => (r.2.1.length, r.2.2))) = some (7, .waits) ∧
    ((readNow { concat := false } sample.bytes).map (fun r => (r.2.1.length, r.2.2))) = some (7, .ends) ∧
    ((readNow {} sample.bytes).map (fun r => (r.2.1.length, r.2.2))) = some (7, .waits) ∧
    (readNow {} (sample.bytes.take (grainsEnd sample 0 - 1))) = none := by
  decide +kernel

/-- The encoder of `demoSetup`, on a pipe that has been written to before. -/
def pipeEnc : Enc := (Enc.new ⟨false, [1, 2, 3], 0⟩ 9 0 (u 9) ⟨2024, 2, 29, 23, 59, 59⟩ true).runs demoSetup

/-- The hypotheses of `C84_pipeline`. -/
example : Born pipeEnc ∧ pipeEnc.file.seekable = false ∧ StreamPair pipeEnc.streaming .enter .exit ∧ Edits (demoDuring.take 1) ∧
    Fits pipeEnc (handed pipeEnc (.enter :: demoDuring.take 1)) ∧
    handed pipeEnc (.enter :: demoDuring.take 1) = [(3, gVideo), (4, gAudio), (4, gEmpty)] := by
  refine ⟨(born_new ..).edits (fun o ho => (edits_of (ops := demoSetup) (by decide) o ho).1), by decide +kernel, .inr ⟨by decide +kernel, rfl, rfl⟩,
    edits_of (by decide), ⟨by decide +kernel, by decide +kernel⟩, by decide +kernel⟩

end Verif.Props

import Verif.Props.C09
import Verif.Gsf.Trunc
import Verif.Gsf.Total
import Mathlib.Data.List.Forall2

/-!
# C05: truncated files
-/

namespace Verif.Props

open Verif Verif.Gsf

/-- Where the first `k` grains of a file end. -/
def grainsEnd (f : FileSpec) (k : Nat) : Nat :=
  (encodeFileHeader f.major f.minor ++ encodeHead f.head).length +
    ((f.grains.take k).flatMap (fun x => encodeGrain f.major x.1 x.2)).length

/-- The data seen for a grain whose data was cut short: a first part of it. -/
def PartOf (full part : Option Bytes) : Prop :=
  match full with
  | none => part = none
  | some d => ∃ k, part = some (d.take k)

/-- What the decoder makes of the grain the cut falls into: nothing, or that grain with the first part of
its data; the latter only if its header is complete. -/
def CutGrain (o : Opts) (f : FileSpec) (n k : Nat) (tail : List (Meta × Option Bytes × Nat)) : Prop :=
  tail = [] ∨ ∃ x d, f.grains[k]? = some x ∧ o.drops x.1 = false ∧ tail = [(x.2.toMeta f.major, d, x.1)] ∧
    PartOf (o.viewOf f.major x).2.1 d ∧ grainsEnd f (k + 1) ≤ n + (x.2.data.getD []).length

theorem take_stream (file : Bytes) (n : Nat) : (⟨0, file.take n⟩ : Stream) = (⟨0, file⟩ : Stream).cut n := rfl

theorem at_cut {file bs : Bytes} {p n : Nat} (h : At ⟨0, file⟩ p bs) (hn : p + bs.length ≤ n) :
    At ⟨0, file.take n⟩ p bs := by
  obtain ⟨hb, hp⟩ := h
  refine ⟨hb, ?_⟩
  simp only [Nat.sub_zero] at hp ⊢
  rw [List.drop_take, List.prefix_take_iff]
  exact ⟨hp, by omega⟩

theorem cut_fin {file : Bytes} {n p : Nat} (h : n < p) : (⟨0, file.take n⟩ : Stream).fin < p + 4 := by
  simp only [Stream.fin, List.length_take]; omega

/-- Data read from a cut file is a first part of the data. -/
theorem dataCut_part {o : Opts} {file : Bytes} {n q : Nat} {d : Bytes} {d' : Data} (h : At ⟨0, file⟩ q d)
    (hc : DataCut (o.dataOf q d) d') :
    PartOf (if o.defers = false ∧ o.mode = .loadNever then none else if d = [] then none else some d)
      (d'.load (file.take n)) := by
  have ht := h.take
  simp only [Nat.sub_zero] at ht
  rcases hc with rfl | ⟨bs, k, h1, rfl⟩
  · unfold Opts.dataOf
    by_cases h0 : d = []
    · rw [if_pos h0, if_pos h0]
      split <;> rfl
    · rw [if_neg h0, if_neg h0]
      cases h2 : o.defers with
      | true =>
        simp only [if_true, Data.load]
        refine ⟨n - q, ?_⟩
        conv => rhs; rw [← ht]
        rw [List.drop_take, List.take_take, List.take_take, Nat.min_comm]
      | false =>
        by_cases h3 : o.mode = .loadNever
        · simp [h3, Data.load, PartOf]
        · simp only [h3, and_false, if_false, Data.load, beq_iff_eq]
          exact ⟨d.length, by simp⟩
  · unfold Opts.dataOf at h1
    split at h1
    · simp at h1
    · rename_i h0
      split at h1
      · simp at h1
      · rename_i h2
        split at h1
        · simp at h1
        · rename_i h3
          rw [if_neg (by simpa using fun _ => h3), if_neg h0]
          simp only [Data.bytes.injEq] at h1
          subst h1
          exact ⟨k, rfl⟩

/-- A grain comes out of a cut grain block only if the cut is inside the data. -/
theorem cut_yield {o : Opts} {h : Hdr} {lid : Nat} {g : Grain} (hg : g.Ok h.major)
    {file : Bytes} {p n : Nat} (hat : At ⟨0, file⟩ p (graiBlk h.major lid g).bytes) {it q}
    (hs : grainsStep o h false ⟨0, file.take n⟩ p = .ok (.yield it, q)) :
    p + (graiBlk h.major lid g).bytes.length ≤ n + (g.data.getD []).length := by
  have hd := decoGrai_self (lid := lid) hg
  have hok := hd.ok
  have hlen := hok.length
  have hgb := decoGbhd_self hg
  have hg0 : (graiBlk h.major lid g).bytes.length = 10 + (gbhdBlk h.major g).bytes.length + 8 + (g.data.getD []).length := by
    simp only [graiBlk, mkBlk_bytes, blksBytes_cons, blksBytes_nil, List.length_append, encodeUint_length,
      tl4 (t := tGrai), List.append_nil, grdtBlk, tl4 (t := tGrdt)]
    omega
  have hin : At ⟨0, file⟩ (p + 8) (encodeUint lid 2 ++ ((gbhdBlk h.major g).bytes ++ (grdtBlk g).bytes)) := by
    have h2 := hat
    rw [graiBlk, mkBlk_bytes, ← List.append_assoc] at h2
    have h3 := h2.right
    rw [List.length_append, encodeUint_length, tl4 (t := tGrai)] at h3
    simpa using h3
  unfold grainsStep at hs
  rw [if_neg (by simp)] at hs
  obtain ⟨b, q1, h1, hs⟩ := Rd.bind_ok hs
  have e1 := enter_blk hat hok (r := false) (want := none) (.inl rfl)
  rcases (enter_mono none false).cut n (Nat.zero_le _) e1 with e | e
  · rw [← take_stream, h1] at e
    simp only [Except.ok.injEq, Prod.mk.injEq] at e
    obtain ⟨rfl, rfl⟩ := e
    rw [if_neg (by simp)] at hs
    have hsz : (graiBlk h.major lid g).size ≠ 0 := by omega
    rw [if_neg hsz] at hs
    obtain ⟨l, q2, h2, hs⟩ := Rd.bind_ok hs
    have hq2 : q2 = p + 10 := by
      unfold readUint at h2
      obtain ⟨x, y, h3, h2⟩ := Rd.bind_ok h2
      obtain ⟨-, -, rfl⟩ := readExact_ok h3
      simp only [Rd.pure_apply, Except.ok.injEq, Prod.mk.injEq] at h2
      omega
    subst hq2
    rw [Rd.ite_apply] at hs
    split at hs
    · simp [Block.exit] at hs
    · obtain ⟨info, q3, h3, hs⟩ := Rd.bind_ok hs
      obtain ⟨d, q4, h4, hs⟩ := Rd.bind_ok hs
      have hr := hin.right
      rw [encodeUint_length] at hr
      have e3 := gbhdBlock_read hg hgb _ _ hr.left
      rcases (readGbhdBlock_mono h.major).cut n (Nat.zero_le _) e3 with e | e
      · rw [← take_stream] at e
        rw [show p + 8 + 2 = p + 10 by omega] at e
        rw [h3] at e
        simp only [Except.ok.injEq, Prod.mk.injEq] at e
        obtain ⟨rfl, rfl⟩ := e
        unfold readGrdt at h4
        obtain ⟨c, q5, h5, h4⟩ := Rd.bind_ok h4
        rw [hasChild_eq, if_pos (by simp only; omega)] at h5
        simp only [Except.ok.injEq, Prod.mk.injEq] at h5
        obtain ⟨rfl, rfl⟩ := h5
        rw [if_pos rfl] at h4
        obtain ⟨b2, q6, h6, h4⟩ := Rd.bind_ok h4
        have := enter_ok (Nat.zero_le _) h6
        simp only [Stream.fin, List.length_take] at this
        omega
      · rw [← take_stream, show p + 8 + 2 = p + 10 by omega, h3] at e
        simp at e
  · rw [← take_stream, h1] at e
    simp at e

/-- The loop over the grain blocks of a file cut at `n`. -/
theorem cut_grains (o : Opts) (h : Hdr) (file : Bytes) (n : Nat) (gs : List (Nat × Grain))
    (hgs : ∀ x ∈ gs, x.1 < 2 ^ 16 ∧ x.2.Ok h.major) : ∀ p, p ≤ n →
    At ⟨0, file⟩ p (gs.flatMap (fun x => encodeGrain h.major x.1 x.2) ++ terminator) →
    file.length = p + (gs.flatMap (fun x => encodeGrain h.major x.1 x.2) ++ terminator).length →
    ∃ k tail, (run o ⟨0, file.take n⟩ h false p).hdr = h ∧
      ((run o ⟨0, file.take n⟩ h false p).ending = .eof ∨ (run o ⟨0, file.take n⟩ h false p).ending = .break_ ∧ o.concat = false) ∧
      k ≤ gs.length ∧ p + ((gs.take k).flatMap (fun x => encodeGrain h.major x.1 x.2)).length ≤ n ∧
      (k < gs.length → n < p + ((gs.take (k + 1)).flatMap (fun x => encodeGrain h.major x.1 x.2)).length) ∧
      (run o ⟨0, file.take n⟩ h false p).view (file.take n) =
        ((gs.take k).filter (fun x => !o.drops x.1)).map (o.viewOf h.major) ++ tail ∧
      (tail = [] ∨ ∃ x d, gs[k]? = some x ∧ o.drops x.1 = false ∧ tail = [(x.2.toMeta h.major, d, x.1)] ∧
        PartOf (o.viewOf h.major x).2.1 d ∧
        p + ((gs.take (k + 1)).flatMap (fun x => encodeGrain h.major x.1 x.2)).length ≤ n + (x.2.data.getD []).length) := by
  induction gs with
  | nil =>
    intro p hp hat hl
    simp only [List.flatMap_nil, List.nil_append] at hat hl
    refine ⟨0, [], ?_⟩
    have hs := terminator_step o h p _ hat
    have hrun : run o ⟨0, file.take n⟩ h false p = ⟨[], h, .eof⟩ ∨
        run o ⟨0, file.take n⟩ h false p = ⟨[], h, .break_⟩ ∧ o.concat = false := by
      rcases grainsStep_cut n (Nat.zero_le _) hs with ⟨st', hc, e⟩ | e
      · rw [← take_stream] at e
        rcases hc with rfl | ⟨it, d', h1, -, -⟩
        · rw [run_eq _ _ _ _ _ (Nat.zero_le _), e]
          cases hcc : o.concat with
          | true =>
            left
            simp only [if_true]
            apply run_end o h (Nat.zero_le _)
            have : terminator.length = 8 := by decide
            simp only [Stream.fin, List.length_take]; omega
          | false => right; exact ⟨rfl, rfl⟩
        · split at h1 <;> simp at h1
      · left
        rw [← take_stream] at e
        rw [run_eq _ _ _ _ _ (Nat.zero_le _), e]
    rcases hrun with e | ⟨e, hcc⟩
    · rw [e]; simp [Run.view, hp]
    · rw [e]; simp [Run.view, hp, hcc]
  | cons x gs ih =>
    intro p hp hat hl
    have hx := hgs x (by simp)
    rw [List.flatMap_cons, List.append_assoc] at hat hl
    rw [List.length_append] at hl
    have hat1 := hat.left
    have henc := encodeGrain_eq h.major x.1 x.2 hx.2.wf
    have hat1' := hat1
    rw [henc] at hat1'
    have hdg := decoGrai_self (lid := x.1) hx.2
    have hturn := turn_grain o h p hx.1 hx.2 hdg
    by_cases hin : p + (encodeGrain h.major x.1 x.2).length ≤ n
    · obtain ⟨k, tail, i1, i2, i3, i4, i5, i6, i7⟩ := ih (fun y hy => hgs y (by simp [hy])) _ hin hat.right (by omega)
      have hatc := at_cut hat1' (by rwa [henc] at hin)
      have hs := hturn _ hatc
      rw [← henc] at hs
      have hrun : run o ⟨0, file.take n⟩ h false p =
          (run o ⟨0, file.take n⟩ h false (p + (encodeGrain h.major x.1 x.2).length)).prepend
            (if o.drops x.1 then [] else [⟨x.2.toMeta h.major, o.dataOf (p + (10 + gbhdSize h.major x.2 + 8)) (x.2.data.getD []), x.1⟩]) := by
        rw [run_eq _ _ _ _ _ (Nat.zero_le _), hs]
        unfold Opts.grainOut
        cases hdr : o.drops x.1 <;> simp
      rw [hrun]
      refine ⟨k + 1, tail, i1, i2, by simp only [List.length_cons]; omega, ?_, ?_, ?_, ?_⟩
      · rw [List.take_succ_cons, List.flatMap_cons, List.length_append]; omega
      · intro hk
        have := i5 (by simpa using hk)
        rw [List.take_succ_cons, List.flatMap_cons, List.length_append]; omega
      · simp only [Run.view, Run.prepend, List.map_append] at i6 ⊢
        rw [i6, List.take_succ_cons, ← List.append_assoc]
        congr 1
        cases hdr : o.drops x.1 with
        | true => rw [List.filter_cons_of_neg (by simp [hdr])]; simp
        | false =>
          rw [List.filter_cons_of_pos (by simp [hdr])]
          simp only [Bool.false_eq_true, if_false, List.map_cons, List.map_nil, List.singleton_append]
          congr 1
          unfold Item.view Opts.viewOf Grain.payload
          simp only
          rw [o.dataOf_load (hdg.data_at hatc)]
      · rcases i7 with i7 | ⟨y, d, j1, j2, j3, j4, j5⟩
        · exact .inl i7
        · refine .inr ⟨y, d, by simpa using j1, j2, j3, j4, ?_⟩
          rw [List.take_succ_cons, List.flatMap_cons, List.length_append]; omega
    · have hs := hturn _ hat1'
      have hfin : (⟨0, file.take n⟩ : Stream).fin < p + (graiBlk h.major x.1 x.2).bytes.length + 4 := by
        rw [henc] at hin
        exact cut_fin (by omega)
      have hk : 0 < (x :: gs).length → n < p + (((x :: gs).take (0 + 1)).flatMap (fun x => encodeGrain h.major x.1 x.2)).length := by
        intro _
        simp only [Nat.zero_add, List.take_succ_cons, List.take_zero, List.flatMap_cons, List.flatMap_nil,
          List.append_nil]
        omega
      rcases grainsStep_cut n (Nat.zero_le _) hs with ⟨st', hc, e⟩ | e
      · rw [← take_stream] at e
        have hend := run_end o h (Nat.zero_le _) hfin
        cases hdr : o.drops x.1 with
        | true =>
          refine ⟨0, [], ?_⟩
          unfold Opts.grainOut at hc
          rw [hdr, if_pos rfl] at hc
          rcases hc with rfl | ⟨it, d', h1, -, -⟩
          · rw [run_eq _ _ _ _ _ (Nat.zero_le _), e]
            simp only
            rw [hend]
            refine ⟨rfl, .inl rfl, by omega, by simpa using hp, hk, rfl, .inl ?_⟩
            simp
          · simp at h1
        | false =>
          unfold Opts.grainOut at hc
          rw [hdr, if_neg (by simp)] at hc
          have hst : ∃ d', st' = .yield ⟨x.2.toMeta h.major, d', x.1⟩ ∧
              DataCut (o.dataOf (p + (10 + gbhdSize h.major x.2 + 8)) (x.2.data.getD [])) d' := by
            rcases hc with rfl | ⟨it, d', h1, h2, h3⟩
            · exact ⟨_, rfl, .inl rfl⟩
            · simp only [Step.yield.injEq] at h1
              subst h1
              exact ⟨d', h2, h3⟩
          obtain ⟨d', rfl, hdc⟩ := hst
          refine ⟨0, [(x.2.toMeta h.major, d'.load (file.take n), x.1)], ?_⟩
          have hy := cut_yield hx.2 hat1' e
          rw [run_eq _ _ _ _ _ (Nat.zero_le _), e]
          simp only
          rw [hend]
          refine ⟨rfl, .inl rfl, by omega, by simpa using hp, hk, rfl, .inr ⟨x, _, by simp, hdr, rfl, ?_, ?_⟩⟩
          · unfold Opts.viewOf Grain.payload
            exact dataCut_part (hdg.data_at hat1') hdc
          · simp only [Nat.zero_add, List.take_succ_cons, List.take_zero, List.flatMap_cons, List.flatMap_nil,
              List.append_nil, henc]
            exact hy
      · refine ⟨0, [], ?_⟩
        rw [← take_stream] at e
        rw [run_eq _ _ _ _ _ (Nat.zero_le _), e]
        exact ⟨rfl, .inl rfl, by omega, by simpa using hp, hk, rfl, .inl rfl⟩

/-- **C05.** Decoding a written file cut anywhere after its head raises no error. It gives all grains that
are completely inside the part that is left, and then at most one more: the grain the cut falls into, with
its own metadata and the first part of its data. -/
theorem C05_truncated (f : FileSpec) (hf : f.Ok) (o : Opts) (n : Nat) (hn : grainsEnd f 0 ≤ n) :
    ∃ r k tail, decodeFile o (f.bytes.take n) = .ok r ∧ r.hdr = f.hdr ∧ (r.ending = .eof ∨ r.ending = .break_ ∧ o.concat = false) ∧
      k ≤ f.grains.length ∧ grainsEnd f k ≤ n ∧ (k < f.grains.length → n < grainsEnd f (k + 1)) ∧
      r.view (f.bytes.take n) = ((f.grains.take k).filter (fun x => !o.drops x.1)).map (o.viewOf f.major) ++ tail ∧
      CutGrain o f n k tail := by
  have hat : At ⟨0, f.bytes⟩ 0 f.bytes := at_self _ _
  have hat2 := hat
  unfold FileSpec.bytes at hat2
  rw [← List.append_assoc] at hat2
  have hat3 := hat2.right
  have h0 : grainsEnd f 0 = (encodeFileHeader f.major f.minor ++ encodeHead f.head).length := by
    simp [grainsEnd]
  rw [← h0, Nat.zero_add] at hat3
  have hlen : f.bytes.length = grainsEnd f 0 +
      (f.grains.flatMap (fun x => encodeGrain f.major x.1 x.2) ++ terminator).length := by
    rw [h0]; unfold FileSpec.bytes; simp only [List.length_append]; omega
  have hh : decodeFileHeaders false ⟨0, f.bytes.take n⟩ 0 = .ok (f.hdr, grainsEnd f 0) := by
    have := fileHeaders_read (pre := []) hf.major hf.minor hf.head (decoHead_self hf.head)
      (fun _ h => by simp at h) ⟨0, f.bytes.take n⟩ 0 (by
        rw [blksBytes_nil, List.nil_append, ← encodeHead_eq _ hf.head.wf]
        exact at_cut hat2.left (by rw [← h0]; omega))
    rw [this]
    rw [blksBytes_nil, List.nil_append, ← encodeHead_eq _ hf.head.wf, h0, Nat.zero_add]
    rfl
  obtain ⟨k, tail, h1, h2, h3, h4, h5, h6, h7⟩ := cut_grains o f.hdr f.bytes n f.grains hf.grains _ hn hat3 hlen
  refine ⟨run o ⟨0, f.bytes.take n⟩ f.hdr false (grainsEnd f 0), k, tail, ?_, h1, h2, h3, ?_, ?_, h6, ?_⟩
  · unfold decodeFile
    rw [hh]
    simp only
    rw [grains_eq_run]
  · have : grainsEnd f k = grainsEnd f 0 + ((f.grains.take k).flatMap (fun x => encodeGrain f.major x.1 x.2)).length := by
      simp [grainsEnd]
    rw [this]; exact h4
  · have : grainsEnd f (k+1) = grainsEnd f 0 + ((f.grains.take (k+1)).flatMap (fun x => encodeGrain f.major x.1 x.2)).length := by
      simp [grainsEnd]
    rw [this]; exact h5
  · have : grainsEnd f (k+1) = grainsEnd f 0 + ((f.grains.take (k+1)).flatMap (fun x => encodeGrain f.major x.1 x.2)).length := by
      simp [grainsEnd]
    unfold CutGrain
    rw [this]
    exact h7

/-- **C05** for files whose grains have a representation of their own, with the default options: the
decoded grains are a first part of the original ones, the last one possibly with a first part of its data. -/
theorem C05_truncated_plain (f : FileSpec) (hf : f.Ok) (hp : PlainFile f) (n : Nat) (hn : grainsEnd f 0 ≤ n) :
    ∃ r k tail, decodeFile {} (f.bytes.take n) = .ok r ∧ r.hdr = hdrOf f ∧ r.ending = .eof ∧
      grainsEnd f k ≤ n ∧ (k < f.grains.length → n < grainsEnd f (k + 1)) ∧
      r.view (f.bytes.take n) = (contents f).take k ++ tail ∧
      (tail = [] ∨ ∃ m d d' l, (contents f)[k]? = some (m, d, l) ∧ tail = [(m, d', l)] ∧ PartOf d d') := by
  obtain ⟨r, k, tail, h1, h2, h3, h4, h5, h6, h7, h8⟩ := C05_truncated f hf {} n hn
  have hv : ∀ x ∈ f.grains, Opts.viewOf {} f.major x = (metaOf x.2, x.2.data, x.1) := by
    intro x hx
    have hpx := hp x hx
    unfold Opts.viewOf Grain.payload
    simp only [toMeta_plain hf.major hpx]
    rw [if_neg (by simp)]
    congr 2
    cases hd : x.2.data with
    | none => rfl
    | some d =>
      cases d with
      | nil => exact absurd hd hpx.2.2.2
      | cons a l => rfl
  refine ⟨r, k, tail, h1, h2, ?_, h5, h6, ?_, ?_⟩
  · rcases h3 with h3 | ⟨-, h3⟩
    · exact h3
    · simp at h3
  · rw [h7, List.filter_eq_self.2 (show ∀ a ∈ f.grains.take k, (!Opts.drops {} a.1) = true from fun _ _ => rfl)]
    unfold contents
    rw [← List.map_take]
    congr 1
    exact List.map_congr_left fun x hx => hv x (List.mem_of_mem_take hx)
  · rcases h8 with h8 | ⟨x, d, j1, -, j3, j4, -⟩
    · exact .inl h8
    · have hx := List.mem_of_getElem? j1
      rw [hv x hx] at j4
      refine .inr ⟨metaOf x.2, x.2.data, d, x.1, ?_, ?_, j4⟩
      · unfold contents; rw [List.getElem?_map, j1]; rfl
      · rw [j3, toMeta_plain hf.major (hp x hx)]

/-- The sample file cut 20 bytes before its end. -/
example : sample.Ok ∧ PlainFile sample ∧ grainsEnd sample 0 ≤ sample.bytes.length - 20 := by decide +kernel

/-- Items of a decode of a cut file against those of the whole file: a first part of them, with the same
metadata and ids and with first parts of their data. -/
def CutItems (full cut : List Item) : Prop :=
  ∃ k, List.Forall₂ (fun a b => b.info = a.info ∧ b.localId = a.localId ∧ DataCut a.data b.data) (full.take k) cut

theorem CutItems.nil (full : List Item) : CutItems full [] := ⟨0, by simp⟩

theorem CutItems.cons {a b : Item} {l l' : List Item} (h : b.info = a.info ∧ b.localId = a.localId ∧ DataCut a.data b.data)
    (hl : CutItems l l') : CutItems (a :: l) (b :: l') := by
  obtain ⟨k, hk⟩ := hl
  exact ⟨k + 1, by rw [List.take_succ_cons]; exact .cons h hk⟩

theorem grainsStep_single {o : Opts} (hc : o.concat = false) {h s p h' hc' q}
    (hs : grainsStep o h false s p = .ok (.next h' hc', q)) : h' = h ∧ hc' = false := by
  unfold grainsStep at hs
  rw [if_neg (by simp)] at hs
  obtain ⟨b, q1, h1, hs⟩ := Rd.bind_ok hs
  rw [Rd.ite_apply] at hs
  split at hs
  · simp only [Block.exit, Rd.bind_apply, Rd.seek_apply, Rd.ite_apply, Rd.pure_apply, hc, Bool.not_false,
      if_true] at hs
    split at hs
    · simp at hs
    · simp at hs; exact ⟨hs.1.1.symm, hs.1.2⟩
  · rw [Rd.ite_apply] at hs
    split at hs
    · simp [Block.exit, hc] at hs
    · obtain ⟨lid, q2, h2, hs⟩ := Rd.bind_ok hs
      rw [Rd.ite_apply] at hs
      split at hs
      · simp [Block.exit] at hs; exact ⟨hs.1.1.symm, hs.1.2⟩
      · obtain ⟨info, q3, h3, hs⟩ := Rd.bind_ok hs
        obtain ⟨data, q4, h4, hs⟩ := Rd.bind_ok hs
        simp [Block.exit] at hs

theorem cut_run (o : Opts) (hc : o.concat = false) (file : Bytes) (n : Nat) (k : Nat) (a b : LState) (items : List Item)
    (h : Steps o ⟨0, file⟩ k a items b) (e : End) (he : Ends o ⟨0, file⟩ b e) :
    a.hc = false →
    CutItems items (run o ⟨0, file.take n⟩ a.hdr a.hc a.pos).items ∧
      (run o ⟨0, file.take n⟩ a.hdr a.hc a.pos).hdr = a.hdr ∧
      ((run o ⟨0, file.take n⟩ a.hdr a.hc a.pos).ending = .eof ∨
        (run o ⟨0, file.take n⟩ a.hdr a.hc a.pos).ending = e) := by
  induction h with
  | refl a =>
    intro hcc
    rw [run_eq _ _ _ _ _ (Nat.zero_le _), hcc]
    cases he with
    | err h1 he =>
      rw [hcc] at h1
      rename_i e'
      rcases grainsStep_err n (Nat.zero_le _) h1 with e | e
      · rw [← take_stream] at e; rw [e]
        cases e' <;> first | exact absurd rfl he | exact ⟨.nil _, rfl, .inr rfl⟩
      · rw [← take_stream] at e; rw [e]; exact ⟨.nil _, rfl, .inl rfl⟩
    | stop h1 =>
      rw [hcc] at h1
      rcases grainsStep_cut n (Nat.zero_le _) h1 with ⟨st', hs, e⟩ | e
      · rcases hs with rfl | ⟨_, _, h2, _, _⟩
        · rw [← take_stream] at e; rw [e]; exact ⟨.nil _, rfl, .inr rfl⟩
        · simp at h2
      · rw [← take_stream] at e; rw [e]; exact ⟨.nil _, rfl, .inl rfl⟩
    | eof h1 =>
      rw [hcc] at h1
      rcases grainsStep_err n (Nat.zero_le _) h1 with e | e <;>
        · rw [← take_stream] at e; rw [e]; exact ⟨.nil _, rfl, .inl rfl⟩
  | next h1 _ ih =>
    intro hcc
    rename_i m a h' hc' q its b
    rw [hcc] at h1
    obtain ⟨rfl, rfl⟩ := grainsStep_single hc h1
    rw [run_eq _ _ _ _ _ (Nat.zero_le _), hcc]
    rcases grainsStep_cut n (Nat.zero_le _) h1 with ⟨st', hs, e⟩ | e
    · rcases hs with rfl | ⟨_, _, h2, _, _⟩
      · rw [← take_stream] at e; rw [e]; exact ih he rfl
      · simp at h2
    · rw [← take_stream] at e; rw [e]; exact ⟨.nil _, rfl, .inl rfl⟩
  | yield h1 _ ih =>
    intro hcc
    rename_i m a it q its b
    rw [hcc] at h1
    rw [run_eq _ _ _ _ _ (Nat.zero_le _), hcc]
    obtain ⟨i1, i2, i3⟩ := ih he rfl
    rcases grainsStep_cut n (Nat.zero_le _) h1 with ⟨st', hs, e⟩ | e
    · rw [← take_stream] at e; rw [e]
      rcases hs with rfl | ⟨it2, d', h2, rfl, h3⟩
      · exact ⟨.cons ⟨rfl, rfl, .inl rfl⟩ i1, i2, i3⟩
      · simp only [Step.yield.injEq] at h2
        subst h2
        exact ⟨.cons ⟨rfl, rfl, h3⟩ i1, i2, i3⟩
    · rw [← take_stream] at e; rw [e]; exact ⟨.nil _, rfl, .inl rfl⟩

/-- **C05**, any file at all, read as a single file: if the headers are still read, then decoding a cut
file gives a first part of the grains, each with the same metadata and id and a first part of its data,
and ends as the whole file's decode does or silently. -/
theorem C05_any_file (o : Opts) (hc : o.concat = false) (file : Bytes) (n : Nat) (r r' : Run)
    (h p) (hh : decodeFileHeaders false ⟨0, file⟩ 0 = .ok (h, p))
    (hh' : decodeFileHeaders false ⟨0, file.take n⟩ 0 = .ok (h, p))
    (hr : decodeFile o file = .ok r) (hr' : decodeFile o (file.take n) = .ok r') :
    CutItems r.items r'.items ∧ r'.hdr = h ∧ (r'.ending = .eof ∨ r'.ending = r.ending) := by
  unfold decodeFile at hr hr'
  rw [hh] at hr
  rw [hh'] at hr'
  simp only [Except.ok.injEq, grains_eq_run] at hr hr'
  obtain ⟨k, items, b, e, h1, h2, h3⟩ := steps_exist o ⟨0, file⟩ ⟨h, false, p⟩ (Nat.zero_le _)
  have e1 := h1.run (Nat.zero_le _)
  rw [h2.run h3] at e1
  simp only at e1
  rw [hr] at e1
  have := cut_run o hc file n k _ b items h1 e h2 rfl
  simp only at this
  rw [hr'] at this
  rw [e1]
  simpa [Run.prepend] using this

end Verif.Props

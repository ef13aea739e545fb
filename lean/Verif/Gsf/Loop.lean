import Verif.Gsf.HeadRT

/-!
# The grain loop without a bound, and its turns
-/

namespace Verif.Gsf

open Verif

/-! ## Inversion helpers -/

theorem Rd.bind_ok {m : Rd α} {f : α → Rd β} {s p r} (h : (m >>= f) s p = .ok r) :
    ∃ a q, m s p = .ok (a, q) ∧ f a s q = .ok r := by
  rw [Rd.bind_apply] at h
  split at h
  · rename_i a q he; exact ⟨a, q, he, h⟩
  · simp at h

theorem Rd.bind_err {m : Rd α} {f : α → Rd β} {s p e} (h : (m >>= f) s p = .error e) :
    m s p = .error e ∨ ∃ a q, m s p = .ok (a, q) ∧ f a s q = .error e := by
  rw [Rd.bind_apply] at h
  split at h
  · rename_i a q he; exact .inr ⟨a, q, he, h⟩
  · rename_i e' he; simp only [Except.error.injEq] at h; subst h; exact .inl he

theorem Rd.eofToDecode_ok {m : Rd α} {s p r} (h : Rd.eofToDecode m s p = .ok r) : m s p = .ok r := by
  unfold Rd.eofToDecode at h
  split at h <;> simp_all

/-! ## Progress -/

theorem decodeHeadBlock_ok {s p h q} (hb : s.base ≤ p) (hh : decodeHeadBlock s p = .ok (h, q)) :
    p + 8 ≤ q ∧ p + 8 ≤ s.fin := by
  simp only [decodeHeadBlock] at hh
  obtain ⟨b, q1, h1, hh⟩ := Rd.bind_ok hh
  obtain ⟨x, q2, h2, hh⟩ := Rd.bind_ok hh
  simp only [Block.exit, Rd.bind_apply, Rd.seek_apply, Rd.pure_apply, Except.ok.injEq, Prod.mk.injEq] at hh
  obtain ⟨a1, a2, a3, -, -⟩ := enter_ok hb h1
  have : b.endPos ≥ b.start + 8 := by unfold Block.endPos; omega
  omega

theorem decodeFileHeaders_true_ok {s p h q} (hb : s.base ≤ p)
    (hh : decodeFileHeaders true s p = .ok (h, q)) : p + 12 ≤ q ∧ p + 12 ≤ s.fin := by
  unfold decodeFileHeaders at hh
  obtain ⟨⟨mj, mn⟩, q1, h1, hh⟩ := Rd.bind_ok hh
  unfold decodeSsb at h1
  simp only [Bool.not_true, Bool.false_eq_true, if_false] at h1
  obtain ⟨x, q2, h2, h1⟩ := Rd.bind_ok h1
  obtain ⟨y, q3, h3, h1⟩ := Rd.bind_ok h1
  simp only [Rd.pure_apply, Except.ok.injEq, Prod.mk.injEq] at h1
  obtain ⟨_, e1, _⟩ := readUint_ok h2
  obtain ⟨_, e2, _⟩ := readUint_ok h3
  obtain ⟨-, -, rfl⟩ := readExact_ok e1
  obtain ⟨-, -, rfl⟩ := readExact_ok e2
  simp only at hh
  split at hh
  · obtain ⟨z, q4, h4, hh⟩ := Rd.bind_ok hh
    have := decodeHeadBlock_ok (by omega) (Rd.eofToDecode_ok h4)
    simp only [Rd.pure_apply, Except.ok.injEq, Prod.mk.injEq] at hh
    omega
  · simp at hh

/-- Every turn of the loop that does not fail starts with 8 bytes left and moves past them. -/
theorem grainsStep_progress {o h hc s p st q} (hb : s.base ≤ p)
    (hs : grainsStep o h hc s p = .ok (st, q)) : p + 8 ≤ q ∧ p + 8 ≤ s.fin := by
  unfold grainsStep at hs
  cases hc with
  | true =>
    rw [if_pos rfl] at hs
    obtain ⟨x, q1, h1, hs⟩ := Rd.bind_ok hs
    have := decodeFileHeaders_true_ok hb h1
    simp only [Rd.pure_apply, Except.ok.injEq, Prod.mk.injEq] at hs
    omega
  | false =>
    rw [if_neg (by simp)] at hs
    obtain ⟨b, q1, h1, hs⟩ := Rd.bind_ok hs
    obtain ⟨-, a2, a3, -, a5⟩ := enter_ok hb h1
    have a5 := a5 rfl
    have he : b.endPos ≥ p + 8 := by unfold Block.endPos; omega
    suffices hq : q = b.endPos by omega
    rw [Rd.ite_apply] at hs
    split at hs
    · obtain ⟨_, q2, h2, hs⟩ := Rd.bind_ok hs
      simp only [Block.exit, Rd.seek_apply, Except.ok.injEq, Prod.mk.injEq] at h2
      rw [Rd.ite_apply, Rd.ite_apply] at hs
      split at hs
      · split at hs <;> simp at hs <;> omega
      · simp at hs; omega
    · rw [Rd.ite_apply] at hs
      split at hs
      · obtain ⟨_, q2, h2, hs⟩ := Rd.bind_ok hs
        simp only [Block.exit, Rd.seek_apply, Except.ok.injEq, Prod.mk.injEq] at h2
        rw [Rd.ite_apply] at hs
        split at hs <;> simp at hs <;> omega
      · obtain ⟨lid, q2, h2, hs⟩ := Rd.bind_ok hs
        rw [Rd.ite_apply] at hs
        split at hs
        · obtain ⟨_, q3, h3, hs⟩ := Rd.bind_ok hs
          simp only [Block.exit, Rd.seek_apply, Except.ok.injEq, Prod.mk.injEq] at h3
          simp at hs; omega
        · obtain ⟨info, q3, h3, hs⟩ := Rd.bind_ok hs
          obtain ⟨data, q4, h4, hs⟩ := Rd.bind_ok hs
          obtain ⟨_, q5, h5, hs⟩ := Rd.bind_ok hs
          simp only [Block.exit, Rd.seek_apply, Except.ok.injEq, Prod.mk.injEq] at h5
          simp at hs; omega

/-! ## The loop without a bound -/

theorem grainsLoop_fuel (o : Opts) (s : Stream) : ∀ (f1 f2 : Nat) (h : Hdr) (hc : Bool) (p : Nat),
    s.base ≤ p → s.fin - p < f1 → s.fin - p < f2 → grainsLoop o s f1 h hc p = grainsLoop o s f2 h hc p := by
  intro f1
  induction f1 with
  | zero => intro f2 h hc p _ h1; omega
  | succ f1 ih =>
    intro f2 h hc p hb h1 h2
    cases f2 with
    | zero => omega
    | succ f2 =>
      simp only [grainsLoop]
      cases hs : grainsStep o h hc s p with
      | error e => cases e <;> rfl
      | ok v =>
        obtain ⟨st, q⟩ := v
        have := grainsStep_progress hb hs
        cases st with
        | stop => rfl
        | next h' hc' => exact ih _ _ _ _ (by omega) (by omega) (by omega)
        | yield it =>
          simp only
          rw [ih f2 h false q (by omega) (by omega) (by omega)]

/-- The loop run from position `p` to its end. -/
def run (o : Opts) (s : Stream) (h : Hdr) (hc : Bool) (p : Nat) : Run :=
  grainsLoop o s (s.fin - p + 1) h hc p

/-- Put items in front of a run. -/
def Run.prepend (items : List Item) (r : Run) : Run := { r with items := items ++ r.items }

/-- The loop as a recursion without a bound. -/
theorem run_eq (o : Opts) (s : Stream) (h : Hdr) (hc : Bool) (p : Nat) (hb : s.base ≤ p) :
    run o s h hc p =
      match grainsStep o h hc s p with
      | .error .eof => ⟨[], h, .eof⟩
      | .error e => ⟨[], h, .err e⟩
      | .ok (.stop, _) => ⟨[], h, .break_⟩
      | .ok (.next h' hc', q) => run o s h' hc' q
      | .ok (.yield it, q) => (run o s h false q).prepend [it] := by
  conv => lhs; unfold run grainsLoop
  cases hs : grainsStep o h hc s p with
  | error e => cases e <;> rfl
  | ok v =>
    obtain ⟨st, q⟩ := v
    have := grainsStep_progress hb hs
    cases st with
    | stop => rfl
    | next h' hc' => exact grainsLoop_fuel _ _ _ _ _ _ _ (by omega) (by omega) (by omega)
    | yield it =>
      simp only [Run.prepend, run]
      rw [grainsLoop_fuel o s _ (s.fin - q + 1) h false q (by omega) (by omega) (by omega)]
      rfl

theorem grains_eq_run (o : Opts) (file : Bytes) (h : Hdr) (p : Nat) :
    grains o file h p = run o ⟨0, file⟩ h false p := by
  unfold grains run
  apply grainsLoop_fuel
  · exact Nat.zero_le _
  · unfold Stream.fin; simp; omega
  · omega

@[simp] theorem Run.prepend_nil (r : Run) : r.prepend [] = r := rfl
@[simp] theorem Run.prepend_prepend (a b : List Item) (r : Run) :
    (r.prepend b).prepend a = r.prepend (a ++ b) := by simp [Run.prepend]

/-! ## Turns over known bytes -/

/-- One turn over the bytes `bs` at position `p`. -/
def TurnAt (o : Opts) (h : Hdr) (hc : Bool) (p : Nat) (bs : Bytes) (st : Step) : Prop :=
  ∀ s, At s p bs → grainsStep o h hc s p = .ok (st, p + bs.length)

/-- A sequence of turns over the bytes `bs` at position `p` that yields `items`. -/
inductive Turns (o : Opts) : Nat → Hdr → Bool → Bytes → List Item → Hdr → Bool → Prop where
  | nil {p h hc} : Turns o p h hc [] [] h hc
  | next {p h hc bs h1 hc1 rest items h2 hc2} : TurnAt o h hc p bs (.next h1 hc1) →
      Turns o (p + bs.length) h1 hc1 rest items h2 hc2 → Turns o p h hc (bs ++ rest) items h2 hc2
  | yield {p h hc bs it rest items h2 hc2} : TurnAt o h hc p bs (.yield it) →
      Turns o (p + bs.length) h false rest items h2 hc2 →
      Turns o p h hc (bs ++ rest) (it :: items) h2 hc2

theorem Turns.run {o p h hc bs items h2 hc2} (ht : Turns o p h hc bs items h2 hc2) {s : Stream}
    (hb : s.base ≤ p) (hat : At s p bs) :
    run o s h hc p = (run o s h2 hc2 (p + bs.length)).prepend items := by
  induction ht with
  | nil => simp
  | next h1 _ ih =>
    rw [run_eq _ _ _ _ _ hb, h1 s hat.left]
    simp only
    rw [ih (by omega) hat.right, List.length_append, Nat.add_assoc]
  | yield h1 _ ih =>
    rw [run_eq _ _ _ _ _ hb, h1 s hat.left]
    simp only
    rw [ih (by omega) hat.right, List.length_append, Nat.add_assoc, Run.prepend_prepend]
    rfl

theorem Turns.append {o p h hc bs items h1 hc1 rest items2 h2 hc2}
    (a : Turns o p h hc bs items h1 hc1) (b : Turns o (p + bs.length) h1 hc1 rest items2 h2 hc2) :
    Turns o p h hc (bs ++ rest) (items ++ items2) h2 hc2 := by
  induction a with
  | nil => simpa using b
  | next t _ ih =>
    rw [List.append_assoc]
    refine .next t (ih ?_)
    rwa [List.length_append, ← Nat.add_assoc] at b
  | yield t _ ih =>
    rw [List.append_assoc, List.cons_append]
    refine .yield t (ih ?_)
    rwa [List.length_append, ← Nat.add_assoc] at b

theorem Turns.one_next {o p h hc bs h1 hc1} (t : TurnAt o h hc p bs (.next h1 hc1)) :
    Turns o p h hc bs [] h1 hc1 := by
  have := Turns.next t .nil
  rwa [List.append_nil] at this

theorem Turns.one_yield {o p h hc bs it} (t : TurnAt o h hc p bs (.yield it)) :
    Turns o p h hc bs [it] h false := by
  have := Turns.yield t .nil
  rwa [List.append_nil] at this

/-! ## The kinds of turn -/

/-- A block with another tag is skipped. -/
theorem turn_other (o : Opts) (h : Hdr) (p : Nat) {b : Blk} {t} (hok : b.Ok t) (ht : t ≠ tGrai) :
    TurnAt o h false p b.bytes (.next h false) := by
  intro s hat
  unfold grainsStep
  rw [if_neg (by simp), Rd.bind_of_ok (enter_blk hat hok (.inl rfl)), if_pos (by simpa using ht)]
  simp only [Block.exit, Rd.bind_apply, Rd.seek_apply, Rd.ite_apply]
  rw [if_neg (by simpa using hok.notSig)]
  simp only [Rd.pure_apply, Block.endPos, hok.length]

theorem turns_others (o : Opts) (h : Hdr) {l : List Blk} (hl : Others [tGrai] l) (p : Nat) :
    Turns o p h false (blksBytes l) [] h false := by
  induction l generalizing p with
  | nil => exact .nil
  | cons b l ih =>
    obtain ⟨t, hok, ht⟩ := hl b (by simp)
    exact .next (turn_other o h p hok (by simpa using ht)) (ih (fun x hx => hl x (by simp [hx])) _)

/-- The terminator. -/
theorem terminator_step (o : Opts) (h : Hdr) (p : Nat) (s : Stream) (hat : At s p terminator) :
    grainsStep o h false s p = .ok (if o.concat then .next h false else .stop, p + 8) := by
  have hok : (⟨tagBytes tGrai, 0, []⟩ : Blk).Ok tGrai :=
    ⟨by decide, by decide, by decide, by decide, by decide⟩
  have hat' : At s p (⟨tagBytes tGrai, 0, []⟩ : Blk).bytes := hat
  unfold grainsStep
  rw [if_neg (by simp), Rd.bind_of_ok (enter_blk hat' hok (.inl rfl)), if_neg (by simp), if_pos rfl]
  simp only [Block.exit, Rd.bind_apply, Rd.seek_apply, Rd.ite_apply, Rd.pure_apply, Block.endPos]
  split <;> rfl

/-- The signature of a further file. -/
def signature : Bytes := tagBytes tSSBB ++ tagBytes tGrsg

theorem readHeader_sig {s p} (h : At s p signature) : readHeader s p = .ok ((tSSBB, 8), p + 8) := by
  have h1 := reads_string_bytes (n := 4) (bs := tagBytes tSSBB) (u := tSSBB) (by decide) (by decide) s p h.left
  have h2 := reads_string_bytes (n := 4) (bs := tagBytes tGrsg) (u := tGrsg) (by decide) (by decide) s _ h.right
  have e1 : cleanString tSSBB = tSSBB := by decide
  have e2 : cleanString tGrsg = tGrsg := by decide
  have e3 : (tagBytes tSSBB).length = 4 := by decide
  have e4 : (tagBytes tGrsg).length = 4 := by decide
  rw [e1, e3] at h1
  rw [e2, e3, e4] at h2
  simp only [readHeader]
  rw [Rd.bind_of_ok h1, if_pos rfl, Rd.bind_of_ok h2, if_neg (by simp)]
  rfl

theorem signature_step (o : Opts) (h : Hdr) (p : Nat) (s : Stream) (hat : At s p signature) :
    grainsStep o h false s p = .ok (if o.concat then .next h true else .stop, p + 8) := by
  have : enter none false s p = .ok (⟨p, 8, tSSBB⟩, p + 8) := by
    rw [enter_eq _ _ _ _ hat.base, readHeader_sig hat]; simp
  unfold grainsStep
  rw [if_neg (by simp), Rd.bind_of_ok this, if_pos (by simp)]
  simp only [Block.exit, Rd.bind_apply, Rd.seek_apply, Rd.ite_apply, Rd.pure_apply, Block.endPos]
  cases o.concat <;> rfl

/-! ## Grains -/

/-- The options say to defer reading grain data. -/
def Opts.defers (o : Opts) : Bool :=
  o.seekable && (o.mode == .alwaysDeferLoadIfPossible || o.mode == .alwaysLoadDeferIfPossible)

/-- The data handed out for a grain whose data bytes `d` are at position `q`. -/
def Opts.dataOf (o : Opts) (q : Nat) (d : Bytes) : Data :=
  if d = [] then .none
  else if o.defers then .deferred q d.length
  else if o.mode == .loadNever then .none
  else .bytes d

/-- A grain block for `g`, with unknown blocks inserted at any level and anything after the data. -/
structure DecoGrai (major lid : Nat) (g : Grain) (b : Blk) (off : Nat) : Prop where
  mk ::
  ex : ∃ gb mid post, DecoGbhd major g gb ∧ Others [tGrdt] mid ∧
    b = mkBlk tGrai (encodeUint lid 2 ++ (gb.bytes ++ (blksBytes mid ++ ((grdtBlk g).bytes ++ post)))) ∧
    off = 10 + gb.bytes.length + (blksBytes mid).length + 8
  size : b.size < 2 ^ 32

theorem DecoGrai.ok {major lid g b off} (h : DecoGrai major lid g b off) : b.Ok tGrai := by
  obtain ⟨⟨_, _, _, _, _, rfl, _⟩, hs⟩ := h
  exact mkBlk_ok tc tne hs

/-- Reading the data of a grain, from right after its header. -/
theorem readGrdt_read (o : Opts) {g : Grain} {mid : List Blk} (hm : Others [tGrdt] mid) {s p}
    (hat : At s p (blksBytes mid ++ (grdtBlk g).bytes)) (hsz : 8 + (g.data.getD []).length < 2 ^ 32)
    (grai : Block) (hend : p + (blksBytes mid).length + (8 + (g.data.getD []).length) ≤ grai.start + grai.size) :
    readGrdt o grai s p = .ok (o.dataOf (p + (blksBytes mid).length + 8) (g.data.getD []),
      p + (blksBytes mid).length + (8 + (g.data.getD []).length)) := by
  have hok : (grdtBlk g).Ok tGrdt := mkBlk_ok tc tne hsz
  have hc : grai.hasChild s p = .ok (true, p) := by
    rw [hasChild_eq, if_pos (by omega)]
  have he := (enter_past hm hat).trans (enter_blk hat.right hok (.inr rfl))
  have hsize : (grdtBlk g).size = 8 + (g.data.getD []).length := rfl
  have hr : Block.remaining ⟨p + (blksBytes mid).length, (grdtBlk g).size, tGrdt⟩ s
      (p + (blksBytes mid).length + 8) = .ok (((g.data.getD []).length : Int), p + (blksBytes mid).length + 8) := by
    unfold Block.remaining
    rw [hsize]
    congr 2
    simp only
    omega
  have hdat : At s (p + (blksBytes mid).length + 8) (g.data.getD []) := by
    have h2 := hat.right
    unfold grdtBlk at h2
    rw [mkBlk_bytes, ← List.append_assoc] at h2
    have h3 := h2.right
    rwa [List.length_append, encodeUint_length, tl4 (t := tGrdt)] at h3
  have hex : Block.endPos ⟨p + (blksBytes mid).length, (grdtBlk g).size, tGrdt⟩ =
      p + (blksBytes mid).length + (8 + (g.data.getD []).length) := by
    unfold Block.endPos
    rw [hsize]; simp only; omega
  unfold readGrdt
  rw [Rd.bind_of_ok hc, if_pos rfl, Rd.bind_of_ok he, Rd.bind_of_ok hr]
  unfold Opts.dataOf Opts.defers
  by_cases hd : g.data.getD [] = []
  · rw [if_pos hd, if_neg (by simp [hd])]
    simp only [Block.exit, Rd.bind_apply, Rd.seek_apply, Rd.pure_apply, hex]
  · have hpos : 0 < (g.data.getD []).length := List.length_pos_iff.2 hd
    rw [if_neg hd, if_pos (by omega)]
    by_cases hdf : (o.seekable && (o.mode == .alwaysDeferLoadIfPossible || o.mode == .alwaysLoadDeferIfPossible)) = true
    · rw [if_pos hdf, if_pos hdf]
      simp only [Block.exit, Rd.bind_apply, Rd.tell_apply, Rd.seek_apply, Rd.pure_apply, hex, Int.toNat_natCast]
    · rw [if_neg hdf, if_neg hdf]
      by_cases hn : (o.mode == .loadNever) = true
      · rw [if_pos hn, if_pos hn]
        simp only [Block.exit, Rd.bind_apply, Rd.seek_apply, Rd.pure_apply, hex]
      · rw [if_neg hn, if_neg hn, Int.toNat_natCast, Rd.bind_of_ok (readRaw_at hdat)]
        simp only [Block.exit, Rd.bind_apply, Rd.seek_apply, Rd.pure_apply, hex]

/-- The grain is not selected. -/
def Opts.drops (o : Opts) (lid : Nat) : Bool := o.localIds.any (fun ids => !ids.contains lid)

/-- What a turn over a grain block does. -/
def Opts.grainOut (o : Opts) (h : Hdr) (p lid : Nat) (g : Grain) (off : Nat) : Step :=
  if o.drops lid then .next h false
  else .yield ⟨g.toMeta h.major, o.dataOf (p + off) (g.data.getD []), lid⟩

theorem turn_grain (o : Opts) (h : Hdr) (p : Nat) {lid : Nat} (hl : lid < 2 ^ 16) {g : Grain}
    (hg : g.Ok h.major) {b : Blk} {off} (hd : DecoGrai h.major lid g b off) :
    TurnAt o h false p b.bytes (o.grainOut h p lid g off) := by
  intro s hat
  have hok := hd.ok
  have hlen := hok.length
  obtain ⟨⟨gb, mid, post, hgb, hmid, rfl, rfl⟩, hsz⟩ := hd
  have hsz' : 8 ≤ (mkBlk tGrai (encodeUint lid 2 ++ (gb.bytes ++ (blksBytes mid ++ ((grdtBlk g).bytes ++ post))))).size := by
    unfold mkBlk; simp only; omega
  have hin : At s (p + 8) (encodeUint lid 2 ++ (gb.bytes ++ (blksBytes mid ++ ((grdtBlk g).bytes ++ post)))) := by
    have h2 := hat
    rw [mkBlk_bytes, ← List.append_assoc] at h2
    have h3 := h2.right
    rwa [List.length_append, encodeUint_length, tl4 (t := tGrai)] at h3
  have hend : Block.endPos ⟨p, (mkBlk tGrai (encodeUint lid 2 ++ (gb.bytes ++ (blksBytes mid ++ ((grdtBlk g).bytes ++ post))))).size, tGrai⟩ =
      p + (mkBlk tGrai (encodeUint lid 2 ++ (gb.bytes ++ (blksBytes mid ++ ((grdtBlk g).bytes ++ post))))).bytes.length := by
    rw [hlen]; rfl
  unfold grainsStep
  rw [if_neg (by simp), Rd.bind_of_ok (enter_blk hat hok (.inl rfl)), if_neg (by simp), if_neg (by simp only; omega)]
  have hlid := reads_uint (n := 2) (v := lid) (by omega) s _ hin.left
  rw [Rd.bind_of_ok hlid]
  unfold Opts.grainOut Opts.drops
  by_cases hdr : (o.localIds.any (fun ids => !ids.contains lid)) = true
  · rw [if_pos hdr, if_pos hdr]
    simp only [Block.exit, Rd.bind_apply, Rd.seek_apply, Rd.pure_apply, hend]
  · rw [if_neg hdr, if_neg hdr]
    have h1 := hin.right
    have hgbr := gbhdBlock_read hg hgb s _ h1.left
    rw [Rd.bind_of_ok hgbr]
    have h2 := h1.right
    rw [← List.append_assoc] at h2
    have hdl : 8 + (g.data.getD []).length < 2 ^ 32 := by
      have := hg.size
      unfold graiSize at this
      rw [hg.wf.2.2]; omega
    have hgl : (grdtBlk g).bytes.length = 8 + (g.data.getD []).length := mkBlk_length _ _ tl4
    have hrd := readGrdt_read o hmid h2.left hdl ⟨p, (mkBlk tGrai (encodeUint lid 2 ++ (gb.bytes ++ (blksBytes mid ++ ((grdtBlk g).bytes ++ post))))).size, tGrai⟩ (by
      unfold mkBlk
      simp only [List.length_append, encodeUint_length]
      simp only [hgl]
      omega)
    rw [Rd.bind_of_ok hrd]
    simp only [Block.exit, Rd.bind_apply, Rd.seek_apply, Rd.pure_apply, hend, encodeUint_length]
    have e : p + 8 + 2 + gb.bytes.length + (blksBytes mid).length + 8 =
      p + (10 + gb.bytes.length + (blksBytes mid).length + 8) := by omega
    rw [e]

theorem decoGrai_self {major lid : Nat} {g : Grain} (h : g.Ok major) :
    DecoGrai major lid g (graiBlk major lid g) (10 + gbhdSize major g + 8) := by
  have h2 := gbhdBlk_size major g h.wf
  have h3 : (gbhdBlk major g).bytes.length = (gbhdBlk major g).size := mkBlk_length _ _ tl4
  refine ⟨⟨gbhdBlk major g, [], [], decoGbhd_self h, fun _ h => by simp at h, ?_, ?_⟩, ?_⟩
  · simp [graiBlk]
  · simp [h3, h2]
  · have h1 := encodeGrain_length major lid g h.wf
    rw [encodeGrain_eq _ _ _ h.wf, graiBlk, mkBlk_length _ _ tl4] at h1
    have := h.size
    unfold graiBlk mkBlk
    simp only at h1 ⊢
    omega

end Verif.Gsf

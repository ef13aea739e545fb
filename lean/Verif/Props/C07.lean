import Verif.Props.C09
import Verif.Gsf.Total

/-!
# C07: selecting local ids; C08: loading modes agree
-/

namespace Verif.Props

open Verif Verif.Gsf

/-! ## C07 -/

/-- The options with a selection of local ids. -/
def sel (o : Opts) (ids : List Nat) : Opts := { o with localIds := some ids }

/-- What a turn that was not asked to select does, seen through the selection. -/
def selStep (ids : List Nat) (h : Hdr) : Step → Step
  | .yield it => if ids.contains it.localId then .yield it else .next h false
  | st => st

theorem grainsStep_sel {o : Opts} (ho : o.localIds = none) (ids : List Nat) {h hc s p st q}
    (hs : grainsStep o h hc s p = .ok (st, q)) :
    grainsStep (sel o ids) h hc s p = .ok (selStep ids h st, q) := by
  unfold grainsStep at hs ⊢
  cases hc with
  | true =>
    rw [if_pos rfl] at hs ⊢
    obtain ⟨x, q1, h1, hs⟩ := Rd.bind_ok hs
    rw [Rd.bind_of_ok h1]
    simp only [Rd.pure_apply, Except.ok.injEq, Prod.mk.injEq] at hs ⊢
    obtain ⟨rfl, rfl⟩ := hs
    exact ⟨rfl, rfl⟩
  | false =>
    rw [if_neg (by simp)] at hs ⊢
    obtain ⟨b, q1, h1, hs⟩ := Rd.bind_ok hs
    rw [Rd.bind_of_ok h1]
    by_cases ht : b.tag ≠ tGrai
    · rw [if_pos ht] at hs ⊢
      simp only [Block.exit, Rd.bind_apply, Rd.seek_apply, Rd.ite_apply, Rd.pure_apply, sel] at hs ⊢
      split at hs
      · split at hs <;> simp only [Except.ok.injEq, Prod.mk.injEq] at hs ⊢ <;>
          (obtain ⟨rfl, rfl⟩ := hs; simp_all [selStep])
      · simp only [Except.ok.injEq, Prod.mk.injEq] at hs
        obtain ⟨rfl, rfl⟩ := hs; simp_all [selStep]
    · rw [if_neg ht] at hs ⊢
      by_cases hz : b.size = 0
      · rw [if_pos hz] at hs ⊢
        simp only [Block.exit, Rd.bind_apply, Rd.seek_apply, Rd.ite_apply, Rd.pure_apply, sel] at hs ⊢
        split at hs <;> simp only [Except.ok.injEq, Prod.mk.injEq] at hs ⊢ <;>
          (obtain ⟨rfl, rfl⟩ := hs; simp_all [selStep])
      · rw [if_neg hz] at hs ⊢
        obtain ⟨lid, q2, h2, hs⟩ := Rd.bind_ok hs
        rw [Rd.bind_of_ok h2]
        rw [if_neg (by simp [ho])] at hs
        obtain ⟨info, q3, h3, hs⟩ := Rd.bind_ok hs
        obtain ⟨data, q4, h4, hs⟩ := Rd.bind_ok hs
        simp only [Block.exit, Rd.bind_apply, Rd.seek_apply, Rd.pure_apply, Except.ok.injEq, Prod.mk.injEq] at hs
        obtain ⟨rfl, rfl⟩ := hs
        by_cases hm : ids.contains lid = true
        · rw [if_neg (by simp [sel] at hm ⊢; exact hm), Rd.bind_of_ok h3, Rd.bind_of_ok (show readGrdt (sel o ids) b s q3 = _ from h4)]
          simp only [selStep, hm, if_true]
          rfl
        · rw [if_pos (by simp [sel] at hm ⊢; exact hm)]
          simp only [selStep, hm]
          rfl

theorem steps_sel {o : Opts} (ho : o.localIds = none) (ids : List Nat) {s n a items b}
    (h : Steps o s n a items b) :
    Steps (sel o ids) s n a (items.filter (fun it => ids.contains it.localId)) b := by
  induction h with
  | refl a => exact .refl a
  | next h1 _ ih => exact .next (grainsStep_sel ho ids h1) ih
  | yield h1 _ ih =>
    rename_i n a it q items b _
    have h2 := grainsStep_sel ho ids h1
    simp only [selStep] at h2
    by_cases hm : ids.contains it.localId = true
    · rw [if_pos hm] at h2
      rw [List.filter_cons_of_pos (p := fun it : Item => ids.contains it.localId) hm]
      exact .yield h2 ih
    · rw [if_neg hm] at h2
      rw [List.filter_cons_of_neg (p := fun it : Item => ids.contains it.localId) hm]
      exact .next h2 ih

/-- Opening does not depend on the options. -/
theorem decodeFile_cases (o : Opts) (file : Bytes) {r} (h : decodeFile o file = .ok r) :
    ∃ hd p n items b e, decodeFileHeaders false ⟨0, file⟩ 0 = .ok (hd, p) ∧
      Steps o ⟨0, file⟩ n ⟨hd, false, p⟩ items b ∧ Ends o ⟨0, file⟩ b e ∧ r = ⟨items, b.hdr, e⟩ := by
  unfold decodeFile at h
  cases hh : decodeFileHeaders false ⟨0, file⟩ 0 with
  | error e => simp [hh] at h
  | ok v =>
    obtain ⟨hd, p⟩ := v
    simp only [hh, Except.ok.injEq] at h
    obtain ⟨n, items, b, e, h1, h2, h3⟩ := steps_exist o ⟨0, file⟩ ⟨hd, false, p⟩ (Nat.zero_le _)
    refine ⟨hd, p, n, items, b, e, rfl, h1, h2, ?_⟩
    rw [← h, grains_eq_run, h1.run (Nat.zero_le _), h2.run h3]
    simp [Run.prepend]

theorem decodeFile_of_steps (o : Opts) (file : Bytes) {hd p n items b}
    (hh : decodeFileHeaders false ⟨0, file⟩ 0 = .ok (hd, p)) (h1 : Steps o ⟨0, file⟩ n ⟨hd, false, p⟩ items b) :
    decodeFile o file = .ok ((run o ⟨0, file⟩ b.hdr b.hc b.pos).prepend items) := by
  unfold decodeFile
  rw [hh]
  simp only
  rw [grains_eq_run, h1.run (Nat.zero_le _)]

/-- **C07**, any byte string: the grains a full decode gives for the selected ids are, in order and
unchanged, the first grains the selecting decode gives. -/
theorem C07_prefix (o : Opts) (ho : o.localIds = none) (ids : List Nat) (file : Bytes) (r : Run)
    (h : decodeFile o file = .ok r) :
    ∃ r', decodeFile (sel o ids) file = .ok r' ∧
      r.items.filter (fun it => ids.contains it.localId) <+: r'.items := by
  obtain ⟨hd, p, n, items, b, e, h1, h2, h3, rfl⟩ := decodeFile_cases o file h
  refine ⟨_, decodeFile_of_steps _ _ h1 (steps_sel ho ids h2), ?_⟩
  exact List.prefix_append _ _

/-- **C07**, any byte string whose full decode ends at the end marker: the selecting decode is exactly the
filtered full decode, with the same headers and ending. -/
theorem C07_exact_break (o : Opts) (ho : o.localIds = none) (ids : List Nat) (file : Bytes) (r : Run)
    (h : decodeFile o file = .ok r) (he : r.ending = .break_) :
    decodeFile (sel o ids) file =
      .ok { r with items := r.items.filter (fun it => ids.contains it.localId) } := by
  obtain ⟨hd, p, n, items, b, e, h1, h2, h3, rfl⟩ := decodeFile_cases o file h
  simp only at he
  subst he
  rw [decodeFile_of_steps _ _ h1 (steps_sel ho ids h2)]
  cases h3 with
  | stop h3 =>
    have := grainsStep_sel ho ids h3
    rw [run_eq _ _ _ _ _ (Nat.zero_le _), this]
    simp [selStep, Run.prepend]

/-- **C07**, any byte string whose full decode ends because fewer than 8 bytes are left: the selecting
decode is exactly the filtered full decode. -/
theorem C07_exact_eof (o : Opts) (ho : o.localIds = none) (ids : List Nat) (file : Bytes)
    {hd p n items b} (h1 : decodeFileHeaders false ⟨0, file⟩ 0 = .ok (hd, p))
    (h2 : Steps o ⟨0, file⟩ n ⟨hd, false, p⟩ items b) (hf : file.length < b.pos + 8)
    (h3 : Ends o ⟨0, file⟩ b .eof) :
    decodeFile o file = .ok ⟨items, b.hdr, .eof⟩ ∧
    decodeFile (sel o ids) file = .ok ⟨items.filter (fun it => ids.contains it.localId), b.hdr, .eof⟩ := by
  constructor
  · rw [decodeFile_of_steps _ _ h1 h2, h3.run (Nat.zero_le _)]
    simp [Run.prepend]
  rw [decodeFile_of_steps _ _ h1 (steps_sel ho ids h2)]
  have : grainsStep (sel o ids) b.hdr b.hc ⟨0, file⟩ b.pos = .error .eof := by
    cases h3 with
    | eof h3 =>
      unfold grainsStep at h3 ⊢
      cases hc : b.hc with
      | true => rw [hc, if_pos rfl] at h3; rw [if_pos rfl]; exact h3
      | false =>
        rw [hc, if_neg (by simp)] at h3
        rw [if_neg (by simp)]
        cases he : enter none false ⟨0, file⟩ b.pos with
        | error e => rw [Rd.bind_of_error he] at h3 ⊢; exact h3
        | ok v =>
          obtain ⟨bl, q⟩ := v
          have := enter_ok (Nat.zero_le _) he
          simp only [Stream.fin] at this
          omega
  rw [run_eq _ _ _ _ _ (Nat.zero_le _), this]
  simp [Run.prepend]

/-- **C07** for written files (also with unknown blocks in them): the selecting decode gives exactly the
grains with selected ids, in order. -/
theorem C07_written (f : FileSpec) (hf : f.Ok) (bs : Bytes) (hd : DecoFile f bs) (o : Opts) (ho : o.localIds = none)
    (ids : List Nat) :
    ∃ r r', decodeFile o bs = .ok r ∧ decodeFile (sel o ids) bs = .ok r' ∧ r'.hdr = r.hdr ∧ r'.ending = r.ending ∧
      r'.view bs = (r.view bs).filter (fun x => ids.contains x.2.2) := by
  have key : ∀ o : Opts, ∃ r, decodeFile o bs = .ok r ∧ r.hdr = f.hdr ∧ r.ending = (if o.concat then .eof else .break_) ∧
      r.view bs = (f.grains.filter (fun x => !o.drops x.1)).map (o.viewOf f.major) := by
    intro o
    cases hc : o.concat with
    | true =>
      obtain ⟨r, h1, h2, h3, h4⟩ := decodeFile_concat hc hf hd (fs := []) (by simp)
      simp only [List.flatMap_nil, List.append_nil, List.foldl_nil, List.flatMap_cons] at *
      exact ⟨r, h1, h3, by simpa using h4, h2⟩
    | false =>
      obtain ⟨r, h1, h2, h3, h4⟩ := decodeFile_single hc hf hd []
      simp only [List.append_nil] at *
      exact ⟨r, h1, h3, by simpa using h4, h2⟩
  obtain ⟨r, a1, a2, a3, a4⟩ := key o
  obtain ⟨r', b1, b2, b3, b4⟩ := key (sel o ids)
  refine ⟨r, r', a1, b1, by rw [a2, b2], by rw [a3, b3]; rfl, ?_⟩
  rw [b4, a4, List.filter_map, List.filter_filter]
  congr 1
  apply List.filter_congr
  intro x _
  simp [Opts.drops, sel, ho, Opts.viewOf]
  rfl

example : sample.Ok ∧ (sample.grains.map Prod.fst) ≠ [] ∧ ∃ r, decodeFile {} sample.bytes = .ok r ∧ r.items ≠ [] := by
  refine ⟨sample_ok, by decide +kernel, ?_⟩
  obtain ⟨r, h1, h2, -⟩ := decodeFile_concat (o := {}) rfl sample_ok (decoFile_self sample_ok) (fs := []) (by simp)
  simp only [List.flatMap_nil, List.append_nil] at h1 h2
  refine ⟨r, h1, ?_⟩
  intro h0
  simp only [Run.view, h0, List.map_nil] at h2
  revert h2
  decide +kernel

/-- A grain block without data block but with eight stray bytes after its header. -/
def badGrain : Bytes :=
  (mkBlk tGrai (encodeUint (1 : Nat) 2 ++ ((gbhdBlk 9 gAudio).bytes ++ junk.bytes))).bytes

/-- A file with such a block, followed by a good grain of another segment. -/
def badFile : Bytes :=
  encodeFileHeader 9 0 ++ (encodeHead tiny.head ++ (badGrain ++ (encodeGrain 9 2 gEmpty ++ terminator)))

/-- **C07 does not hold on malformed files**: looking for the missing data block the full decode runs through
the following grain to the end of the file and ends silently with no grain at all; the decode that selects
the other segment skips the bad block and does give its grain. -/
theorem C07_malformed_counterexample :
    (∃ r, decodeFile {} badFile = .ok r ∧ r.items.map Item.localId = [] ∧ r.ending = .eof) ∧
    (∃ r, decodeFile (sel {} [2]) badFile = .ok r ∧ r.items.map Item.localId = [2]) := by
  constructor
  · have h : ((decodeFile {} badFile).toOption.map (fun r => (r.items.map Item.localId, r.ending))) = some ([], .eof) := by
      decide +kernel
    cases hd : decodeFile {} badFile with
    | error e => rw [hd] at h; simp [Except.toOption] at h
    | ok r => rw [hd] at h; simp [Except.toOption] at h; exact ⟨r, rfl, by simp [h.1], h.2⟩
  · have h : ((decodeFile (sel {} [2]) badFile).toOption.map (fun r => r.items.map Item.localId)) = some [2] := by
      decide +kernel
    cases hd : decodeFile (sel {} [2]) badFile with
    | error e => rw [hd] at h; simp [Except.toOption] at h
    | ok r => rw [hd] at h; simp only [Except.toOption, Option.map_some, Option.some.injEq] at h; exact ⟨r, rfl, h⟩

/-! ## C08 -/

/-- The data a decode gives, as far as a mode shows it. -/
def SameData (file : Bytes) (never : Bool) (d d' : Data) : Prop :=
  if never then d' = .none else d'.load file = d.load file

theorem readGrdt_mode (o o' : Opts) (file : Bytes) (grai : Block) (p : Nat)
    (ho : ¬ (o.defers = false ∧ o.mode = .loadNever)) :
    match readGrdt o grai ⟨0, file⟩ p with
    | .error e => readGrdt o' grai ⟨0, file⟩ p = .error e
    | .ok (d, _) => ∃ d' q', readGrdt o' grai ⟨0, file⟩ p = .ok (d', q') ∧
        SameData file (!o'.defers && (o'.mode == .loadNever)) d d' := by
  simp only [readGrdt]
  cases h1 : grai.hasChild ⟨0, file⟩ p with
  | error e => rw [Rd.bind_of_error h1]; simp only; rw [Rd.bind_of_error h1]
  | ok v =>
    obtain ⟨c, q1⟩ := v
    rw [Rd.bind_of_ok h1]
    cases c with
    | false =>
      simp only [Bool.false_eq_true, if_false, Rd.pure_apply]
      refine ⟨.none, q1, ?_, ?_⟩
      · rw [Rd.bind_of_ok h1]; rfl
      · unfold SameData; split <;> rfl
    | true =>
      simp only [if_true]
      cases h2 : enter (some tGrdt) false ⟨0, file⟩ q1 with
      | error e => rw [Rd.bind_of_error h2]; simp only; rw [Rd.bind_of_ok h1]; simp only [if_true]; rw [Rd.bind_of_error h2]
      | ok v =>
        obtain ⟨b, q2⟩ := v
        rw [Rd.bind_of_ok h2]
        simp only [Rd.bind_of_ok h1, if_true, Rd.bind_of_ok h2]
        simp only [Rd.bind_apply, Block.remaining, Rd.ite_apply, Rd.tell_apply, Block.exit, Rd.seek_apply,
          Rd.pure_apply, readRaw_eq]
        by_cases hr : (b.start : Int) + b.size - q2 > 0
        · rw [if_pos hr, if_pos hr]
          have hdef : ∀ o : Opts, (o.seekable && (o.mode == .alwaysDeferLoadIfPossible || o.mode == .alwaysLoadDeferIfPossible)) = o.defers :=
            fun _ => rfl
          rw [hdef, hdef]
          have hload : ∀ (o : Opts), ¬ (o.defers = false ∧ o.mode = .loadNever) → ∃ d q,
              (if o.defers = true then (Except.ok (Data.deferred q2 ((b.start : Int) + b.size - q2).toNat, b.endPos) : Except Err (Data × Nat))
               else if (o.mode == Mode.loadNever) = true then .ok (.none, b.endPos)
               else .ok (.bytes (List.take ((b.start : Int) + b.size - q2).toNat (List.drop (q2 - 0) file)), b.endPos)) = .ok (d, q) ∧
              d.load file = some (List.take ((b.start : Int) + b.size - q2).toNat (List.drop q2 file)) := by
            intro o ho
            by_cases hd : o.defers = true
            · rw [if_pos hd]; exact ⟨_, _, rfl, rfl⟩
            · rw [if_neg hd, if_neg (by simp at hd ⊢; exact fun h => ho ⟨hd, h⟩)]
              exact ⟨_, _, rfl, rfl⟩
          obtain ⟨d, q, e1, e2⟩ := hload o ho
          rw [e1]
          simp only
          by_cases ho' : o'.defers = false ∧ o'.mode = .loadNever
          · rw [if_neg (by simp [ho'.1]), if_pos (by simp [ho'.2])]
            refine ⟨_, _, rfl, ?_⟩
            simp [SameData, ho'.1, ho'.2]
          · obtain ⟨d', q', e1', e2'⟩ := hload o' ho'
            refine ⟨d', q', e1', ?_⟩
            unfold SameData
            rw [if_neg, e2, e2']
            simp only [Bool.and_eq_true, Bool.not_eq_true', beq_iff_eq]
            exact ho'
        · rw [if_neg hr, if_neg hr]
          refine ⟨_, _, rfl, ?_⟩
          unfold SameData; split <;> rfl

/-- Items that differ only in how their data is held. -/
def SameItem (file : Bytes) (never : Bool) (a b : Item) : Prop :=
  b.info = a.info ∧ b.localId = a.localId ∧ SameData file never a.data b.data

inductive SameItems (file : Bytes) (never : Bool) : List Item → List Item → Prop where
  | nil : SameItems file never [] []
  | cons {a b l l'} : SameItem file never a b → SameItems file never l l' → SameItems file never (a :: l) (b :: l')

/-- How the turns of two decodes in different modes relate. -/
def SameStep (file : Bytes) (never : Bool) (st st' : Step) : Prop :=
  st' = st ∨ ∃ it it', st = .yield it ∧ st' = .yield it' ∧ SameItem file never it it'

theorem grainsStep_mode (o o' : Opts) (file : Bytes) (ho : ¬ (o.defers = false ∧ o.mode = .loadNever))
    (hl : o'.localIds = o.localIds) (hcc : o'.concat = o.concat) (h : Hdr) (hc : Bool) (p : Nat) :
    match grainsStep o h hc ⟨0, file⟩ p with
    | .error e => grainsStep o' h hc ⟨0, file⟩ p = .error e
    | .ok (st, q) => ∃ st', grainsStep o' h hc ⟨0, file⟩ p = .ok (st', q) ∧
        ((∃ it it', st = .yield it ∧ st' = .yield it' ∧ SameItem file (!o'.defers && (o'.mode == .loadNever)) it it') ∨
          ((∀ it, st ≠ .yield it) ∧ st' = st)) := by
  unfold grainsStep
  cases hc with
  | true =>
    simp only [if_true]
    cases h1 : decodeFileHeaders true ⟨0, file⟩ p with
    | error e => rw [Rd.bind_of_error h1]
    | ok v =>
      rw [Rd.bind_of_ok h1]
      simp only [Rd.pure_apply]
      exact ⟨_, rfl, .inr ⟨by simp, rfl⟩⟩
  | false =>
    simp only [Bool.false_eq_true, if_false]
    cases h1 : enter none false ⟨0, file⟩ p with
    | error e => rw [Rd.bind_of_error h1]; simp only; rw [Rd.bind_of_error h1]
    | ok v =>
      obtain ⟨b, q1⟩ := v
      simp only [Rd.bind_of_ok h1]
      by_cases ht : b.tag ≠ tGrai
      · rw [if_pos ht, if_pos ht]
        simp only [Block.exit, Rd.bind_apply, Rd.seek_apply, Rd.ite_apply, Rd.pure_apply, hcc]
        by_cases h2 : b.tag = tSSBB
        · rw [if_pos h2]
          cases o.concat
          · exact ⟨_, rfl, .inr ⟨by simp, rfl⟩⟩
          · exact ⟨_, rfl, .inr ⟨by simp, rfl⟩⟩
        · rw [if_neg h2]; exact ⟨_, rfl, .inr ⟨by simp, rfl⟩⟩
      · rw [if_neg ht, if_neg ht]
        by_cases hz : b.size = 0
        · rw [if_pos hz, if_pos hz]
          simp only [Block.exit, Rd.bind_apply, Rd.seek_apply, Rd.ite_apply, Rd.pure_apply, hcc]
          cases o.concat
          · exact ⟨_, rfl, .inr ⟨by simp, rfl⟩⟩
          · exact ⟨_, rfl, .inr ⟨by simp, rfl⟩⟩
        · rw [if_neg hz, if_neg hz]
          cases h2 : readUint 2 ⟨0, file⟩ q1 with
          | error e => rw [Rd.bind_of_error h2]; simp only; rw [Rd.bind_of_error h2]
          | ok v =>
            obtain ⟨lid, q2⟩ := v
            simp only [Rd.bind_of_ok h2, hl]
            by_cases hd : (o.localIds.any (fun ids => !ids.contains lid)) = true
            · rw [if_pos hd, if_pos hd]
              exact ⟨_, rfl, .inr ⟨by simp, rfl⟩⟩
            · rw [if_neg hd, if_neg hd]
              cases h3 : readGbhdBlock h.major ⟨0, file⟩ q2 with
              | error e => rw [Rd.bind_of_error h3]; simp only; rw [Rd.bind_of_error h3]
              | ok v =>
                obtain ⟨info, q3⟩ := v
                simp only [Rd.bind_of_ok h3]
                have hg := readGrdt_mode o o' file b q3 ho
                cases h4 : readGrdt o b ⟨0, file⟩ q3 with
                | error e =>
                  rw [h4] at hg
                  rw [Rd.bind_of_error h4]; simp only; rw [Rd.bind_of_error hg]
                | ok v =>
                  obtain ⟨d, q4⟩ := v
                  rw [h4] at hg
                  obtain ⟨d', q4', e1, e2⟩ := hg
                  simp only [Rd.bind_of_ok h4, Rd.bind_of_ok e1]
                  exact ⟨_, rfl, .inl ⟨_, _, rfl, rfl, rfl, rfl, e2⟩⟩

/-- **C08.** Any byte string, any mode and any kind of file: compared with a decode `o` that shows the data
(directly or when accessed), a decode with other mode and seekability `o'` fails to open with the same error,
or gives the same grains with the same metadata, ids and order, the same headers and ending, and data which
loads to the same bytes; in the never-load mode there is no data. -/
theorem C08_modes_agree (o o' : Opts) (file : Bytes) (ho : ¬ (o.defers = false ∧ o.mode = .loadNever))
    (hl : o'.localIds = o.localIds) (hcc : o'.concat = o.concat) :
    match decodeFile o file with
    | .error e => decodeFile o' file = .error e
    | .ok r => ∃ r', decodeFile o' file = .ok r' ∧ r'.hdr = r.hdr ∧ r'.ending = r.ending ∧
        SameItems file (!o'.defers && (o'.mode == .loadNever)) r.items r'.items := by
  unfold decodeFile
  cases hh : decodeFileHeaders false ⟨0, file⟩ 0 with
  | error e => rfl
  | ok v =>
    obtain ⟨hd, p⟩ := v
    simp only [grains_eq_run]
    obtain ⟨n, items, b, e, h1, h2, h3⟩ := steps_exist o ⟨0, file⟩ ⟨hd, false, p⟩ (Nat.zero_le _)
    have e1 := h1.run (Nat.zero_le _)
    rw [h2.run h3] at e1
    simp only at e1
    rw [e1]
    refine ⟨_, rfl, ?_⟩
    have key : ∀ {n a items b}, Steps o ⟨0, file⟩ n a items b → Ends o ⟨0, file⟩ b e →
        (run o' ⟨0, file⟩ a.hdr a.hc a.pos).hdr = b.hdr ∧ (run o' ⟨0, file⟩ a.hdr a.hc a.pos).ending = e ∧
        SameItems file (!o'.defers && (o'.mode == .loadNever)) items (run o' ⟨0, file⟩ a.hdr a.hc a.pos).items := by
      intro n a items b hs he
      induction hs with
      | refl a =>
        rw [run_eq _ _ _ _ _ (Nat.zero_le _)]
        have hm := grainsStep_mode o o' file ho hl hcc a.hdr a.hc a.pos
        cases he with
        | eof h => rw [h] at hm; simp only at hm; rw [hm]; exact ⟨rfl, rfl, .nil⟩
        | err h hne =>
          rw [h] at hm; simp only at hm; rw [hm]; rename_i e
          cases e <;> first | exact absurd rfl hne | exact ⟨rfl, rfl, .nil⟩
        | stop h =>
          rw [h] at hm
          obtain ⟨st', hm, h4⟩ := hm
          rcases h4 with ⟨_, _, h4, _⟩ | ⟨-, rfl⟩
          · simp at h4
          · rw [hm]; exact ⟨rfl, rfl, .nil⟩
      | next h1 _ ih =>
        rename_i a h' hc' q items b _
        rw [run_eq _ _ _ _ _ (Nat.zero_le _)]
        have hm := grainsStep_mode o o' file ho hl hcc a.hdr a.hc a.pos
        rw [h1] at hm
        obtain ⟨st', hm, h4⟩ := hm
        rcases h4 with ⟨_, _, h4, _⟩ | ⟨-, rfl⟩
        · simp at h4
        · rw [hm]; exact ih he
      | yield h1 _ ih =>
        rename_i a it q items b _
        rw [run_eq _ _ _ _ _ (Nat.zero_le _)]
        have hm := grainsStep_mode o o' file ho hl hcc a.hdr a.hc a.pos
        rw [h1] at hm
        obtain ⟨st', hm, h4⟩ := hm
        rcases h4 with ⟨it1, it2, h4, rfl, h5⟩ | ⟨h4, -⟩
        · simp only [Step.yield.injEq] at h4
          subst h4
          rw [hm]
          obtain ⟨i1, i2, i3⟩ := ih he
          exact ⟨i1, i2, .cons h5 i3⟩
        · exact absurd rfl (h4 _)
    simpa [Run.prepend] using key h1 h2

theorem SameItems.view {file : Bytes} {l l' : List Item} (h : SameItems file false l l') :
    l'.map (Item.view file) = l.map (Item.view file) := by
  induction h with
  | nil => rfl
  | cons h1 _ ih =>
    obtain ⟨a, b, c⟩ := h1
    rw [List.map_cons, List.map_cons, ih]
    simp only [SameData, Bool.false_eq_true, if_false] at c
    unfold Item.view
    rw [a, b, c]

theorem SameItems.never {file : Bytes} {l l' : List Item} (h : SameItems file true l l') :
    l'.map (Item.view file) = l.map (fun it => (it.info, none, it.localId)) := by
  induction h with
  | nil => rfl
  | cons h1 _ ih =>
    obtain ⟨a, b, c⟩ := h1
    rw [List.map_cons, List.map_cons, ih]
    simp only [SameData, if_true] at c
    unfold Item.view
    rw [a, b, c]
    rfl

/-- **C08**, the three modes against immediate loading, for a seekable file. -/
theorem C08_modes (file : Bytes) (ids : Option (List Nat)) (cc sk sk' : Bool) (r : Run)
    (h : decodeFile ⟨ids, .loadImmediately, cc, sk⟩ file = .ok r) :
    (∀ m, m ≠ .loadNever → ∃ r', decodeFile ⟨ids, m, cc, sk'⟩ file = .ok r' ∧ r'.hdr = r.hdr ∧
      r'.ending = r.ending ∧ r'.view file = r.view file) ∧
    (∃ r', decodeFile ⟨ids, .loadNever, cc, sk'⟩ file = .ok r' ∧ r'.hdr = r.hdr ∧ r'.ending = r.ending ∧
      r'.view file = r.items.map (fun it => (it.info, none, it.localId))) := by
  constructor
  · intro m hm
    have := C08_modes_agree ⟨ids, .loadImmediately, cc, sk⟩ ⟨ids, m, cc, sk'⟩ file (by simp) rfl rfl
    rw [h] at this
    obtain ⟨r', h1, h2, h3, h4⟩ := this
    refine ⟨r', h1, h2, h3, ?_⟩
    have e : (!(Opts.defers ⟨ids, m, cc, sk'⟩) && (m == .loadNever)) = false := by simp [hm]
    simp only [e] at h4
    exact h4.view
  · have := C08_modes_agree ⟨ids, .loadImmediately, cc, sk⟩ ⟨ids, .loadNever, cc, sk'⟩ file (by simp) rfl rfl
    rw [h] at this
    obtain ⟨r', h1, h2, h3, h4⟩ := this
    refine ⟨r', h1, h2, h3, ?_⟩
    have e : (!(Opts.defers ⟨ids, .loadNever, cc, sk'⟩) && (Mode.loadNever == .loadNever)) = true := by
      cases sk' <;> rfl
    simp only [e] at h4
    exact h4.never

example : ∃ r, decodeFile ⟨none, .loadImmediately, true, true⟩ sample.bytes = .ok r ∧
    r.view sample.bytes ≠ [] := by
  obtain ⟨r, h1, h2, -⟩ := decodeFile_concat (o := ⟨none, .loadImmediately, true, true⟩) rfl sample_ok
    (decoFile_self sample_ok) (fs := []) (by simp)
  simp only [List.flatMap_nil, List.append_nil] at h1 h2
  refine ⟨r, h1, ?_⟩
  rw [h2]
  decide +kernel

end Verif.Props

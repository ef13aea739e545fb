import Verif.Gsf.Follow
import Verif.Props.C81

/-!
# C82: damage inside a block stays there
-/

namespace Verif.Props

open Verif Verif.Gsf Verif.Session

/-! ## Specification -/

/-- A block that was damaged inside: as long as before, and with the first eight bytes, the tag and the size, as before. -/
def InsideOnly (a b : Bytes) : Prop := b.length = a.length ∧ b.take 8 = a.take 8

instance (a b : Bytes) : Decidable (InsideOnly a b) := by unfold InsideOnly; infer_instance

/-- A block that was damaged, but not in its size: it is as long as before, with the same four bytes for the size. Its tag may have changed, if it still is
text, and not that of the signature of a file. -/
structure SizeKept (a b : Bytes) : Prop where
  length : b.length = a.length
  size : (b.drop 4).take 4 = (a.drop 4).take 4
  text : ((decodeUtf8 (b.take 4)).map cleanString).isSome = true
  notSig : (decodeUtf8 (b.take 4)).map cleanString ≠ some tSSBB

instance (a b : Bytes) : Decidable (SizeKept a b) :=
  decidable_of_iff (b.length = a.length ∧ (b.drop 4).take 4 = (a.drop 4).take 4 ∧ ((decodeUtf8 (b.take 4)).map cleanString).isSome = true ∧
    (decodeUtf8 (b.take 4)).map cleanString ≠ some tSSBB) ⟨fun ⟨a, b, c, d⟩ => ⟨a, b, c, d⟩, fun ⟨a, b, c, d⟩ => ⟨a, b, c, d⟩⟩

/-- A file with the contents `f` that was damaged inside its head and in its grains, but for their sizes: `hb` is what is now in place of the head, and `ps` are the
grains with what is now in their place. -/
structure Damaged (f : FileSpec) (hb : Bytes) (ps : List ((Nat × Grain) × Bytes)) (file : Bytes) : Prop where
  head : InsideOnly (encodeHead f.head) hb
  grains : ps.map Prod.fst = f.grains
  inside : ∀ x ∈ ps, SizeKept (encodeGrain f.major x.1.1 x.1.2) x.2
  file : file = encodeFileHeader f.major f.minor ++ (hb ++ (ps.flatMap Prod.snd ++ terminator))

/-- What a call of `next` tells the program: a grain (its metadata, data and local id), that there are no more, or an exception. -/
inductive Reply where
  | grain (v : Meta × Option Bytes × Nat)
  | stop
  | raised (e : Err)
  deriving DecidableEq, Repr

/-- The same of an answer of the model. -/
def _root_.Verif.Session.Pulled.reply (file : Bytes) : Pulled → Reply
  | .item it => .grain (it.view file)
  | .stop => .stop
  | .raised e => .raised e

/-- The replies that a program may get for a damaged file: for each grain that is as it was, and that it asked for, the grain; for each grain that was damaged
nothing, some other grain, an end, or `GSFDecodeError`. -/
inductive Replies (o : Opts) (major : Nat) : List ((Nat × Grain) × Bytes) → List Reply → Prop where
  | nil : Replies o major [] []
  | intact {x b ps rs} : b = encodeGrain major x.1 x.2 → o.drops x.1 = false → Replies o major ps rs →
      Replies o major ((x, b) :: ps) (.grain (o.viewOf major x) :: rs)
  | unwanted {x b ps rs} : b = encodeGrain major x.1 x.2 → o.drops x.1 = true → Replies o major ps rs → Replies o major ((x, b) :: ps) rs
  | damaged {x b ps rs} (l : List Reply) : b ≠ encodeGrain major x.1 x.2 →
      (l = [] ∨ (∃ v, l = [.grain v]) ∨ l = [.stop] ∨ l = [.raised .decode]) → Replies o major ps rs → Replies o major ((x, b) :: ps) (l ++ rs)

/-- How a loop over all the grains of a file ends: at its terminator, or at the end of the file if several files may follow one another. -/
def usualEnd (o : Opts) : End := if o.concat then .eof else .break_

/-- The first `n` replies, when all that follow them are ends. -/
def firstReplies (n : Nat) (rs : List Reply) : List Reply := (rs ++ List.replicate n Reply.stop).take n

/-- The grains that are as they were and that were asked for, as the program is to see them. -/
def undamaged (o : Opts) (major : Nat) (ps : List ((Nat × Grain) × Bytes)) : List (Meta × Option Bytes × Nat) :=
  (ps.filter (fun x => x.2 == encodeGrain major x.1.1 x.1.2 && !o.drops x.1.1)).map (fun x => o.viewOf major x.1)

/-- The grains among the replies. -/
def grainsIn (rs : List Reply) : List (Meta × Option Bytes × Nat) := rs.filterMap (fun r => match r with | .grain v => some v | _ => none)

/-- What a `for` loop makes of these replies: it ends at the first that is not a grain. -/
def loopOf (normal : End) : List Reply → List (Meta × Option Bytes × Nat) × End
  | [] => ([], normal)
  | .grain v :: rs => (v :: (loopOf normal rs).1, (loopOf normal rs).2)
  | .stop :: _ => ([], .eof)
  | .raised e :: _ => ([], .err e)

/-! ## Proofs -/

namespace C82

theorem frame {b : Blk} {t : List Char} (hok : b.Ok t) {b' : Bytes} (hin : InsideOnly b.bytes b') {s : Stream} {p : Nat} (hat : At s p b')
    {want : Option (List Char)} {r : Bool} (hw : want = none ∨ want = some t) :
    enter want r s p = .ok (⟨p, b.size, t⟩, p + 8) ∧ Block.endPos ⟨p, b.size, t⟩ = p + b'.length := by
  have e8 : b.bytes.take 8 = b.tb ++ encodeUint b.size 4 := by
    unfold Blk.bytes
    rw [← List.append_assoc, List.take_left' (by simp [hok.tbLen])]
  have hat8 : At s p (b.tb ++ encodeUint b.size 4) := by
    rw [← e8, ← hin.2]
    rw [← List.take_append_drop 8 b'] at hat
    exact hat.left
  refine ⟨enter_hdr hat8 hok hw, ?_⟩
  rw [hin.1, hok.length]
  rfl

/-- A block whose size was kept is a block. -/
theorem kept_blk {b : Blk} {t : List Char} (hok : b.Ok t) {b' : Bytes} (hin : SizeKept b.bytes b') :
    ∃ (c : Blk) (u : List Char), c.bytes = b' ∧ c.Ok u ∧ c.size = b.size := by
  have hl := hok.length
  have hlen := hin.length
  have h4 : (b'.take 4).length = 4 := by rw [List.length_take]; omega
  have hsz : (b.bytes.drop 4).take 4 = encodeUint b.size 4 := by
    unfold Blk.bytes
    rw [List.drop_left' hok.tbLen, List.take_left' (by simp)]
  obtain ⟨u, hu⟩ := Option.isSome_iff_exists.1 hin.text
  refine ⟨⟨b'.take 4, b.size, b'.drop 8⟩, u, ?_, ⟨h4, hu, fun h => hin.notSig (by rw [hu, h]), hok.sizeLt, ?_⟩, rfl⟩
  · unfold Blk.bytes
    simp only
    rw [← hsz, ← hin.size]
    have : b'.drop 8 = (b'.drop 4).drop 4 := by rw [List.drop_drop]
    rw [this, List.take_append_drop, List.take_append_drop]
  · simp only [List.length_drop]
    omega

/-- One turn over a damaged grain. -/
theorem damaged_step (o : Opts) (h : Hdr) {p : Nat} {lid : Nat} {g : Grain} (hg : g.Ok h.major) {b : Bytes} {s : Stream}
    (hin : SizeKept (encodeGrain h.major lid g) b) (hat : At s p b) :
    (∃ blk, enter none false s p = .ok (blk, p + 8) ∧ blk.endPos = p + b.length) ∧
    (grainsStep o h false s p = .error .eof ∨ grainsStep o h false s p = .error .decode ∨
      grainsStep o h false s p = .ok (.next h false, p + b.length) ∨
      ∃ it, grainsStep o h false s p = .ok (.yield it, p + b.length)) := by
  rw [encodeGrain_eq _ _ _ hg.wf] at hin
  obtain ⟨hsz, hok⟩ := Follow.grai_len (lid := lid) hg
  obtain ⟨c, u, rfl, hcok, hcs⟩ := kept_blk hok hin
  have hen := enter_blk (want := none) (r := false) hat hcok (.inl rfl)
  have hend : Block.endPos ⟨p, c.size, u⟩ = p + c.bytes.length := by rw [hcok.length]; rfl
  refine ⟨⟨_, hen, hend⟩, ?_⟩
  by_cases hu : u = tGrai
  case neg => exact .inr (.inr (.inl (turn_other o h p hcok hu s hat)))
  subst hu
  have hnf := grainsStep_noFuel o h false hat.base
  cases hs : grainsStep o h false s p with
  | error e =>
    rcases C81.step hs with rfl | rfl | rfl
    · exact .inl rfl
    · exact .inr (.inl rfl)
    · exact absurd hs hnf
  | ok v =>
    right; right
    unfold grainsStep at hs
    rw [if_neg (by simp), Rd.bind_of_ok hen, if_neg (by simp), if_neg (by simp only; omega)] at hs
    obtain ⟨lid', q1, -, hs⟩ := Rd.bind_ok hs
    rw [Rd.ite_apply] at hs
    split at hs
    · simp only [Block.exit, Rd.bind_apply, Rd.seek_apply, Rd.pure_apply, hend] at hs
      cases hs
      exact .inl rfl
    · obtain ⟨info, q2, -, hs⟩ := Rd.bind_ok hs
      obtain ⟨data, q3, -, hs⟩ := Rd.bind_ok hs
      simp only [Block.exit, Rd.bind_apply, Rd.seek_apply, Rd.pure_apply, hend] at hs
      cases hs
      exact .inr ⟨_, rfl⟩

/-- The headers, with a damaged head. -/
theorem damaged_head {f : FileSpec} (hf : f.Ok) {hb : Bytes} (hin : InsideOnly (encodeHead f.head) hb) {file : Bytes}
    (hat : At ⟨0, file⟩ 0 (encodeFileHeader f.major f.minor ++ hb)) :
    (∃ e, decodeFileHeaders false ⟨0, file⟩ 0 = .error e ∧ (IsGsfError e ∨ e = .unicode ∨ e = .value)) ∨
    ∃ hd, decodeFileHeaders false ⟨0, file⟩ 0 =
      .ok (⟨f.major, f.minor, hd⟩, (encodeFileHeader f.major f.minor).length + hb.length) := by
  have h1 : Reads (decodeSsb false) (encodeFileHeader f.major f.minor) (f.major, f.minor) := by
    have hm := hf.major
    have hn := hf.minor
    have e : encodeFileHeader f.major f.minor =
      padString (tSSBB ++ tGrsg) 8 ++ (encodeUint f.major 2 ++ encodeUint f.minor 2) := by
      have : padString (tSSBB ++ tGrsg) 8 = tagBytes tSSBB ++ tagBytes tGrsg := by decide
      rw [this]; simp only [encodeFileHeader, List.append_assoc]
    rw [e]
    unfold decodeSsb
    simp only [Bool.not_false, if_true]
    apply Reads.bind (reads_padString (by decide) (by decide))
    rw [if_neg (by simp)]
    apply Reads.bind (reads_uint (by omega))
    exact (reads_uint (n := 2) (by omega)).bind_pure
  have e1 := h1 _ _ hat.left
  rw [encodeHead_eq _ hf.head.wf] at hin
  have hok : (headBlk f.head).Ok tHead := by
    refine mkBlk_ok tc tne ?_
    have h2 := hf.head.2.2.2.2
    have h3 := headKids_length f.head hf.head.wf
    have h4 := headFixed_length f.head hf.head.1
    unfold headSize at h2
    rw [List.length_append, h3, h4]
    omega
  obtain ⟨hen, hend⟩ := frame hok hin hat.right (want := some tHead) (r := false) (.inr rfl)
  cases hd : decodeFileHeaders false ⟨0, file⟩ 0 with
  | error e =>
    left
    refine ⟨e, rfl, ?_⟩
    have hnf := (decodeFileHeaders_safe false).noFuel (s := ⟨0, file⟩) (p := 0) (Nat.zero_le _)
    obtain ⟨h2, h3⟩ := C81.headers hd
    rcases h2 with rfl | rfl | h | h | h
    · have := h3 rfl
      rw [e1] at this
      cases this
    · exact absurd hd hnf
    · exact .inl h
    · exact .inr (.inl h)
    · exact .inr (.inr h)
  | ok v =>
    right
    unfold decodeFileHeaders at hd
    rw [Rd.bind_of_ok e1] at hd
    simp only [Rd.ite_apply] at hd
    rw [if_pos hf.major] at hd
    obtain ⟨hd', q1, h2, h3⟩ := Rd.bind_ok hd
    have h4 := Rd.eofToDecode_ok h2
    unfold decodeHeadBlock at h4
    rw [Rd.bind_of_ok hen] at h4
    obtain ⟨hd2, q2, -, h5⟩ := Rd.bind_ok h4
    simp only [Block.exit, Rd.bind_apply, Rd.seek_apply, Rd.pure_apply, hend] at h5
    cases h5
    simp only [Rd.pure_apply] at h3
    cases h3
    exact ⟨_, by rw [Nat.zero_add]⟩

theorem pad_cons (n : Nat) (a : Reply) (rs : List Reply) : firstReplies (n + 1) (a :: rs) = a :: firstReplies n rs := by
  unfold firstReplies
  rw [List.cons_append, List.take_succ_cons, List.replicate_succ', ← List.append_assoc, List.take_append_of_le_length (by simp)]

theorem pad_nil (n : Nat) : firstReplies n [] = List.replicate n Reply.stop := by simp [firstReplies]

theorem pad_zero (rs : List Reply) : firstReplies 0 rs = [] := by simp [firstReplies]

theorem pull_end (o : Opts) (file : Bytes) (h : Hdr) : pull o file h false file.length = (.stop, h, some file.length) := by
  have hf : (⟨0, file⟩ : Stream).fin = file.length := by simp [Stream.fin]
  have he := enter_eof (want := none) (r := false) (s := ⟨0, file⟩) (p := file.length) (Nat.zero_le _) (by omega)
  have hs : grainsStep o h false ⟨0, file⟩ file.length = .error .eof := by
    unfold grainsStep
    rw [if_neg (by simp), Rd.bind_of_error he]
  rw [pull_eq, hs]
  simp only [eofPos, he, hf, Bool.false_eq_true, if_false]
  simp

theorem follow_end (o : Opts) (file : Bytes) (h : Hdr) : ∀ n, follow h (some file.length) (List.replicate n (o, file)) = List.replicate n .stop
  | 0 => rfl
  | n + 1 => by
    rw [List.replicate_succ, follow, pull_end]
    simp only
    rw [follow_end o file h n, List.replicate_succ]

theorem follow_congr {o : Opts} {file : Bytes} {h : Hdr} {p q : Nat} (hp : pull o file h false p = pull o file h false q) (n : Nat) :
    follow h (some p) (List.replicate n (o, file)) = follow h (some q) (List.replicate n (o, file)) := by
  cases n with
  | zero => rfl
  | succ n => rw [List.replicate_succ, follow, follow, hp]

theorem main (o : Opts) (h : Hdr) (file : Bytes) : ∀ (ps : List ((Nat × Grain) × Bytes)) (p : Nat),
    (∀ x ∈ ps, x.1.1 < 2 ^ 16 ∧ x.1.2.Ok h.major ∧ SizeKept (encodeGrain h.major x.1.1 x.1.2) x.2) →
    At ⟨0, file⟩ p (ps.flatMap Prod.snd ++ terminator) → p + (ps.flatMap Prod.snd ++ terminator).length = file.length →
    ∃ rs, Replies o h.major ps rs ∧
      ((run o ⟨0, file⟩ h false p).view file, (run o ⟨0, file⟩ h false p).ending) = loopOf (usualEnd o) rs ∧
      (o.seekable = true → ∀ n, (follow h (some p) (List.replicate n (o, file))).map (Pulled.reply file) = firstReplies n rs) := by
  intro ps
  induction ps with
  | nil =>
    intro p _ hat hlen
    simp only [List.flatMap_nil, List.nil_append] at hat hlen
    have ht := terminator_step o h p _ hat
    have hl8 : terminator.length = 8 := by decide
    rw [hl8] at hlen
    refine ⟨[], .nil, ?_, ?_⟩
    · rw [run_eq _ _ _ _ _ (Nat.zero_le _), ht]
      by_cases hc : o.concat = true
      · simp only [hc, if_true, usualEnd, loopOf]
        rw [run_end o h (Nat.zero_le _) (by simp only [Stream.fin]; omega)]
        rfl
      · simp only [hc, if_false, usualEnd, loopOf, Bool.false_eq_true]
        rfl
    · intro _ n
      rw [pad_nil]
      have hp : pull o file h false p = pull o file h false file.length := by
        rw [pull_end, pull_eq, ht, ← hlen]
        by_cases hc : o.concat = true
        · simp only [hc, if_true]
          rw [hlen, pull_end]
        · simp only [hc, if_false, Bool.false_eq_true]
      rw [follow_congr hp, follow_end]
      simp [Pulled.reply]
  | cons x ps ih =>
    intro p hps hat hlen
    obtain ⟨⟨lid, g⟩, b⟩ := x
    obtain ⟨hl, hg, hin⟩ := hps _ (List.mem_cons_self ..)
    simp only at hl hg hin
    simp only [List.flatMap_cons, List.append_assoc] at hat hlen
    obtain ⟨rs, k1, k2, k3⟩ := ih (p + b.length) (fun y hy => hps y (List.mem_cons_of_mem _ hy)) hat.right (by
      simp only [List.length_append] at hlen ⊢; omega)
    have hnext : ∀ {l : List Reply}, l = [] → grainsStep o h false ⟨0, file⟩ p = .ok (.next h false, p + b.length) →
        ((run o ⟨0, file⟩ h false p).view file, (run o ⟨0, file⟩ h false p).ending) = loopOf (usualEnd o) (l ++ rs) ∧
        (o.seekable = true → ∀ n, (follow h (some p) (List.replicate n (o, file))).map (Pulled.reply file) = firstReplies n (l ++ rs)) := by
      rintro l rfl hs
      refine ⟨?_, fun hsk n => ?_⟩
      · rw [run_eq _ _ _ _ _ (Nat.zero_le _), hs]; exact k2
      · rw [follow_congr (q := p + b.length) (by rw [pull_eq, hs])]; exact k3 hsk n
    have hyield : ∀ it, grainsStep o h false ⟨0, file⟩ p = .ok (.yield it, p + b.length) →
        ((run o ⟨0, file⟩ h false p).view file, (run o ⟨0, file⟩ h false p).ending) = loopOf (usualEnd o) (.grain (it.view file) :: rs) ∧
        (o.seekable = true → ∀ n, (follow h (some p) (List.replicate n (o, file))).map (Pulled.reply file) =
          firstReplies n (.grain (it.view file) :: rs)) := by
      intro it hs
      refine ⟨?_, fun hsk n => ?_⟩
      · rw [run_eq _ _ _ _ _ (Nat.zero_le _), hs]
        simp only [loopOf, ← k2]
        rfl
      · cases n with
        | zero => rw [pad_zero]; rfl
        | succ n =>
          rw [List.replicate_succ, follow, pull_eq, hs, pad_cons]
          simp only [List.map_cons, Pulled.reply]
          rw [k3 hsk n]
    by_cases hb : b = encodeGrain h.major lid g
    · have hturn := turn_grain o h p hl hg (decoGrai_self (lid := lid) hg)
      rw [← encodeGrain_eq _ _ _ hg.wf, ← hb] at hturn
      have hs := hturn _ hat.left
      unfold Opts.grainOut at hs
      cases hdr : o.drops lid with
      | true =>
        rw [hdr, if_pos rfl] at hs
        obtain ⟨j1, j2⟩ := hnext rfl hs
        exact ⟨rs, .unwanted hb hdr k1, j1, j2⟩
      | false =>
        rw [hdr, if_neg (by simp)] at hs
        obtain ⟨j1, j2⟩ := hyield _ hs
        have hv : Item.view file ⟨g.toMeta h.major, o.dataOf (p + (10 + gbhdSize h.major g + 8)) (g.data.getD []), lid⟩ =
            o.viewOf h.major (lid, g) := by
          unfold Item.view Opts.viewOf Grain.payload
          simp only
          rw [o.dataOf_load ((decoGrai_self (lid := lid) hg).data_at (by
            rw [← encodeGrain_eq _ _ _ hg.wf, ← hb]; exact hat.left))]
        rw [hv] at j1 j2
        exact ⟨_, .intact hb hdr k1, j1, j2⟩
    · obtain ⟨⟨blk, hen, hend⟩, hst⟩ := damaged_step o h hg hin hat.left
      rcases hst with hs | hs | hs | ⟨it, hs⟩
      · refine ⟨_, .damaged [.stop] hb (.inr (.inr (.inl rfl))) k1, ?_, fun hsk n => ?_⟩
        · rw [run_eq _ _ _ _ _ (Nat.zero_le _), hs]; rfl
        · cases n with
          | zero => rw [pad_zero]; rfl
          | succ n =>
            have e : pull o file h false p = (.stop, h, some (p + b.length)) := by
              rw [pull_eq, hs]
              simp only [eofPos, hen, hend, hsk, Bool.false_eq_true, if_false, if_true]
            rw [List.replicate_succ, follow, e, List.singleton_append, pad_cons]
            simp only [List.map_cons, Pulled.reply]
            rw [k3 hsk n]
      · refine ⟨_, .damaged [.raised .decode] hb (.inr (.inr (.inr rfl))) k1, ?_, fun hsk n => ?_⟩
        · rw [run_eq _ _ _ _ _ (Nat.zero_le _), hs]; rfl
        · cases n with
          | zero => rw [pad_zero]; rfl
          | succ n =>
            have e : pull o file h false p = (.raised .decode, h, some (p + b.length)) := by
              rw [pull_eq, hs]
              simp only [raisedPos, hen, hend, hsk, Bool.false_eq_true, if_false, if_true]
            rw [List.replicate_succ, follow, e, List.singleton_append, pad_cons]
            simp only [List.map_cons, Pulled.reply]
            rw [k3 hsk n]
      · obtain ⟨j1, j2⟩ := hnext rfl hs
        exact ⟨_, .damaged [] hb (.inl rfl) k1, j1, j2⟩
      · obtain ⟨j1, j2⟩ := hyield it hs
        exact ⟨_, .damaged [.grain (it.view file)] hb (.inr (.inl ⟨_, rfl⟩)) k1, j1, j2⟩

theorem sublist {o : Opts} {major : Nat} {ps : List ((Nat × Grain) × Bytes)} {rs : List Reply} (h : Replies o major ps rs) :
    (undamaged o major ps).Sublist (grainsIn rs) ∧ rs.length ≤ ps.length := by
  induction h with
  | nil => exact ⟨.slnil, Nat.le_refl _⟩
  | intact hb hd _ ih =>
    refine ⟨?_, by simp only [List.length_cons]; omega⟩
    unfold undamaged grainsIn at ih ⊢
    rw [List.filter_cons_of_pos (by simp [← hb, hd]), List.map_cons, List.filterMap_cons]
    exact ih.1.cons_cons _
  | unwanted hb hd _ ih =>
    refine ⟨?_, by simp only [List.length_cons]; omega⟩
    unfold undamaged at ih ⊢
    rw [List.filter_cons_of_neg (by simp [hd])]
    exact ih.1
  | damaged l hb hl _ ih =>
    refine ⟨?_, ?_⟩
    · unfold undamaged grainsIn at ih ⊢
      rw [List.filter_cons_of_neg (by simp [hb]), List.filterMap_append]
      exact ih.1.trans (List.sublist_append_right ..)
    · simp only [List.length_append, List.length_cons]
      rcases hl with rfl | ⟨v, rfl⟩ | rfl | rfl <;> simp <;> omega

theorem before {o : Opts} {major : Nat} {rs : List Reply} : ∀ {pre ps : List ((Nat × Grain) × Bytes)},
    (∀ x ∈ pre, x.2 = encodeGrain major x.1.1 x.1.2) → Replies o major (pre ++ ps) rs →
    ∃ rs', Replies o major ps rs' ∧ rs = (undamaged o major pre).map Reply.grain ++ rs' := by
  intro pre
  induction pre generalizing rs with
  | nil => intro ps _ h; exact ⟨rs, h, rfl⟩
  | cons x pre ih =>
    intro ps hall h
    obtain ⟨x, b⟩ := x
    have hb : b = encodeGrain major x.1 x.2 := hall _ (List.mem_cons_self ..)
    have hall' := fun y hy => hall y (List.mem_cons_of_mem _ hy)
    rw [List.cons_append] at h
    unfold undamaged
    cases h with
    | intact _ hd h =>
      obtain ⟨rs', k1, rfl⟩ := ih hall' h
      refine ⟨rs', k1, ?_⟩
      rw [List.filter_cons_of_pos (by simp [← hb, hd])]
      rfl
    | unwanted _ hd h =>
      obtain ⟨rs', k1, rfl⟩ := ih hall' h
      refine ⟨rs', k1, ?_⟩
      rw [List.filter_cons_of_neg (by simp [hd])]
      rfl
    | damaged l hn _ _ => exact absurd hb hn

theorem loop_grains (e : End) (l : List (Meta × Option Bytes × Nat)) (rs : List Reply) :
    (loopOf e (l.map Reply.grain ++ rs)).1 = l ++ (loopOf e rs).1 := by
  induction l with
  | nil => rfl
  | cons v l ih => simp only [List.map_cons, List.cons_append, loopOf, ih]

end C82

/-! ## Theorems -/

/-- **C82.**  A file is damaged inside the head and in any of its grains: any of the bytes of these blocks may have changed, but for their sizes and the
tag of the head; the tags of grains are to be text other than the signature.  If it can not be opened, the head was damaged, and the exception is one of those listed.  If it can, its version is right, the head is right if it
was not damaged, and there is one sequence of replies, right for every grain that was not damaged, that is the result both of a `for` loop, which sees the
part of it before the first exception or end, and, on a file that can seek, of a program that goes on asking whatever it is told. -/
theorem C82_contained (o : Opts) {f : FileSpec} (hf : f.Ok) {hb : Bytes} {ps : List ((Nat × Grain) × Bytes)} {file : Bytes}
    (hd : Damaged f hb ps file) :
    (hb ≠ encodeHead f.head ∧ ∃ e, (IsGsfError e ∨ e = .unicode ∨ e = .value) ∧ decodeFile o file = .error e ∧
      ∀ calls, watch file calls = .error e) ∨
    ∃ h rs, h.major = f.major ∧ h.minor = f.minor ∧ (hb = encodeHead f.head → h.head = f.head.toHead) ∧ Replies o f.major ps rs ∧
      (∃ r, decodeFile o file = .ok r ∧ (r.view file, r.ending) = loopOf (usualEnd o) rs) ∧
      (o.seekable = true → ∀ n, ∃ answers, watch file (List.replicate n (o, file)) = .ok (h, answers) ∧
        answers.map (Pulled.reply file) = firstReplies n rs) := by
  have hat : At ⟨0, file⟩ 0 (encodeFileHeader f.major f.minor ++ (hb ++ (ps.flatMap Prod.snd ++ terminator))) := by
    rw [hd.file]; exact at_self _ _
  have hat' := hat
  rw [← List.append_assoc] at hat'
  have hclean : hb = encodeHead f.head → decodeFileHeaders false ⟨0, file⟩ 0 =
      .ok (⟨f.major, f.minor, f.head.toHead⟩, 0 + (encodeFileHeader f.major f.minor ++ hb).length) := by
    intro e
    have := fileHeaders_read hf.major hf.minor hf.head (decoHead_self hf.head) (pre := []) (fun _ h => by simp at h) ⟨0, file⟩ 0
    rw [← encodeHead_eq _ hf.head.wf, ← e] at this
    exact this hat'.left
  rcases C82.damaged_head hf hd.head hat'.left with ⟨e, he, hk⟩ | ⟨hh, he⟩
  · refine .inl ⟨fun hc => ?_, e, hk, ?_, fun calls => ?_⟩
    · rw [hclean hc] at he; cases he
    · unfold decodeFile; rw [he]
    · unfold watch; rw [he]
  · right
    have hgr : ∀ x ∈ ps, x.1.1 < 2 ^ 16 ∧ x.1.2.Ok f.major ∧ SizeKept (encodeGrain f.major x.1.1 x.1.2) x.2 := by
      intro x hx
      have hm : x.1 ∈ f.grains := by rw [← hd.grains]; exact List.mem_map_of_mem hx
      have := hf.grains _ hm
      exact ⟨this.1, this.2, hd.inside x hx⟩
    obtain ⟨rs, k1, k2, k3⟩ := C82.main o ⟨f.major, f.minor, hh⟩ file ps (0 + (encodeFileHeader f.major f.minor ++ hb).length) hgr hat'.right (by
      rw [Nat.zero_add, ← List.length_append, List.append_assoc, ← hd.file])
    rw [Nat.zero_add, List.length_append] at k2 k3
    refine ⟨⟨f.major, f.minor, hh⟩, rs, rfl, rfl, fun hc => ?_, k1, ⟨_, ?_, k2⟩, fun hsk n => ⟨_, ?_, k3 hsk n⟩⟩
    · rw [hclean hc] at he
      simp only [Except.ok.injEq, Prod.mk.injEq, Hdr.mk.injEq] at he
      exact he.1.2.2.symm
    · unfold decodeFile; rw [he]; simp only [grains_eq_run]
    · unfold watch; rw [he]

/-- So, if the head was not damaged, a program that asks as often as there are grains gets all those that were not damaged, in order. -/
theorem C82_recovered {o : Opts} (hsk : o.seekable = true) {f : FileSpec} (hf : f.Ok) {ps : List ((Nat × Grain) × Bytes)} {file : Bytes}
    (hd : Damaged f (encodeHead f.head) ps file) {n : Nat} (hn : ps.length ≤ n) :
    ∃ answers, watch file (List.replicate n (o, file)) = .ok (f.hdr, answers) ∧
      (undamaged o f.major ps).Sublist (grainsIn (answers.map (Pulled.reply file))) := by
  rcases C82_contained o hf hd with ⟨h, _⟩ | ⟨h, rs, h1, h2, h3, h4, _, h5⟩
  · exact absurd rfl h
  · obtain ⟨answers, k1, k2⟩ := h5 hsk n
    refine ⟨answers, ?_, ?_⟩
    · rw [k1]
      obtain ⟨_, _, _⟩ := h
      simp only at h1 h2
      subst h1 h2
      have h6 := h3 rfl
      simp only at h6
      rw [h6]
      rfl
    · obtain ⟨j1, j2⟩ := C82.sublist h4
      rw [k2]
      unfold firstReplies
      rw [List.take_append, List.take_of_length_le (by omega)]
      unfold grainsIn at j1 ⊢
      rw [List.filterMap_append]
      exact j1.trans (List.sublist_append_left ..)

/-- And a `for` loop gets all the grains before the first that was damaged. -/
theorem C82_before (o : Opts) {f : FileSpec} (hf : f.Ok) {pre ps : List ((Nat × Grain) × Bytes)} {file : Bytes}
    (hd : Damaged f (encodeHead f.head) (pre ++ ps) file) (hall : ∀ x ∈ pre, x.2 = encodeGrain f.major x.1.1 x.1.2) :
    ∃ r, decodeFile o file = .ok r ∧ undamaged o f.major pre <+: r.view file := by
  rcases C82_contained o hf hd with ⟨h, _⟩ | ⟨h, rs, -, -, -, h4, ⟨r, k1, k2⟩, -⟩
  · exact absurd rfl h
  · obtain ⟨rs', -, rfl⟩ := C82.before hall h4
    have h5 : r.view file = _ := congrArg Prod.fst k2
    rw [C82.loop_grains] at h5
    exact ⟨r, k1, (loopOf (usualEnd o) rs').1, h5.symm⟩

/-! ## Counterexample and examples -/

/-- The grains of the sample file, with byte `i` of the first and byte `j` of the fourth set to 255. -/
def hurt (i j : Nat) : List ((Nat × Grain) × Bytes) :=
  sample.grains.mapIdx (fun n x => (x, if n = 0 then (encodeGrain 9 x.1 x.2).set i 255 else if n = 3 then (encodeGrain 9 x.1 x.2).set j 255 else
    encodeGrain 9 x.1 x.2))

/-- The file with these grains. -/
def hurtFile (i j : Nat) : Bytes :=
  encodeFileHeader 9 0 ++ (encodeHead sampleHead ++ ((hurt i j).flatMap Prod.snd ++ terminator))

/-- What is shown of a reply: the segment of a grain, the end, an exception. -/
def Reply.brief : Reply → Option (Option Nat)
  | .grain v => some (some v.2.2)
  | .stop => none
  | .raised _ => some none

/-- The damage is not always reported.  Byte 96 of the first grain is one of those of the number of its time labels.  When it is wrong a `for` loop ends without
any grain and without an exception, as if the file had none.  All six other grains are still there for a program that asks again. -/
theorem C82_silent_counterexample :
    (decodeFile {} (hurtFile 96 300)).toOption.map (fun r => (r.items.length, r.ending)) = some (0, .eof) ∧
    (watch (hurtFile 96 300) (List.replicate 8 ({}, hurtFile 96 300))).toOption.map
      (fun r => r.2.map (fun a => (Pulled.reply (hurtFile 96 300) a).brief)) =
      some [none, some (some 300), some (some 1), some (some 1), some (some 1), some (some 300), some (some 300), none] := by
  decide +kernel

theorem hurt_damaged : Damaged sample (encodeHead sample.head) (hurt 96 20) (hurtFile 96 20) :=
  ⟨⟨rfl, rfl⟩, by decide +kernel, by decide +kernel, rfl⟩

/-- The hypotheses of the theorems, and the grains that are not damaged. -/
example : Damaged sample (encodeHead sample.head) (hurt 96 20) (hurtFile 96 20) ∧ (undamaged {} 9 (hurt 96 20)).map (fun v => v.2.2) = [300, 1, 1, 300, 300] ∧
    (undamaged { localIds := some [1] } 9 (hurt 96 20)).map (fun v => v.2.2) = [1, 1] :=
  ⟨hurt_damaged, by decide +kernel, by decide +kernel⟩

/-- The replies: an end and a grain with other metadata for the two that are damaged; or, if the tag of the header of the fourth grain is hit, an exception. -/
example : (watch (hurtFile 96 20) (List.replicate 8 ({}, hurtFile 96 20))).toOption.map
      (fun r => r.2.map (fun a => (Pulled.reply (hurtFile 96 20) a).brief)) =
      some [none, some (some 300), some (some 1), some (some 1), some (some 1), some (some 300), some (some 300), none] ∧
    (watch (hurtFile 96 10) (List.replicate 8 ({}, hurtFile 96 10))).toOption.map
      (fun r => r.2.map (fun a => (Pulled.reply (hurtFile 96 10) a).brief)) =
      some [none, some (some 300), some (some 1), some none, some (some 1), some (some 300), some (some 300), none] := by
  decide +kernel

/-- A damaged head: the file can not be opened. -/
example : Damaged sample ((encodeHead sample.head).set 30 255) ((hurt 300 300)) (encodeFileHeader 9 0 ++
      ((encodeHead sample.head).set 30 255 ++ ((hurt 300 300).flatMap Prod.snd ++ terminator))) ∧
    (decodeFile {} (encodeFileHeader 9 0 ++ ((encodeHead sample.head).set 30 255 ++ ((hurt 300 300).flatMap Prod.snd ++ terminator)))).toOption.isNone :=
  ⟨⟨by decide +kernel, by decide +kernel, by decide +kernel, rfl⟩, by decide +kernel⟩

end Verif.Props

import Verif.Props.C06
import Verif.Props.C84
import Verif.Props.C53
import Verif.Props.C59

/-!
# C06, C51, C53 and C59: standard input that ends early

* `C51_cut`: exactly the whole grains are found.
* `C51_cut_head`: without the whole head an exception is raised.
* `C53_cut_stdin`: exactly their data is written.
* `C59_stdin`, `C59_stdin_cut`: the report is the same as for a file, and of exactly the whole grains.
-/

namespace Verif.Props

open Verif Verif.Gsf Verif.Tools

/-! ## Proofs -/

namespace C51Cut

theorem bind_eof {m : Rd α} {f : α → Rd β} {s : Stream} {p q : Nat} {a : α} (h : m s p = .ok (a, q) ∨ m s p = .error .eof)
    (h2 : f a s q = .error .eof) : (m >>= f) s p = .error .eof := by
  rcases h with h | h
  · rw [Rd.bind_of_ok h, h2]
  · rw [Rd.bind_of_error h]

/-- A block that cannot be entered because the input ended. -/
theorem enter_short {want : Option (List Char)} {r : Bool} {file : Bytes} {p m q : Nat} {b : Block}
    (h : enter want r ⟨0, file⟩ p = .ok (b, q)) (hm : m ≤ file.length) (hlt : m < p + 8) :
    enter want r ⟨0, file.take m⟩ p = .error .eof := by
  rw [take_stream]
  rcases (enter_mono want r).cut m (Nat.zero_le p) h with e | e
  · exfalso
    refine bad_enter (s := (⟨0, file⟩ : Stream).cut m) (Nat.zero_le p) ?_ _ e
    simp only [Stream.fin, Stream.cut, List.length_take]
    omega
  · exact e

theorem grdt_short (o : Opts) (ho : o.seekable = false) {g : Grain} {file : Bytes} {p m : Nat} (hm : m ≤ file.length)
    (hat : At ⟨0, file⟩ p (grdtBlk g).bytes) (hsz : 8 + (g.data.getD []).length < 2 ^ 32) (grai : Block)
    (hend : p + (8 + (g.data.getD []).length) ≤ grai.start + grai.size) (hlt : m < p + (8 + (g.data.getD []).length)) :
    readGrdtD .pipe o grai ⟨0, file.take m⟩ p = .error .eof := by
  have hok : (grdtBlk g).Ok tGrdt := mkBlk_ok tc tne hsz
  have hc : grai.hasChild ⟨0, file.take m⟩ p = .ok (true, p) := by
    rw [hasChild_eq, if_pos (by omega)]
  have he := enter_blk hat hok (want := some tGrdt) (r := false) (.inr rfl)
  have hsize : (grdtBlk g).size = 8 + (g.data.getD []).length := rfl
  unfold readGrdtD
  rw [Rd.bind_of_ok hc, if_pos rfl]
  by_cases h8 : m < p + 8
  · rw [Rd.bind_of_error (enter_short he hm h8)]
  · refine bind_eof (a := ⟨p, (grdtBlk g).size, tGrdt⟩) (q := p + 8) ?_ ?_
    · rw [take_stream]; exact (enter_mono _ _).cut m (Nat.zero_le p) he
    have hr : Block.remaining ⟨p, (grdtBlk g).size, tGrdt⟩ ⟨0, file.take m⟩ (p + 8) =
        .ok (((g.data.getD []).length : Int), p + 8) := by
      unfold Block.remaining
      rw [hsize]
      congr 2
      simp only
      omega
    have hraw : readRawA Dev.pipe.strict (g.data.getD []).length ⟨0, file.take m⟩ (p + 8) = .error .eof := by
      simp only [readRawA, Dev.pipe, Bool.true_and, decide_eq_true_eq]
      rw [if_pos (by simp only [List.length_take, List.length_drop]; omega)]
    rw [Rd.bind_of_ok hr, if_pos (by omega), ho, Bool.false_and, if_neg (by simp)]
    by_cases hn : (o.mode == .loadNever) = true
    · rw [if_pos hn, Int.toNat_natCast]
      have : skipD .pipe (g.data.getD []).length ⟨0, file.take m⟩ (p + 8) = .error .eof := by
        unfold skipD
        rw [if_pos (show Dev.pipe.fwd = true from rfl), Rd.bind_of_error hraw]
      rw [Rd.bind_of_error this]
    · rw [if_neg hn, Int.toNat_natCast, Rd.bind_of_error hraw]

/-- A grain that was asked for and is not whole is not given. -/
theorem grain_short (o : Opts) (ho : o.seekable = false) (h : Hdr) {x : Nat × Grain} (hx : x.1 < 2 ^ 16 ∧ x.2.Ok h.major) {file : Bytes}
    {p m : Nat} (hm : m ≤ file.length) (hat : At ⟨0, file⟩ p (encodeGrain h.major x.1 x.2))
    (hlt : m < p + (encodeGrain h.major x.1 x.2).length) (hdr : ¬ o.drops x.1 = true) :
    grainsStepD .pipe o h false ⟨0, file.take m⟩ p = .error .eof := by
  obtain ⟨lid, g⟩ := x
  obtain ⟨hl, hg⟩ := hx
  simp only at *
  have hd := decoGrai_self (lid := lid) hg
  have hlenG := encodeGrain_length h.major lid g hg.wf
  rw [encodeGrain_eq _ _ _ hg.wf] at hat hlt hlenG
  have hok := hd.ok
  have hlen := hok.length
  have hsz := hg.size
  have hgb : (gbhdBlk h.major g).bytes.length = gbhdSize h.major g := by
    rw [← gbhdBlk_size h.major g hg.wf]; exact mkBlk_length _ _ tl4
  have hgl : (grdtBlk g).bytes.length = 8 + (g.data.getD []).length := mkBlk_length _ _ tl4
  have hdl : (g.data.getD []).length = g.length := hg.wf.2.2
  have hin : At ⟨0, file⟩ (p + 8) (encodeUint lid 2 ++ ((gbhdBlk h.major g).bytes ++ (grdtBlk g).bytes)) := by
    have h2 := hat
    unfold graiBlk at h2
    rw [mkBlk_bytes, ← List.append_assoc] at h2
    have h3 := h2.right
    rw [List.length_append, encodeUint_length, tl4 (t := tGrai)] at h3
    simpa [blksBytes] using h3
  have h1 := hin.right
  rw [encodeUint_length] at h1
  have h2 := h1.right
  rw [hgb] at h2
  unfold graiSize at hlenG hsz
  unfold grainsStepD
  rw [if_neg (by simp)]
  refine bind_eof (a := ⟨p, (graiBlk h.major lid g).size, tGrai⟩) (q := p + 8) ?_ ?_
  · rw [take_stream]
    exact (enter_mono _ _).cut m (Nat.zero_le p) (enter_blk hat hok (.inl rfl))
  rw [if_neg (by simp), if_neg (by simp only; omega)]
  refine bind_eof (a := lid) (q := p + 8 + 2) ?_ ?_
  · rw [take_stream]
    refine (readUint_mono 2).cut m (Nat.zero_le _) ?_
    have := reads_uint (n := 2) (v := lid) (by omega) _ _ hin.left
    rwa [encodeUint_length] at this
  unfold Opts.drops at hdr
  rw [if_neg hdr]
  refine bind_eof (a := g.toMeta h.major) (q := p + 8 + 2 + gbhdSize h.major g) ?_ ?_
  · rw [take_stream]
    refine (C84.gbhd_mono _).cut m (Nat.zero_le _) ?_
    have := gbhdBlockD_read .pipe hg (decoGbhd_self hg) _ _ h1.left
    rwa [hgb] at this
  refine Rd.bind_of_error (grdt_short o ho hm h2 (by omega) _ ?_ ?_)
  · simp only
    omega
  · omega

/-- How reading ends: `whole` if nothing is missing. -/
def ending (o : Opts) (whole : Bool) : End := if o.concat = false ∧ whole = true then .break_ else .eof

theorem loop (o : Opts) (ho : o.seekable = false) (h : Hdr) {file : Bytes} {m : Nat} (hm : m ≤ file.length) :
    ∀ (gs : List (Nat × Grain)) (_ : ∀ x ∈ gs, x.1 < 2 ^ 16 ∧ x.2.Ok h.major) (p j k : Nat), p ≤ m → m + 2 ≤ k + p →
      At ⟨0, file⟩ p (C84.body h.major gs ++ terminator) → file.length = p + (C84.body h.major gs).length + 8 →
      p + (C84.body h.major (gs.take j)).length ≤ m → (j < gs.length → m < p + (C84.body h.major (gs.take (j + 1))).length) →
      ∃ items, grainsLoopD .pipe o ⟨0, file.take m⟩ k h false p = ⟨items, h, ending o (decide (file.length ≤ m))⟩ ∧
        ∀ later, items.map (Item.view later) = ((gs.take j).filter (fun x => !o.drops x.1)).map (o.viewOf h.major) := by
  intro gs
  induction gs with
  | nil =>
    intro _ p j k hp hk hat hl _ _
    obtain ⟨k, rfl⟩ : ∃ j, k = j + 2 := ⟨k - 2, by omega⟩
    refine ⟨[], ?_, by simp⟩
    have hl' : file.length = p + 8 := by simpa [C84.body] using hl
    have hs := terminatorD_step .pipe o h p ⟨0, file⟩ hat
    by_cases hw : file.length ≤ m
    · rw [List.take_of_length_le hw, grainsLoopD, hs]
      unfold ending
      cases hc : o.concat with
      | false => simp [hw]
      | true =>
        simp only [if_true]
        rw [loopD_end _ _ _ _ (Nat.zero_le _) (by simp [Stream.fin]; omega)]
        simp
    · unfold ending
      rw [if_neg (by simp [hw])]
      have hshort : m < p + 8 := by omega
      have he : grainsStepD .pipe o h false ⟨0, file.take m⟩ p = .error .eof := by
        rw [take_stream]
        rcases (C84.step_mono o h).cut m (Nat.zero_le p) hs with e | e
        · exfalso
          unfold grainsStepD at e
          rw [if_neg (by simp)] at e
          obtain ⟨b, q, e1, -⟩ := Rd.bind_ok e
          refine bad_enter (s := (⟨0, file⟩ : Stream).cut m) (Nat.zero_le p) ?_ _ e1
          simp only [Stream.fin, Stream.cut, List.length_take]
          omega
        · exact e
      rw [grainsLoopD, he]
  | cons x gs ih =>
    intro hgs p j k hp hk hat hl hj hj'
    have hx := hgs x (by simp)
    obtain ⟨k, rfl⟩ : ∃ j, k = j + 2 := ⟨k - 2, by omega⟩
    rw [C84.body_cons, List.append_assoc] at hat
    rw [C84.body_cons, List.length_append] at hl
    have hpos := C84.grain_pos (x := x) hx.2
    cases j with
    | zero =>
      have hlt := hj' (by simp)
      simp only [Nat.zero_add, List.take_succ_cons, List.take_zero, C84.body_cons, show C84.body h.major [] = [] from rfl,
        List.append_nil] at hlt
      refine ⟨[], ?_, by simp⟩
      unfold ending
      rw [if_neg (by simp; intro _; omega)]
      by_cases hd : o.drops x.1 = true
      · obtain ⟨off, hs, -⟩ := C84.grain_step o h hx _ p hat.left
        unfold Opts.grainOut at hs
        rw [if_pos hd] at hs
        rcases (C84.step_mono o h).cut m (Nat.zero_le p) hs with e | e
        · rw [← take_stream] at e
          rw [grainsLoopD, e]
          simp only
          rw [loopD_end _ _ _ _ (Nat.zero_le _) (by simp [Stream.fin]; omega)]
        · rw [← take_stream] at e
          rw [grainsLoopD, e]
      · rw [grainsLoopD, grain_short o ho h hx hm hat.left hlt hd]
    | succ j =>
      rw [List.take_succ_cons, C84.body_cons, List.length_append] at hj
      have hq : p + (encodeGrain h.major x.1 x.2).length ≤ m := by omega
      obtain ⟨off, hs, hdat⟩ := C84.grain_step o h hx _ p (at_cut hat.left hq)
      have hj2 : j < gs.length → m < p + (encodeGrain h.major x.1 x.2).length + (C84.body h.major (gs.take (j + 1))).length := by
        intro hlt
        have := hj' (by simpa using hlt)
        rw [List.take_succ_cons, C84.body_cons, List.length_append] at this
        omega
      rw [List.take_succ_cons]
      obtain ⟨items, h1, h2⟩ := ih (fun y hy => hgs y (by simp [hy])) (p + (encodeGrain h.major x.1 x.2).length) j (k + 1) hq (by omega)
        hat.right (by omega) (by omega) hj2
      unfold Opts.grainOut at hs
      by_cases hd : o.drops x.1 = true
      · rw [if_pos hd] at hs
        refine ⟨items, ?_, fun later => by rw [List.filter_cons_of_neg (by simp [hd])]; exact h2 later⟩
        rw [grainsLoopD, hs]
        exact h1
      · rw [if_neg hd] at hs
        refine ⟨⟨x.2.toMeta h.major, o.dataOf (p + off) (x.2.data.getD []), x.1⟩ :: items, ?_, fun later => ?_⟩
        · rw [grainsLoopD, hs]
          simp only
          rw [h1]
        · rw [List.map_cons, h2 later, List.filter_cons_of_pos (by simpa using hd), List.map_cons]
          congr 1
          unfold Item.view Opts.viewOf Grain.payload
          simp only
          rw [C84.load_any ho _ _ later (file.take m), o.dataOf_load hdat]

theorem body_at (f : FileSpec) : At ⟨0, f.bytes⟩ (grainsEnd f 0) (C84.body f.major f.grains ++ terminator) := by
  have e : f.bytes = (encodeFileHeader f.major f.minor ++ encodeHead f.head) ++ (C84.body f.major f.grains ++ terminator) := by
    unfold FileSpec.bytes C84.body; simp
  have := at_self 0 f.bytes
  rw [e] at this
  have h2 := this.right
  rw [← e] at h2
  have e2 : 0 + (encodeFileHeader f.major f.minor ++ encodeHead f.head).length = grainsEnd f 0 := by unfold grainsEnd; simp
  rwa [e2] at h2

theorem run (f : FileSpec) (hf : f.Ok) (o : Opts) (ho : o.seekable = false) (m j : Nat) (hm : m ≤ f.bytes.length) (hj : grainsEnd f j ≤ m)
    (hnext : j < f.grains.length → m < grainsEnd f (j + 1)) :
    ∃ items, grainsLoopD .pipe o ⟨0, f.bytes.take m⟩ ((f.bytes.take m).length + 1) f.hdr false (grainsEnd f 0) =
        ⟨items, f.hdr, ending o (decide (f.bytes.length ≤ m))⟩ ∧
      ∀ later, items.map (Item.view later) = ((f.grains.take j).filter (fun x => !o.drops x.1)).map (o.viewOf f.major) := by
  have h0 : grainsEnd f 0 ≤ m := Nat.le_trans (grainsEnd_mono f (Nat.zero_le j)) hj
  have hlen : (f.bytes.take m).length = m := by simp; omega
  have hend : ∀ k, grainsEnd f k = grainsEnd f 0 + (C84.body f.major (f.grains.take k)).length := by
    intro k; unfold grainsEnd C84.body; simp
  have hbl : f.bytes.length = grainsEnd f 0 + (C84.body f.major f.grains).length + 8 := by
    have := hend f.grains.length
    rw [List.take_length] at this
    rw [← this]
    exact Follow80.bytes_len f
  have hpos : 1 ≤ grainsEnd f 0 := by
    unfold grainsEnd encodeFileHeader
    simp only [List.length_append, encodeUint_length]
    omega
  rw [hlen]
  exact loop o ho f.hdr hm f.grains hf.grains (grainsEnd f 0) j (m + 1) h0 (by omega) (body_at f) hbl
    (by rw [hend] at hj; exact hj) (fun h => by have := hnext h; rw [hend] at this; exact this)

theorem headersD_eq {f : FileSpec} {bs : Bytes} (hf : f.Ok) (hd : DecoFile f bs) (rest : Bytes) :
    ∃ p, decodeFileHeadersD .pipe false ⟨0, bs ++ rest⟩ 0 = .ok (f.hdr, p) := by
  have hat : At ⟨0, bs ++ rest⟩ 0 (bs ++ rest) := at_self _ _
  obtain ⟨pre, hb, gb, post, hpre, hhd, hgb, hpost, hbs⟩ := hd
  have hat1 := hat.left
  rw [hbs, ← List.append_assoc] at hat1
  rw [hbs, ← List.append_assoc]
  exact ⟨_, fileHeadersD_read .pipe hf.major hf.minor hf.head hhd hpre _ _ hat1.left⟩

theorem all_kept (l : List (Nat × Grain)) : l.filter (fun x => !({ probeOpts with seekable := false } : Opts).drops x.1) = l :=
  List.filter_eq_self.mpr (fun _ _ => rfl)

theorem ssb_reads {major minor : Nat} (hm : major = 7 ∨ major = 8 ∨ major = 9) (hn : minor < 2 ^ 16) :
    Reads (decodeSsb false) (encodeFileHeader major minor) (major, minor) := by
  have e : encodeFileHeader major minor =
    padString (tSSBB ++ tGrsg) 8 ++ (encodeUint major 2 ++ encodeUint minor 2) := by
    have : padString (tSSBB ++ tGrsg) 8 = tagBytes tSSBB ++ tagBytes tGrsg := by decide
    rw [this]; simp only [encodeFileHeader, List.append_assoc]
  rw [e]
  unfold decodeSsb
  simp only [Bool.not_false, if_true]
  apply Reads.bind (reads_padString (by decide) (by decide))
  rw [if_neg (by simp)]
  apply Reads.bind (reads_uint (by omega))
  exact (reads_uint (n := 2) (by omega)).bind_pure

theorem ssb_mono : Mono (decodeSsb false) := by
  unfold decodeSsb
  simp only [Bool.not_false, if_true]
  exact (readString_mono 8).bind fun _ => .ite (.fail _) ((readUint_mono 2).bind fun _ => (readUint_mono 2).bind fun _ => .pure _)

theorem ssb_fin {s : Stream} {r q} (hb : s.base = 0) (h : decodeSsb false s 0 = .ok (r, q)) : 12 ≤ s.fin := by
  unfold decodeSsb at h
  simp only [Bool.not_false, if_true] at h
  obtain ⟨t, q3, h4, h5⟩ := Rd.bind_ok h
  obtain ⟨bs, u, h6, -, -⟩ := readString_ok h4
  obtain ⟨-, -, rfl⟩ := readExact_ok h6
  rw [Rd.ite_apply] at h5
  split at h5
  · simp at h5
  · obtain ⟨a, q4, h7, h8⟩ := Rd.bind_ok h5
    obtain ⟨b, q5, h9, h10⟩ := Rd.bind_ok h8
    obtain ⟨_, h11, -⟩ := readUint_ok h7
    obtain ⟨_, h13, -⟩ := readUint_ok h9
    obtain ⟨-, -, rfl⟩ := readExact_ok h11
    exact readExact_ok_fin (by omega) h13 (by omega)

theorem head_mono : Mono (decodeHeadBlockD .pipe) :=
  (enter_mono _ _).bind fun b => (C84.inRemaining_mono b _).bind fun _ => (C84.exitD_mono b).bind fun _ => .pure _

theorem head_cut (f : FileSpec) (hf : f.Ok) (m : Nat) (hm : m < grainsEnd f 0) :
    decodeFileHeadersD .pipe false ⟨0, f.bytes.take m⟩ 0 = .error (if m < 12 then .eof else .decode) := by
  have hl12 : (encodeFileHeader f.major f.minor).length = 12 := by
    have h1 : (tagBytes tSSBB).length = 4 := by decide
    have h2 : (tagBytes tGrsg).length = 4 := by decide
    simp [encodeFileHeader, h1, h2]
  have hge : grainsEnd f 0 = 12 + (headBlk f.head).bytes.length := by
    unfold grainsEnd
    rw [encodeHead_eq _ hf.head.wf]
    simp [hl12]
  have hat : At ⟨0, f.bytes⟩ 0 (encodeFileHeader f.major f.minor ++ ((headBlk f.head).bytes ++ (C84.body f.major f.grains ++ terminator))) := by
    have e : f.bytes = encodeFileHeader f.major f.minor ++ ((headBlk f.head).bytes ++ (C84.body f.major f.grains ++ terminator)) := by
      unfold FileSpec.bytes C84.body
      rw [encodeHead_eq _ hf.head.wf]
    rw [← e]
    exact at_self _ _
  have hmb : m ≤ f.bytes.length := by
    have := Follow80.bytes_len f
    have := grainsEnd_mono f (Nat.zero_le f.grains.length)
    omega
  have hlen : (f.bytes.take m).length = m := by simp; omega
  have hs := ssb_reads hf.major hf.minor ⟨0, f.bytes⟩ 0 hat.left
  unfold decodeFileHeadersD
  rw [take_stream]
  by_cases h12 : m < 12
  · rw [if_pos h12]
    rcases ssb_mono.cut m (Nat.zero_le 0) hs with e | e
    · have := ssb_fin rfl e
      rw [← take_stream] at this
      unfold Stream.fin at this
      simp only [hlen] at this
      omega
    · rw [Rd.bind_of_error e]
  · rw [if_neg h12]
    have hs' := ssb_reads hf.major hf.minor ⟨0, f.bytes.take m⟩ 0 (at_cut hat.left (by omega))
    rw [take_stream] at hs'
    rw [Rd.bind_of_ok hs']
    simp only
    rw [if_pos hf.major]
    have hat2 := hat.right.left
    rw [hl12, Nat.zero_add] at hat2
    have hr := decodeHeadBlockD_read .pipe hf.head (decoHead_self hf.head) (pre := []) (fun _ h => by simp at h) ⟨0, f.bytes⟩ 12
      (by simpa [blksBytes] using hat2)
    have he : decodeHeadBlockD .pipe ((⟨0, f.bytes⟩ : Stream).cut m) 12 = .error .eof := by
      rcases head_mono.cut m (Nat.zero_le 12) hr with e | e
      · exfalso
        have hok := (decoHead_self hf.head).ok
        have hin : enter (some tHead) false ⟨0, f.bytes⟩ 12 = .ok (⟨12, (headBlk f.head).size, tHead⟩, 12 + 8) := by
          refine enter_hdr ?_ hok (.inr rfl)
          have := hat2
          unfold Blk.bytes at this
          rw [← List.append_assoc] at this
          exact this.left
        unfold decodeHeadBlockD at e
        obtain ⟨b, q, e1, e2⟩ := Rd.bind_ok e
        rcases (enter_mono _ _).cut m (Nat.zero_le 12) hin with e3 | e3
        · rw [e3] at e1
          simp only [Except.ok.injEq, Prod.mk.injEq] at e1
          obtain ⟨rfl, rfl⟩ := e1
          obtain ⟨x, q2, e4, -⟩ := Rd.bind_ok e2
          unfold Block.inRemainingA at e4
          have hbl := (headBlk f.head).length_eq hok.tbLen
          have hlen' := hok.length
          have hpos : 16 ≤ (headBlk f.head).body.length := by
            unfold headBlk mkBlk headFixed
            simp only [List.length_append, hf.head.1]
            omega
          rw [if_pos] at e4
          · cases e4
          · simp only [Dev.pipe, Bool.true_and, decide_eq_true_eq, List.length_take, List.length_drop, Stream.cut]
            omega
        · rw [e3] at e1
          cases e1
      · exact e
    refine Rd.bind_of_error ?_
    simp only [hl12, Nat.zero_add, Rd.eofToDecode, he]

end C51Cut

/-! ## Theorems -/

/-- **C51**, standard input that ends early.  Of the first `m` bytes of a file, with the first `j` grains and less than one more, exactly
those of the `j` grains that were asked for are given, with their data, and then reading ends without an exception. -/
theorem C51_cut (f : FileSpec) (hf : f.Ok) (o : Opts) (m j : Nat) (hm : m ≤ f.bytes.length) (hj : grainsEnd f j ≤ m)
    (hnext : j < f.grains.length → m < grainsEnd f (j + 1)) :
    ∃ r, decodePipe o (f.bytes.take m) = .ok r ∧ r.hdr = f.hdr ∧
      r.ending = (if o.concat = false ∧ m = f.bytes.length then .break_ else .eof) ∧
      r.view (f.bytes.take m) = ((f.grains.take j).filter (fun x => !o.drops x.1)).map (o.viewOf f.major) := by
  have h0 : grainsEnd f 0 ≤ m := Nat.le_trans (grainsEnd_mono f (Nat.zero_le j)) hj
  obtain ⟨items, h1, h2⟩ := C51Cut.run f hf { o with seekable := false } rfl m j hm hj hnext
  refine ⟨⟨items, f.hdr, C51Cut.ending { o with seekable := false } (decide (f.bytes.length ≤ m))⟩, ?_, rfl, ?_, ?_⟩
  · unfold decodePipe decodeD
    rw [C84.opens hf h0]
    simp only
    rw [h1]
  · unfold C51Cut.ending
    have hi : (o.concat = false ∧ decide (f.bytes.length ≤ m) = true) ↔ (o.concat = false ∧ m = f.bytes.length) := by
      rw [decide_eq_true_eq]
      constructor <;> (rintro ⟨a, b⟩; exact ⟨a, by omega⟩)
    by_cases hw : o.concat = false ∧ m = f.bytes.length
    · rw [if_pos hw, if_pos (hi.2 hw)]
    · rw [if_neg hw, if_neg (fun h => hw (hi.1 h))]
  · have := h2 (f.bytes.take m)
    rw [PipeLemmas.viewOf_pipe] at this
    exact this

/-- **C06 and C51**, standard input that ends in the header of the file or in the head: an exception is raised.  On a file this is not so
(`C06_counterexample`). -/
theorem C51_cut_head (f : FileSpec) (hf : f.Ok) (o : Opts) (m : Nat) (hm : m < grainsEnd f 0) :
    decodePipe o (f.bytes.take m) = .error (if m < 12 then .eof else .decode) := by
  unfold decodePipe decodeD
  rw [C51Cut.head_cut f hf m hm]

/-- **C53**, standard input that ends early: exactly the data of the whole grains is written, and the tool ends without an exception. -/
theorem C53_cut_stdin (ids : Option (List Nat)) (f : FileSpec) (hf : f.Ok) (m j : Nat) (hm : m ≤ f.bytes.length) (hj : grainsEnd f j ≤ m)
    (hnext : j < f.grains.length → m < grainsEnd f (j + 1))
    (he : ∀ y ∈ f.grains.take j, chosen ids y.1 = true → Extractable y.2) :
    extractStdin ids (f.bytes.take m) = (essenceOf ids (f.grains.take j), true) := by
  obtain ⟨r, h1, -, h3, h4⟩ := C51_cut f hf (extractOpts ids) m j hm hj hnext
  unfold extractStdin
  rw [h1]
  simp only [extractRun]
  rw [h4, Extract.writeAll_grains ids f.major _ he, h3, if_neg (by rintro ⟨h, -⟩; cases h)]
  rfl

/-- **C59** on standard input: the report is that on a file. -/
theorem C59_stdin (L : Times.TimeLib) (o : POpts) (f : FileSpec) (bs : Bytes) (hf : f.Ok) (hd : DecoFile f bs)
    (fs : List (FileSpec × Bytes)) (hfs : ∀ x ∈ fs, x.1.Ok ∧ DecoFile x.1 x.2) :
    probeStdin L o (bs ++ fs.flatMap Prod.snd) = probeFile L o (bs ++ fs.flatMap Prod.snd) := by
  rw [probe_run L o f bs hf hd fs hfs]
  obtain ⟨p, hp⟩ := C51Cut.headersD_eq hf hd (fs.flatMap Prod.snd)
  obtain ⟨r, k1, k2, _, k4, -⟩ := decodeD_concat (o := { probeOpts with seekable := false }) rfl hf hd hfs
  have k1 := k1 .pipe
  unfold decodeD at k1
  rw [hp] at k1
  unfold probeStdin
  rw [hp]
  simp only [Except.ok.injEq] at k1 ⊢
  rw [k1, k4, k2, PipeLemmas.viewOf_pipe]
  simp only [C51Cut.all_kept]
  rfl

/-- **C59**, standard input that ends early: the report is that on a file with just the whole grains. -/
theorem C59_stdin_cut (L : Times.TimeLib) (o : POpts) (f : FileSpec) (hf : f.Ok) (m j : Nat) (hm : m ≤ f.bytes.length)
    (hj : grainsEnd f j ≤ m) (hnext : j < f.grains.length → m < grainsEnd f (j + 1)) :
    probeStdin L o (f.bytes.take m) = probeFile L o ({ f with grains := f.grains.take j } : FileSpec).bytes := by
  have h0 : grainsEnd f 0 ≤ m := Nat.le_trans (grainsEnd_mono f (Nat.zero_le j)) hj
  have hf' : ({ f with grains := f.grains.take j } : FileSpec).Ok :=
    { hf with grains := fun x hx => hf.grains x (List.mem_of_mem_take hx) }
  have e := probe_run L o _ _ hf' (decoFile_self hf') [] (by simp)
  simp only [List.flatMap_nil, List.append_nil, List.flatMap_cons] at e
  rw [e]
  obtain ⟨items, h1, h2⟩ := C51Cut.run f hf { probeOpts with seekable := false } rfl m j hm hj hnext
  unfold probeStdin
  rw [C84.opens hf h0]
  simp only
  rw [h1]
  have h2 := h2 (f.bytes.take m)
  rw [PipeLemmas.viewOf_pipe, C51Cut.all_kept] at h2
  have hq : C51Cut.ending { probeOpts with seekable := false } (decide (f.bytes.length ≤ m)) = .eof :=
    if_neg (by rintro ⟨h, -⟩; cases h)
  simp only [hq, Run.view, h2]
  rfl

/-! ## Witnesses -/

/-- The hypotheses are met by a file of seven grains cut inside the third. -/
example : sample.Ok ∧ grainsEnd sample 2 + 5 ≤ sample.bytes.length ∧ grainsEnd sample 2 ≤ grainsEnd sample 2 + 5 ∧
    grainsEnd sample 2 + 5 < grainsEnd sample 3 ∧ 0 < (grainsEnd sample 0 : Nat) := by decide +kernel

/-- Of a cut grain nothing is found on standard input; on a file it is found with part of its data. -/
example : ((decodePipe {} (sample.bytes.take (grainsEnd sample 1 - 1))).toOption.map (fun r => (r.items.length, r.ending))) = some (0, .eof) ∧
    ((decodeFile {} (sample.bytes.take (grainsEnd sample 1 - 1))).toOption.map (fun r => (r.items.length, r.ending))) = some (1, .eof) := by
  decide +kernel

/-- The head of `flowFile` cut inside its flow metadata: an exception on standard input, none on a file. -/
example : flowFile.Ok ∧ grainsEnd flowFile 0 - 1 < grainsEnd flowFile 0 ∧
    (decodePipe {} (flowFile.bytes.take (grainsEnd flowFile 0 - 1))).toOption.isNone ∧
    (decodeFile {} (flowFile.bytes.take (grainsEnd flowFile 0 - 1))).toOption.isSome := by decide +kernel

/-- What the tools make of `twoSegments` cut in its last grain. -/
example : twoSegments.Ok ∧ grainsEnd twoSegments 2 ≤ grainsEnd twoSegments 3 - 1 ∧ grainsEnd twoSegments 3 - 1 < grainsEnd twoSegments 3 ∧
    (probeStdin Times.floorLib ⟨true, false⟩ (twoSegments.bytes.take (grainsEnd twoSegments 3 - 1))).map
      (fun d => ((d 1).map (fun r => r.timerange), (d 300).map (fun r => r.timerange))) =
      some (some (some ⟨-1500000000, -1500000000⟩), some (some ⟨7, 39979173⟩)) ∧
    (extractStdin none (twoSegments.bytes.take (grainsEnd twoSegments 3 - 1))).2 = true := by decide +kernel

end Verif.Props

import Verif.Gsf.AsyncLemmas

/-!
# Decoding GSF from standard input

Models `mediagrains/tools/_file_or_pipe.py` lines 22-55 (`InputStreamWrapper`) and how the synchronous GSF
decoder (`gsf.py` lines 444-799 and 1218-1341) behaves when it reads from such a stream.
-/

namespace Verif.Gsf

open Verif

/-! ## The wrapper -/

/-- What the wrapper raises. -/
inductive PipeErr where
  | eof | notImplemented
  deriving DecidableEq, Repr

/-- `InputStreamWrapper`: the bytes its pipe has not handed out yet, and `_pos`. -/
structure Pipe where
  rest : Bytes
  pos : Nat
  deriving DecidableEq, Repr

/-- How much the pipe hands out when at most `n` bytes are asked for and `left` are still to come.  A pipe
is allowed to hand out fewer than there are. -/
abbrev Delivery := Nat → Nat → Nat

/-- At least one byte unless none was asked for or none is left, and never too many. -/
def Delivery.Ok (d : Delivery) : Prop :=
  ∀ n left, d n left ≤ n ∧ d n left ≤ left ∧ (0 < n → 0 < left → 0 < d n left)

/-- `sys.stdin.buffer`, a `BufferedReader`: hands out all it was asked for unless the pipe ends. -/
def Delivery.full : Delivery := fun n left => min n left

/-- The `while len(out) < size` loop of `read`, lines 34-41, with the bytes still to come, `out` and `s`.
An `EOFError` leaves `_pos` as it was; the bytes taken from the pipe are lost. -/
def Pipe.readLoop (d : Delivery) : Nat → Bytes → Bytes → Nat → Except PipeErr Bytes × Bytes
  | 0, rest, out, _ => (.ok out, rest)
  | fuel + 1, rest, out, s =>
    if s = 0 then (.ok out, rest)
    else
      let k := d s rest.length
      if k = 0 then (.error .eof, rest)
      else Pipe.readLoop d fuel (rest.drop k) (out ++ rest.take k) (s - k)

/-- `read(size)` with `size ≥ 0`, lines 29-44. -/
def Pipe.read (d : Delivery) (st : Pipe) (size : Nat) : Except PipeErr Bytes × Pipe :=
  match Pipe.readLoop d size st.rest [] size with
  | (.ok out, rest) => (.ok out, ⟨rest, st.pos + out.length⟩)
  | (.error e, rest) => (.error e, ⟨rest, st.pos⟩)

/-- `seek(offset)` with `whence` 0 (`SEEK_SET`), lines 46-57. -/
def Pipe.seek (d : Delivery) (st : Pipe) (offset : Nat) : Except PipeErr Unit × Pipe :=
  if offset < st.pos then (.error .notImplemented, st)
  else
    let n := offset - st.pos
    if n = 0 then (.ok (), st)
    else (.ok (), ⟨st.rest.drop (d n st.rest.length), offset⟩)

/-- `SyncGSFBlock.__exit__`, `gsf.py` lines 531-542: whatever `seek` raises is swallowed. -/
def Pipe.exit (d : Delivery) (st : Pipe) (b : Block) : Pipe := (st.seek d b.endPos).2

/-! ## The decoder over a device

`Dev` says what the device the decoder reads from does.  `strict`: a read of more bytes than are left
raises `EOFError` (as in `Verif.Gsf.Async`).  `fwd`: seeking backwards raises, so that the exit of a block
stays where it is when the position is past the end of the block already. -/

structure Dev where
  strict : Bool
  fwd : Bool
  deriving DecidableEq, Repr

/-- A file on disk or a `BytesIO`. -/
def Dev.file : Dev := ⟨false, false⟩
/-- `InputStreamWrapper`. -/
def Dev.pipe : Dev := ⟨true, true⟩
/-- `AsyncBytesIO`. -/
def Dev.asyncBytesIO : Dev := ⟨true, false⟩

/-- `__exit__`, lines 531-542. -/
def Block.exitD (d : Dev) (b : Block) : Rd Unit := fun _ p =>
  .ok ((), if d.fwd then max p b.endPos else b.endPos)

/-- Lines 1266-1268. -/
def decodeHeadBlockD (d : Dev) : Rd Head := do
  let b ← enter (some tHead)
  let h ← b.inRemainingA d.strict (decodeHead b)
  b.exitD d
  return h

/-- `_decode_file_headers`, lines 1255-1270. -/
def decodeFileHeadersD (d : Dev) (known : Bool) : Rd Hdr := do
  let (major, minor) ← decodeSsb known
  if major = 7 ∨ major = 8 ∨ major = 9 then
    let h ← Rd.eofToDecode (decodeHeadBlockD d)
    return ⟨major, minor, h⟩
  else Rd.fail (.badVersion major)

/-- `file_data.read(n)` with the bytes thrown away if the device cannot seek, `file_data.seek(n, SEEK_CUR)`
otherwise, lines 1328-1332.  The seek does not matter, as the exit of the block comes next and seeks to an
absolute position. -/
def skipD (d : Dev) (n : Nat) : Rd Unit := if d.fwd then do let _ ← readRawA d.strict n; return () else return ()

/-- Lines 1316-1334: the data of a grain. -/
def readGrdtD (d : Dev) (o : Opts) (grai : Block) : Rd Data := do
  if ← grai.hasChild then
    let grdt ← enter (some tGrdt)
    let r ← grdt.remaining
    if r > 0 then
      if o.seekable && (o.mode == .alwaysDeferLoadIfPossible || o.mode == .alwaysLoadDeferIfPossible) then
        let p ← Rd.tell
        grdt.exitD d
        return .deferred p r.toNat
      else if o.mode == .loadNever then
        skipD d r.toNat
        grdt.exitD d
        return .none
      else
        let bs ← readRawA d.strict r.toNat
        grdt.exitD d
        return .bytes bs
    else
      grdt.exitD d
      return .none
  else return .none

/-- Lines 1307-1309. -/
def readGbhdBlockD (d : Dev) (major : Nat) : Rd Meta := do
  let b ← enter (some tGbhd) true
  let m ← b.inRemainingA d.strict (decodeGbhd major b)
  b.exitD d
  return m

/-- One turn of the loop of `grains`, lines 1283-1341. -/
def grainsStepD (d : Dev) (o : Opts) (h : Hdr) (haveConcat : Bool) : Rd Step := do
  if haveConcat then
    let h' ← decodeFileHeadersD d true
    return .next h' false
  else
    let block ← enter none
    if block.tag ≠ tGrai then
      block.exitD d
      if block.tag = tSSBB then
        if !o.concat then return .stop else return .next h true
      else return .next h false
    else if block.size = 0 then
      block.exitD d
      if o.concat then return .next h false else return .stop
    else
      let localId ← readUint 2
      if o.localIds.any (fun ids => !ids.contains localId) then
        block.exitD d
        return .next h false
      else
        let info ← readGbhdBlockD d h.major
        let data ← readGrdtD d o block
        block.exitD d
        return .yield ⟨info, data, localId⟩

/-- The loop. -/
def grainsLoopD (d : Dev) (o : Opts) (s : Stream) : Nat → Hdr → Bool → Nat → Run
  | 0, h, _, _ => ⟨[], h, .err .fuel⟩
  | fuel + 1, h, hc, p =>
    match grainsStepD d o h hc s p with
    | .error .eof => ⟨[], h, .eof⟩
    | .error e => ⟨[], h, .err e⟩
    | .ok (.stop, _) => ⟨[], h, .break_⟩
    | .ok (.next h' hc', p') => grainsLoopD d o s fuel h' hc' p'
    | .ok (.yield it, p') =>
      let r := grainsLoopD d o s fuel h false p'
      { r with items := it :: r.items }

/-- Decode a whole stream from a device. -/
def decodeD (d : Dev) (o : Opts) (file : Bytes) : Except Err Run :=
  match decodeFileHeadersD d false ⟨0, file⟩ 0 with
  | .error e => .error e
  | .ok (h, p) => .ok (grainsLoopD d o ⟨0, file⟩ (file.length + 1) h false p)

/-- Decode a whole stream from standard input.  `BufferedIOBase.seekable()` is `False`, so data is never
deferred. -/
def decodePipe (o : Opts) (file : Bytes) : Except Err Run :=
  decodeD .pipe { o with seekable := false } file

/-! ## Relation to the other readers -/

theorem exitD_back (b : Block) {d : Dev} (h : d.fwd = false) : b.exitD d = b.exit := by
  funext s p
  simp only [Block.exitD, Block.exit, h, Rd.seek_apply]
  rfl

theorem grainsStepD_strict (strict : Bool) (o : Opts) (h : Hdr) (hc : Bool) :
    grainsStepD ⟨strict, false⟩ o h hc = grainsStepA strict o h hc := by
  have e : ∀ b : Block, b.exitD ⟨strict, false⟩ = b.exit := fun b => exitD_back b rfl
  have k : ∀ n, skipD ⟨strict, false⟩ n = pure () := fun _ => rfl
  simp only [grainsStepD, grainsStepA, decodeFileHeadersD, decodeFileHeadersA, decodeHeadBlockD, decodeHeadBlockA,
    readGbhdBlockD, readGbhdBlockA, readGrdtD, readGrdtA, e, k]
  rfl

theorem grainsStepD_file (o : Opts) (h : Hdr) (hc : Bool) : grainsStepD .file o h hc = grainsStep o h hc := by
  rw [Dev.file, grainsStepD_strict, grainsStepA_false]

theorem decodeFileHeadersD_strict (strict : Bool) (k : Bool) :
    decodeFileHeadersD ⟨strict, false⟩ k = decodeFileHeadersA strict k := by
  have e : ∀ b : Block, b.exitD ⟨strict, false⟩ = b.exit := fun b => exitD_back b rfl
  simp only [decodeFileHeadersD, decodeFileHeadersA, decodeHeadBlockD, decodeHeadBlockA, e]

theorem grainsLoopD_file (o : Opts) (s : Stream) : ∀ (f : Nat) (h : Hdr) (hc : Bool) (p : Nat),
    grainsLoopD .file o s f h hc p = grainsLoop o s f h hc p := by
  intro f
  induction f with
  | zero => intros; rfl
  | succ f ih =>
    intro h hc p
    simp only [grainsLoopD, grainsLoop, grainsStepD_file, ih]
    rfl

theorem decodeD_file (o : Opts) (file : Bytes) : decodeD .file o file = decodeFile o file := by
  unfold decodeD decodeFile grains
  rw [Dev.file, decodeFileHeadersD_strict, decodeFileHeadersA_false]
  cases decodeFileHeaders false ⟨0, file⟩ 0 with
  | error e => rfl
  | ok v => simp only [← Dev.file.eq_1, grainsLoopD_file]

/-! ## Known bytes -/

theorem readRawA_at {strict : Bool} {s p bs} (h : At s p bs) :
    readRawA strict bs.length s p = .ok (bs, p + bs.length) := by
  simp only [readRawA, h.take]
  rw [if_neg (by simp)]

theorem inRemainingA_mk {strict : Bool} {m : Rd α} {t : List Char} {body : Bytes} {a : α} {s p} (ht : TagConst t)
    (hat : At s p (mkBlk t body).bytes)
    (h : ReadsAt ⟨p + 8, body⟩ (p + 8) m body a) :
    Block.inRemainingA strict ⟨p, (mkBlk t body).size, t⟩ m s (p + 8) = .ok (a, p + (mkBlk t body).bytes.length) := by
  have h0 := inRemaining_mk ht hat h
  rw [mkBlk_bytes, ← List.append_assoc] at hat
  have h2 := hat.right
  rw [List.length_append, encodeUint_length, ht.1] at h2
  have e : ((p : Int) + ((8 + body.length : Nat) : Int) - ((p + 8 : Nat) : Int)).toNat = body.length := by omega
  have h2' : At s (p + 8) body := h2
  simp only [Block.inRemaining, mkBlk, e, h2'.take] at h0
  simp only [Block.inRemainingA, mkBlk, e, h2'.take]
  rw [if_neg (by simp)]
  exact h0

theorem exitD_inside {d : Dev} {b : Block} {s p} (h : p ≤ b.endPos) : b.exitD d s p = .ok ((), b.endPos) := by
  simp only [Block.exitD]
  rw [Nat.max_eq_right h]
  cases d.fwd <;> rfl

theorem decodeHeadBlockD_read (d : Dev) {h : HeadIn} (w : h.Ok) {b : Blk} (hd : DecoHead h b) {pre : List Blk}
    (hpre : Others [tHead] pre) : Reads (decodeHeadBlockD d) (blksBytes pre ++ b.bytes) h.toHead := by
  intro s p hat
  have hok := hd.ok
  have hat2 := hat.right
  obtain ⟨sb, kids, hs, hp, rfl, hsz⟩ := hd
  simp only [decodeHeadBlockD]
  rw [Rd.bind_of_ok ((enter_past hpre hat).trans (enter_blk hat2 hok (.inr rfl)))]
  rw [Rd.bind_of_ok (inRemainingA_mk tc hat2 (decodeHead_read w hs hp _ _))]
  rw [Rd.bind_of_ok (exitD_inside (by unfold Block.endPos; rw [hok.length]; simp))]
  simp only [Rd.pure_apply, Block.endPos]
  rw [List.length_append, hok.length, Nat.add_assoc]

theorem headersD_read (d : Dev) {major minor : Nat} (hm : major = 7 ∨ major = 8 ∨ major = 9) (hn : minor < 2 ^ 16)
    {h : HeadIn} (w : h.Ok) {b : Blk} (hd : DecoHead h b) {pre : List Blk} (hpre : Others [tHead] pre) :
    Reads (decodeFileHeadersD d true)
      ((encodeUint major 2 ++ encodeUint minor 2) ++ (blksBytes pre ++ b.bytes)) ⟨major, minor, h.toHead⟩ := by
  unfold decodeFileHeadersD
  have h1 : Reads (decodeSsb true) (encodeUint major 2 ++ encodeUint minor 2) (major, minor) := by
    unfold decodeSsb
    simp only [Bool.not_true, Bool.false_eq_true, if_false]
    apply Reads.bind (reads_uint (by omega))
    exact (reads_uint (n := 2) (by omega)).bind_pure
  apply Reads.bind h1
  simp only
  rw [if_pos hm]
  have h2 : Reads (Rd.eofToDecode (decodeHeadBlockD d)) (blksBytes pre ++ b.bytes) h.toHead := by
    intro s p hat
    simp only [Rd.eofToDecode, decodeHeadBlockD_read d w hd hpre s p hat]
  exact h2.bind_pure

theorem fileHeadersD_read (d : Dev) {major minor : Nat} (hm : major = 7 ∨ major = 8 ∨ major = 9) (hn : minor < 2 ^ 16)
    {h : HeadIn} (w : h.Ok) {b : Blk} (hd : DecoHead h b) {pre : List Blk} (hpre : Others [tHead] pre) :
    Reads (decodeFileHeadersD d false)
      (encodeFileHeader major minor ++ (blksBytes pre ++ b.bytes)) ⟨major, minor, h.toHead⟩ := by
  unfold decodeFileHeadersD
  have h1 : Reads (decodeSsb false) (encodeFileHeader major minor) (major, minor) := by
    have e : encodeFileHeader major minor =
      padString (tSSBB ++ tGrsg) 8 ++ (encodeUint major 2 ++ encodeUint minor 2) := by
      have : padString (tSSBB ++ tGrsg) 8 = tagBytes tSSBB ++ tagBytes tGrsg := by decide
      rw [this]; simp only [encodeFileHeader, List.append_assoc]
    rw [e]
    unfold decodeSsb
    simp only [Bool.not_false, if_true]
    apply Reads.bind (reads_padString (by decide) (by decide))
    rw [if_neg (by simp)]
    apply Reads.bind (reads_uint (by omega))
    exact (reads_uint (n := 2) (by omega)).bind_pure
  apply Reads.bind h1
  simp only
  rw [if_pos hm]
  have h2 : Reads (Rd.eofToDecode (decodeHeadBlockD d)) (blksBytes pre ++ b.bytes) h.toHead := by
    intro s p hat
    simp only [Rd.eofToDecode, decodeHeadBlockD_read d w hd hpre s p hat]
  exact h2.bind_pure

theorem gbhdBlockD_read (d : Dev) {major : Nat} {g : Grain} {b : Blk} (h : g.Ok major) (hd : DecoGbhd major g b) :
    Reads (readGbhdBlockD d major) b.bytes (g.toMeta major) := by
  intro s p hat
  have hok := hd.ok
  obtain ⟨bk, kids, hb, hp, rfl, hs⟩ := hd
  simp only [readGbhdBlockD]
  rw [Rd.bind_of_ok (enter_blk hat hok (.inr rfl))]
  have : Block.inRemainingA d.strict ⟨p, (mkBlk tGbhd (encodeGbhdFixed major g ++ blksBytes kids)).size, tGbhd⟩
      (decodeGbhd major ⟨p, (mkBlk tGbhd (encodeGbhdFixed major g ++ blksBytes kids)).size, tGbhd⟩) s (p + 8) =
      .ok (g.toMeta major, p + (mkBlk tGbhd (encodeGbhdFixed major g ++ blksBytes kids)).bytes.length) := by
    apply inRemainingA_mk tc hat
    unfold decodeGbhd
    refine (reads_gbhdFixed h).bindAt ?_
    apply readsAt_children
    · refine ChildrenRead.pad hp (gbhdChild_unknown major) ?_
      exact (tilsKids_read h.tils h.til major _).append (decoBody_read hb h.body major _)
    · unfold mkBlk
      simp only [List.length_append]; omega
  rw [Rd.bind_of_ok this]
  rw [Rd.bind_of_ok (exitD_inside (by unfold Block.endPos; rw [hok.length]; simp))]
  simp only [Rd.pure_apply, Block.endPos]
  rw [hok.length]

theorem readGrdtD_read (d : Dev) (o : Opts) {g : Grain} {mid : List Blk} (hm : Others [tGrdt] mid) {s p}
    (hat : At s p (blksBytes mid ++ (grdtBlk g).bytes)) (hsz : 8 + (g.data.getD []).length < 2 ^ 32)
    (grai : Block) (hend : p + (blksBytes mid).length + (8 + (g.data.getD []).length) ≤ grai.start + grai.size) :
    readGrdtD d o grai s p = .ok (o.dataOf (p + (blksBytes mid).length + 8) (g.data.getD []),
      p + (blksBytes mid).length + (8 + (g.data.getD []).length)) := by
  have hok : (grdtBlk g).Ok tGrdt := mkBlk_ok tc tne hsz
  have hc : grai.hasChild s p = .ok (true, p) := by
    rw [hasChild_eq, if_pos (by omega)]
  have he := (enter_past hm hat).trans (enter_blk hat.right hok (.inr rfl))
  have hsize : (grdtBlk g).size = 8 + (g.data.getD []).length := rfl
  have hr : Block.remaining ⟨p + (blksBytes mid).length, (grdtBlk g).size, tGrdt⟩ s
      (p + (blksBytes mid).length + 8) = .ok (((g.data.getD []).length : Int), p + (blksBytes mid).length + 8) := by
    unfold Block.remaining
    rw [hsize]
    congr 2
    simp only
    omega
  have hdat : At s (p + (blksBytes mid).length + 8) (g.data.getD []) := by
    have h2 := hat.right
    unfold grdtBlk at h2
    rw [mkBlk_bytes, ← List.append_assoc] at h2
    have h3 := h2.right
    rwa [List.length_append, encodeUint_length, tl4 (t := tGrdt)] at h3
  have hex : Block.endPos ⟨p + (blksBytes mid).length, (grdtBlk g).size, tGrdt⟩ =
      p + (blksBytes mid).length + (8 + (g.data.getD []).length) := by
    unfold Block.endPos
    rw [hsize]; simp only; omega
  have hout : ∀ q, q ≤ p + (blksBytes mid).length + (8 + (g.data.getD []).length) →
      Block.exitD d ⟨p + (blksBytes mid).length, (grdtBlk g).size, tGrdt⟩ s q =
        .ok ((), p + (blksBytes mid).length + (8 + (g.data.getD []).length)) := by
    intro q hq
    rw [← hex] at hq ⊢
    exact exitD_inside hq
  unfold readGrdtD
  rw [Rd.bind_of_ok hc, if_pos rfl, Rd.bind_of_ok he, Rd.bind_of_ok hr]
  unfold Opts.dataOf Opts.defers
  by_cases hd : g.data.getD [] = []
  · rw [if_pos hd, if_neg (by simp [hd]), Rd.bind_of_ok (hout _ (by omega))]
    rfl
  · have hpos : 0 < (g.data.getD []).length := List.length_pos_iff.2 hd
    rw [if_neg hd, if_pos (by omega)]
    by_cases hdf : (o.seekable && (o.mode == .alwaysDeferLoadIfPossible || o.mode == .alwaysLoadDeferIfPossible)) = true
    · rw [if_pos hdf, if_pos hdf]
      rw [Rd.bind_apply, Rd.tell_apply]
      simp only
      rw [Rd.bind_of_ok (hout _ (by omega)), Int.toNat_natCast]
      rfl
    · rw [if_neg hdf, if_neg hdf]
      by_cases hn : (o.mode == .loadNever) = true
      · obtain ⟨q, hq, hs⟩ : ∃ q, q ≤ p + (blksBytes mid).length + (8 + (g.data.getD []).length) ∧
            skipD d (g.data.getD []).length s (p + (blksBytes mid).length + 8) = .ok ((), q) := by
          unfold skipD
          cases d.fwd with
          | true =>
            rw [if_pos rfl, Rd.bind_of_ok (readRawA_at hdat)]
            exact ⟨_, by omega, rfl⟩
          | false => exact ⟨_, by omega, rfl⟩
        rw [if_pos hn, if_pos hn, Int.toNat_natCast, Rd.bind_of_ok hs, Rd.bind_of_ok (hout _ hq)]
        rfl
      · rw [if_neg hn, if_neg hn, Int.toNat_natCast, Rd.bind_of_ok (readRawA_at hdat),
          Rd.bind_of_ok (hout _ (by omega))]
        rfl

/-! ## Turns -/

/-- One turn over the bytes `bs` at position `p`. -/
def TurnAtD (d : Dev) (o : Opts) (h : Hdr) (hc : Bool) (p : Nat) (bs : Bytes) (st : Step) : Prop :=
  ∀ s, At s p bs → grainsStepD d o h hc s p = .ok (st, p + bs.length)

/-- Every turn of the loop over these bytes takes at least one byte and, from any device, does the same. -/
inductive TurnsD (d : Dev) (o : Opts) : Nat → Hdr → Bool → Bytes → List Item → Hdr → Bool → Prop where
  | nil {p h hc} : TurnsD d o p h hc [] [] h hc
  | next {p h hc bs h1 hc1 rest items h2 hc2} : 0 < bs.length → TurnAtD d o h hc p bs (.next h1 hc1) →
      TurnsD d o (p + bs.length) h1 hc1 rest items h2 hc2 → TurnsD d o p h hc (bs ++ rest) items h2 hc2
  | yield {p h hc bs it rest items h2 hc2} : 0 < bs.length → TurnAtD d o h hc p bs (.yield it) →
      TurnsD d o (p + bs.length) h false rest items h2 hc2 →
      TurnsD d o p h hc (bs ++ rest) (it :: items) h2 hc2

theorem TurnsD.run {d o p h hc bs items h2 hc2} (ht : TurnsD d o p h hc bs items h2 hc2) {s : Stream}
    (hat : At s p bs) (fuel : Nat) :
    ∃ f, fuel ≤ f ∧ f ≤ fuel + bs.length ∧ ∀ k, f ≤ k → ∃ k', fuel ≤ k' ∧
      grainsLoopD d o s k h hc p = (grainsLoopD d o s k' h2 hc2 (p + bs.length)).prepend items := by
  induction ht with
  | nil => exact ⟨fuel, by omega, by simp, fun k hk => ⟨k, hk, by simp⟩⟩
  | next hpos h1 _ ih =>
    obtain ⟨f, hf1, hf2, hf⟩ := ih hat.right
    refine ⟨f + 1, by omega, by simp only [List.length_append]; omega, fun k hk => ?_⟩
    obtain ⟨k', hk', e⟩ := hf (k - 1) (by omega)
    refine ⟨k', hk', ?_⟩
    obtain ⟨j, rfl⟩ : ∃ j, k = j + 1 := ⟨k - 1, by omega⟩
    simp only [Nat.add_sub_cancel] at e
    simp only [grainsLoopD]
    rw [h1 s hat.left]
    simp only
    rw [e, List.length_append, Nat.add_assoc]
  | yield hpos h1 _ ih =>
    obtain ⟨f, hf1, hf2, hf⟩ := ih hat.right
    refine ⟨f + 1, by omega, by simp only [List.length_append]; omega, fun k hk => ?_⟩
    obtain ⟨k', hk', e⟩ := hf (k - 1) (by omega)
    refine ⟨k', hk', ?_⟩
    obtain ⟨j, rfl⟩ : ∃ j, k = j + 1 := ⟨k - 1, by omega⟩
    simp only [Nat.add_sub_cancel] at e
    simp only [grainsLoopD]
    rw [h1 s hat.left]
    simp only
    rw [e, List.length_append, Nat.add_assoc]
    rfl

theorem TurnsD.append {d o p h hc bs items h1 hc1 rest items2 h2 hc2}
    (a : TurnsD d o p h hc bs items h1 hc1) (b : TurnsD d o (p + bs.length) h1 hc1 rest items2 h2 hc2) :
    TurnsD d o p h hc (bs ++ rest) (items ++ items2) h2 hc2 := by
  induction a with
  | nil => simpa using b
  | next hp t _ ih =>
    rw [List.append_assoc]
    refine .next hp t (ih ?_)
    rwa [List.length_append, ← Nat.add_assoc] at b
  | yield hp t _ ih =>
    rw [List.append_assoc, List.cons_append]
    refine .yield hp t (ih ?_)
    rwa [List.length_append, ← Nat.add_assoc] at b

theorem turnD_other (d : Dev) (o : Opts) (h : Hdr) (p : Nat) {b : Blk} {t} (hok : b.Ok t) (ht : t ≠ tGrai) :
    TurnAtD d o h false p b.bytes (.next h false) := by
  intro s hat
  unfold grainsStepD
  rw [if_neg (by simp), Rd.bind_of_ok (enter_blk hat hok (.inl rfl)), if_pos (by simpa using ht)]
  rw [Rd.bind_of_ok (exitD_inside (by unfold Block.endPos; simp only; omega))]
  rw [if_neg (by simpa using hok.notSig)]
  simp only [Rd.pure_apply, Block.endPos, hok.length]

theorem Blk.Ok.pos {b : Blk} {t} (h : b.Ok t) : 0 < b.bytes.length := by
  rw [h.length]; omega

theorem turnsD_others (d : Dev) (o : Opts) (h : Hdr) {l : List Blk} (hl : Others [tGrai] l) (p : Nat) :
    TurnsD d o p h false (blksBytes l) [] h false := by
  induction l generalizing p with
  | nil => exact .nil
  | cons b l ih =>
    obtain ⟨t, hok, ht⟩ := hl b (by simp)
    exact .next hok.pos (turnD_other d o h p hok (by simpa using ht)) (ih (fun x hx => hl x (by simp [hx])) _)

theorem terminatorD_step (d : Dev) (o : Opts) (h : Hdr) (p : Nat) (s : Stream) (hat : At s p terminator) :
    grainsStepD d o h false s p = .ok (if o.concat then .next h false else .stop, p + 8) := by
  have hok : (⟨tagBytes tGrai, 0, []⟩ : Blk).Ok tGrai :=
    ⟨by decide, by decide, by decide, by decide, by decide⟩
  have hat' : At s p (⟨tagBytes tGrai, 0, []⟩ : Blk).bytes := hat
  unfold grainsStepD
  rw [if_neg (by simp), Rd.bind_of_ok (enter_blk hat' hok (.inl rfl)), if_neg (by simp), if_pos rfl]
  rw [Rd.bind_of_ok (exitD_inside (by unfold Block.endPos; simp))]
  simp only [Rd.ite_apply, Rd.pure_apply, Block.endPos]
  split <;> rfl

theorem signatureD_step (d : Dev) (o : Opts) (h : Hdr) (p : Nat) (s : Stream) (hat : At s p signature) :
    grainsStepD d o h false s p = .ok (if o.concat then .next h true else .stop, p + 8) := by
  have : enter none false s p = .ok (⟨p, 8, tSSBB⟩, p + 8) := by
    rw [enter_eq _ _ _ _ hat.base, readHeader_sig hat]; simp
  unfold grainsStepD
  rw [if_neg (by simp), Rd.bind_of_ok this, if_pos (by simp)]
  rw [Rd.bind_of_ok (exitD_inside (by unfold Block.endPos; simp))]
  simp only [Rd.ite_apply, Rd.pure_apply, Block.endPos]
  cases o.concat <;> rfl

theorem turnD_grain (d : Dev) (o : Opts) (h : Hdr) (p : Nat) {lid : Nat} (hl : lid < 2 ^ 16) {g : Grain}
    (hg : g.Ok h.major) {b : Blk} {off} (hd : DecoGrai h.major lid g b off) :
    TurnAtD d o h false p b.bytes (o.grainOut h p lid g off) := by
  intro s hat
  have hok := hd.ok
  have hlen := hok.length
  obtain ⟨⟨gb, mid, post, hgb, hmid, rfl, rfl⟩, hsz⟩ := hd
  have hgl : (grdtBlk g).bytes.length = 8 + (g.data.getD []).length := mkBlk_length _ _ tl4
  have hin : At s (p + 8) (encodeUint lid 2 ++ (gb.bytes ++ (blksBytes mid ++ ((grdtBlk g).bytes ++ post)))) := by
    have h2 := hat
    rw [mkBlk_bytes, ← List.append_assoc] at h2
    have h3 := h2.right
    rwa [List.length_append, encodeUint_length, tl4 (t := tGrai)] at h3
  have hbl : (mkBlk tGrai (encodeUint lid 2 ++ (gb.bytes ++ (blksBytes mid ++ ((grdtBlk g).bytes ++ post))))).size =
      8 + (2 + (gb.bytes.length + ((blksBytes mid).length + (8 + (g.data.getD []).length + post.length)))) := by
    unfold mkBlk
    simp only [List.length_append, encodeUint_length, ← hgl]
  generalize hB : mkBlk tGrai (encodeUint lid 2 ++ (gb.bytes ++ (blksBytes mid ++ ((grdtBlk g).bytes ++ post)))) = B at *
  have hend : Block.endPos ⟨p, B.size, tGrai⟩ = p + B.bytes.length := by
    rw [hlen]; rfl
  have hout : ∀ q, q ≤ p + B.size → Block.exitD d ⟨p, B.size, tGrai⟩ s q = .ok ((), p + B.bytes.length) := by
    intro q hq
    rw [← hend]
    exact exitD_inside (by rw [hend, hlen]; omega)
  unfold grainsStepD
  rw [if_neg (by simp), Rd.bind_of_ok (enter_blk hat hok (.inl rfl)), if_neg (by simp), if_neg (by simp only; omega)]
  have hlid := reads_uint (n := 2) (v := lid) (by omega) s _ hin.left
  rw [Rd.bind_of_ok hlid]
  unfold Opts.grainOut Opts.drops
  by_cases hdr : (o.localIds.any (fun ids => !ids.contains lid)) = true
  · rw [if_pos hdr, if_pos hdr, Rd.bind_of_ok (hout _ (by rw [encodeUint_length]; omega))]
    rfl
  · rw [if_neg hdr, if_neg hdr]
    have h1 := hin.right
    have hgbr := gbhdBlockD_read d hg hgb s _ h1.left
    rw [Rd.bind_of_ok hgbr]
    have h2 := h1.right
    rw [← List.append_assoc] at h2
    have hdl : 8 + (g.data.getD []).length < 2 ^ 32 := by
      have := hg.size
      unfold graiSize at this
      rw [hg.wf.2.2]; omega
    have hrd := readGrdtD_read d o hmid h2.left hdl ⟨p, B.size, tGrai⟩ (by
      simp only [encodeUint_length]
      omega)
    rw [Rd.bind_of_ok hrd, Rd.bind_of_ok (hout _ (by simp only [encodeUint_length]; omega))]
    simp only [Rd.pure_apply, encodeUint_length]
    have e : p + 8 + 2 + gb.bytes.length + (blksBytes mid).length + 8 =
      p + (10 + gb.bytes.length + (blksBytes mid).length + 8) := by omega
    rw [e]

/-! ## Whole files -/

/-- The deferred data of an item lies inside the file. -/
def Item.Inside (file : Bytes) (it : Item) : Prop := ∀ a n, it.data = .deferred a n → a + n ≤ file.length

/-- What is known about the items of some turns over `bs` at `p`: they are the grains `l`, and deferred data
is inside the file. -/
def Gives (p : Nat) (bs : Bytes) (items : List Item) (l : List (Meta × Option Bytes × Nat)) : Prop :=
  ∀ file, At ⟨0, file⟩ p bs → items.map (Item.view file) = l ∧ ∀ it ∈ items, it.Inside file

theorem dataOf_inside {o : Opts} {file : Bytes} {q : Nat} {d : Bytes} (h : At ⟨0, file⟩ q d) {a n}
    (he : o.dataOf q d = .deferred a n) : a + n ≤ file.length := by
  unfold Opts.dataOf at he
  split at he
  · cases he
  · rename_i hne
    split at he
    · cases he
      have := h.len (List.length_pos_iff.2 hne)
      unfold Stream.fin at this
      simpa using this
    · split at he <;> cases he

theorem DecoGrains.turnsD (o : Opts) (h : Hdr) {gs bs} (hd : DecoGrains h.major gs bs) (p : Nat) :
    ∃ items, (∀ d, TurnsD d o p h false bs items h false) ∧
      Gives p bs items ((gs.filter (fun x => !o.drops x.1)).map (o.viewOf h.major)) := by
  induction hd generalizing p with
  | nil => exact ⟨[], fun _ => .nil, fun _ _ => ⟨rfl, by simp⟩⟩
  | junk hok ht _ ih =>
    rename_i b t gs bs _
    obtain ⟨items, h1, h2⟩ := ih (p + b.bytes.length)
    exact ⟨items, fun d => .next hok.pos (turnD_other d o h p hok ht) (h1 d), fun file hat => h2 file hat.right⟩
  | grain hl hg hdg _ ih =>
    rename_i lid g b off gs bs _
    obtain ⟨items, h1, h2⟩ := ih (p + b.bytes.length)
    have ht := fun d => turnD_grain d o h p hl hg hdg
    unfold Opts.grainOut at ht
    cases hdr : o.drops lid with
    | true =>
      rw [hdr, if_pos rfl] at ht
      refine ⟨items, fun d => .next hdg.ok.pos (ht d) (h1 d), fun file hat => ?_⟩
      rw [List.filter_cons_of_neg (by simp [hdr])]
      exact h2 file hat.right
    | false =>
      rw [hdr, if_neg (by simp)] at ht
      refine ⟨_ :: items, fun d => .yield hdg.ok.pos (ht d) (h1 d), fun file hat => ⟨?_, ?_⟩⟩
      · rw [List.map_cons, (h2 file hat.right).1, List.filter_cons_of_pos (by simp [hdr]), List.map_cons]
        congr 1
        unfold Item.view Opts.viewOf Grain.payload
        simp only
        rw [o.dataOf_load (hdg.data_at hat.left)]
      · intro it hit
        rcases List.mem_cons.1 hit with rfl | hit
        · intro a n he
          exact dataOf_inside (hdg.data_at hat.left) he
        · exact (h2 file hat.right).2 it hit

/-- At the end of the data the loop ends silently. -/
theorem loopD_end (d : Dev) (o : Opts) (h : Hdr) {s p} (k : Nat) (hb : s.base ≤ p) (hf : s.fin < p + 4) :
    grainsLoopD d o s (k + 1) h false p = ⟨[], h, .eof⟩ := by
  have : grainsStepD d o h false s p = .error .eof := by
    unfold grainsStepD
    rw [if_neg (by simp), Rd.bind_of_error (enter_eof hb hf)]
  simp only [grainsLoopD]
  rw [this]

theorem file_turnsD {o : Opts} (hc : o.concat = true) (f : FileSpec) {gb post}
    (hg : DecoGrains f.major f.grains gb) (hp : Others [tGrai] post) (p : Nat) :
    ∃ items, (∀ d, TurnsD d o p f.hdr false (gb ++ (terminator ++ blksBytes post)) items f.hdr false) ∧
      Gives p (gb ++ (terminator ++ blksBytes post)) items
        ((f.grains.filter (fun x => !o.drops x.1)).map (o.viewOf f.major)) := by
  obtain ⟨items, h1, h2⟩ := DecoGrains.turnsD o f.hdr hg p
  refine ⟨items, fun d => ?_, fun file hat => h2 file hat.left⟩
  have ht : TurnAtD d o f.hdr false (p + gb.length) terminator (.next f.hdr false) := by
    intro s hat
    rw [terminatorD_step d o _ _ s hat, hc, if_pos rfl]
    rfl
  have := (h1 d).append (TurnsD.next (by decide) ht (turnsD_others d o f.hdr hp _))
  rwa [List.append_nil] at this

theorem next_file_turnsD {o : Opts} (hc : o.concat = true) {f : FileSpec} (hf : f.Ok) {bs}
    (hd : DecoFile f bs) (h : Hdr) (p : Nat) :
    ∃ items, (∀ d, TurnsD d o p h false bs items f.hdr false) ∧
      Gives p bs items ((f.grains.filter (fun x => !o.drops x.1)).map (o.viewOf f.major)) := by
  obtain ⟨pre, hb, gb, post, hpre, hhd, hgb, hpost, rfl⟩ := hd
  have e : encodeFileHeader f.major f.minor ++ ((blksBytes pre ++ hb.bytes) ++ (gb ++ (terminator ++ blksBytes post)))
    = signature ++ (((encodeUint f.major 2 ++ encodeUint f.minor 2) ++ (blksBytes pre ++ hb.bytes)) ++
      (gb ++ (terminator ++ blksBytes post))) := by
    simp [encodeFileHeader, signature]
  rw [e]
  obtain ⟨items, h1, h2⟩ := file_turnsD hc f hgb hpost (p + signature.length +
    ((encodeUint f.major 2 ++ encodeUint f.minor 2) ++ (blksBytes pre ++ hb.bytes)).length)
  refine ⟨items, fun d => ?_, fun file hat => h2 file hat.right.right⟩
  refine .next (h1 := h) (hc1 := true) (by decide) ?_ (.next (h1 := f.hdr) (hc1 := false) ?_ ?_ (h1 d))
  · intro s hat
    rw [signatureD_step d o _ _ s hat, hc, if_pos rfl]
    rfl
  · simp only [List.length_append, encodeUint_length]; omega
  · intro s hat
    unfold grainsStepD
    rw [if_pos rfl]
    rw [Rd.bind_of_ok (headersD_read d hf.major hf.minor hf.head hhd hpre s _ hat)]
    rfl

theorem files_turnsD {o : Opts} (hc : o.concat = true) {fs : List (FileSpec × Bytes)}
    (hf : ∀ x ∈ fs, x.1.Ok ∧ DecoFile x.1 x.2) (h : Hdr) (p : Nat) :
    ∃ items, (∀ d, TurnsD d o p h false (fs.flatMap Prod.snd) items (fs.foldl (fun _ x => x.1.hdr) h) false) ∧
      Gives p (fs.flatMap Prod.snd) items
        (fs.flatMap (fun x => (x.1.grains.filter (fun x => !o.drops x.1)).map (o.viewOf x.1.major))) := by
  induction fs generalizing h p with
  | nil => exact ⟨[], fun _ => .nil, fun _ _ => ⟨rfl, by simp⟩⟩
  | cons x fs ih =>
    obtain ⟨h1, h2⟩ := hf x (by simp)
    obtain ⟨i1, t1, v1⟩ := next_file_turnsD hc h1 h2 h p
    obtain ⟨i2, t2, v2⟩ := ih (fun y hy => hf y (by simp [hy])) x.1.hdr (p + x.2.length)
    refine ⟨i1 ++ i2, fun d => (t1 d).append (t2 d), fun file hat => ?_⟩
    rw [List.flatMap_cons] at hat
    refine ⟨?_, fun it hit => ?_⟩
    · rw [List.map_append, (v1 file hat.left).1, (v2 file hat.right).1, List.flatMap_cons]
    · rcases List.mem_append.1 hit with hit | hit
      · exact (v1 file hat.left).2 it hit
      · exact (v2 file hat.right).2 it hit

/-- Decoding from any device with concatenation support: all files' grains in order, last headers. -/
theorem decodeD_concat {o : Opts} (hc : o.concat = true) {f : FileSpec} {bs} (hf : f.Ok)
    (hd : DecoFile f bs) {fs : List (FileSpec × Bytes)} (hfs : ∀ x ∈ fs, x.1.Ok ∧ DecoFile x.1 x.2) :
    ∃ r : Run, (∀ d, decodeD d o (bs ++ fs.flatMap Prod.snd) = .ok r) ∧
      r.view (bs ++ fs.flatMap Prod.snd) = ((f, bs) :: fs).flatMap
        (fun x => (x.1.grains.filter (fun x => !o.drops x.1)).map (o.viewOf x.1.major)) ∧
      r.hdr = fs.foldl (fun _ x => x.1.hdr) f.hdr ∧ r.ending = .eof ∧
      ∀ it ∈ r.items, it.Inside (bs ++ fs.flatMap Prod.snd) := by
  generalize hfile : bs ++ fs.flatMap Prod.snd = file
  have hat : At ⟨0, file⟩ 0 (bs ++ fs.flatMap Prod.snd) := by rw [hfile]; exact at_self _ _
  obtain ⟨pre, hb, gb, post, hpre, hhd, hgb, hpost, hbs⟩ := hd
  have hat1 := hat.left
  rw [hbs, ← List.append_assoc] at hat1
  obtain ⟨i1, t1, v1⟩ := file_turnsD hc f hgb hpost
    (0 + (encodeFileHeader f.major f.minor ++ (blksBytes pre ++ hb.bytes)).length)
  obtain ⟨i2, t2, v2⟩ := files_turnsD hc hfs f.hdr (0 + bs.length)
  have hlen : 0 + (encodeFileHeader f.major f.minor ++ (blksBytes pre ++ hb.bytes)).length +
      (gb ++ (terminator ++ blksBytes post)).length = 0 + bs.length := by
    rw [hbs]; simp only [List.length_append]; omega
  refine ⟨⟨i1 ++ i2, fs.foldl (fun _ x => x.1.hdr) f.hdr, .eof⟩, fun d => ?_, ?_, rfl, rfl, ?_⟩
  · have hh := fileHeadersD_read d hf.major hf.minor hf.head hhd hpre _ _ hat1.left
    obtain ⟨f2, -, hf2, r2⟩ := (t2 d).run (s := ⟨0, file⟩) hat.right 1
    obtain ⟨f1, -, hf1, r1⟩ := (t1 d).run (s := ⟨0, file⟩) hat1.right f2
    have htot : f1 ≤ file.length + 1 := by
      have : file.length = bs.length + (fs.flatMap Prod.snd).length := by rw [← hfile, List.length_append]
      omega
    obtain ⟨k1, hk1, e1⟩ := r1 _ htot
    obtain ⟨k2, hk2, e2⟩ := r2 _ hk1
    obtain ⟨j, rfl⟩ : ∃ j, k2 = j + 1 := ⟨k2 - 1, by omega⟩
    have r3 := loopD_end d o (fs.foldl (fun _ x => x.1.hdr) f.hdr) (s := ⟨0, file⟩)
      (p := 0 + bs.length + (fs.flatMap Prod.snd).length) j (Nat.zero_le _) (by
      unfold Stream.fin; simp only [← hfile, List.length_append]; omega)
    rw [hlen, e2, r3, Run.prepend_prepend] at e1
    unfold decodeD
    rw [hh]
    have e1' := e1
    unfold FileSpec.hdr at e1'
    simp only [e1', Run.prepend, List.append_nil]
    rfl
  · simp only [Run.view, List.map_append]
    rw [(v1 file hat1.right).1, (v2 file hat.right).1, List.flatMap_cons]
  · intro it hit
    rcases List.mem_append.1 hit with hit | hit
    · exact (v1 file hat1.right).2 it hit
    · exact (v2 file hat.right).2 it hit

/-- Decoding from any device without concatenation support: the first file's grains only. -/
theorem decodeD_single {o : Opts} (hc : o.concat = false) {f : FileSpec} {bs} (hf : f.Ok)
    (hd : DecoFile f bs) (rest : Bytes) :
    ∃ r : Run, (∀ d, decodeD d o (bs ++ rest) = .ok r) ∧
      r.view (bs ++ rest) = (f.grains.filter (fun x => !o.drops x.1)).map (o.viewOf f.major) ∧
      r.hdr = f.hdr ∧ r.ending = .break_ ∧ ∀ it ∈ r.items, it.Inside (bs ++ rest) := by
  generalize hfile : bs ++ rest = file
  have hat : At ⟨0, file⟩ 0 (bs ++ rest) := by rw [hfile]; exact at_self _ _
  obtain ⟨pre, hb, gb, post, hpre, hhd, hgb, hpost, hbs⟩ := hd
  have hat1 := hat.left
  rw [hbs, ← List.append_assoc] at hat1
  obtain ⟨i1, t1, v1⟩ := DecoGrains.turnsD o f.hdr hgb
    (0 + (encodeFileHeader f.major f.minor ++ (blksBytes pre ++ hb.bytes)).length)
  have hat2 := hat1.right
  refine ⟨⟨i1, f.hdr, .break_⟩, fun d => ?_, ?_, rfl, rfl, ?_⟩
  · have hh := fileHeadersD_read d hf.major hf.minor hf.head hhd hpre _ _ hat1.left
    obtain ⟨f1, -, hf1, r1⟩ := (t1 d).run (s := ⟨0, file⟩) hat2.left 1
    have htot : f1 ≤ file.length + 1 := by
      rw [← hfile, hbs]; simp only [List.length_append]; omega
    obtain ⟨k1, hk1, e1⟩ := r1 _ htot
    obtain ⟨j, rfl⟩ : ∃ j, k1 = j + 1 := ⟨k1 - 1, by omega⟩
    have r2 : grainsLoopD d o ⟨0, file⟩ (j + 1) f.hdr false
        (0 + (encodeFileHeader f.major f.minor ++ (blksBytes pre ++ hb.bytes)).length + gb.length) =
          ⟨[], f.hdr, .break_⟩ := by
      simp only [grainsLoopD]
      rw [terminatorD_step d o f.hdr _ _ hat2.right.left, hc]
      rfl
    rw [r2] at e1
    unfold decodeD
    rw [hh]
    have e1' := e1
    unfold FileSpec.hdr at e1'
    simp only [e1', Run.prepend, List.append_nil]
    rfl
  · simp only [Run.view]
    rw [(v1 file hat2.left).1]
    rfl
  · exact (v1 file hat2.left).2

end Verif.Gsf

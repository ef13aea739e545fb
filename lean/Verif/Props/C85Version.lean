import Verif.Props.C86
import Verif.Gsf.HeadRT
import Verif.Gsf.Loop

/-!
# C85 for files of other versions

The documents are those of version 9.0. A reader has to read files of any minor version in the same way; what it makes of a file of version 8 is
compared with what it makes of the same bytes in version 9.
-/

namespace Verif.Props

open Verif Verif.Gsf

/-- What version 8 says with the bytes that say something in version 9: there is always a key frame flag and a temporal offset. -/
def asVersion8 (m : Gsf.Meta) : Gsf.Meta :=
  { m with cogCodedFrame := m.cogCodedFrame.map fun c =>
      { c with isKeyFrame := some (c.isKeyFrame.getD true), temporalOffset := some (c.temporalOffset.getD 0x7fffffff) } }

/-- A file that begins with a version. -/
def versioned (major minor : Nat) (rest : Bytes) : Bytes := encodeFileHeader major minor ++ rest

namespace C85v

/-- Two streams with the same bytes from a position on. -/
structure Same (B : Nat) (s s' : Stream) : Prop where
  base : s'.base = s.base
  length : s'.buf.length = s.buf.length
  rest : ∀ p, B ≤ p → s'.buf.drop (p - s.base) = s.buf.drop (p - s.base)

theorem Same.refl (B : Nat) (s : Stream) : Same B s s := ⟨rfl, rfl, fun _ _ => rfl⟩

/-- Two results: the same exception, or related values and the same position. -/
inductive Two (B : Nat) (R : α → α' → Prop) : Except Err (α × Nat) → Except Err (α' × Nat) → Prop
  | err (e : Err) : Two B R (.error e) (.error e)
  | ok {a : α} {a' : α'} {q : Nat} (r : R a a') (hq : B ≤ q) : Two B R (.ok (a, q)) (.ok (a', q))

/-- Two actions that do the same. -/
def Twin (B : Nat) (R : α → α' → Prop) (m : Rd α) (m' : Rd α') : Prop :=
  ∀ s s' p, Same B s s' → B ≤ p → Two B R (m s p) (m' s' p)

section
variable {B : Nat}

theorem Twin.pure {R : α → α' → Prop} {a : α} {a' : α'} (h : R a a') : Twin B R (Pure.pure a) (Pure.pure a') :=
  fun _ _ _ _ hp => .ok h hp

theorem Twin.bind {R : α → α' → Prop} {S : β → β' → Prop} {m : Rd α} {m' : Rd α'} {f : α → Rd β} {f' : α' → Rd β'} (h1 : Twin B R m m')
    (h2 : ∀ a a', R a a' → Twin B S (f a) (f' a')) : Twin B S (m >>= f) (m' >>= f') := by
  intro s s' p hs hp
  simp only [Rd.bind_apply]
  have h := h1 s s' p hs hp
  generalize m s p = x at h
  generalize m' s' p = x' at h
  cases h with
  | err e => exact .err e
  | ok r hq => exact h2 _ _ r s s' _ hs hq

theorem Twin.then {S : β → β' → Prop} {m m' : Rd α} {f : α → Rd β} {f' : α → Rd β'} (h1 : Twin B Eq m m') (h2 : ∀ a, Twin B S (f a) (f' a)) :
    Twin B S (m >>= f) (m' >>= f') := h1.bind fun a a' h => h ▸ h2 a

theorem Twin.fail {R : α → α → Prop} (e : Err) : Twin B R (Rd.fail e) (Rd.fail e) := fun _ _ _ _ _ => .err e

theorem Twin.ite {R : α → α → Prop} {c : Prop} [Decidable c] {m1 m2 m1' m2' : Rd α} (h1 : Twin B R m1 m1') (h2 : Twin B R m2 m2') :
    Twin B R (if c then m1 else m2) (if c then m1' else m2') := by split <;> assumption

theorem Twin.ofOption (e : Err) (o : Option α) : Twin B Eq (Rd.ofOption e o) (Rd.ofOption e o) := by
  intro s s' p _ hp
  cases o with
  | none => exact .err e
  | some a => exact .ok rfl hp

theorem Twin.tell : Twin B (fun a a' => a = a' ∧ B ≤ a) Rd.tell Rd.tell := fun _ _ _ _ hp => .ok ⟨rfl, hp⟩ hp

theorem Twin.seek {q : Nat} (h : B ≤ q) : Twin B Eq (Rd.seek q) (Rd.seek q) := fun _ _ _ _ _ => .ok rfl h

theorem raw (n : Nat) : Twin B Eq (readRaw n) (readRaw n) := by
  intro s s' p hs hp
  simp only [readRaw, hs.base, hs.rest p hp]
  exact .ok rfl (by omega)

theorem exact (n : Nat) : Twin B Eq (readExact n) (readExact n) := (raw n).then fun _ => .ite (.fail _) (.pure rfl)
theorem uint (n : Nat) : Twin B Eq (readUint n) (readUint n) := (exact n).then fun _ => .pure rfl
theorem bool : Twin B Eq readBool readBool := (uint 1).then fun _ => .pure rfl
theorem optionalBool : Twin B Eq readOptionalBool readOptionalBool := (uint 1).then fun _ => .ite (.pure rfl) (.pure rfl)
theorem sint (n : Nat) : Twin B Eq (readSint n) (readSint n) := (uint n).then fun _ => .pure rfl
theorem optionalSint (n v : Nat) : Twin B Eq (readOptionalSint n v) (readOptionalSint n v) :=
  (uint n).then fun _ => .ite (.pure rfl) (.pure rfl)
theorem string (n : Nat) : Twin B Eq (readString n) (readString n) := (exact n).then fun _ => (Twin.ofOption _ _).then fun _ => .pure rfl
theorem varstring : Twin B Eq readVarstring readVarstring := (uint 2).then fun n => string n
theorem uuid : Twin B Eq Gsf.readUuid Gsf.readUuid := exact 16
theorem varbytes : Twin B Eq readVarbytes readVarbytes := (uint 4).then fun n => raw n
theorem timestampV7 : Twin B Eq readTimestampV7 readTimestampV7 := (uint 6).then fun _ => (uint 4).then fun _ => .pure rfl
theorem timestamp : Twin B Eq readTimestamp readTimestamp := bool.then fun _ => (uint 6).then fun _ => (uint 4).then fun _ => .pure rfl
theorem rational : Twin B Eq readRational readRational :=
  (uint 4).then fun _ => (uint 4).then fun _ => .ite (.pure rfl) (.pure rfl)
theorem skip' (n : Nat) : Twin B Eq (skip n) (skip n) :=
  Twin.tell.bind fun a a' h => by obtain ⟨rfl, h⟩ := h; exact .seek (by omega)
theorem datetime : Twin B Eq readDatetime readDatetime :=
  (sint 2).then fun _ => (uint 1).then fun _ => (uint 1).then fun _ => (uint 1).then fun _ => (uint 1).then fun _ =>
    (uint 1).then fun _ => .ite (.pure rfl) (.fail _)

theorem «repeat» {m : Rd α} (h : Twin B Eq m m) : ∀ n, Twin B Eq (repeatRd n m) (repeatRd n m)
  | 0 => .pure rfl
  | n + 1 => h.then fun _ => («repeat» h n).then fun _ => .pure rfl

theorem header : Twin B Eq readHeader readHeader :=
  (string 4).then fun _ => .ite ((string 4).then fun _ => .ite (.fail _) (.pure rfl)) ((uint 4).then fun _ => .pure rfl)

/-- The same block, after the position. -/
def SameBlock (B : Nat) (b b' : Block) : Prop := b = b' ∧ B ≤ b.start

theorem enterLoop' (want r) : ∀ n, Twin B (SameBlock B) (enterLoop want r n) (enterLoop want r n)
  | 0 => .fail _
  | n + 1 => by
    unfold enterLoop
    refine Twin.tell.bind fun a a' h => ?_
    obtain ⟨rfl, h⟩ := h
    refine header.then fun x => ?_
    refine .ite (.pure ⟨rfl, h⟩) (.ite (.fail _) ((Twin.seek ?_).then fun _ => enterLoop' want r n))
    simp only [Block.endPos]
    omega

theorem enter' (want r) : Twin B (SameBlock B) (enter want r) (enter want r) := by
  intro s s' p hs hp
  simp only [enter, hs.length]
  exact enterLoop' want r _ s s' p hs hp

theorem exit' {b : Block} (h : B ≤ b.start) : Twin B Eq b.exit b.exit := .seek (by simp only [Block.endPos]; omega)

theorem remaining (b : Block) : Twin B Eq b.remaining b.remaining := fun _ _ _ _ hp => .ok rfl hp

theorem hasChild (b : Block) : Twin B Eq b.hasChild b.hasChild :=
  (remaining b).then fun _ => .ite (.pure rfl) (.ite (.fail _) (.pure rfl))

theorem childrenLoop (b : Block) {R : σ → σ → Prop} {f f' : Block → σ → Rd σ} (hf : ∀ c st st', R st st' → Twin B R (f c st) (f' c st')) :
    ∀ n st st', R st st' → Twin B R (forChildrenLoop b f n st) (forChildrenLoop b f' n st')
  | 0, _, _, _ => .fail _
  | n + 1, st, st', h => by
    unfold forChildrenLoop
    refine (hasChild b).then fun x => .ite ?_ (.pure h)
    refine (enter' none false).bind fun c c' hc => ?_
    obtain ⟨rfl, hc⟩ := hc
    refine (hf c st st' h).bind fun t t' ht => (exit' hc).then fun _ => childrenLoop b hf n t t' ht

theorem children (b : Block) {R : σ → σ → Prop} {f f' : Block → σ → Rd σ} (hf : ∀ c st st', R st st' → Twin B R (f c st) (f' c st'))
    {st st' : σ} (h : R st st') : Twin B R (forChildren b f st) (forChildren b f' st') := by
  intro s s' p hs hp
  simp only [forChildren, hs.length]
  exact childrenLoop b hf _ st st' h s s' p hs hp

theorem inRemaining (b : Block) {R : α → α → Prop} {m m' : Rd α} (h : Twin B R m m') : Twin B R (b.inRemaining m) (b.inRemaining m') := by
  intro s s' p hs hp
  simp only [Block.inRemaining, hs.base, hs.rest p hp]
  have h' := h _ _ p (Same.refl B ⟨p, List.take ((b.start : Int) + b.size - p).toNat (List.drop (p - s.base) s.buf)⟩) hp
  generalize m _ p = x at h'
  generalize m' _ p = x' at h'
  cases h' with
  | err e => exact .err e
  | ok r hq => exact .ok r (by omega)

theorem timeLabel : Twin B Eq readTimeLabel readTimeLabel := by
  unfold readTimeLabel
  repeat first | exact Twin.pure rfl | (refine Twin.then (uint _) fun _ => ?_) | (refine Twin.then (string _) fun _ => ?_) | (refine Twin.then bool fun _ => ?_) | (refine Twin.then rational fun _ => ?_)
theorem tils : Twin B Eq readTils readTils := (uint 2).then fun _ => «repeat» timeLabel _
theorem components : ∀ n off, Twin B Eq (readComponents n off) (readComponents n off)
  | 0, _ => .pure rfl
  | n + 1, _ => (uint 4).then fun _ => (uint 4).then fun _ => (uint 4).then fun _ => (uint 4).then fun _ =>
      (components n _).then fun _ => .pure rfl
theorem vghdChild' (c v v') (h : v = v') : Twin B Eq (vghdChild c v) (vghdChild c v') := by
  subst h
  exact .ite (.pure rfl) ((uint 2).then fun _ => (components _ _).then fun _ => .pure rfl)
theorem vghd (b) : Twin B Eq (readVghd b) (readVghd b) :=
  (uint 4).then fun _ => (uint 4).then fun _ => (uint 4).then fun _ => (uint 4).then fun _ => (uint 4).then fun _ =>
    rational.then fun _ => rational.then fun _ => children b (fun c v v' h => vghdChild' c v v' h) rfl
theorem aghd : Twin B Eq readAghd readAghd :=
  (uint 4).then fun _ => (uint 2).then fun _ => (uint 4).then fun _ => (uint 4).then fun _ => .pure rfl
theorem cahd : Twin B Eq readCahd readCahd :=
  (uint 4).then fun _ => (uint 2).then fun _ => (uint 4).then fun _ => (uint 4).then fun _ => (uint 4).then fun _ =>
    (uint 4).then fun _ => .pure rfl

/-- What becomes of the header of a coded picture. -/
def coded8 (c : CodedVideoHdr) : CodedVideoHdr :=
  { c with isKeyFrame := some (c.isKeyFrame.getD true), temporalOffset := some (c.temporalOffset.getD 0x7fffffff) }

theorem cghdChild' (F : CodedVideoHdr → CodedVideoHdr) (hF : ∀ c o, F { c with unitOffsets := o } = { F c with unitOffsets := o })
    (c v v') (h : v' = F v) : Twin B (fun a a' => a' = F a) (cghdChild c v) (cghdChild c v') := by
  subst h
  exact .ite (.pure rfl) ((uint 2).then fun _ => («repeat» (uint 4) _).then fun _ => .pure (hF _ _).symm)

theorem keyFrame8 : Twin B (fun a a' => a' = (some (a.1.getD true), some (a.2.getD 0x7fffffff))) (readKeyFrame 9) (readKeyFrame 8) := by
  have h1 : Twin B (fun a a' => a' = a.getD true) readOptionalBool readBool := by
    unfold readOptionalBool readBool
    refine (uint 1).then fun n => ?_
    split
    · exact .pure (by simp; omega)
    · exact .pure rfl
  have h2 : Twin B (fun a a' => a' = a.getD 0x7fffffff) (readOptionalSint 4 0x7fffffff) (readSint 4) := by
    unfold readOptionalSint readSint
    refine (uint 4).then fun n => ?_
    split
    · rename_i h; subst h; exact .pure (by decide)
    · exact .pure rfl
  unfold readKeyFrame
  simp only [if_pos (by omega : 8 < 9), if_neg (by omega : ¬ 9 < 9)]
  refine h1.bind fun a a' ha => h2.bind fun c c' hc => .pure ?_
  rw [ha, hc]

theorem cghd8 (b) : Twin B (fun a a' => a' = coded8 a) (readCghd 9 b) (readCghd 8 b) :=
  (uint 4).then fun _ => (uint 4).then fun _ => (uint 4).then fun _ => (uint 4).then fun _ => (uint 4).then fun _ => (uint 4).then fun _ =>
    keyFrame8.bind fun a a' h => by
      subst h
      exact children b (fun c v v' h => cghdChild' coded8 (fun _ _ => rfl) c v v' h) rfl

theorem keyFrame (major) : Twin B Eq (readKeyFrame major) (readKeyFrame major) :=
  .ite (bool.then fun _ => (sint 4).then fun _ => .pure rfl) (optionalBool.then fun _ => (optionalSint 4 _).then fun _ => .pure rfl)

theorem cghd (major b) : Twin B (fun a a' => a' = id a) (readCghd major b) (readCghd major b) :=
  (uint 4).then fun _ => (uint 4).then fun _ => (uint 4).then fun _ => (uint 4).then fun _ => (uint 4).then fun _ => (uint 4).then fun _ =>
    (keyFrame major).then fun _ => children b (fun c v v' h => cghdChild' id (fun _ _ => rfl) c v v' h) rfl

theorem child {M M' : Nat} {F : CodedVideoHdr → CodedVideoHdr} (hc : ∀ b, Twin B (fun a a' => a' = F a) (readCghd M b) (readCghd M' b))
    (c : Block) (m m' : Gsf.Meta) (h : m' = { m with cogCodedFrame := m.cogCodedFrame.map F }) :
    Twin B (fun a a' => a' = { a with cogCodedFrame := a.cogCodedFrame.map F }) (gbhdChild M c m) (gbhdChild M' c m') := by
  subst h
  refine .ite (tils.then fun _ => .pure rfl) (.ite ((vghd c).then fun _ => .pure rfl) (.ite ((hc c).bind fun a a' h => .pure ?_)
    (.ite (aghd.then fun _ => .pure rfl) (.ite (cahd.then fun _ => .pure rfl) (.ite (.pure rfl) (.pure rfl))))))
  rw [h]
  rfl

theorem fixed {M M' : Nat} (h : M = 7 ↔ M' = 7) : Twin B (fun a a' => a = a' ∧ a.cogCodedFrame = none) (readGbhdFixed M) (readGbhdFixed M') := by
  unfold readGbhdFixed
  refine uuid.then fun _ => uuid.then fun _ => ?_
  by_cases h7 : M = 7
  · rw [if_pos h7, if_pos (h.1 h7)]
    exact (skip' 16).then fun _ => timestampV7.then fun _ => timestampV7.then fun _ => rational.then fun _ => rational.then fun _ => .pure ⟨rfl, rfl⟩
  · rw [if_neg h7, if_neg (fun h' => h7 (h.2 h'))]
    exact timestamp.then fun _ => timestamp.then fun _ => rational.then fun _ => rational.then fun _ => .pure ⟨rfl, rfl⟩

/-- The metadata as `F` changes the header of coded pictures. -/
def onCoded (F : CodedVideoHdr → CodedVideoHdr) (m : Gsf.Meta) : Gsf.Meta := { m with cogCodedFrame := m.cogCodedFrame.map F }

theorem gbhd {M M' : Nat} (h7 : M = 7 ↔ M' = 7) {F : CodedVideoHdr → CodedVideoHdr}
    (hc : ∀ b, Twin B (fun a a' => a' = F a) (readCghd M b) (readCghd M' b)) :
    Twin B (fun a a' => a' = onCoded F a) (readGbhdBlock M) (readGbhdBlock M') := by
  unfold readGbhdBlock
  refine (enter' _ _).bind fun b b' hb => ?_
  obtain ⟨rfl, hb⟩ := hb
  refine (inRemaining b ?_).bind fun m m' hm => (exit' hb).then fun _ => .pure hm
  unfold decodeGbhd
  refine (fixed h7).bind fun m m' hm => ?_
  obtain ⟨rfl, hm⟩ := hm
  refine children b (fun c m m' h => child hc c m m' h) ?_
  cases m
  simp only at hm
  subst hm
  rfl

theorem onCoded_id (m : Gsf.Meta) : onCoded id m = m := by simp [onCoded]

theorem gbhdSame (M : Nat) : Twin B (fun a a' => a' = id a) (readGbhdBlock M) (readGbhdBlock M) := by
  have h := gbhd (B := B) (M := M) Iff.rfl (fun b => cghd M b)
  have e : (fun a a' : Gsf.Meta => a' = onCoded id a) = fun a a' => a' = id a := by
    funext a a'
    rw [onCoded_id]
    rfl
  rwa [e] at h

/-- Data that is still in the file is after the position. -/
def Beyond (B : Nat) (d : Data) : Prop := ∀ a n, d = .deferred a n → B ≤ a

theorem Beyond.load {B : Nat} {d : Data} (h : Beyond B d) {x y : Bytes} (hs : Same B ⟨0, x⟩ ⟨0, y⟩) : d.load y = d.load x := by
  cases d with
  | none => rfl
  | bytes b => rfl
  | deferred a n =>
    have := hs.rest a (h a n rfl)
    simp only [Nat.sub_zero] at this
    simp only [Data.load, this]

theorem grdt (o : Opts) (b : Block) : Twin B (fun a a' => a = a' ∧ Beyond B a) (readGrdt o b) (readGrdt o b) := by
  unfold readGrdt
  refine (hasChild b).then fun _ => .ite ?_ (.pure ⟨rfl, fun _ _ h => by cases h⟩)
  refine (enter' _ _).bind fun c c' hc => ?_
  obtain ⟨rfl, hc⟩ := hc
  refine (remaining c).then fun _ => .ite (.ite ?_ (.ite ((exit' hc).then fun _ => .pure ⟨rfl, fun _ _ h => by cases h⟩)
    ((raw _).then fun _ => (exit' hc).then fun _ => .pure ⟨rfl, fun _ _ h => by cases h⟩)))
    ((exit' hc).then fun _ => .pure ⟨rfl, fun _ _ h => by cases h⟩)
  refine Twin.tell.bind fun a a' ha => ?_
  obtain ⟨rfl, ha⟩ := ha
  exact (exit' hc).then fun _ => .pure ⟨rfl, fun _ _ h => by cases h; exact ha⟩

theorem tagBody : Twin B Eq readTagBody readTagBody := varstring.then fun _ => varstring.then fun _ => .pure rfl
theorem flowBody : Twin B Eq readFlowBody readFlowBody :=
  uuid.then fun _ => uuid.then fun _ => (string 64).then fun _ => varbytes.then fun _ => (Twin.ofOption _ _).then fun _ => .pure rfl
theorem segmChild' (c sg sg') (h : sg = sg') : Twin B Eq (segmChild c sg) (segmChild c sg') := by
  subst h
  exact .ite (flowBody.then fun _ => .pure rfl) (.ite (tagBody.then fun _ => .pure rfl) (.pure rfl))
theorem segmBody (b) : Twin B Eq (readSegmBody b) (readSegmBody b) :=
  (uint 2).then fun _ => uuid.then fun _ => (sint 8).then fun _ => children b (fun c v v' h => segmChild' c v v' h) rfl
theorem headChild' (c h h') (e : h = h') : Twin B Eq (headChild c h) (headChild c h') := by
  subst e
  exact .ite ((segmBody c).then fun _ => .pure rfl) (.ite (tagBody.then fun _ => .pure rfl) (.pure rfl))
theorem head (b) : Twin B Eq (decodeHead b) (decodeHead b) :=
  uuid.then fun _ => datetime.then fun _ => children b (fun c v v' h => headChild' c v v' h) rfl
theorem headBlock : Twin B Eq decodeHeadBlock decodeHeadBlock := by
  unfold decodeHeadBlock
  refine (enter' _ _).bind fun b b' hb => ?_
  obtain ⟨rfl, hb⟩ := hb
  exact (inRemaining b (head b)).then fun _ => (exit' hb).then fun _ => .pure rfl

theorem eofToDecode {m : Rd α} (h : Twin B Eq m m) : Twin B Eq (Rd.eofToDecode m) (Rd.eofToDecode m) := by
  intro s s' p hs hp
  have h' := h s s' p hs hp
  unfold Rd.eofToDecode
  generalize m s p = x at h'
  generalize m s' p = x' at h'
  cases h' with
  | ok r hq => exact .ok r hq
  | err e => cases e <;> exact .err _

theorem ssb (known : Bool) : Twin B Eq (decodeSsb known) (decodeSsb known) := by
  unfold decodeSsb
  exact .ite ((string 8).then fun _ => .ite (.fail _) ((uint 2).then fun _ => (uint 2).then fun _ => .pure rfl))
    ((uint 2).then fun _ => (uint 2).then fun _ => .pure rfl)

theorem headers (known : Bool) : Twin B Eq (decodeFileHeaders known) (decodeFileHeaders known) := by
  unfold decodeFileHeaders
  exact (ssb known).then fun _ => .ite ((eofToDecode headBlock).then fun _ => .pure rfl) (.fail _)

/-- The same turn of the loop, with `F` on the metadata of a grain and the headers of each side. -/
inductive SameStep (B : Nat) (F : Gsf.Meta → Gsf.Meta) (o : Opts) (h h' : Hdr) (hc : Bool) : Step → Step → Prop
  | stay (c : Bool) (e : hc = false) (j : c = true → o.concat = true) : SameStep B F o h h' hc (.next h c) (.next h' c)
  | joined (x : Hdr) (e : hc = true) : SameStep B F o h h' hc (.next x false) (.next x false)
  | yield (i : Gsf.Meta) (d : Data) (l : Nat) (b : Beyond B d) : SameStep B F o h h' hc (.yield ⟨i, d, l⟩) (.yield ⟨F i, d, l⟩)
  | stop : SameStep B F o h h' hc .stop .stop

theorem step (o : Opts) {F : Gsf.Meta → Gsf.Meta} {h h' : Hdr}
    (hF : Twin B (fun a a' => a' = F a) (readGbhdBlock h.major) (readGbhdBlock h'.major)) (hc : Bool) :
    Twin B (SameStep B F o h h' hc) (grainsStep o h hc) (grainsStep o h' hc) := by
  unfold grainsStep
  cases hc with
  | true =>
    simp only [if_true]
    exact (headers true).then fun x => .pure (.joined x rfl)
  | false =>
    simp only [Bool.false_eq_true, if_false]
    refine (enter' _ _).bind fun b b' hb => ?_
    obtain ⟨rfl, hb⟩ := hb
    refine .ite ((exit' hb).then fun _ => .ite ?_ (.pure (.stay _ rfl (by simp))))
      (.ite ((exit' hb).then fun _ => .ite (.pure (.stay _ rfl (by simp))) (.pure .stop)) ((uint 2).then fun l =>
        .ite ((exit' hb).then fun _ => .pure (.stay _ rfl (by simp))) (hF.bind fun a a' ha => (grdt o b).bind fun d d' hd =>
          (exit' hb).then fun _ => .pure ?_)))
    · cases ho : o.concat with
      | true => exact .pure (.stay _ rfl (fun _ => ho))
      | false => exact .pure .stop
    · subst ha
      obtain ⟨rfl, hd⟩ := hd
      exact .yield a d l hd

/-- What two runs have in common: grains, of which the first `k` belong to the file itself and the others to files joined to it. -/
structure SameRun (B : Nat) (F : Gsf.Meta → Gsf.Meta) (o : Opts) (h h' : Hdr) (hc : Bool) (r r' : Run) : Prop where
  ending : r'.ending = r.ending
  beyond : ∀ i ∈ r.items, Beyond B i.data
  items : ∃ k, r'.items = (r.items.take k).map (fun i => { i with info := F i.info }) ++ r.items.drop k ∧
    (k = r.items.length ∧ r.hdr = h ∧ r'.hdr = h' ∨ (o.concat = true ∨ hc = true) ∧ r'.hdr = r.hdr)

theorem loop (o : Opts) {s s' : Stream} (hs : Same B s s') : ∀ (n : Nat) (F : Gsf.Meta → Gsf.Meta) (h h' : Hdr)
    (_ : Twin B (fun a a' => a' = F a) (readGbhdBlock h.major) (readGbhdBlock h'.major)) (hc : Bool) (p : Nat), B ≤ p →
    SameRun B F o h h' hc (grainsLoop o s n h hc p) (grainsLoop o s' n h' hc p)
  | 0, F, h, h', hF, hc, p, _ => ⟨rfl, (fun _ h => by cases h), 0, rfl, .inl ⟨rfl, rfl, rfl⟩⟩
  | n + 1, F, h, h', hF, hc, p, hp => by
    have hst := step o hF hc s s' p hs hp
    unfold grainsLoop
    generalize hx : grainsStep o h hc s p = x at hst
    generalize hx' : grainsStep o h' hc s' p = x' at hst
    cases hst with
    | err e => cases e <;> exact ⟨rfl, (fun _ h => by cases h), 0, rfl, .inl ⟨rfl, rfl, rfl⟩⟩
    | @ok a a' q r hq =>
      cases r with
      | stop => exact ⟨rfl, (fun _ h => by cases h), 0, rfl, .inl ⟨rfl, rfl, rfl⟩⟩
      | stay c e j =>
        have ih := loop o hs n F h h' hF c q hq
        obtain ⟨h1, hb, k, h2, h3⟩ := ih
        exact ⟨h1, hb, k, h2, h3.imp id (fun h => ⟨.inl (h.1.elim id j), h.2⟩)⟩
      | joined y e =>
        obtain ⟨h1, hb, k, h2, h3⟩ := loop o hs n id y y (gbhdSame y.major) false q hq
        refine ⟨h1, hb, 0, ?_, .inr ⟨.inr e, ?_⟩⟩
        · rw [h2]
          simp
        · rcases h3 with ⟨_, h3, h4⟩ | ⟨_, h3⟩
          · rw [h3, h4]
          · exact h3
      | yield i d l b =>
        have ih := loop o hs n F h h' hF false q hq
        obtain ⟨h1, hb, k, h2, h3⟩ := ih
        refine ⟨h1, fun i hi => (List.mem_cons.1 hi).elim (fun e => by rw [e]; exact b) (hb i), k + 1, ?_, h3.imp (fun h => ⟨by simp [h.1], h.2⟩) (fun h => ⟨.inl ?_, h.2⟩)⟩
        · simp [h2]
        · rcases h.1 with h | h
          · exact h
          · cases h

theorem mem_cut {r : Run} {i : Item} (h : i ∈ (cutRun r).1) : i ∈ r.items := (List.takeWhile_prefix _).subset h

/-- Items of which the first `k` have their metadata changed by `F`. -/
def mixed (F : Gsf.Meta → Gsf.Meta) (k : Nat) (l : List Item) : List Item := (l.take k).map (fun i => { i with info := F i.info }) ++ l.drop k

theorem mixed_cons (F : Gsf.Meta → Gsf.Meta) (k : Nat) (i : Item) (l : List Item) :
    mixed F (k + 1) (i :: l) = { i with info := F i.info } :: mixed F k l := rfl

theorem mixed_while {F : Gsf.Meta → Gsf.Meta} {P : Item → Bool} (hP : ∀ i : Item, P { i with info := F i.info } = P i) :
    ∀ (k : Nat) (l : List Item), (mixed F k l).takeWhile P = mixed F k (l.takeWhile P)
  | 0, l => by simp [mixed]
  | k + 1, [] => by simp [mixed]
  | k + 1, i :: l => by
    rw [mixed_cons, List.takeWhile_cons, List.takeWhile_cons, hP]
    split
    · rw [mixed_cons, mixed_while hP k l]
    · simp [mixed]

theorem mixed_any {F : Gsf.Meta → Gsf.Meta} {P : Item → Bool} (hP : ∀ i : Item, P { i with info := F i.info } = P i) :
    ∀ (k : Nat) (l : List Item), (mixed F k l).any P = l.any P
  | 0, l => by simp [mixed]
  | k + 1, [] => by simp [mixed]
  | k + 1, i :: l => by rw [mixed_cons, List.any_cons, List.any_cons, hP, mixed_any hP k l]

theorem cut_mixed (F : Gsf.Meta → Gsf.Meta) (hF : ∀ m, (F m).grainType = m.grainType) {r r' : Run} (k : Nat)
    (hi : r'.items = (r.items.take k).map (fun i => { i with info := F i.info }) ++ r.items.drop k) (he : r'.ending = r.ending) :
    cutRun r' = (mixed F k (cutRun r).1, (cutRun r).2) := by
  have hr : ∀ i : Item, Item.refused { i with info := F i.info } = i.refused := fun i => by simp only [Item.refused, hF]
  have hi : r'.items = mixed F k r.items := hi
  unfold cutRun
  rw [hi, he, mixed_while (fun i => by rw [hr]), mixed_any hr]

theorem same_rest (M N M' N' : Nat) (rest : Bytes) : Same 12 ⟨0, versioned M N rest⟩ ⟨0, versioned M' N' rest⟩ := by
  have hl : ∀ A A' : Nat, (encodeFileHeader A A').length = 12 := by intro A A'; simp [encodeFileHeader, encodeUint]; decide
  refine ⟨rfl, by simp [versioned, hl], fun p hp => ?_⟩
  have : ∀ A A' : Nat, (versioned A A' rest).drop p = rest.drop (p - 12) := by
    intro A A'
    rw [versioned, List.drop_append, List.drop_eq_nil_of_le (by rw [hl]; exact hp), hl]
    rfl
  simp only [Nat.sub_zero, this]

theorem open_read (o : Opts) {M M' : Nat} (hM : M = 7 ∨ M = 8 ∨ M = 9) (hM' : M' = 7 ∨ M' = 8 ∨ M' = 9) {N N' : Nat} (hN : N < 2 ^ 16)
    (hN' : N' < 2 ^ 16) {F : Gsf.Meta → Gsf.Meta}
    (hF : Twin 12 (fun a a' => a' = F a) (readGbhdBlock M) (readGbhdBlock M')) (rest : Bytes) :
    (∀ e, decodeFile o (versioned M N rest) = .error e ↔ decodeFile o (versioned M' N' rest) = .error e) ∧
    ∀ r, decodeFile o (versioned M N rest) = .ok r → ∃ r' h, decodeFile o (versioned M' N' rest) = .ok r' ∧
      SameRun 12 F o ⟨M, N, h⟩ ⟨M', N', h⟩ false r r' := by
  have hr : ∀ {A A' : Nat}, (A = 7 ∨ A = 8 ∨ A = 9) → A' < 2 ^ 16 → decodeFileHeaders false ⟨0, versioned A A' rest⟩ 0 =
      match Rd.eofToDecode decodeHeadBlock ⟨0, versioned A A' rest⟩ 12 with
      | .ok (h, p) => .ok (⟨A, A', h⟩, p)
      | .error e => .error e := by
    intro A A' hA hA'
    have h1 : Reads (decodeSsb false) (encodeFileHeader A A') (A, A') := by
      have e : encodeFileHeader A A' = padString (tSSBB ++ tGrsg) 8 ++ (encodeUint A 2 ++ encodeUint A' 2) := by
        have : padString (tSSBB ++ tGrsg) 8 = tagBytes tSSBB ++ tagBytes tGrsg := by decide
        rw [this]; simp only [encodeFileHeader, List.append_assoc]
      rw [e]
      unfold decodeSsb
      simp only [Bool.not_false, if_true]
      apply Reads.bind (reads_padString (by decide) (by decide))
      rw [if_neg (by simp)]
      apply Reads.bind (reads_uint (by omega))
      exact (reads_uint (n := 2) (by omega)).bind_pure
    have h2 := h1 ⟨0, versioned A A' rest⟩ 0 (at_self_append 0 _ rest)
    unfold decodeFileHeaders
    rw [Rd.bind_of_ok h2]
    simp only [if_pos hA, Rd.bind_apply]
    have hl : 0 + (encodeFileHeader A A').length = 12 := by simp [encodeFileHeader, encodeUint]; decide
    rw [hl]
    cases Rd.eofToDecode decodeHeadBlock ⟨0, versioned A A' rest⟩ 12 <;> rfl
  have hs := same_rest M N M' N' rest
  have hh := eofToDecode headBlock _ _ 12 hs (Nat.le_refl _)
  have e1 := hr hM hN
  have e2 := hr hM' hN'
  generalize Rd.eofToDecode decodeHeadBlock ⟨0, versioned M N rest⟩ 12 = x at hh e1
  generalize Rd.eofToDecode decodeHeadBlock ⟨0, versioned M' N' rest⟩ 12 = x' at hh e2
  unfold decodeFile
  rw [e1, e2]
  cases hh with
  | err e => simp
  | @ok h h' q r hq =>
    subst r
    simp only [reduceCtorEq, implies_true, true_and, Except.ok.injEq]
    intro r hr
    subst hr
    refine ⟨_, h, rfl, ?_⟩
    unfold grains
    have := loop o hs ((versioned M N rest).length + 1) F ⟨M, N, h⟩ ⟨M', N', h⟩ hF false q hq
    have hlen := hs.length
    simp only at hlen
    rw [hlen]
    exact this

end
end C85v

/-- **The minor version makes no difference.** Two files that differ only in it are opened or refused alike, and opened give the same grains and the
same end, also if the data of the grains is read from the files later. -/
theorem C85_minor (o : Opts) {major : Nat} (hM : major = 7 ∨ major = 8 ∨ major = 9) {minor minor' : Nat} (hN : minor < 2 ^ 16)
    (hN' : minor' < 2 ^ 16) (rest : Bytes) :
    (∀ e, decodeFile o (versioned major minor rest) = .error e ↔ decodeFile o (versioned major minor' rest) = .error e) ∧
    ∀ r, decodeFile o (versioned major minor rest) = .ok r → ∃ r', decodeFile o (versioned major minor' rest) = .ok r' ∧
      r'.items = r.items ∧ r'.view (versioned major minor' rest) = r.view (versioned major minor rest) ∧ r'.ending = r.ending ∧
      r'.hdr.head = r.hdr.head := by
  obtain ⟨h1, h2⟩ := C85v.open_read o hM hM hN hN' (C85v.gbhdSame major) rest
  refine ⟨h1, fun r hr => ?_⟩
  obtain ⟨r', h, h3, ⟨h4, hb, k, h5, h6⟩⟩ := h2 r hr
  have hi : r'.items = r.items := by rw [h5]; simp
  refine ⟨r', h3, hi, ?_, h4, ?_⟩
  · unfold Run.view
    rw [hi]
    exact List.map_congr_left fun i hi => by rw [Item.view, Item.view, (hb i hi).load (C85v.same_rest _ _ _ _ rest)]
  rcases h6 with ⟨_, h7, h8⟩ | ⟨_, h7⟩
  · rw [h7, h8]
  · rw [h7]

/-- The same for an asynchronous loop that awaits each grain before the next. -/
theorem C85_minor_async (o : Opts) {major : Nat} (hM : major = 7 ∨ major = 8 ∨ major = 9) {minor minor' : Nat} (hN : minor < 2 ^ 16)
    (hN' : minor' < 2 ^ 16) (rest : Bytes) (n : Nat) :
    awaitFile false o (versioned major minor' rest) n = awaitFile false o (versioned major minor rest) n := by
  rw [C86_awaited, C86_awaited]
  obtain ⟨h1, h2⟩ := C85v.open_read o hM hM hN hN' (C85v.gbhdSame major) rest
  cases hd : decodeFile o (versioned major minor rest) with
  | error e => rw [(h1 e).1 hd]; rfl
  | ok r =>
    obtain ⟨r', h, h3, ⟨h4, hb, k, h5, h6⟩⟩ := h2 r hd
    have hi : r'.items = r.items := by rw [h5]; simp
    rw [h3]
    simp only [Except.map, Except.ok.injEq]
    have hc : cutRun r' = cutRun r := by unfold cutRun; rw [hi, h4]
    rw [hc]
    congr 1
    refine List.map_congr_left fun i hm => ?_
    have hm' : i ∈ r.items := C85v.mem_cut hm
    rw [Item.view, Item.view, (hb i hm').load (C85v.same_rest _ _ _ _ rest)]

/-- **Files of version 8.** Of the same bytes in versions 8 and 9 both are opened or refused, for the same reason. Opened they have the same head and
give the same grains, with the same data, and the same end; only coded pictures have other metadata, as `asVersion8` says. The grains of files that
have been joined to it (`r.items.drop k`) do not depend on the version of the first file. -/
theorem C85_version8 (o : Opts) {minor minor' : Nat} (hN : minor < 2 ^ 16) (hN' : minor' < 2 ^ 16) (rest : Bytes) :
    (∀ e, decodeFile o (versioned 9 minor rest) = .error e ↔ decodeFile o (versioned 8 minor' rest) = .error e) ∧
    ∀ r, decodeFile o (versioned 9 minor rest) = .ok r → ∃ r', decodeFile o (versioned 8 minor' rest) = .ok r' ∧
      r'.ending = r.ending ∧ r'.hdr.head = r.hdr.head ∧
      (∀ i ∈ r.items, i.data.load (versioned 8 minor' rest) = i.data.load (versioned 9 minor rest)) ∧
      ∃ k, r'.items = (r.items.take k).map (fun i => { i with info := asVersion8 i.info }) ++ r.items.drop k ∧
        (k = r.items.length ∧ r.hdr.major = 9 ∧ r'.hdr.major = 8 ∨ o.concat = true ∧ r'.hdr = r.hdr) := by
  obtain ⟨h1, h2⟩ := C85v.open_read o (.inr (.inr rfl)) (.inr (.inl rfl)) hN hN' (C85v.gbhd (by omega) (fun b => C85v.cghd8 b)) rest
  refine ⟨h1, fun r hr => ?_⟩
  obtain ⟨r', h, h3, ⟨h4, hb, k, h5, h6⟩⟩ := h2 r hr
  refine ⟨r', h3, h4, ?_, fun i hi => (hb i hi).load (C85v.same_rest _ _ _ _ rest), k, h5, ?_⟩
  · rcases h6 with ⟨_, h7, h8⟩ | ⟨_, h7⟩
    · rw [h7, h8]
    · rw [h7]
  · rcases h6 with ⟨h6, h7, h8⟩ | ⟨h6, h7⟩
    · exact .inl ⟨h6, by rw [h7], by rw [h8]⟩
    · exact .inr ⟨h6.elim id (fun h => by cases h), h7⟩

/-- The same for an asynchronous loop that awaits each grain before the next: after any number of turns the grains are those of version 9, the first `k`
with the metadata of version 8. -/
theorem C85_version8_async (o : Opts) {minor minor' : Nat} (hN : minor < 2 ^ 16) (hN' : minor' < 2 ^ 16) (rest : Bytes) :
    ∃ k, ∀ n, awaitFile false o (versioned 8 minor' rest) n = (awaitFile false o (versioned 9 minor rest) n).map fun x =>
      ((x.1.take k).map (fun v => (asVersion8 v.1, v.2)) ++ x.1.drop k, x.2) := by
  obtain ⟨h1, h2⟩ := C85v.open_read o (.inr (.inr rfl)) (.inr (.inl rfl)) hN hN' (C85v.gbhd (by omega) (fun b => C85v.cghd8 b)) rest
  cases hd : decodeFile o (versioned 9 minor rest) with
  | error e => exact ⟨0, fun n => by rw [C86_awaited, C86_awaited, hd, (h1 e).1 hd]; rfl⟩
  | ok r =>
    obtain ⟨r', h, h3, ⟨h4, hb, k, h5, -⟩⟩ := h2 r hd
    refine ⟨k, fun n => ?_⟩
    rw [C86_awaited, C86_awaited, hd, h3]
    simp only [Except.map, Except.ok.injEq]
    have hc := C85v.cut_mixed asVersion8 (fun _ => rfl) k h5 h4
    rw [hc]
    have hv : ∀ i ∈ (cutRun r).1, i.data.load (versioned 8 minor' rest) = i.data.load (versioned 9 minor rest) :=
      fun i hm => (hb i (C85v.mem_cut hm)).load (C85v.same_rest _ _ _ _ rest)
    generalize (cutRun r).1 = l at hv ⊢
    have e : (C85v.mixed asVersion8 k l).map (Item.view (versioned 8 minor' rest)) =
        ((l.map (Item.view (versioned 9 minor rest))).take k).map (fun v => (asVersion8 v.1, v.2)) ++ (l.map (Item.view (versioned 9 minor rest))).drop k := by
      unfold C85v.mixed
      rw [List.map_append, ← List.map_take, ← List.map_drop, List.map_map, List.map_map]
      refine congr_arg₂ _ (List.map_congr_left fun i hi => ?_) (List.map_congr_left fun i hi => ?_)
      · simp only [Function.comp, Item.view, hv i (List.mem_of_mem_take hi)]
      · simp only [Item.view, hv i (List.mem_of_mem_drop hi)]
    unfold turns
    rw [e]
    generalize l.map (Item.view (versioned 9 minor rest)) = w
    refine Prod.ext ?_ ?_
    · simp only [List.take_append, List.take_take, List.drop_take, ← List.map_take, List.length_map, List.length_take]
      rw [Nat.min_comm k n]
      congr 1
      by_cases hk : k ≤ w.length
      · rw [Nat.min_eq_left hk]
      · rw [List.drop_eq_nil_of_le (by omega)]
        simp
    · simp only [List.length_append, List.length_map, List.length_take, List.length_drop]
      rw [show min k w.length + (w.length - k) = w.length by omega]

/-- The sample file is one of version 9 that is opened, and one of its coded pictures leaves both values open. In version 8 it is a key frame with
a temporal offset. -/
example : sample.bytes = versioned 9 0 (sample.bytes.drop 12) ∧
    ((decodeFile C85.all sample.bytes).toOption.map fun r => r.items.filterMap fun i =>
      i.info.cogCodedFrame.map fun c => (c.isKeyFrame, c.temporalOffset)) = some [(some false, some (-2)), (none, none)] ∧
    ((decodeFile C85.all (versioned 8 7 (sample.bytes.drop 12))).toOption.map fun r => r.items.filterMap fun i =>
      i.info.cogCodedFrame.map fun c => (c.isKeyFrame, c.temporalOffset)) = some [(some false, some (-2)), (some true, some 2147483647)] := by
  decide +kernel

/-- The same two values in an asynchronous loop over these files. -/
example : ((awaitFile false C85.all (versioned 9 0 (sample.bytes.drop 12)) 9).toOption.map fun r => r.1.filterMap fun v =>
      v.1.cogCodedFrame.map fun c => (c.isKeyFrame, c.temporalOffset)) = some [(some false, some (-2)), (none, none)] ∧
    ((awaitFile false C85.all (versioned 8 7 (sample.bytes.drop 12)) 9).toOption.map fun r => r.1.filterMap fun v =>
      v.1.cogCodedFrame.map fun c => (c.isKeyFrame, c.temporalOffset)) = some [(some false, some (-2)), (some true, some 2147483647)] := by
  decide +kernel

end Verif.Props

import Verif.Gsf.Trunc
import Verif.Props.C05
import Verif.Props.C10
import Verif.Props.C64
import Verif.Props.C68
import Verif.Props.Sample

/-!
# C81: what a program that reads bytes of unknown origin has to expect
-/

namespace Verif.Props

open Verif Verif.Gsf Verif.Objects Verif.Attrs

/-! ## Specification -/

/-- How reading ends: all is well, an exception of the decoder, or one of the constructor of a grain. -/
inductive Outcome where
  | ended
  | decoder (e : Err)
  | grain (e : AErr)
  deriving DecidableEq, Repr

/-- The end of the generator. -/
def _root_.Verif.Gsf.End.outcome : End → Outcome
  | .err e => .decoder e
  | _ => .ended

/-- The grains that `make` makes of what the decoder finds, up to the first that cannot be made. -/
def makeEach (make : Item → Except AErr Obj) (ending : End) : List Item → List Obj × Outcome
  | [] => ([], ending.outcome)
  | it :: items =>
    match make it with
    | .error e => ([], .grain e)
    | .ok g => (g :: (makeEach make ending items).1, (makeEach make ending items).2)

/-- The same for `gsf.py` 1337: each item is given to the constructor of grains, with its data. -/
def makeGrains (lib : Lib) (now : Int) (file : Bytes) (ending : End) (items : List Item) : List Obj × Outcome :=
  makeEach (fun it => Objects.read lib now it.info (it.data.load file)) ending items

/-- `with GSFDecoder(file_data=file) as dec: for g, l in dec.grains(): …`: the grains that the loop sees, and how it ends; or the exception
that the `with` statement raises. -/
def readGrains (lib : Lib) (now : Int) (o : Opts) (file : Bytes) : Except Err (List Obj × Outcome) :=
  (decodeFile o file).map (fun r => makeGrains lib now file r.ending r.items)

/-- `GSFDecodeError` and its subclasses. -/
def IsGsfError : Err → Prop
  | .decode => True
  | .badFileType => True
  | .badVersion _ => True
  | _ => False

/-! ## Proofs -/

namespace C81

/-- All exceptions of an action are among `S`. -/
def Raises (S : Err → Prop) (m : Rd α) : Prop := ∀ s p e, m s p = .error e → S e

variable {S : Err → Prop}

theorem Raises.pure (a : α) : Raises S (Pure.pure a : Rd α) := fun _ _ _ h => by simp at h
theorem Raises.bind {m : Rd α} {f : α → Rd β} (h1 : Raises S m) (h2 : ∀ a, Raises S (f a)) : Raises S (m >>= f) := by
  intro s p e h
  cases e1 : m s p with
  | error e' => rw [Rd.bind_of_error e1] at h; cases h; exact h1 s p e e1
  | ok v => obtain ⟨a, q⟩ := v; rw [Rd.bind_of_ok e1] at h; exact h2 a s q e h
theorem Raises.fail {e : Err} (h : S e) : Raises S (Rd.fail e : Rd α) := fun _ _ _ h' => by simp at h'; exact h' ▸ h
theorem Raises.ite {c : Prop} [Decidable c] {m1 m2 : Rd α} (h1 : Raises S m1) (h2 : Raises S m2) : Raises S (if c then m1 else m2) := by
  split <;> assumption
theorem Raises.ofOption {e : Err} (h : S e) (o : Option α) : Raises S (Rd.ofOption e o) := by
  cases o with
  | none => exact .fail h
  | some a => exact .pure a
theorem Raises.tell : Raises S Rd.tell := fun _ _ _ h => by simp at h
theorem Raises.seek (q) : Raises S (Rd.seek q) := fun _ _ _ h => by simp at h
theorem Raises.raw (n) : Raises S (readRaw n) := fun _ _ _ h => by simp [readRaw] at h
theorem Raises.mono {S' : Err → Prop} {m : Rd α} (h : Raises S m) (hs : ∀ e, S e → S' e) : Raises S' m := fun s p e he => hs e (h s p e he)

/-- What reading a grain can raise. -/
def Plain (e : Err) : Prop := e = .eof ∨ e = .decode ∨ e = .fuel

/-- What reading the head can raise. -/
def Wide (e : Err) : Prop := e = .eof ∨ e = .decode ∨ e = .fuel ∨ e = .unicode ∨ e = .value

class Has (S : Err → Prop) : Prop where
  eof : S .eof
  decode : S .decode
  fuel : S .fuel
instance : Has Plain := ⟨.inl rfl, .inr (.inl rfl), .inr (.inr rfl)⟩
instance : Has Wide := ⟨.inl rfl, .inr (.inl rfl), .inr (.inr (.inl rfl))⟩

variable [Has S]

theorem exact (n : Nat) : Raises S (readExact n) := (Raises.raw n).bind fun _ => .ite (.fail Has.eof) (.pure _)
theorem uint (n : Nat) : Raises S (readUint n) := (exact n).bind fun _ => .pure _
theorem bool : Raises S readBool := (uint 1).bind fun _ => .pure _
theorem optionalBool : Raises S readOptionalBool := (uint 1).bind fun _ => .ite (.pure _) (.pure _)
theorem sint (n : Nat) : Raises S (readSint n) := (uint n).bind fun _ => .pure _
theorem optionalSint (n v : Nat) : Raises S (readOptionalSint n v) := (uint n).bind fun _ => .ite (.pure _) (.pure _)
theorem string (n : Nat) : Raises S (readString n) := (exact n).bind fun _ => (Raises.ofOption Has.decode _).bind fun _ => .pure _
theorem varstring : Raises S readVarstring := (uint 2).bind fun n => string n
theorem uuid : Raises S Gsf.readUuid := exact 16
theorem varbytes : Raises S readVarbytes := (uint 4).bind fun n => .raw n
theorem skip' (n : Nat) : Raises S (skip n) := Raises.tell.bind fun _ => .seek _
theorem timestampV7 : Raises S readTimestampV7 := (uint 6).bind fun _ => (uint 4).bind fun _ => .pure _
theorem timestamp : Raises S readTimestamp := bool.bind fun _ => (uint 6).bind fun _ => (uint 4).bind fun _ => .pure _
theorem rational : Raises S readRational := (uint 4).bind fun _ => (uint 4).bind fun _ => .ite (.pure _) (.pure _)
theorem «repeat» {m : Rd α} (h : Raises S m) : ∀ n, Raises S (repeatRd n m)
  | 0 => .pure _
  | n + 1 => h.bind fun _ => («repeat» h n).bind fun _ => .pure _
theorem header : Raises S readHeader :=
  (string 4).bind fun _ => .ite ((string 4).bind fun _ => .ite (.fail Has.decode) (.pure _)) ((uint 4).bind fun _ => .pure _)
theorem enterLoop' (want r) : ∀ n, Raises S (enterLoop want r n)
  | 0 => .fail Has.fuel
  | n + 1 => Raises.tell.bind fun _ => header.bind fun _ =>
      .ite (.pure _) (.ite (.fail Has.decode) ((Raises.seek _).bind fun _ => enterLoop' want r n))
theorem enter' (want r) : Raises S (enter want r) := fun s p e h => enterLoop' want r _ s p e h
theorem remaining (b : Block) : Raises S b.remaining := fun _ _ _ h => by simp [Block.remaining] at h
theorem hasChild (b : Block) : Raises S b.hasChild := (remaining b).bind fun _ => .ite (.pure _) (.ite (.fail Has.decode) (.pure _))
theorem exit' (b : Block) : Raises S b.exit := .seek _
theorem childrenLoop (b : Block) {f : Block → σ → Rd σ} (hf : ∀ c st, Raises S (f c st)) : ∀ n st, Raises S (forChildrenLoop b f n st)
  | 0, _ => .fail Has.fuel
  | n + 1, _ => (hasChild b).bind fun _ => .ite
      ((enter' none false).bind fun c => (hf c _).bind fun _ => (exit' c).bind fun _ => childrenLoop b hf n _) (.pure _)
theorem children (b : Block) {f : Block → σ → Rd σ} (hf : ∀ c st, Raises S (f c st)) (st : σ) : Raises S (forChildren b f st) :=
  fun s p e h => childrenLoop b hf _ st s p e h
theorem inRemaining (b : Block) {m : Rd α} (h : Raises S m) : Raises S (b.inRemaining m) := by
  intro s p e he
  unfold Block.inRemaining at he
  simp only at he
  split at he
  · simp at he
  · rename_i e' h1
    cases he
    exact h _ _ _ h1

theorem timeLabel : Raises S readTimeLabel :=
  (string 16).bind fun _ => (uint 4).bind fun _ => rational.bind fun _ => bool.bind fun _ => .pure _
theorem tils : Raises S readTils := (uint 2).bind fun _ => «repeat» timeLabel _
theorem components : ∀ n off, Raises S (readComponents n off)
  | 0, _ => .pure _
  | n + 1, _ => (uint 4).bind fun _ => (uint 4).bind fun _ => (uint 4).bind fun _ => (uint 4).bind fun _ => (components n _).bind fun _ => .pure _
theorem vghdChild' (c v) : Raises S (vghdChild c v) := .ite (.pure _) ((uint 2).bind fun _ => (components _ _).bind fun _ => .pure _)
theorem vghd (b) : Raises S (readVghd b) :=
  (uint 4).bind fun _ => (uint 4).bind fun _ => (uint 4).bind fun _ => (uint 4).bind fun _ => (uint 4).bind fun _ =>
    rational.bind fun _ => rational.bind fun _ => children b vghdChild' _
theorem cghdChild' (c v) : Raises S (cghdChild c v) := .ite (.pure _) ((uint 2).bind fun _ => («repeat» (uint 4) _).bind fun _ => .pure _)
theorem keyFrame (major) : Raises S (readKeyFrame major) :=
  .ite (bool.bind fun _ => (sint 4).bind fun _ => .pure _) (optionalBool.bind fun _ => (optionalSint 4 _).bind fun _ => .pure _)
theorem cghd (major b) : Raises S (readCghd major b) :=
  (uint 4).bind fun _ => (uint 4).bind fun _ => (uint 4).bind fun _ => (uint 4).bind fun _ => (uint 4).bind fun _ => (uint 4).bind fun _ =>
    (keyFrame major).bind fun _ => children b cghdChild' _
theorem aghd : Raises S readAghd := (uint 4).bind fun _ => (uint 2).bind fun _ => (uint 4).bind fun _ => (uint 4).bind fun _ => .pure _
theorem cahd : Raises S readCahd :=
  (uint 4).bind fun _ => (uint 2).bind fun _ => (uint 4).bind fun _ => (uint 4).bind fun _ => (uint 4).bind fun _ => (uint 4).bind fun _ => .pure _
theorem gbhdChild' (major c m) : Raises S (gbhdChild major c m) :=
  .ite (tils.bind fun _ => .pure _) (.ite ((vghd c).bind fun _ => .pure _) (.ite ((cghd major c).bind fun _ => .pure _)
    (.ite (aghd.bind fun _ => .pure _) (.ite (cahd.bind fun _ => .pure _) (.ite (.pure _) (.pure _))))))
theorem gbhdFixed (major) : Raises S (readGbhdFixed major) :=
  uuid.bind fun _ => uuid.bind fun _ => .ite
    ((skip' 16).bind fun _ => timestampV7.bind fun _ => timestampV7.bind fun _ => rational.bind fun _ => rational.bind fun _ => .pure _)
    (timestamp.bind fun _ => timestamp.bind fun _ => rational.bind fun _ => rational.bind fun _ => .pure _)
theorem gbhdBlock (major) : Raises S (readGbhdBlock major) :=
  (enter' _ _).bind fun b => (inRemaining b ((gbhdFixed major).bind fun _ => children b (gbhdChild' major) _)).bind fun _ =>
    (exit' b).bind fun _ => .pure _
theorem grdt (o : Opts) (b : Block) : Raises S (readGrdt o b) :=
  (hasChild b).bind fun _ => .ite ((enter' _ _).bind fun g => (remaining g).bind fun _ => .ite
    (.ite (Raises.tell.bind fun _ => (exit' g).bind fun _ => .pure _) (.ite ((exit' g).bind fun _ => .pure _)
      ((Raises.raw _).bind fun _ => (exit' g).bind fun _ => .pure _)))
    ((exit' g).bind fun _ => .pure _)) (.pure _)

theorem tagBody : Raises S readTagBody := varstring.bind fun _ => varstring.bind fun _ => .pure _
theorem flowBody : Raises Wide readFlowBody :=
  uuid.bind fun _ => uuid.bind fun _ => (string 64).bind fun _ => varbytes.bind fun _ =>
    (Raises.ofOption (.inr (.inr (.inr (.inl rfl)))) _).bind fun _ => .pure _
theorem segmChild' (c sg) : Raises Wide (segmChild c sg) :=
  .ite (flowBody.bind fun _ => .pure _) (.ite (tagBody.bind fun _ => .pure _) (.pure _))
theorem segmBody (b) : Raises Wide (readSegmBody b) :=
  (uint 2).bind fun _ => uuid.bind fun _ => (sint 8).bind fun _ => children b segmChild' _
theorem headChild' (c h) : Raises Wide (headChild c h) :=
  .ite ((segmBody c).bind fun _ => .pure _) (.ite (tagBody.bind fun _ => .pure _) (.pure _))
theorem datetime : Raises Wide readDatetime :=
  (sint 2).bind fun _ => (uint 1).bind fun _ => (uint 1).bind fun _ => (uint 1).bind fun _ => (uint 1).bind fun _ => (uint 1).bind fun _ =>
    .ite (.pure _) (.fail (.inr (.inr (.inr (.inr rfl)))))
theorem headBlock : Raises Wide decodeHeadBlock :=
  (enter' _ _).bind fun b => (inRemaining b (uuid.bind fun _ => datetime.bind fun _ => children b headChild' _)).bind fun _ =>
    (exit' b).bind fun _ => .pure _

/-- What the headers of a file can raise, once its version was read. -/
def Heads (e : Err) : Prop := e = .eof ∨ e = .fuel ∨ IsGsfError e ∨ e = .unicode ∨ e = .value

theorem heads_of_wide {e : Err} (h : Wide e) : Heads e := by
  rcases h with rfl | rfl | rfl | rfl | rfl
  · exact .inl rfl
  · exact .inr (.inr (.inl trivial))
  · exact .inr (.inl rfl)
  · exact .inr (.inr (.inr (.inl rfl)))
  · exact .inr (.inr (.inr (.inr rfl)))

theorem headers {known : Bool} {s : Stream} {p : Nat} {e : Err} (h : decodeFileHeaders known s p = .error e) :
    Heads e ∧ (e = .eof → decodeSsb known s p = .error .eof) := by
  unfold decodeFileHeaders at h
  cases h1 : decodeSsb known s p with
  | error e' =>
    rw [Rd.bind_of_error h1] at h
    cases h
    refine ⟨?_, fun he => by rw [he]⟩
    have : Raises Heads (decodeSsb known) := by
      have v : Raises Heads (readUint 2 >>= fun a => readUint 2 >>= fun b => (Pure.pure (a, b) : Rd (Nat × Nat))) :=
        ((uint (S := Wide) 2).mono fun _ => heads_of_wide).bind fun _ => ((uint (S := Wide) 2).mono fun _ => heads_of_wide).bind fun _ => .pure _
      unfold decodeSsb
      exact .ite (((string (S := Wide) 8).mono fun _ => heads_of_wide).bind fun _ => .ite (.fail (.inr (.inr (.inl trivial)))) v) v
    exact this _ _ _ h1
  | ok v =>
    obtain ⟨⟨mj, mn⟩, q⟩ := v
    rw [Rd.bind_of_ok h1] at h
    simp only [Rd.ite_apply] at h
    split at h
    · have h2 : Rd.eofToDecode decodeHeadBlock s q = .error e := by
        cases h3 : Rd.eofToDecode decodeHeadBlock s q with
        | error e' => rw [Rd.bind_of_error h3] at h; cases h; rfl
        | ok v => obtain ⟨a, q'⟩ := v; rw [Rd.bind_of_ok h3] at h; simp at h
      unfold Rd.eofToDecode at h2
      split at h2
      · cases h2
      · cases h2; exact ⟨.inr (.inr (.inl trivial)), fun h => by cases h⟩
      · rename_i e' h3 h4
        cases h2
        exact ⟨heads_of_wide (headBlock _ _ _ h4), fun he => absurd he h3⟩
    · simp only [Rd.fail_apply, Except.error.injEq] at h
      subst h
      exact ⟨.inr (.inr (.inl trivial)), fun h => by cases h⟩

theorem step {o : Opts} {h : Hdr} {s : Stream} {p : Nat} {e : Err} (he : grainsStep o h false s p = .error e) : Plain e := by
  have : Raises Plain (grainsStep o h false) := by
    unfold grainsStep
    rw [if_neg (by simp)]
    exact (enter' _ _).bind fun b => .ite
      ((exit' b).bind fun _ => .ite (.ite (.pure _) (.pure _)) (.pure _))
      (.ite ((exit' b).bind fun _ => .ite (.pure _) (.pure _))
        ((uint 2).bind fun _ => .ite ((exit' b).bind fun _ => .pure _)
          ((gbhdBlock _).bind fun _ => (grdt o b).bind fun _ => (exit' b).bind fun _ => .pure _)))
  exact this _ _ _ he

theorem loop (o : Opts) (s : Stream) : ∀ (n : Nat) (h : Hdr) (hc : Bool) (p : Nat) (e : Err), (o.concat = false → hc = false) →
    (grainsLoop o s n h hc p).ending = .err e → e ≠ .eof ∧ Heads e ∧ (o.concat = false → Plain e) := by
  intro n
  induction n with
  | zero =>
    intro h hc p e _ he
    simp only [grainsLoop, End.err.injEq] at he
    subst he
    exact ⟨by simp, .inr (.inl rfl), fun _ => .inr (.inr rfl)⟩
  | succ n ih =>
    intro h hc p e hcc he
    unfold grainsLoop at he
    split at he
    · simp at he
    · rename_i e' hne hst
      simp only [End.err.injEq] at he
      subst he
      refine ⟨hne, ?_, ?_⟩
      · cases hc with
        | false =>
          rcases step hst with rfl | rfl | rfl
          · exact .inl rfl
          · exact .inr (.inr (.inl trivial))
          · exact .inr (.inl rfl)
        | true =>
          unfold grainsStep at hst
          rw [if_pos rfl] at hst
          cases h3 : decodeFileHeaders true s p with
          | error e' => rw [Rd.bind_of_error h3] at hst; cases hst; exact (headers h3).1
          | ok v => obtain ⟨a, q'⟩ := v; rw [Rd.bind_of_ok h3] at hst; simp at hst
      · intro hcat
        rw [hcc hcat] at hst
        exact step hst
    · simp at he
    · rename_i h' hc' p' hst
      refine ih h' hc' p' e ?_ he
      intro hcat
      rw [hcc hcat] at hst
      exact (grainsStep_single hcat hst).2
    · exact ih h false _ e (fun _ => rfl) he

/-- The dictionary of a type of grain is there. -/
def Coherent (m : Gsf.Meta) : Prop :=
  match m.grainType with
  | some .video => m.cogFrame.isSome = true
  | some .codedVideo => m.cogCodedFrame.isSome = true
  | some .audio => m.cogAudio.isSome = true
  | some .codedAudio => m.cogCodedAudio.isSome = true
  | _ => True

/-- All values that an action returns are among `P`. -/
def Yields (P : α → Prop) (m : Rd α) : Prop := ∀ s p a q, m s p = .ok (a, q) → P a

theorem Yields.pure {P : α → Prop} {a : α} (h : P a) : Yields P (Pure.pure a : Rd α) := fun _ _ _ _ h' => by
  simp at h'; exact h'.1 ▸ h
theorem Yields.bind {P : β → Prop} {m : Rd α} {f : α → Rd β} (h : ∀ a, Yields P (f a)) : Yields P (m >>= f) := by
  intro s p a q h'
  obtain ⟨b, r, -, h2⟩ := Rd.bind_ok h'
  exact h b _ _ _ _ h2
theorem Yields.bind' {Q : α → Prop} {P : β → Prop} {m : Rd α} {f : α → Rd β} (h1 : Yields Q m) (h : ∀ a, Q a → Yields P (f a)) :
    Yields P (m >>= f) := by
  intro s p a q h'
  obtain ⟨b, r, h1', h2⟩ := Rd.bind_ok h'
  exact h b (h1 _ _ _ _ h1') _ _ _ _ h2
theorem Yields.ite {P : α → Prop} {c : Prop} [Decidable c] {m1 m2 : Rd α} (h1 : Yields P m1) (h2 : Yields P m2) : Yields P (if c then m1 else m2) := by
  split <;> assumption
theorem Yields.fail {P : α → Prop} {e : Err} : Yields P (Rd.fail e : Rd α) := fun _ _ _ _ h => by simp at h

theorem children_yields (b : Block) {P : σ → Prop} {f : Block → σ → Rd σ} (hf : ∀ c st, P st → Yields P (f c st)) :
    ∀ n st, P st → Yields P (forChildrenLoop b f n st)
  | 0, _, _ => .fail
  | n + 1, st, h => .bind fun _ => .ite (.bind fun c => .bind' (hf c st h) fun st' h' => .bind fun _ => children_yields b hf n st' h') (.pure h)

theorem fixed_coherent (major) : Yields Coherent (readGbhdFixed major) :=
  .bind fun _ => .bind fun _ => .ite
    (.bind fun _ => .bind fun _ => .bind fun _ => .bind fun _ => .bind fun _ => .pure trivial)
    (.bind fun _ => .bind fun _ => .bind fun _ => .bind fun _ => .pure trivial)

theorem child_coherent (major c m) (h : Coherent m) : Yields Coherent (gbhdChild major c m) :=
  .ite (.bind fun _ => .pure h) (.ite (.bind fun _ => .pure rfl) (.ite (.bind fun _ => .pure rfl)
    (.ite (.bind fun _ => .pure rfl) (.ite (.bind fun _ => .pure rfl) (.ite (.pure trivial) (.pure h))))))

theorem block_coherent (major) : Yields Coherent (readGbhdBlock major) := by
  refine .bind fun b => .bind' (Q := Coherent) ?_ fun m h => .bind fun _ => .pure h
  intro s p a q h
  unfold Block.inRemaining at h
  simp only at h
  split at h
  · rename_i a' q' h1
    cases h
    have : Yields Coherent (decodeGbhd major b) :=
      .bind' (fixed_coherent major) fun m hm => fun s p a q h => children_yields b (child_coherent major) _ m hm s p a q h
    exact this _ _ _ _ h1
  · cases h

/-- A turn that yields a grain. -/
def GoodStep : Step → Prop
  | .yield it => Coherent it.info
  | _ => True

theorem step_coherent (o : Opts) (h : Hdr) (hc : Bool) : Yields GoodStep (grainsStep o h hc) := by
  unfold grainsStep
  exact .ite (.bind fun _ => .pure trivial) (.bind fun b => .ite
      (.bind fun _ => .ite (.ite (.pure trivial) (.pure trivial)) (.pure trivial))
      (.ite (.bind fun _ => .ite (.pure trivial) (.pure trivial))
        (.bind fun _ => .ite (.bind fun _ => .pure trivial)
          (.bind' (block_coherent _) fun m hm => .bind fun _ => .bind fun _ => .pure hm))))

theorem loop_coherent (o : Opts) (s : Stream) : ∀ (n : Nat) (h : Hdr) (hc : Bool) (p : Nat), ∀ it ∈ (grainsLoop o s n h hc p).items, Coherent it.info := by
  intro n
  induction n with
  | zero => intro h hc p it hi; simp [grainsLoop] at hi
  | succ n ih =>
    intro h hc p it hi
    unfold grainsLoop at hi
    split at hi
    · simp at hi
    · simp at hi
    · simp at hi
    · exact ih _ _ _ it hi
    · rename_i it' p' hst
      simp only [List.mem_cons] at hi
      rcases hi with rfl | hi
      · exact step_coherent o h hc _ _ _ _ hst
      · exact ih _ _ _ it hi

def clsT : GType → Meta.GClass
  | .video => .video
  | .codedVideo => .codedVideo
  | .audio => .audio
  | .codedAudio => .codedAudio
  | .event => .event

theorem dispatch_any {m : Gsf.Meta} {t : GType} (ht : m.grainType = some t) : dispatch (metaDict m) = clsT t := by
  unfold dispatch metaDict entry
  rw [ht]
  cases t <;> rfl

theorem dispatch_none {m : Gsf.Meta} (ht : m.grainType = none) : dispatch (metaDict m) = .grain := by
  unfold dispatch metaDict entry
  rw [ht]
  cases m.cogFrame <;> cases m.cogCodedFrame <;> cases m.cogAudio <;> cases m.cogCodedAudio <;> rfl

/-- The constructors accept every dictionary of the decoder. -/
theorem init_any (lib : Lib) (now : Int) {m : Gsf.Meta} (hm : Coherent m) : ∃ d, init lib now (dispatch (metaDict m)) (metaDict m) = .ok d := by
  obtain ⟨d, h1, -, -, -, -, -, -, -, h8, h9⟩ := C68.grainInit_ok lib now (metaDict m) m.sourceId m.flowId m.origin m.sync m.rate m.duration
    rfl rfl rfl rfl rfl rfl (by
      unfold metaDict entry
      cases m.grainType <;> cases m.cogFrame <;> cases m.cogCodedFrame <;> cases m.cogAudio <;> cases m.cogCodedAudio <;> rfl)
  unfold init
  rw [h1]
  have key : ∀ s : Meta.SubSpec, s.key ∉ ["source_id", "flow_id", "origin_timestamp", "sync_timestamp", "creation_timestamp", "rate", "duration",
      "grain_type"] → ∀ w, metaDict m s.key = some (.dict w) → (∀ k ∈ s.ints, ∃ n : Int, w k = some (.leaf (.int n))) →
      ∃ d', subInit lib s d = .ok d' := by
    intro s hs w hw hi
    exact ⟨_, C68.subInit_ok lib s d w (fun e => hs (by rw [e]; decide)) (by rw [h9 _ hs, hw]) hi⟩
  unfold Coherent at hm
  cases ht : m.grainType with
  | none =>
    rw [dispatch_none ht]
    exact ⟨_, rfl⟩
  | some t =>
    rw [ht] at hm
    rw [dispatch_any ht]
    cases t with
    | video =>
      obtain ⟨v, hv⟩ := Option.isSome_iff_exists.1 hm
      obtain ⟨w, hw⟩ : ∃ w, videoDict v = .dict w := ⟨_, rfl⟩
      refine key Meta.videoSpec (by decide) w ?_ ?_
      · unfold metaDict entry; rw [ht, hv, ← hw]; rfl
      · cases hw; simp [Meta.videoSpec, New.dictOf, num, List.lookup]
    | codedVideo =>
      obtain ⟨v, hv⟩ := Option.isSome_iff_exists.1 hm
      obtain ⟨w, hw⟩ : ∃ w, codedVideoDict v = .dict w := ⟨_, rfl⟩
      refine key Meta.codedVideoSpec (by decide) w ?_ ?_
      · unfold metaDict entry; rw [ht, hv, ← hw]; cases m.cogFrame <;> rfl
      · cases hw; simp [Meta.codedVideoSpec, New.dictOf, num, List.lookup]
    | audio =>
      obtain ⟨v, hv⟩ := Option.isSome_iff_exists.1 hm
      obtain ⟨w, hw⟩ : ∃ w, audioDict v = .dict w := ⟨_, rfl⟩
      refine key Meta.audioSpec (by decide) w ?_ ?_
      · unfold metaDict entry; rw [ht, hv, ← hw]; cases m.cogFrame <;> cases m.cogCodedFrame <;> rfl
      · cases hw; simp [Meta.audioSpec, New.dictOf, num, List.lookup]
    | codedAudio =>
      obtain ⟨v, hv⟩ := Option.isSome_iff_exists.1 hm
      obtain ⟨w, hw⟩ : ∃ w, codedAudioDict v = .dict w := ⟨_, rfl⟩
      refine key Meta.codedAudioSpec (by decide) w ?_ ?_
      · unfold metaDict entry; rw [ht, hv, ← hw]; cases m.cogFrame <;> cases m.cogCodedFrame <;> cases m.cogAudio <;> rfl
      · cases hw; simp [Meta.codedAudioSpec, New.dictOf, num, List.lookup]
    | event =>
      have e : Meta.put d "grain_type" (.leaf (.str (New.lit Meta.eventSpec.name))) Meta.eventSpec.key = none := by
        unfold Meta.put
        rw [if_neg (by decide), h9 _ (by decide)]
        unfold metaDict entry
        rw [ht]
        cases m.cogFrame <;> cases m.cogCodedFrame <;> cases m.cogAudio <;> cases m.cogCodedAudio <;> rfl
      show ∃ d', subInit lib Meta.eventSpec d = .ok d'
      unfold subInit Meta.dflt
      simp only [e]
      have e2 : ∀ (x : Meta.Dict T) (k : String) (t : T), Meta.put x k t k = some t := by
        intro x k t; unfold Meta.put; rw [if_pos rfl]
      simp only [e2]
      exact ⟨_, rfl⟩

theorem read_any (lib : Lib) (now : Int) {m : Gsf.Meta} (hm : Coherent m) (data : Option Bytes) :
    (∃ o, Objects.read lib now m data = .ok o) ∨
      (m.grainType = some .event ∧ ∃ b x, data = some b ∧ (Event.setData blank (.bytes b)).2 = .error x ∧
        Objects.read lib now m data = .error (ofEErr x)) := by
  obtain ⟨d, hd⟩ := init_any lib now hm
  unfold Objects.read
  simp only [hd, bind, Except.bind]
  have other : ∀ c : Meta.GClass, c ≠ .event → initPayload c data = .ok blank ∧ ∃ b, initData c data = .ok b := by
    intro c hc
    refine ⟨?_, ?_⟩
    · unfold initPayload
      cases c <;> first | rfl | exact absurd rfl hc
    · cases c <;> first | exact absurd rfl hc | (cases data <;> exact ⟨_, rfl⟩)
  cases ht : m.grainType with
  | none =>
    rw [dispatch_none ht]
    obtain ⟨h1, b, h2⟩ := other .grain (by simp)
    simp only [h1, h2]
    exact .inl ⟨_, rfl⟩
  | some t =>
    rw [dispatch_any ht]
    by_cases hev : t = .event
    · subst hev
      show _ ∨ _
      simp only [clsT]
      cases data with
      | none => exact .inl ⟨_, rfl⟩
      | some b =>
        unfold initPayload
        simp only
        cases hs : Event.setData blank (.bytes b) with
        | mk p r =>
          cases r with
          | ok u => exact .inl ⟨_, rfl⟩
          | error x => exact .inr ⟨trivial, b, x, rfl, by rw [hs], rfl⟩
    · obtain ⟨h1, b, h2⟩ := other (clsT t) (by cases t <;> simp_all [clsT])
      simp only [h1, h2]
      exact .inl ⟨_, rfl⟩

theorem make_any (lib : Lib) (now : Int) (file : Bytes) (ending : End) : ∀ items : List Item, (∀ it ∈ items, Coherent it.info) →
    ((makeGrains lib now file ending items).1.length = items.length ∧ (makeGrains lib now file ending items).2 = ending.outcome) ∨
      ∃ it b x, items[(makeGrains lib now file ending items).1.length]? = some it ∧ it.info.grainType = some .event ∧
        it.data.load file = some b ∧ (Event.setData blank (.bytes b)).2 = .error x ∧
        (makeGrains lib now file ending items).2 = .grain (ofEErr x) := by
  intro items
  unfold makeGrains
  generalize hmk : (fun it : Item => Objects.read lib now it.info (it.data.load file)) = make
  have hmk' : ∀ it, make it = Objects.read lib now it.info (it.data.load file) := fun it => by rw [← hmk]
  clear hmk
  induction items with
  | nil => intro _; left; exact ⟨rfl, rfl⟩
  | cons it items ih =>
    intro hc
    rcases read_any lib now (hc it (by simp)) (it.data.load file) with ⟨o, ho⟩ | ⟨h1, b, x, h2, h3, h4⟩
    · have e : makeEach make ending (it :: items) = (o :: (makeEach make ending items).1, (makeEach make ending items).2) := by
        rw [← hmk'] at ho
        simp only [makeEach, ho]
      rw [e]
      simp only [List.length_cons, List.getElem?_cons_succ, Nat.add_right_cancel_iff]
      exact ih (fun it hi => hc it (by simp [hi]))
    · have e : makeEach make ending (it :: items) = ([], .grain (ofEErr x)) := by
        rw [← hmk'] at h4
        simp only [makeEach, h4]
      rw [e]
      right
      exact ⟨it, b, x, by simp, h1, h2, h3, rfl⟩

end C81

/-- **C81.** Whatever bytes a program reads: opening raises `GSFDecodeError` or one of its subclasses, `EOFError` if there are less than twelve
bytes, `UnicodeDecodeError` or `ValueError`, or nothing.  The loop over the grains never raises `EOFError`.  It raises what the constructor of an event
grain raises for data that is no event, `GSFDecodeError` or one of its subclasses, or, only if concatenated files are supported, `UnicodeDecodeError` or
`ValueError`. -/
theorem C81_any_bytes (lib : Lib) (now : Int) (o : Opts) (file : Bytes) :
    (∃ e, readGrains lib now o file = .error e ∧ ((e = .eof ∧ file.length < 12) ∨ IsGsfError e ∨ e = .unicode ∨ e = .value)) ∨
    ∃ gs out r, readGrains lib now o file = .ok (gs, out) ∧ decodeFile o file = .ok r ∧
      (out = .ended ∧ gs.length = r.items.length ∨
       (∃ e, out = .decoder e ∧ gs.length = r.items.length ∧
          (if o.concat then IsGsfError e ∨ e = .unicode ∨ e = .value else e = .decode)) ∨
       ∃ it b x, out = .grain (ofEErr x) ∧ r.items[gs.length]? = some it ∧ it.info.grainType = some .event ∧ it.data.load file = some b ∧
          (Event.setData blank (.bytes b)).2 = .error x) := by
  have hterm := C11_terminates o file
  unfold readGrains
  cases hd : decodeFile o file with
  | error e =>
    left
    refine ⟨e, rfl, ?_⟩
    have hne : e ≠ .fuel := by
      rcases hterm with ⟨e', h1, h2⟩ | ⟨h, p, n, items, b, e', h1, h2, h3, h4, h5, h6⟩
      · rw [hd] at h1; cases h1; exact h2
      · rw [hd] at h6; cases h6
    unfold decodeFile at hd
    cases hh : decodeFileHeaders false ⟨0, file⟩ 0 with
    | ok v => rw [hh] at hd; simp at hd
    | error e' =>
      rw [hh] at hd
      simp only [Except.error.injEq] at hd
      subst hd
      obtain ⟨h1, h2⟩ := C81.headers hh
      rcases h1 with rfl | rfl | h | h | h
      · left
        refine ⟨rfl, ?_⟩
        have := h2 rfl
        rw [decodeSsb_spec] at this
        split at this
        · omega
        · split at this
          · cases this
          · split at this
            · cases this
            · split at this
              · assumption
              · cases this
      · exact absurd rfl hne
      · exact .inr (.inl h)
      · exact .inr (.inr (.inl h))
      · exact .inr (.inr (.inr h))
  | ok r =>
    right
    have hne : r.ending ≠ .err .fuel := by
      rcases hterm with ⟨e', h1, h2⟩ | ⟨h, p, n, items, b, e', h1, h2, h3, h4, h5, h6⟩
      · rw [hd] at h1; cases h1
      · rw [hd] at h6; cases h6; exact h4
    have hrun : ∃ h p, r = grainsLoop o ⟨0, file⟩ (file.length + 1) h false p := by
      unfold decodeFile at hd
      split at hd
      · cases hd
      · rename_i h p _
        cases hd
        exact ⟨h, p, rfl⟩
    obtain ⟨h, p, hr⟩ := hrun
    have hco : ∀ it ∈ r.items, C81.Coherent it.info := by rw [hr]; exact C81.loop_coherent o _ _ h false p
    refine ⟨(makeGrains lib now file r.ending r.items).1, (makeGrains lib now file r.ending r.items).2, r, rfl, rfl, ?_⟩
    rcases C81.make_any lib now file r.ending r.items hco with ⟨h1, h2⟩ | ⟨it, b, x, h1, h2, h3, h4, h5⟩
    · rw [h2]
      cases he : r.ending with
      | eof => exact .inl ⟨rfl, by rw [← he]; exact h1⟩
      | break_ => exact .inl ⟨rfl, by rw [← he]; exact h1⟩
      | err e =>
        refine .inr (.inl ⟨e, rfl, by rw [← he]; exact h1, ?_⟩)
        have hnf : e ≠ .fuel := fun hf => hne (by rw [he, hf])
        obtain ⟨q1, q2, q3⟩ := C81.loop o ⟨0, file⟩ (file.length + 1) h false p e (fun _ => rfl) (by rw [← hr]; exact he)
        by_cases hcat : o.concat = true
        · rw [if_pos hcat]
          rcases q2 with h | h | h | h | h
          · exact absurd h q1
          · exact absurd h hnf
          · exact .inl h
          · exact .inr (.inl h)
          · exact .inr (.inr h)
        · rw [if_neg hcat]
          rcases q3 (by simpa using hcat) with h | h | h
          · exact absurd h q1
          · exact h
          · exact absurd h hnf
    · exact .inr (.inr ⟨it, b, x, h5, h1, h2, h3, h4⟩)

/-! ## Every outcome occurs -/

/-- A file with one event grain, whose data is the text `t`; its flow has the metadata `data`. -/
def C81_file (data : Bytes) (t : String) : Bytes :=
  FileSpec.bytes ⟨7, 0, ⟨u 9, ⟨2024, 2, 29, 23, 59, 59⟩, [⟨1, u 10, 1, some ⟨u 1, u 2, hello, data⟩, []⟩], []⟩,
    [(1, { gEvent with length := (encodeUtf8 t.toList).length, data := some (encodeUtf8 t.toList) })]⟩

/-- What the program sees, with all grains replaced by their number. -/
def C81_seen (o : Opts) (file : Bytes) : Err ⊕ (Nat × Outcome) :=
  match readGrains C64_lib 0 o file with
  | .error e => .inl e
  | .ok r => .inr (r.1.length, r.2)

/-- **C81, counterexample.** What the property would like to say is that a program that catches `GSFDecodeError` and `EOFError` (as the documentation of
the decoder suggests) is safe.  It is not: a single byte of a good file replaced makes opening raise `UnicodeDecodeError` or `ValueError`, and an event whose
data is not that of an event makes the loop raise `ValueError`, `KeyError` or `TypeError`. -/
theorem C81_other_exceptions :
    C81_seen {} (C81_file [123, 125] "{\"type\": \"\", \"topic\": \"\", \"data\": []}") = .inr (1, .ended) ∧
    C81_seen {} (C81_file [255, 125] "{\"type\": \"\", \"topic\": \"\", \"data\": []}") = .inl .unicode ∧
    C81_seen {} ((C81_file [123, 125] "{\"type\": \"\", \"topic\": \"\", \"data\": []}").set 38 13) = .inl .value ∧
    C81_seen {} (C81_file [123, 125] "{}") = .inr (0, .grain .value) ∧
    C81_seen {} (C81_file [123, 125] "{\"type\": \"\", \"topic\": \"\", \"data\": [{}]}") = .inr (0, .grain .key) ∧
    C81_seen {} (C81_file [123, 125] "{\"type\": \"\", \"topic\": \"\", \"data\": 1}") = .inr (0, .grain .type) := by
  decide +kernel

/-- The other outcomes: no bytes, a file that ends within the headers, one whose grain has no header, and a second file of a wrong version. -/
example :
    C81_seen {} [] = .inl .eof ∧
    C81_seen {} ((C81_file [123, 125] "").take 20) = .inl .decode ∧
    C81_seen {} (encodeFileHeader 6 0) = .inl (.badVersion 6) ∧
    C81_seen {} (C81_file [123, 125] "{\"type\": \"\", \"topic\": \"\", \"data\": []}" ++ encodeFileHeader 6 0) =
      .inr (1, .decoder (.badVersion 6)) ∧
    C81_seen {} (C81_file [123, 125] "{\"type\": \"\", \"topic\": \"\", \"data\": []}" ++ C81_file [255, 125] "{}") =
      .inr (1, .decoder .unicode) := by
  decide +kernel

end Verif.Props

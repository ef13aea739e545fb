import Verif.Gsf.Loop

/-!
# Whole files
-/

namespace Verif.Gsf

open Verif

/-- What a consumer sees of a yielded grain: metadata, data (loading deferred data from the file), local
id. -/
def Item.view (file : Bytes) (it : Item) : Meta × Option Bytes × Nat :=
  (it.info, it.data.load file, it.localId)

def Run.view (file : Bytes) (r : Run) : List (Meta × Option Bytes × Nat) := r.items.map (Item.view file)

/-- Empty data is handed out as no data. -/
def Grain.payload (g : Grain) : Option Bytes := if g.data.getD [] = [] then none else some (g.data.getD [])

/-- What a consumer is expected to see of a written grain. -/
def Opts.viewOf (o : Opts) (major : Nat) (x : Nat × Grain) : Meta × Option Bytes × Nat :=
  (x.2.toMeta major, if o.defers = false ∧ o.mode = .loadNever then none else x.2.payload, x.1)

/-- The grain blocks of a file: grains in order, with unknown blocks between and inside them. -/
inductive DecoGrains (major : Nat) : List (Nat × Grain) → Bytes → Prop where
  | nil : DecoGrains major [] []
  | junk {b : Blk} {t gs bs} : b.Ok t → t ≠ tGrai → DecoGrains major gs bs → DecoGrains major gs (b.bytes ++ bs)
  | grain {lid : Nat} {g : Grain} {b off gs bs} : lid < 2 ^ 16 → g.Ok major → DecoGrai major lid g b off →
      DecoGrains major gs bs → DecoGrains major ((lid, g) :: gs) (b.bytes ++ bs)

theorem DecoGrai.data_at {major lid g b off} (h : DecoGrai major lid g b off) {s p} (hat : At s p b.bytes) :
    At s (p + off) (g.data.getD []) := by
  obtain ⟨⟨gb, mid, post, hgb, hmid, rfl, rfl⟩, hsz⟩ := h
  rw [mkBlk_bytes, ← List.append_assoc] at hat
  have h3 := hat.right
  rw [List.length_append, encodeUint_length, tl4 (t := tGrai)] at h3
  have h4 := h3.right.right.right.left
  rw [encodeUint_length] at h4
  unfold grdtBlk at h4
  rw [mkBlk_bytes, ← List.append_assoc] at h4
  have h5 := h4.right
  rw [List.length_append, encodeUint_length, tl4 (t := tGrdt)] at h5
  have e : p + (4 + 4) + 2 + gb.bytes.length + (blksBytes mid).length + (4 + 4) =
    p + (10 + gb.bytes.length + (blksBytes mid).length + 8) := by omega
  rwa [e] at h5

theorem Opts.dataOf_load (o : Opts) {file : Bytes} {q : Nat} {d : Bytes} (h : At ⟨0, file⟩ q d) :
    (o.dataOf q d).load file =
      if o.defers = false ∧ o.mode = .loadNever then none else if d = [] then none else some d := by
  unfold Opts.dataOf
  by_cases h1 : d = []
  · simp [h1, Data.load]
  · rw [if_neg h1, if_neg h1]
    cases h2 : o.defers with
    | true =>
      simp only [if_true, Data.load]
      have := h.take
      simp only [Nat.sub_zero] at this
      simp [this]
    | false =>
      by_cases h3 : o.mode = .loadNever
      · simp [h3, Data.load]
      · simp [h3, Data.load]

theorem DecoGrains.turns (o : Opts) (h : Hdr) {gs bs} (hd : DecoGrains h.major gs bs) (p : Nat) :
    ∃ items, Turns o p h false bs items h false ∧ ∀ file, At ⟨0, file⟩ p bs →
      items.map (Item.view file) = (gs.filter (fun x => !o.drops x.1)).map (o.viewOf h.major) := by
  induction hd generalizing p with
  | nil => exact ⟨[], .nil, fun _ _ => rfl⟩
  | junk hok ht _ ih =>
    rename_i b t gs bs _
    obtain ⟨items, h1, h2⟩ := ih (p + b.bytes.length)
    exact ⟨items, .next (turn_other o h p hok ht) h1, fun file hat => h2 file hat.right⟩
  | grain hl hg hdg _ ih =>
    rename_i lid g b off gs bs _
    obtain ⟨items, h1, h2⟩ := ih (p + b.bytes.length)
    have ht := turn_grain o h p hl hg hdg
    unfold Opts.grainOut at ht
    cases hdr : o.drops lid with
    | true =>
      rw [hdr, if_pos rfl] at ht
      refine ⟨items, .next ht h1, fun file hat => ?_⟩
      rw [h2 file hat.right, List.filter_cons_of_neg (by simp [hdr])]
    | false =>
      rw [hdr, if_neg (by simp)] at ht
      refine ⟨_ :: items, .yield ht h1, fun file hat => ?_⟩
      rw [List.map_cons, h2 file hat.right, List.filter_cons_of_pos (by simp [hdr]), List.map_cons]
      congr 1
      unfold Item.view Opts.viewOf Grain.payload
      simp only
      rw [o.dataOf_load (hdg.data_at hat.left)]

/-- What a file contains. -/
structure FileSpec where
  major : Nat
  minor : Nat
  head : HeadIn
  grains : List (Nat × Grain)
  deriving DecidableEq, Repr

/-- The bytes of a file as the encoder writes it: header, head, grains, terminator. -/
def FileSpec.bytes (f : FileSpec) : Bytes :=
  encodeFileHeader f.major f.minor ++ (encodeHead f.head ++
    (f.grains.flatMap (fun x => encodeGrain f.major x.1 x.2) ++ terminator))

/-- Every field of the file fits the field it is written to. -/
structure FileSpec.Ok (f : FileSpec) : Prop where
  major : f.major = 7 ∨ f.major = 8 ∨ f.major = 9
  minor : f.minor < 2 ^ 16
  head : f.head.Ok
  grains : ∀ x ∈ f.grains, x.1 < 2 ^ 16 ∧ x.2.Ok f.major

instance (f : FileSpec) : Decidable f.Ok :=
  decidable_of_iff ((f.major = 7 ∨ f.major = 8 ∨ f.major = 9) ∧ f.minor < 2 ^ 16 ∧ f.head.Ok ∧
    ∀ x ∈ f.grains, x.1 < 2 ^ 16 ∧ x.2.Ok f.major)
    ⟨fun ⟨a, b, c, d⟩ => ⟨a, b, c, d⟩, fun ⟨a, b, c, d⟩ => ⟨a, b, c, d⟩⟩

def FileSpec.hdr (f : FileSpec) : Hdr := ⟨f.major, f.minor, f.head.toHead⟩

/-- A file with the contents `f` in which blocks with unknown tags were inserted: before the head, in the
head and its segments, between grains, in grains, in grain headers and type headers, and at the end. -/
def DecoFile (f : FileSpec) (bs : Bytes) : Prop :=
  ∃ pre hb gb post, Others [tHead] pre ∧ DecoHead f.head hb ∧ DecoGrains f.major f.grains gb ∧
    Others [tGrai] post ∧
    bs = encodeFileHeader f.major f.minor ++ ((blksBytes pre ++ hb.bytes) ++ (gb ++ (terminator ++ blksBytes post)))

theorem decoGrains_self {major} (gs : List (Nat × Grain)) (h : ∀ x ∈ gs, x.1 < 2 ^ 16 ∧ x.2.Ok major) :
    DecoGrains major gs (gs.flatMap (fun x => encodeGrain major x.1 x.2)) := by
  induction gs with
  | nil => exact .nil
  | cons x gs ih =>
    have hx := h x (by simp)
    rw [List.flatMap_cons, encodeGrain_eq _ _ _ hx.2.wf]
    exact .grain hx.1 hx.2 (decoGrai_self hx.2) (ih (fun y hy => h y (by simp [hy])))

theorem decoFile_self {f : FileSpec} (h : f.Ok) : DecoFile f f.bytes := by
  refine ⟨[], headBlk f.head, _, [], fun _ h => by simp at h, decoHead_self h.head,
    decoGrains_self f.grains h.grains, fun _ h => by simp at h, ?_⟩
  unfold FileSpec.bytes
  rw [encodeHead_eq _ h.head.wf]
  simp

/-! ## Decoding -/

theorem enter_eof {want r s p} (hb : s.base ≤ p) (h : s.fin < p + 4) : enter want r s p = .error .eof := by
  rw [enter_eq _ _ _ _ hb]
  have : readHeader s p = .error .eof := by
    simp only [readHeader, readString]
    rw [Rd.bind_of_error]
    rw [Rd.bind_of_error]
    rw [readExact_eq, if_neg]
    simp only [List.length_take, List.length_drop]
    unfold Stream.fin at h
    omega
  rw [this]

/-- At the end of the data the loop ends silently. -/
theorem run_end (o : Opts) (h : Hdr) {s p} (hb : s.base ≤ p) (hf : s.fin < p + 4) :
    run o s h false p = ⟨[], h, .eof⟩ := by
  rw [run_eq _ _ _ _ _ hb]
  have : grainsStep o h false s p = .error .eof := by
    unfold grainsStep
    rw [if_neg (by simp), Rd.bind_of_error (enter_eof hb hf)]
  rw [this]

/-- The part of a file after its head. -/
theorem file_turns {o : Opts} (hc : o.concat = true) (f : FileSpec) {gb post}
    (hg : DecoGrains f.major f.grains gb) (hp : Others [tGrai] post) (p : Nat) :
    ∃ items, Turns o p f.hdr false (gb ++ (terminator ++ blksBytes post)) items f.hdr false ∧
      ∀ file, At ⟨0, file⟩ p (gb ++ (terminator ++ blksBytes post)) → items.map (Item.view file) =
        (f.grains.filter (fun x => !o.drops x.1)).map (o.viewOf f.major) := by
  obtain ⟨items, h1, h2⟩ := DecoGrains.turns o f.hdr hg p
  refine ⟨items, ?_, fun file hat => h2 file hat.left⟩
  have ht : TurnAt o f.hdr false (p + gb.length) terminator (.next f.hdr false) := by
    intro s hat
    rw [terminator_step o _ _ s hat, hc, if_pos rfl]
    rfl
  have := h1.append (Turns.next ht (turns_others o f.hdr hp _))
  rwa [List.append_nil] at this

/-- A further file after the first one. -/
theorem next_file_turns {o : Opts} (hc : o.concat = true) {f : FileSpec} (hf : f.Ok) {bs} (hd : DecoFile f bs)
    (h : Hdr) (p : Nat) :
    ∃ items, Turns o p h false bs items f.hdr false ∧
      ∀ file, At ⟨0, file⟩ p bs → items.map (Item.view file) =
        (f.grains.filter (fun x => !o.drops x.1)).map (o.viewOf f.major) := by
  obtain ⟨pre, hb, gb, post, hpre, hhd, hgb, hpost, rfl⟩ := hd
  have e : encodeFileHeader f.major f.minor ++ ((blksBytes pre ++ hb.bytes) ++ (gb ++ (terminator ++ blksBytes post)))
    = signature ++ (((encodeUint f.major 2 ++ encodeUint f.minor 2) ++ (blksBytes pre ++ hb.bytes)) ++
      (gb ++ (terminator ++ blksBytes post))) := by
    simp [encodeFileHeader, signature]
  rw [e]
  obtain ⟨items, h1, h2⟩ := file_turns hc f hgb hpost (p + signature.length +
    ((encodeUint f.major 2 ++ encodeUint f.minor 2) ++ (blksBytes pre ++ hb.bytes)).length)
  refine ⟨items, ?_, fun file hat => h2 file hat.right.right⟩
  refine .next (h1 := h) (hc1 := true) ?_ (.next (h1 := f.hdr) (hc1 := false) ?_ h1)
  · intro s hat
    rw [signature_step o _ _ s hat, hc, if_pos rfl]
    rfl
  · intro s hat
    unfold grainsStep
    rw [if_pos rfl]
    rw [Rd.bind_of_ok (headers_read hf.major hf.minor hf.head hhd hpre s _ hat)]
    rfl

theorem files_turns {o : Opts} (hc : o.concat = true) {fs : List (FileSpec × Bytes)}
    (hf : ∀ x ∈ fs, x.1.Ok ∧ DecoFile x.1 x.2) (h : Hdr) (p : Nat) :
    ∃ items, Turns o p h false (fs.flatMap Prod.snd) items (fs.foldl (fun _ x => x.1.hdr) h) false ∧
      ∀ file, At ⟨0, file⟩ p (fs.flatMap Prod.snd) → items.map (Item.view file) =
        fs.flatMap (fun x => (x.1.grains.filter (fun x => !o.drops x.1)).map (o.viewOf x.1.major)) := by
  induction fs generalizing h p with
  | nil => exact ⟨[], .nil, fun _ _ => rfl⟩
  | cons x fs ih =>
    obtain ⟨h1, h2⟩ := hf x (by simp)
    obtain ⟨i1, t1, v1⟩ := next_file_turns hc h1 h2 h p
    obtain ⟨i2, t2, v2⟩ := ih (fun y hy => hf y (by simp [hy])) x.1.hdr (p + x.2.length)
    refine ⟨i1 ++ i2, t1.append t2, fun file hat => ?_⟩
    rw [List.flatMap_cons] at hat
    rw [List.map_append, v1 file hat.left, v2 file hat.right, List.flatMap_cons]

/-- Decoding with concatenation support: all files' grains in order, last headers. -/
theorem decodeFile_concat {o : Opts} (hc : o.concat = true) {f : FileSpec} {bs} (hf : f.Ok) (hd : DecoFile f bs)
    {fs : List (FileSpec × Bytes)} (hfs : ∀ x ∈ fs, x.1.Ok ∧ DecoFile x.1 x.2) :
    ∃ r, decodeFile o (bs ++ fs.flatMap Prod.snd) = .ok r ∧
      r.view (bs ++ fs.flatMap Prod.snd) = ((f, bs) :: fs).flatMap
        (fun x => (x.1.grains.filter (fun x => !o.drops x.1)).map (o.viewOf x.1.major)) ∧
      r.hdr = fs.foldl (fun _ x => x.1.hdr) f.hdr ∧ r.ending = .eof := by
  generalize hfile : bs ++ fs.flatMap Prod.snd = file
  have hat : At ⟨0, file⟩ 0 (bs ++ fs.flatMap Prod.snd) := by rw [hfile]; exact at_self _ _
  obtain ⟨pre, hb, gb, post, hpre, hhd, hgb, hpost, hbs⟩ := hd
  have hat1 := hat.left
  rw [hbs, ← List.append_assoc] at hat1
  have hh := fileHeaders_read hf.major hf.minor hf.head hhd hpre _ _ hat1.left
  obtain ⟨i1, t1, v1⟩ := file_turns hc f hgb hpost
    (0 + (encodeFileHeader f.major f.minor ++ (blksBytes pre ++ hb.bytes)).length)
  obtain ⟨i2, t2, v2⟩ := files_turns hc hfs f.hdr (0 + bs.length)
  have hlen : 0 + (encodeFileHeader f.major f.minor ++ (blksBytes pre ++ hb.bytes)).length +
      (gb ++ (terminator ++ blksBytes post)).length = 0 + bs.length := by
    rw [hbs]; simp only [List.length_append]; omega
  have r1 := t1.run (s := ⟨0, file⟩) (Nat.zero_le _) hat1.right
  have r2 := t2.run (s := ⟨0, file⟩) (Nat.zero_le _) hat.right
  have r3 := run_end o (fs.foldl (fun _ x => x.1.hdr) f.hdr) (s := ⟨0, file⟩)
    (p := 0 + bs.length + (fs.flatMap Prod.snd).length) (Nat.zero_le _) (by
    unfold Stream.fin; simp only [← hfile, List.length_append]; omega)
  rw [hlen, r2, r3] at r1
  refine ⟨grains o file f.hdr (0 + (encodeFileHeader f.major f.minor ++ (blksBytes pre ++ hb.bytes)).length),
    ?_, ?_, ?_, ?_⟩
  · unfold decodeFile
    rw [hh]
    rfl
  · rw [grains_eq_run, r1]
    simp only [Run.view, Run.prepend, List.append_nil, List.map_append]
    rw [v1 file hat1.right, v2 file hat.right, List.flatMap_cons]
  · rw [grains_eq_run, r1]; rfl
  · rw [grains_eq_run, r1]; rfl

/-- Decoding without concatenation support: the first file's grains only, whatever follows. -/
theorem decodeFile_single {o : Opts} (hc : o.concat = false) {f : FileSpec} {bs} (hf : f.Ok) (hd : DecoFile f bs)
    (rest : Bytes) :
    ∃ r, decodeFile o (bs ++ rest) = .ok r ∧
      r.view (bs ++ rest) = (f.grains.filter (fun x => !o.drops x.1)).map (o.viewOf f.major) ∧
      r.hdr = f.hdr ∧ r.ending = .break_ := by
  generalize hfile : bs ++ rest = file
  have hat : At ⟨0, file⟩ 0 (bs ++ rest) := by rw [hfile]; exact at_self _ _
  obtain ⟨pre, hb, gb, post, hpre, hhd, hgb, hpost, hbs⟩ := hd
  have hat1 := hat.left
  rw [hbs, ← List.append_assoc] at hat1
  have hh := fileHeaders_read hf.major hf.minor hf.head hhd hpre _ _ hat1.left
  obtain ⟨i1, t1, v1⟩ := DecoGrains.turns o f.hdr hgb
    (0 + (encodeFileHeader f.major f.minor ++ (blksBytes pre ++ hb.bytes)).length)
  have hat2 := hat1.right
  have r1 := t1.run (s := ⟨0, file⟩) (Nat.zero_le _) hat2.left
  have r2 : run o ⟨0, file⟩ f.hdr false (0 + (encodeFileHeader f.major f.minor ++ (blksBytes pre ++ hb.bytes)).length
      + gb.length) = ⟨[], f.hdr, .break_⟩ := by
    rw [run_eq _ _ _ _ _ (Nat.zero_le _), terminator_step o f.hdr _ _ hat2.right.left, hc]
    rfl
  rw [r2] at r1
  refine ⟨grains o file f.hdr (0 + (encodeFileHeader f.major f.minor ++ (blksBytes pre ++ hb.bytes)).length),
    ?_, ?_, ?_, ?_⟩
  · unfold decodeFile
    rw [hh]
    rfl
  · rw [grains_eq_run, r1]
    simp only [Run.view, Run.prepend, List.append_nil]
    rw [v1 file hat2.left]
    rfl
  · rw [grains_eq_run, r1]; rfl
  · rw [grains_eq_run, r1]; rfl

end Verif.Gsf

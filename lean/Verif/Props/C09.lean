import Verif.Props.C01

/-!
# C04: unknown blocks are ignored; C09: concatenated files
-/

namespace Verif.Props

open Verif Verif.Gsf

/-- What a consumer must see of a file's grains: exactly what was put in. -/
def contents (f : FileSpec) : List (Meta × Option Bytes × Nat) :=
  f.grains.map (fun x => (metaOf x.2, x.2.data, x.1))

/-- Every grain has a representation of its own in the file. -/
def PlainFile (f : FileSpec) : Prop := ∀ x ∈ f.grains, Plain f.major x.2

instance (f) : Decidable (PlainFile f) := by unfold PlainFile; infer_instance

theorem viewOf_plain {f : FileSpec} (hf : f.Ok) (hp : PlainFile f) {o : Opts} (hl : o.localIds = none)
    (hm : o.mode ≠ .loadNever) :
    (f.grains.filter (fun x => !o.drops x.1)).map (o.viewOf f.major) = contents f := by
  rw [List.filter_eq_self.2 (by intro a _; simp [Opts.drops, hl])]
  apply List.map_congr_left
  intro x hx
  have hpx := hp x hx
  unfold Opts.viewOf Grain.payload
  simp only [toMeta_plain hf.major hpx]
  rw [if_neg (by simp [hm])]
  congr 2
  cases hd : x.2.data with
  | none => rfl
  | some d =>
    cases d with
    | nil => exact absurd hd hpx.2.2.2
    | cons a l => rfl

/-- **C04.** A file into which blocks with unknown tags were inserted (before and inside the head, inside
segments, between grains, inside grains, grain headers and type headers, after the terminator:
`DecoFile`) is decoded to the same headers and the same grains as the original. -/
theorem C04_unknown_blocks_ignored (f : FileSpec) (hf : f.Ok) (hp : PlainFile f) (bs : Bytes) (hd : DecoFile f bs) :
    ∃ r r', decodeFile {} bs = .ok r ∧ decodeFile {} f.bytes = .ok r' ∧ r.hdr = r'.hdr ∧ r.ending = r'.ending ∧
      r.hdr = hdrOf f ∧ r.view bs = r'.view f.bytes ∧ r.view bs = contents f := by
  obtain ⟨r, h1, h2, h3, h4⟩ := decodeFile_concat (o := {}) rfl hf hd (fs := []) (by simp)
  obtain ⟨r', h1', h2', h3', h4'⟩ := decodeFile_concat (o := {}) rfl hf (decoFile_self hf) (fs := []) (by simp)
  simp only [List.flatMap_nil, List.append_nil, List.foldl_nil, List.flatMap_cons] at *
  have := viewOf_plain (o := {}) hf hp rfl (by simp)
  exact ⟨r, r', h1, h1', by rw [h3, h3'], by rw [h4, h4'], h3, by rw [h2, h2'], by rw [h2, this]⟩

/-- The same with any selection of local ids and any loading mode, and without `Plain`. -/
theorem C04_unknown_blocks_ignored_any (f : FileSpec) (hf : f.Ok) (bs : Bytes) (hd : DecoFile f bs) (o : Opts) :
    ∃ r r', decodeFile o bs = .ok r ∧ decodeFile o f.bytes = .ok r' ∧ r.hdr = r'.hdr ∧ r.ending = r'.ending ∧
      r.view bs = r'.view f.bytes := by
  cases hc : o.concat with
  | true =>
    obtain ⟨r, h1, h2, h3, h4⟩ := decodeFile_concat hc hf hd (fs := []) (by simp)
    obtain ⟨r', h1', h2', h3', h4'⟩ := decodeFile_concat hc hf (decoFile_self hf) (fs := []) (by simp)
    simp only [List.flatMap_nil, List.append_nil, List.foldl_nil, List.flatMap_cons] at *
    exact ⟨r, r', h1, h1', by rw [h3, h3'], by rw [h4, h4'], by rw [h2, h2']⟩
  | false =>
    obtain ⟨r, h1, h2, h3, h4⟩ := decodeFile_single hc hf hd []
    obtain ⟨r', h1', h2', h3', h4'⟩ := decodeFile_single hc hf (decoFile_self hf) []
    simp only [List.append_nil] at *
    exact ⟨r, r', h1, h1', by rw [h3, h3'], by rw [h4, h4'], by rw [h2, h2']⟩

/-- A small version 9 file with one audio grain. -/
def tiny : FileSpec := ⟨9, 0, ⟨u 9, ⟨2024, 2, 29, 23, 59, 59⟩, [⟨1, u 10, 1, none, []⟩], []⟩, [(1, gAudio)]⟩

/-- The audio grain with an unknown block in its grain header, one between header and data, and three
stray bytes after the data. -/
def junkyGrain : Blk :=
  mkBlk tGrai (encodeUint (1 : Nat) 2 ++ ((mkBlk tGbhd (encodeGbhdFixed 9 gAudio ++
    blksBytes [junk, aghdBlk ⟨10, 65535, 1920, 48000⟩, junk])).bytes ++
    (blksBytes [junk] ++ ((grdtBlk gAudio).bytes ++ [7, 7, 7]))))

/-- Unknown blocks at five places. -/
def junkyFile : Bytes :=
  encodeFileHeader 9 0 ++ ((blksBytes [junk] ++ (headBlk tiny.head).bytes) ++
    ((junk.bytes ++ (junkyGrain.bytes ++ [])) ++ (terminator ++ blksBytes [junk])))

example : tiny.Ok ∧ PlainFile tiny ∧ DecoFile tiny junkyFile ∧ junkyFile ≠ tiny.bytes := by
  have h1 : tiny.Ok := by decide +kernel
  refine ⟨h1, by decide +kernel, ⟨[junk], headBlk tiny.head, _, [junk], ?_, decoHead_self h1.head, ?_, ?_, rfl⟩,
    by decide +kernel⟩
  · intro b hb; simp at hb; subst hb; exact ⟨_, junk_ok, by decide⟩
  · have hg : ∃ off, DecoGrai 9 1 gAudio junkyGrain off := by
      refine ⟨_, ⟨⟨_, [junk], [7, 7, 7], ⟨[aghdBlk ⟨10, 65535, 1920, 48000⟩],
        [junk, aghdBlk ⟨10, 65535, 1920, 48000⟩, junk], .audio, ?_, rfl, by decide +kernel⟩, ?_, rfl, rfl⟩,
        by decide +kernel⟩⟩
      · exact .junk junk_ok (by decide) (.keep _ (.junk junk_ok (by decide) .nil))
      · intro b hb; simp at hb; subst hb; exact ⟨_, junk_ok, by decide⟩
    obtain ⟨off, hg⟩ := hg
    exact .junk junk_ok (by decide) (.grain (by decide) (by decide +kernel) hg .nil)
  · intro b hb; simp at hb; subst hb; exact ⟨_, junk_ok, by decide⟩

/-- **C09.** Decoding the concatenation of one or more files written by the encoder gives all their
grains in order and ends with the headers of the last file. -/
theorem C09_concatenated (f : FileSpec) (fs : List FileSpec) (h : ∀ x ∈ f :: fs, x.Ok ∧ PlainFile x) :
    ∃ r, decodeFile {} ((f :: fs).flatMap FileSpec.bytes) = .ok r ∧ r.ending = .eof ∧
      r.view ((f :: fs).flatMap FileSpec.bytes) = (f :: fs).flatMap contents ∧
      r.hdr = hdrOf ((f :: fs).getLast (by simp)) := by
  have hf := h f (by simp)
  obtain ⟨r, h1, h2, h3, h4⟩ := decodeFile_concat (o := {}) rfl hf.1 (decoFile_self hf.1)
    (fs := fs.map (fun x => (x, x.bytes))) (by
      intro x hx
      obtain ⟨y, hy, rfl⟩ := List.mem_map.1 hx
      have := h y (by simp [hy])
      exact ⟨this.1, decoFile_self this.1⟩)
  have e1 : (fs.map (fun x => (x, x.bytes))).flatMap Prod.snd = fs.flatMap FileSpec.bytes := by
    rw [List.flatMap_map]
  rw [e1] at h1 h2
  refine ⟨r, h1, h4, ?_, ?_⟩
  · rw [List.flatMap_cons, h2, List.flatMap_cons, List.flatMap_cons]
    rw [viewOf_plain hf.1 hf.2 rfl (by simp), List.flatMap_map]
    congr 1
    apply congrArg List.flatten
    apply List.map_congr_left
    intro x hx
    have := h x (by simp [hx])
    exact viewOf_plain this.1 this.2 rfl (by simp)
  · rw [h3, List.foldl_map]
    clear h1 h2 h3 h4 e1 h hf
    induction fs generalizing f with
    | nil => rfl
    | cons x fs ih => exact ih x

/-- **C09**, without concatenation support: only the first file's grains, whatever comes after it. -/
theorem C09_first_only (f : FileSpec) (hf : f.Ok) (hp : PlainFile f) (rest : Bytes) :
    ∃ r, decodeFile { concat := false } (f.bytes ++ rest) = .ok r ∧ r.ending = .break_ ∧
      r.view (f.bytes ++ rest) = contents f ∧ r.hdr = hdrOf f := by
  obtain ⟨r, h1, h2, h3, h4⟩ := decodeFile_single (o := { concat := false }) rfl hf (decoFile_self hf) rest
  exact ⟨r, h1, h4, by rw [h2, viewOf_plain hf hp rfl (by simp)], h3⟩

/-- Three files of different versions meet the hypotheses. -/
example : ∀ x ∈ [sample, sample7, tiny], x.Ok ∧ PlainFile x := by decide +kernel

end Verif.Props

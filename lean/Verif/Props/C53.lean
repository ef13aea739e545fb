import Verif.Props.C52
import Verif.Props.C33
import Verif.Props.C38
import Verif.Props.C51
import Verif.Props.C39
import Verif.Props.C40

/-!
# C53: what the extraction tool writes
-/

namespace Verif.Props

open Verif Verif.Gsf Verif.Tools

/-- The grains `--only-id` selects: all, or those with one of the ids. -/
def chosen (ids : Option (List Nat)) (l : Nat) : Bool :=
  match ids with
  | none => true
  | some s => s.contains l

/-- A grain whose data can be written: a plain grain has some, the data of an event is what an event grain has as its data. -/
def Extractable (g : Grain) : Prop :=
  match g.body with
  | .empty => g.data.getD [] ≠ []
  | .event => ∃ p, PayloadOk p ∧ (∀ d ∈ p.data, PlainItem d) ∧ g.data = some (Event.getData p)
  | _ => True

/-- The essence of a file: the data of the selected grains, one after the other. -/
def essenceOf (ids : Option (List Nat)) (grains : List (Nat × Grain)) : Bytes :=
  (grains.filter (fun x => chosen ids x.1)).flatMap (fun x => x.2.data.getD [])

end Verif.Props

namespace Verif.Props.Extract

open Verif Verif.Gsf Verif.Tools

theorem drops_eq (ids : Option (List Nat)) (l : Nat) : (!(extractOpts ids).drops l) = chosen ids l := by
  cases ids with
  | none => rfl
  | some s => simp [extractOpts, Opts.drops, chosen]

theorem view_eq (ids : Option (List Nat)) (major : Nat) (x : Nat × Grain) :
    (extractOpts ids).viewOf major x = (x.2.toMeta major, x.2.payload, x.1) := by
  unfold Opts.viewOf extractOpts
  simp

theorem event_data_ne (p : Event.Payload) (hp : PayloadOk p) (hi : ∀ d ∈ p.data, PlainItem d) : Event.getData p ≠ [] := by
  intro h
  have := C33_round_trip_eq p ⟨.null, .null, []⟩ hp hi
  rw [h] at this
  have h2 : (Event.setData ⟨.null, .null, []⟩ (.bytes [])).2 = .error .value := by rfl
  rw [this] at h2
  cases h2

theorem payload_getD (g : Grain) : g.payload.getD [] = g.data.getD [] := by
  unfold Grain.payload
  split
  · rename_i h; rw [h]; rfl
  · rfl

theorem type_empty (major : Nat) (g : Grain) (hb : g.body = .empty) : (g.toMeta major).grainType = none := by
  unfold Grain.toMeta
  rw [hb]
  show (Meta.addTils g.timelabels (Grain.baseMeta major g)).grainType = none
  unfold Meta.addTils Grain.baseMeta
  split <;> rfl

/-- What is written for a grain. -/
theorem written (major : Nat) (g : Grain) (h : Extractable g) :
    grainData (g.toMeta major).grainType g.payload = some (g.data.getD []) := by
  unfold Extractable at h
  have hp := payload_getD g
  cases hb : g.body with
  | empty =>
    rw [hb] at h
    have ht := type_empty major g hb
    rw [ht]
    unfold grainData Grain.payload
    simp only [if_neg h]
  | event =>
    rw [hb] at h
    obtain ⟨p, h1, h2, h3⟩ := h
    have ht : (g.toMeta major).grainType = some .event := by unfold Grain.toMeta; rw [hb]; rfl
    have hne := event_data_ne p h1 h2
    have hpl : g.payload = some (Event.getData p) := by
      unfold Grain.payload; rw [h3]; simp only [Option.getD_some, if_neg hne]
    rw [ht, hpl, h3]
    unfold grainData
    simp only [C33_round_trip_eq p emptyPayload h1 h2, Option.getD_some]
  | video v =>
    have ht : (g.toMeta major).grainType = some .video := by unfold Grain.toMeta; rw [hb]; rfl
    rw [ht, ← hp]; rfl
  | codedVideo v =>
    have ht : (g.toMeta major).grainType = some .codedVideo := by unfold Grain.toMeta; rw [hb]; rfl
    rw [ht, ← hp]; rfl
  | audio v =>
    have ht : (g.toMeta major).grainType = some .audio := by unfold Grain.toMeta; rw [hb]; rfl
    rw [ht, ← hp]; rfl
  | codedAudio v =>
    have ht : (g.toMeta major).grainType = some .codedAudio := by unfold Grain.toMeta; rw [hb]; rfl
    rw [ht, ← hp]; rfl

/-- The wrapper makes no grain without data. -/
theorem rounds_ne {σ : Type} (read : Wrap.Input σ) (n k : Nat) (s : σ) : ∀ x ∈ Wrap.rounds read n k s, x.2 ≠ [] := by
  induction n generalizing k s with
  | zero => intro x hx; cases hx
  | succ n ih =>
    intro x hx
    unfold Wrap.rounds at hx
    split at hx
    · cases hx
    · split at hx
      · cases hx
      · rename_i hd
        rcases List.mem_cons.1 hx with rfl | hx
        · exact hd
        · exact ih _ _ x hx

theorem wrapDisk_ne (t : Wrap.Template) (input : Bytes) : ∀ o ∈ Wrap.wrapDisk t input, o.data ≠ [] := by
  intro o ho
  obtain ⟨x, hx, rfl⟩ := List.mem_map.1 ho
  exact rounds_ne _ _ _ _ x hx

theorem writeAll_append (a b : List (Meta × Option Bytes × Nat)) (ha : (writeAll a).2 = true) :
    writeAll (a ++ b) = ((writeAll a).1 ++ (writeAll b).1, (writeAll b).2) := by
  induction a with
  | nil => rfl
  | cons x a ih =>
    simp only [List.cons_append, writeAll] at ha ⊢
    cases hx : grainData x.1.grainType x.2.1 with
    | none => rw [hx] at ha; cases ha
    | some d =>
      rw [hx] at ha
      simp only at ha ⊢
      rw [ih ha]
      simp only [List.append_assoc]

theorem writeAll_grains (ids : Option (List Nat)) (major : Nat) (gs : List (Nat × Grain))
    (h : ∀ x ∈ gs, chosen ids x.1 = true → Extractable x.2) :
    writeAll ((gs.filter (fun x => !(extractOpts ids).drops x.1)).map ((extractOpts ids).viewOf major)) = (essenceOf ids gs, true) := by
  unfold essenceOf
  rw [show (fun x : Nat × Grain => !(extractOpts ids).drops x.1) = (fun x => chosen ids x.1) from funext (fun x => drops_eq ids x.1)]
  induction gs with
  | nil => rfl
  | cons x gs ih =>
    have ih := ih (fun y hy => h y (List.mem_cons_of_mem _ hy))
    by_cases hx : chosen ids x.1 = true
    · rw [List.filter_cons_of_pos (by exact hx), List.map_cons, List.flatMap_cons, view_eq]
      simp only [writeAll]
      rw [written major x.2 (h x (List.mem_cons_self) hx)]
      simp only [ih]
    · rw [List.filter_cons_of_neg (by exact hx)]
      exact ih

end Verif.Props.Extract

namespace Verif.Props

open Verif Verif.Gsf Verif.Tools Verif.Props.Extract

/-- **C53**: from files and from standard input, from one GSF file or several one after the other, and with unknown blocks
anywhere in them, the tool writes the essence of the selected grains, and ends without an exception. -/
theorem C53_essence (ids : Option (List Nat)) (f : FileSpec) (bs : Bytes) (hf : f.Ok) (hd : DecoFile f bs)
    (fs : List (FileSpec × Bytes)) (hfs : ∀ x ∈ fs, x.1.Ok ∧ DecoFile x.1 x.2)
    (he : ∀ x ∈ (f, bs) :: fs, ∀ y ∈ x.1.grains, chosen ids y.1 = true → Extractable y.2) :
    extractFile ids (bs ++ fs.flatMap Prod.snd) = (((f, bs) :: fs).flatMap (fun x => essenceOf ids x.1.grains), true) ∧
    extractStdin ids (bs ++ fs.flatMap Prod.snd) = (((f, bs) :: fs).flatMap (fun x => essenceOf ids x.1.grains), true) := by
  have key : ∀ l : List (FileSpec × Bytes), (∀ x ∈ l, ∀ y ∈ x.1.grains, chosen ids y.1 = true → Extractable y.2) →
      writeAll (l.flatMap (fun x => (x.1.grains.filter (fun x => !(extractOpts ids).drops x.1)).map ((extractOpts ids).viewOf x.1.major))) =
        (l.flatMap (fun x => essenceOf ids x.1.grains), true) := by
    intro l hl
    induction l with
    | nil => rfl
    | cons x l ih =>
      have h1 := writeAll_grains ids x.1.major x.1.grains (hl x List.mem_cons_self)
      rw [List.flatMap_cons, List.flatMap_cons, writeAll_append _ _ (by rw [h1]), h1, ih (fun y hy => hl y (List.mem_cons_of_mem _ hy))]
  obtain ⟨r, r', h1, h2, h3, _, h5⟩ := C51_stdin_same (extractOpts ids) rfl f bs hf hd fs hfs
  obtain ⟨r'', k1, k2, _, k4⟩ := decodeFile_concat (o := extractOpts ids) rfl hf hd hfs
  rw [k1] at h2
  injection h2 with h2
  subst h2
  constructor
  · unfold extractFile
    rw [k1]
    simp only [extractRun]
    rw [k2, key _ he, k4]
    rfl
  · unfold extractStdin
    rw [h1]
    simp only [extractRun]
    rw [h3, k2, key _ he, h5, k4]
    rfl

/-- **C53**, one file as the encoder writes it. -/
theorem C53_one_file (ids : Option (List Nat)) (f : FileSpec) (hf : f.Ok)
    (he : ∀ y ∈ f.grains, chosen ids y.1 = true → Extractable y.2) :
    extractFile ids f.bytes = (essenceOf ids f.grains, true) ∧ extractStdin ids f.bytes = (essenceOf ids f.grains, true) := by
  have := C53_essence ids f f.bytes hf (decoFile_self hf) [] (by simp) (by
    intro x hx
    rw [List.mem_singleton] at hx
    subst hx
    exact he)
  simpa using this

/-- **C53**, a file cut anywhere after its head: what is extracted is the first part of what is extracted from the whole file.
Missing: events, whose data has to be whole to be parsed. -/
theorem C53_cut_partial (ids : Option (List Nat)) (f : FileSpec) (hf : f.Ok) (n : Nat) (hn : grainsEnd f 0 ≤ n)
    (he : ∀ y ∈ f.grains, chosen ids y.1 = true → Extractable y.2 ∧ y.2.body ≠ .event) :
    (extractFile ids (f.bytes.take n)).1 <+: (extractFile ids f.bytes).1 ∧ (extractFile ids (f.bytes.take n)).2 = true := by
  rw [(C53_one_file ids f hf (fun y hy hc => (he y hy hc).1)).1]
  obtain ⟨r, k, tail, h1, _, h3, h4, _, _, h7, h8⟩ := C05_truncated f hf (extractOpts ids) n hn
  have hq : r.ending.quiet = true := by rcases h3 with h3 | ⟨h3, _⟩ <;> rw [h3] <;> rfl
  have hw := writeAll_grains ids f.major (f.grains.take k) (fun x hx hc => (he x (List.mem_of_mem_take hx) hc).1)
  unfold extractFile
  rw [h1]
  simp only [extractRun]
  rw [h7, writeAll_append _ _ (by rw [hw]), hw, hq]
  simp only [Bool.and_true]
  rcases h8 with h8 | ⟨x, d, hx, hdr, ht, hpart, _⟩
  · rw [h8]
    simp only [writeAll, List.append_nil, and_true]
    unfold essenceOf
    conv => rhs; rw [← List.take_append_drop k f.grains, List.filter_append, List.flatMap_append]
    exact List.prefix_append _ _
  · have hc : chosen ids x.1 = true := by rw [← drops_eq, hdr]; rfl
    obtain ⟨hex, hne⟩ := he x (List.mem_of_getElem? hx) hc
    rw [view_eq] at hpart
    have hsplit : f.grains = f.grains.take k ++ x :: f.grains.drop (k + 1) := by
      obtain ⟨hlt, hget⟩ := List.getElem?_eq_some_iff.1 hx
      conv => lhs; rw [← List.take_append_drop k f.grains, List.drop_eq_getElem_cons hlt, hget]
    have hrest : essenceOf ids f.grains = essenceOf ids (f.grains.take k) ++ (x.2.data.getD [] ++ essenceOf ids (f.grains.drop (k + 1))) := by
      conv => lhs; rw [hsplit]
      unfold essenceOf
      rw [List.filter_append, List.flatMap_append, List.filter_cons_of_pos (by exact hc), List.flatMap_cons]
    have hd : ∃ b, grainData (x.2.toMeta f.major).grainType d = some b ∧ b <+: x.2.data.getD [] := by
      have hwr := written f.major x.2 hex
      cases hp : x.2.payload with
      | none =>
        have hp2 : (PartOf x.2.payload d) := hpart
        rw [hp] at hp2
        have : d = none := hp2
        subst this
        rw [hp] at hwr
        exact ⟨_, hwr, List.prefix_rfl⟩
      | some full =>
        have hp2 : (PartOf x.2.payload d) := hpart
        rw [hp] at hp2
        obtain ⟨m, hm⟩ := hp2
        subst hm
        have hfull : x.2.data.getD [] = full := by rw [← payload_getD, hp]; rfl
        refine ⟨full.take m, ?_, by rw [hfull]; exact List.take_prefix _ _⟩
        cases hb : x.2.body with
        | event => exact absurd hb hne
        | empty =>
          have ht := type_empty f.major x.2 hb
          rw [ht]; rfl
        | video v =>
          have ht : (x.2.toMeta f.major).grainType = some .video := by unfold Grain.toMeta; rw [hb]; rfl
          rw [ht]; rfl
        | codedVideo v =>
          have ht : (x.2.toMeta f.major).grainType = some .codedVideo := by unfold Grain.toMeta; rw [hb]; rfl
          rw [ht]; rfl
        | audio v =>
          have ht : (x.2.toMeta f.major).grainType = some .audio := by unfold Grain.toMeta; rw [hb]; rfl
          rw [ht]; rfl
        | codedAudio v =>
          have ht : (x.2.toMeta f.major).grainType = some .codedAudio := by unfold Grain.toMeta; rw [hb]; rfl
          rw [ht]; rfl
    obtain ⟨b, hb1, hb2⟩ := hd
    rw [ht]
    simp only [writeAll, hb1, List.append_nil, and_true]
    rw [hrest]
    exact List.prefix_append_right_inj _ |>.2 (hb2.trans (List.prefix_append _ _))

/-- **C53**, wrapping and extracting: what the wrapping tool makes of the grains of any wrapper, the extraction tool turns into
the data of these grains, from the finished file and from one whose writing was stopped. -/
theorem C53_wrapped (file : OutFile) (hs : file.seekable = true) (encId : Bytes) (created : DateTime) (flowId : Bytes)
    (grains : List Grain) (hf : (wrapped encId created flowId grains.length grains).Ok) (hx : ∀ g ∈ grains, Extractable g) :
    extractFile none (wrapToGsf file encId created flowId grains true).file.bytes = (grains.flatMap (fun g => g.data.getD []), true) ∧
    extractStdin none (wrapToGsf file encId created flowId grains true).file.bytes = (grains.flatMap (fun g => g.data.getD []), true) := by
  have he : essenceOf none (wrapped encId created flowId grains.length grains).grains = grains.flatMap (fun g => g.data.getD []) := by
    unfold essenceOf wrapped chosen
    simp [List.flatMap_map]
  rw [C52_file file hs, ← he]
  refine C53_one_file none _ hf ?_
  intro y hy _
  obtain ⟨g, hg, rfl⟩ := List.mem_map.1 hy
  exact hx g hg

/-- **C53**, raw essence: wrapping a file and extracting it again gives the file. -/
theorem C53_raw (file : OutFile) (hs : file.seekable = true) (encId : Bytes) (created : DateTime) (template : Grain)
    (t : Wrap.Template) (hr : t.rateNum ≠ 0) (n : Nat) (hsz : t.size = some n) (hn : 0 < n) (input : Bytes)
    (hb : template.body ≠ .event)
    (hf : (wrapped encId created template.flowId (Wrap.wrapDisk t input).length ((Wrap.wrapDisk t input).map (made template))).Ok) :
    let out := rawGrains t template (Wrap.wrapDisk t input)
    out.2 = true ∧
    extractFile none (wrapToGsf file encId created template.flowId out.1 out.2).file.bytes = (input, true) ∧
    extractStdin none (wrapToGsf file encId created template.flowId out.1 out.2).file.bytes = (input, true) := by
  have h : rawGrains t template (Wrap.wrapDisk t input) = ((Wrap.wrapDisk t input).map (made template), true) := by
    unfold rawGrains; rw [if_neg hr]
  have hd : ((Wrap.wrapDisk t input).map (made template)).flatMap (fun g => g.data.getD []) = input := by
    rw [List.flatMap_map]
    exact (C38_file_partial t n hsz hn input).1
  have hx : ∀ g ∈ (Wrap.wrapDisk t input).map (made template), Extractable g := by
    intro g hg
    obtain ⟨o, ho, rfl⟩ := List.mem_map.1 hg
    unfold Extractable
    show match template.body with | .empty => _ | .event => _ | _ => _
    cases hbb : template.body with
    | event => exact absurd hbb hb
    | empty => exact wrapDisk_ne t input o ho
    | _ => trivial
  have := C53_wrapped file hs encId created template.flowId _ (by rw [List.length_map]; exact hf) hx
  rw [hd] at this
  simp only [h]
  exact ⟨trivial, this⟩

/-- The tools on a wrapper that splits its input into pieces, one grain for each, and may raise: what is extracted is a first
part of the input, and all the pieces if wrapping came to its end. -/
theorem C53_pieces (file : OutFile) (hs : file.seekable = true) (encId : Bytes) (created : DateTime) (flowId : Bytes)
    (input : Bytes) (pieces : List Bytes) (finished : Bool) (grains : List Grain) (hp : pieces.flatten <+: input)
    (hg : grains.map (fun g => g.data) = pieces.map some) (hb : ∀ g ∈ grains, g.body ≠ .event ∧ g.body ≠ .empty)
    (hf : ∀ c : Int, c = -1 ∨ c = grains.length → (wrapped encId created flowId c grains).Ok) :
    (extractFile none (wrapToGsf file encId created flowId grains finished).file.bytes).1 <+: input ∧
    (finished = true → extractFile none (wrapToGsf file encId created flowId grains finished).file.bytes = (pieces.flatten, true)) := by
  have hx : ∀ g ∈ grains, Extractable g := by
    intro g hg'
    unfold Extractable
    obtain ⟨h1, h2⟩ := hb g hg'
    cases hbb : g.body with
    | event => exact absurd hbb h1
    | empty => exact absurd hbb h2
    | _ => trivial
  have hd : grains.flatMap (fun g => g.data.getD []) = pieces.flatten := by
    have : grains.map (fun g => g.data.getD []) = pieces := by
      have e := congrArg (List.map (fun o : Option Bytes => o.getD [])) hg
      simpa [List.map_map, Function.comp_def] using e
    rw [List.flatMap_def, this]
  have hess : ∀ c, essenceOf none (wrapped encId created flowId c grains).grains = pieces.flatten := by
    intro c
    rw [← hd]
    unfold essenceOf wrapped chosen
    simp [List.flatMap_map]
  have hone : ∀ c, c = -1 ∨ c = (grains.length : Int) → extractFile none (wrapped encId created flowId c grains).bytes = (pieces.flatten, true) := by
    intro c hc
    rw [← hess c]
    refine (C53_one_file none _ (hf c hc) ?_).1
    intro y hy _
    obtain ⟨g, hg', rfl⟩ := List.mem_map.1 hy
    exact hx g hg'
  cases finished with
  | true =>
    rw [C52_file file hs, hone _ (.inr rfl)]
    exact ⟨hp, fun _ => rfl⟩
  | false =>
    refine ⟨?_, fun h => by cases h⟩
    rw [C52_stopped, hs, if_pos rfl, List.nil_append]
    unfold unterminated
    refine List.IsPrefix.trans ?_ hp
    have h1 := (C53_cut_partial none _ (hf (-1) (.inl rfl))
      ((wrapped encId created flowId (-1) grains).bytes.length - terminator.length) ?_ ?_).1
    · rw [hone _ (.inl rfl)] at h1; exact h1
    · unfold grainsEnd FileSpec.bytes
      simp only [List.length_append, List.take_zero, List.flatMap_nil, List.length_nil]
      omega
    · intro y hy _
      obtain ⟨g, hg', rfl⟩ := List.mem_map.1 hy
      exact ⟨hx g hg', (hb g hg').1⟩

/-- **C53**, H.264: wrapping a file and extracting it again gives a first part of the file, even if splitting it ends with an
exception, and the whole file if it does not and there is a frame. -/
theorem C53_h264 (file : OutFile) (hs : file.seekable = true) (encId : Bytes) (created : DateTime) (flowId : Bytes)
    (input : Bytes) (limits : List Nat) (grains : List Grain)
    (hg : grains.map (fun g => g.data) = (Wrap.H264.frames input limits).1.map (fun f => some f.data))
    (hb : ∀ g ∈ grains, ∃ v, g.body = .codedVideo v)
    (hf : ∀ c : Int, c = -1 ∨ c = grains.length → (wrapped encId created flowId c grains).Ok) :
    let out := extractFile none (wrapToGsf file encId created flowId grains ((Wrap.H264.frames input limits).2 == .done)).file.bytes
    out.1 <+: input ∧ ((Wrap.H264.frames input limits).2 = .done → (Wrap.H264.frames input limits).1 ≠ [] → out = (input, true)) := by
  obtain ⟨⟨rest, hrest, hdone⟩, _⟩ := C40_partition input limits
  have hfl : ((Wrap.H264.frames input limits).1.map (fun f => f.data)).flatten = (Wrap.H264.frames input limits).1.flatMap (fun f => f.data) :=
    (List.flatMap_def ..).symm
  have := C53_pieces file hs encId created flowId input ((Wrap.H264.frames input limits).1.map (fun f => f.data))
    ((Wrap.H264.frames input limits).2 == .done) grains (by rw [hfl]; exact ⟨rest, hrest⟩)
    (by rw [hg, List.map_map]; rfl)
    (by intro g hg'; obtain ⟨v, hv⟩ := hb g hg'; rw [hv]; exact ⟨by simp, by simp⟩) hf
  refine ⟨this.1, fun hd hne => ?_⟩
  have h2 := this.2 (by rw [hd]; rfl)
  rw [h2, hfl]
  rcases hdone hd with h | ⟨h, _⟩
  · rw [h, List.append_nil] at hrest; rw [hrest]
  · exact absurd h hne

/-- **C53**, AAC: the same. -/
theorem C53_aac (file : OutFile) (hs : file.seekable = true) (encId : Bytes) (created : DateTime) (flowId : Bytes)
    (input : Bytes) (grains : List Grain)
    (hg : grains.map (fun g => g.data) = (Wrap.Adts.framesOfFile input).1.map (fun f => some f.1))
    (hb : ∀ g ∈ grains, ∃ v, g.body = .codedAudio v)
    (hf : ∀ c : Int, c = -1 ∨ c = grains.length → (wrapped encId created flowId c grains).Ok) :
    let out := extractFile none (wrapToGsf file encId created flowId grains (decide ((Wrap.Adts.framesOfFile input).2 = .done))).file.bytes
    out.1 <+: input ∧ ((Wrap.Adts.framesOfFile input).2 = .done → out = (input, true)) := by
  obtain ⟨⟨rest, hrest, hdone⟩, _⟩ := (C39_partition_partial input).1
  have hfl : ((Wrap.Adts.framesOfFile input).1.map (fun f => f.1)).flatten = (Wrap.Adts.framesOfFile input).1.flatMap (fun f => f.1) :=
    (List.flatMap_def ..).symm
  have := C53_pieces file hs encId created flowId input ((Wrap.Adts.framesOfFile input).1.map (fun f => f.1))
    (decide ((Wrap.Adts.framesOfFile input).2 = .done)) grains (by rw [hfl]; exact ⟨rest, hrest.symm⟩)
    (by rw [hg, List.map_map]; rfl)
    (by intro g hg'; obtain ⟨v, hv⟩ := hb g hg'; rw [hv]; exact ⟨by simp, by simp⟩) hf
  refine ⟨this.1, fun hd => ?_⟩
  have h2 := this.2 (by rw [hd]; rfl)
  rw [h2, hfl]
  have h3 := hdone hd
  subst h3
  rw [List.append_nil] at hrest
  exact Prod.ext hrest.symm rfl

/-- Three bytes of raw video wrapped in grains of two bytes, and extracted. -/
example : (wrapped (u 9) ⟨2024, 2, 29, 23, 59, 59⟩ gVideo.flowId 2
      ((Wrap.wrapDisk ⟨0, 25, 1, some 2⟩ [1, 2, 3]).map (made gVideo))).Ok ∧ gVideo.body ≠ .event ∧
    extractFile none (wrapToGsf ⟨true, [], 0⟩ (u 9) ⟨2024, 2, 29, 23, 59, 59⟩ gVideo.flowId
      ((Wrap.wrapDisk ⟨0, 25, 1, some 2⟩ [1, 2, 3]).map (made gVideo)) true).file.bytes = ([1, 2, 3], true) := by decide +kernel

/-- The stream of C40 wrapped in grains. -/
def h264Grains : List Grain := h264Frames.map (fun f => { gCoded with length := f.data.length, data := some f.data })

example : (∀ c : Int, c = -1 ∨ c = (h264Grains.length : Int) → (wrapped (u 9) ⟨2024, 2, 29, 23, 59, 59⟩ (u 4) c h264Grains).Ok) ∧
    1 < h264Grains.length ∧ h264Grains.map (fun g => g.data) = (Wrap.H264.frames h264Stream []).1.map (fun f => some f.data) := by
  refine ⟨?_, by decide +kernel, by decide +kernel⟩
  rintro c (rfl | rfl) <;> decide +kernel

/-- A file with two segments. -/
def twoSegments : FileSpec := ⟨9, 0, sampleHead, [(1, gVideo), (300, gAudio), (1, gCoded)]⟩

/-- One segment of it, and all of it after a cut in the second grain. -/
example : twoSegments.Ok ∧ extractFile (some [1]) twoSegments.bytes = ([1, 2, 3, 4, 5, 0, 0, 1], true) ∧
    extractStdin (some [300]) twoSegments.bytes = ([255, 0], true) ∧
    extractFile none (twoSegments.bytes.take (grainsEnd twoSegments 2 - 1)) = ([1, 2, 3, 4, 5, 255], true) := by decide +kernel

/-! ## Counterexamples -/

/-- **C53 fails** for plain grains without data: `write` gets `None` and the tool ends with an exception; what follows is not
extracted. -/
theorem C53_no_data_counterexample :
    extractFile none (wrapped (u 9) ⟨2024, 2, 29, 23, 59, 59⟩ (u 5) 2 [gEmpty, gVideo]).bytes = ([], false) ∧
    essenceOf none (wrapped (u 9) ⟨2024, 2, 29, 23, 59, 59⟩ (u 5) 2 [gEmpty, gVideo]).grains = [1, 2, 3, 4, 5] := by decide +kernel

/-- JSON text as bytes. -/
def text (s : String) : Bytes := Event.encodeText (Event.lit s)

/-- **C53 fails** for events whose data is other JSON text than the library writes. -/
theorem C53_event_counterexample :
    extractFile none (wrapped (u 9) ⟨2024, 2, 29, 23, 59, 59⟩ (u 5) 1
      [{ gEvent with length := 32, data := some (text "{\"type\":\"\",\"topic\":\"\",\"data\":[]}") }]).bytes =
      (text "{\"type\": \"\", \"topic\": \"\", \"data\": []}", true) := by decide +kernel

end Verif.Props

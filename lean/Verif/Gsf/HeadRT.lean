import Verif.Gsf.GrainRT

/-!
# The file head: what is written is read back
-/

namespace Verif.Gsf

open Verif

/-! ## What a written head decodes to -/

def FlowIn.toFlow (f : FlowIn) : Flow := ⟨f.srcId, f.flowId, f.format, (decodeUtf8 f.data).getD []⟩

def SegmIn.toSegm (sg : SegmIn) : Segm := ⟨sg.localId, sg.id, sg.count, sg.flow.map FlowIn.toFlow, sg.tags⟩

def HeadIn.toHead (h : HeadIn) : Head := ⟨h.id, h.created, h.segments.map SegmIn.toSegm, h.tags⟩

/-! ## The values the fields can hold -/

def TagOk (t : List Char × List Char) : Prop := TagStrOk t.1 ∧ TagStrOk t.2

instance (t) : Decidable (TagOk t) := by unfold TagOk; infer_instance

def FlowIn.Ok (f : FlowIn) : Prop :=
  f.Wf ∧ StrOk f.format ∧ (encodeUtf8 f.format).length ≤ 64 ∧ (decodeUtf8 f.data).isSome ∧
    108 + f.data.length < 2 ^ 32

instance (f : FlowIn) : Decidable f.Ok := by unfold FlowIn.Ok; infer_instance

def SegmIn.Ok (sg : SegmIn) : Prop :=
  sg.id.length = 16 ∧ sg.localId < 2 ^ 16 ∧ (-(2 : Int) ^ 63 ≤ sg.count ∧ sg.count < 2 ^ 63) ∧
    (∀ f ∈ sg.flow, f.Ok) ∧ ∀ t ∈ sg.tags, TagOk t

instance (sg : SegmIn) : Decidable sg.Ok := by unfold SegmIn.Ok; infer_instance

def HeadIn.Ok (h : HeadIn) : Prop :=
  h.id.length = 16 ∧ h.created.Valid ∧ (∀ sg ∈ h.segments, sg.Ok) ∧ (∀ t ∈ h.tags, TagOk t) ∧
    headSize h < 2 ^ 32

instance (h : HeadIn) : Decidable h.Ok := by unfold HeadIn.Ok; infer_instance

theorem SegmIn.Ok.wf {sg : SegmIn} (h : sg.Ok) : sg.Wf := ⟨h.1, fun f hf => (h.2.2.2.1 f hf).1⟩

theorem HeadIn.Ok.wf {h : HeadIn} (w : h.Ok) : h.Wf := ⟨w.1, fun sg hs => (w.2.2.1 sg hs).wf⟩

/-! ## Reading the parts -/

theorem reads_tagBody {t : List Char × List Char} (h : TagOk t) :
    Reads readTagBody (tagBlk t).body t := by
  unfold readTagBody tagBlk mkBlk
  apply Reads.bind (reads_varstring h.1)
  exact (reads_varstring h.2).bind_pure

theorem tagString_length (s : List Char) : (tagString s).length ≤ 65535 := by
  unfold tagString; simp; omega

theorem tagBlk_ok (t) : (tagBlk t).Ok tTag := by
  apply mkBlk_ok tc tne
  have h1 := tagString_length t.1
  have h2 := tagString_length t.2
  simp only [List.length_append, encodeUint_length]
  omega

theorem reads_varbytes {d : Bytes} (h : d.length < 2 ^ 32) :
    Reads readVarbytes (encodeUint d.length 4 ++ d) d := by
  unfold readVarbytes
  apply Reads.bind (reads_uint (by omega))
  intro s p hat
  exact readRaw_at hat

theorem reads_flowBody {f : FlowIn} (h : f.Ok) : Reads readFlowBody (flowBlk f).body f.toFlow := by
  obtain ⟨⟨h1, h2⟩, h3, h4, h5, h6⟩ := h
  obtain ⟨d, hd⟩ := Option.isSome_iff_exists.1 h5
  unfold readFlowBody flowBlk mkBlk
  apply Reads.bind (reads_uuid h1)
  apply Reads.bind (reads_uuid h2)
  apply Reads.bind (reads_padString h3 h4)
  rw [← List.append_nil (encodeUint _ 4 ++ _)]
  apply Reads.bind (reads_varbytes (by omega))
  simp only [hd, Rd.ofOption_some, FlowIn.toFlow]
  intro s p _
  rfl

theorem flowBlk_ok {f : FlowIn} (h : f.Ok) : (flowBlk f).Ok tFlow := by
  apply mkBlk_ok tc tne
  simp only [List.length_append, encodeUint_length, h.1.1, h.1.2, padString_length]
  have := h.2.2.2.2
  omega

theorem segmChild_flow {f : FlowIn} (h : f.Ok) (sg : Segm) :
    ChildReads segmChild (flowBlk f) tFlow sg { sg with flow := some f.toFlow } := by
  apply childReads_of tc
  intro s p
  unfold segmChild
  rw [if_pos rfl]
  exact (reads_flowBody h).bind_pure.at _ _

theorem segmChild_tag {t : List Char × List Char} (h : TagOk t) (sg : Segm) :
    ChildReads segmChild (tagBlk t) tTag sg { sg with tags := sg.tags ++ [t] } := by
  apply childReads_of tc
  intro s p
  unfold segmChild
  rw [if_neg (by simp), if_pos rfl]
  exact (reads_tagBody h).bind_pure.at _ _

theorem foldl_append_tags {σ : Type} (ts : List α) (st : σ) (get : σ → List α) (put : σ → List α → σ)
    (h1 : ∀ s l, get (put s l) = l) (h2 : ∀ s, put s (get s) = s) (h3 : ∀ s a b, put (put s a) b = put s b) :
    ts.foldl (fun s t => put s (get s ++ [t])) st = put st (get st ++ ts) := by
  induction ts generalizing st with
  | nil => simp [h2]
  | cons t ts ih => rw [List.foldl_cons, ih, h1, h3, List.append_assoc]; rfl

theorem segmTags_read (ts : List (List Char × List Char)) (h : ∀ t ∈ ts, TagOk t) (sg : Segm) :
    ChildrenRead segmChild (ts.map tagBlk) sg { sg with tags := sg.tags ++ ts } := by
  have := ChildrenRead.map (f := segmChild) (t := tTag) tagBlk
    (fun (sg : Segm) t => { sg with tags := sg.tags ++ [t] }) ts
    (fun t ht => ⟨tagBlk_ok t, fun st => segmChild_tag (h t ht) st⟩) sg
  rw [foldl_append_tags ts sg (fun s => s.tags) (fun s l => { s with tags := l }) (fun _ _ => rfl)
    (fun _ => rfl) (fun _ _ _ => rfl)] at this
  exact this

theorem segmKids_read {sg : SegmIn} (h : sg.Ok) (st : Segm) (hf : st.flow = none) (ht : st.tags = []) :
    ChildrenRead segmChild (segmKids sg) st
      { st with flow := sg.flow.map FlowIn.toFlow, tags := sg.tags } := by
  unfold segmKids
  refine ChildrenRead.append (st1 := { st with flow := sg.flow.map FlowIn.toFlow }) ?_ ?_
  · cases hfl : sg.flow with
    | none =>
      have : { st with flow := Option.map FlowIn.toFlow none } = st := by cases st; simp_all
      rw [this]; exact .nil _
    | some f => exact .single (flowBlk_ok (h.2.2.2.1 f hfl)) (segmChild_flow (h.2.2.2.1 f hfl) st)
  · have := segmTags_read sg.tags h.2.2.2.2 { st with flow := sg.flow.map FlowIn.toFlow }
    simpa [ht] using this

/-- The fixed part of a segment header. -/
def segmFixed (sg : SegmIn) : Bytes := encodeUint sg.localId 2 ++ (sg.id ++ encodeSint sg.count 8)

/-- A segment header block with unknown blocks inserted. -/
def DecoSegm (sg : SegmIn) (b : Blk) : Prop :=
  ∃ kids, Pad [tFlow, tTag] (segmKids sg) kids ∧ b = mkBlk tSegm (segmFixed sg ++ blksBytes kids) ∧
    b.size < 2 ^ 32

theorem segmChild_unknown (child : Block) (sg : Segm) (h : child.tag ∉ [tFlow, tTag]) :
    segmChild child sg = Pure.pure sg := by
  simp only [List.mem_cons, List.not_mem_nil, or_false, not_or] at h
  unfold segmChild; rw [if_neg h.1, if_neg h.2]

theorem segmBody_read {sg : SegmIn} (h : sg.Ok) {kids} (hp : Pad [tFlow, tTag] (segmKids sg) kids)
    (s : Stream) (p : Nat) :
    ReadsAt s (p + 8) (readSegmBody ⟨p, 8 + (segmFixed sg ++ blksBytes kids).length, tSegm⟩)
      (segmFixed sg ++ blksBytes kids) sg.toSegm := by
  unfold readSegmBody segmFixed
  simp only [List.append_assoc]
  refine (reads_uint (by have := h.2.1; omega)).bindAt ?_
  refine (reads_uuid h.1).bindAt ?_
  refine (reads_sint (by omega) _ (by have := h.2.2.1; simp; omega)
    (by have := h.2.2.1; simp; omega)).bindAt ?_
  apply readsAt_children
  · exact ChildrenRead.pad hp segmChild_unknown (segmKids_read h _ rfl rfl)
  · simp only [List.length_append, encodeUint_length, encodeSint_length, h.1]; omega

theorem headChild_segm {sg : SegmIn} (h : sg.Ok) {b : Blk} (hd : DecoSegm sg b) (hh : Head) :
    ChildReads headChild b tSegm hh { hh with segments := hh.segments ++ [sg.toSegm] } := by
  obtain ⟨kids, hp, rfl, -⟩ := hd
  apply childReads_of tc
  intro s p hat
  unfold headChild
  rw [if_pos rfl]
  exact (Rd.bind_of_ok (segmBody_read h hp s p hat)).trans rfl

theorem headChild_tag {t : List Char × List Char} (h : TagOk t) (hh : Head) :
    ChildReads headChild (tagBlk t) tTag hh { hh with tags := hh.tags ++ [t] } := by
  apply childReads_of tc
  intro s p
  unfold headChild
  rw [if_neg (by simp), if_pos rfl]
  exact (reads_tagBody h).bind_pure.at _ _

theorem headTags_read (ts : List (List Char × List Char)) (h : ∀ t ∈ ts, TagOk t) (hh : Head) :
    ChildrenRead headChild (ts.map tagBlk) hh { hh with tags := hh.tags ++ ts } := by
  have := ChildrenRead.map (f := headChild) (t := tTag) tagBlk
    (fun (hh : Head) t => { hh with tags := hh.tags ++ [t] }) ts
    (fun t ht => ⟨tagBlk_ok t, fun st => headChild_tag (h t ht) st⟩) hh
  rw [foldl_append_tags ts hh (fun s => s.tags) (fun s l => { s with tags := l }) (fun _ _ => rfl)
    (fun _ => rfl) (fun _ _ _ => rfl)] at this
  exact this

/-- Corresponding lists of segments and their blocks. -/
inductive DecoSegms : List SegmIn → List Blk → Prop where
  | nil : DecoSegms [] []
  | cons {sg b sgs bs} : DecoSegm sg b → DecoSegms sgs bs → DecoSegms (sg :: sgs) (b :: bs)

theorem DecoSegm.ok {sg b} (h : DecoSegm sg b) : b.Ok tSegm := by
  obtain ⟨_, _, rfl, hs⟩ := h
  exact mkBlk_ok tc tne hs

theorem headSegms_read {sgs : List SegmIn} {bs} (hd : DecoSegms sgs bs) (h : ∀ sg ∈ sgs, sg.Ok) (hh : Head) :
    ChildrenRead headChild bs hh { hh with segments := hh.segments ++ sgs.map SegmIn.toSegm } := by
  induction hd generalizing hh with
  | nil => simpa using ChildrenRead.nil hh
  | @cons sg b sgs bs h1 _ ih =>
    refine .cons h1.ok (headChild_segm (h _ (by simp)) h1 hh) ?_
    have := ih (fun sg hs => h sg (by simp [hs])) { hh with segments := hh.segments ++ [sg.toSegm] }
    simpa using this

/-- A head block for `h` with unknown blocks inserted in it and in its segments. -/
def DecoHead (h : HeadIn) (b : Blk) : Prop :=
  ∃ sb kids, DecoSegms h.segments sb ∧ Pad [tSegm, tTag] (sb ++ h.tags.map tagBlk) kids ∧
    b = mkBlk tHead (headFixed h ++ blksBytes kids) ∧ b.size < 2 ^ 32

theorem DecoHead.ok {h b} (hd : DecoHead h b) : b.Ok tHead := by
  obtain ⟨_, _, _, _, rfl, hs⟩ := hd
  exact mkBlk_ok tc tne hs

theorem segmBlk_eq (sg : SegmIn) : segmBlk sg = mkBlk tSegm (segmFixed sg ++ blksBytes (segmKids sg)) := by
  simp [segmBlk, segmFixed]

theorem segmBlk_size (sg : SegmIn) (h : sg.Wf) : (segmBlk sg).size = segmBlockSize sg := by
  have h1 := encodeSegm_length sg h
  rw [encodeSegm_eq _ h, segmBlk, mkBlk_length _ _ tl4] at h1
  exact h1

theorem decoSegms_self {sgs : List SegmIn} (h : ∀ sg ∈ sgs, sg.Ok)
    (hs : (sgs.map segmBlockSize).sum < 2 ^ 32) : DecoSegms sgs (sgs.map segmBlk) := by
  induction sgs with
  | nil => exact .nil
  | cons sg sgs ih =>
    rw [List.map_cons, List.sum_cons] at hs
    refine .cons ⟨_, Pad.refl _ _, segmBlk_eq sg, ?_⟩ (ih (fun x hx => h x (by simp [hx])) (by omega))
    rw [segmBlk_size _ (h sg (by simp)).wf]
    omega

theorem decoHead_self {h : HeadIn} (w : h.Ok) : DecoHead h (headBlk h) := by
  have hs := w.2.2.2.2
  unfold headSize at hs
  refine ⟨_, _, decoSegms_self w.2.2.1 (by omega), Pad.refl _ _, rfl, ?_⟩
  have h1 := headKids_length h w.wf
  have h2 := headFixed_length h w.1
  unfold headBlk mkBlk
  simp only [List.length_append, h1, h2]
  omega

theorem headChild_unknown (child : Block) (hh : Head) (h : child.tag ∉ [tSegm, tTag]) :
    headChild child hh = Pure.pure hh := by
  simp only [List.mem_cons, List.not_mem_nil, or_false, not_or] at h
  unfold headChild; rw [if_neg h.1, if_neg h.2]

theorem decodeHead_read {h : HeadIn} (w : h.Ok) {sb kids} (hs : DecoSegms h.segments sb)
    (hp : Pad [tSegm, tTag] (sb ++ h.tags.map tagBlk) kids) (s : Stream) (p : Nat) :
    ReadsAt s (p + 8) (decodeHead ⟨p, (mkBlk tHead (headFixed h ++ blksBytes kids)).size, tHead⟩)
      (headFixed h ++ blksBytes kids) h.toHead := by
  have hl := headFixed_length h w.1
  unfold decodeHead headFixed
  rw [List.append_assoc]
  refine (reads_uuid w.1).bindAt ?_
  refine (reads_datetime _ w.2.1).bindAt ?_
  apply readsAt_children
  · refine ChildrenRead.pad hp headChild_unknown ?_
    refine ChildrenRead.append (headSegms_read hs w.2.2.1 _) ?_
    exact headTags_read h.tags w.2.2.2.1 _
  · unfold mkBlk
    simp only [List.length_append, encodeUint_length, encodeSint_length, w.1]
    omega

/-- Blocks with tags other than `tags` (and not a file signature). -/
def Others (tags : List (List Char)) (l : List Blk) : Prop := ∀ b ∈ l, ∃ t, b.Ok t ∧ t ∉ tags

theorem enter_past {want : List Char} {l : List Blk} (h : Others [want] l) {s p} {rest : Bytes}
    (hat : At s p (blksBytes l ++ rest)) :
    enter (some want) false s p = enter (some want) false s (p + (blksBytes l).length) := by
  induction l generalizing p with
  | nil => rfl
  | cons b l ih =>
    obtain ⟨t, hok, ht⟩ := h b (by simp)
    rw [blksBytes_cons, List.append_assoc] at hat
    rw [enter_skip hat.left hok (by simp at ht ⊢; exact fun h => ht h.symm)]
    rw [ih (fun x hx => h x (by simp [hx])) hat.right, blksBytes_cons, List.length_append, Nat.add_assoc]

/-- Finding and decoding the head, with any other blocks before it. -/
theorem decodeHeadBlock_read {h : HeadIn} (w : h.Ok) {b : Blk} (hd : DecoHead h b) {pre : List Blk}
    (hpre : Others [tHead] pre) : Reads decodeHeadBlock (blksBytes pre ++ b.bytes) h.toHead := by
  intro s p hat
  have hok := hd.ok
  have hat2 := hat.right
  obtain ⟨sb, kids, hs, hp, rfl, hsz⟩ := hd
  simp only [decodeHeadBlock]
  rw [Rd.bind_of_ok ((enter_past hpre hat).trans (enter_blk hat2 hok (.inr rfl)))]
  rw [Rd.bind_of_ok (inRemaining_mk tc hat2 (decodeHead_read w hs hp _ _))]
  simp only [Block.exit, Rd.bind_apply, Rd.seek_apply, Rd.pure_apply, Block.endPos]
  rw [List.length_append, hok.length, Nat.add_assoc]

/-- A version number and the head after the file signature. -/
theorem headers_read {major minor : Nat} (hm : major = 7 ∨ major = 8 ∨ major = 9) (hn : minor < 2 ^ 16)
    {h : HeadIn} (w : h.Ok) {b : Blk} (hd : DecoHead h b) {pre : List Blk} (hpre : Others [tHead] pre) :
    Reads (decodeFileHeaders true)
      ((encodeUint major 2 ++ encodeUint minor 2) ++ (blksBytes pre ++ b.bytes)) ⟨major, minor, h.toHead⟩ := by
  unfold decodeFileHeaders
  have h1 : Reads (decodeSsb true) (encodeUint major 2 ++ encodeUint minor 2) (major, minor) := by
    unfold decodeSsb
    simp only [Bool.not_true, Bool.false_eq_true, if_false]
    apply Reads.bind (reads_uint (by omega))
    exact (reads_uint (n := 2) (by omega)).bind_pure
  apply Reads.bind h1
  simp only
  rw [if_pos hm]
  have h2 : Reads (Rd.eofToDecode decodeHeadBlock) (blksBytes pre ++ b.bytes) h.toHead := by
    intro s p hat
    simp only [Rd.eofToDecode, decodeHeadBlock_read w hd hpre s p hat]
  exact h2.bind_pure

theorem fileHeaders_read {major minor : Nat} (hm : major = 7 ∨ major = 8 ∨ major = 9) (hn : minor < 2 ^ 16)
    {h : HeadIn} (w : h.Ok) {b : Blk} (hd : DecoHead h b) {pre : List Blk} (hpre : Others [tHead] pre) :
    Reads (decodeFileHeaders false)
      (encodeFileHeader major minor ++ (blksBytes pre ++ b.bytes)) ⟨major, minor, h.toHead⟩ := by
  unfold decodeFileHeaders
  have h1 : Reads (decodeSsb false) (encodeFileHeader major minor) (major, minor) := by
    have e : encodeFileHeader major minor =
      padString (tSSBB ++ tGrsg) 8 ++ (encodeUint major 2 ++ encodeUint minor 2) := by
      have : padString (tSSBB ++ tGrsg) 8 = tagBytes tSSBB ++ tagBytes tGrsg := by decide
      rw [this]; simp only [encodeFileHeader, List.append_assoc]
    rw [e]
    unfold decodeSsb
    simp only [Bool.not_false, if_true]
    apply Reads.bind (reads_padString (by decide) (by decide))
    rw [if_neg (by simp)]
    apply Reads.bind (reads_uint (by omega))
    exact (reads_uint (n := 2) (by omega)).bind_pure
  apply Reads.bind h1
  simp only
  rw [if_pos hm]
  have h2 : Reads (Rd.eofToDecode decodeHeadBlock) (blksBytes pre ++ b.bytes) h.toHead := by
    intro s p hat
    simp only [Rd.eofToDecode, decodeHeadBlock_read w hd hpre s p hat]
  exact h2.bind_pure

end Verif.Gsf

import Verif.Gsf.Blocks

/-!
# What the encoder writes, as blocks

Each block the encoder writes is `mkBlk tag body`: the size it declares is the size it has.
-/

namespace Verif.Gsf

open Verif

theorem tagConst_all : ∀ t ∈ [tHead, tSegm, tFlow, tTag, tGrai, tGbhd, tTils, tVghd, tComp, tCghd,
    tUnof, tAghd, tCahd, tEghd, tGrdt], TagConst t ∧ t ≠ tSSBB ∧ (tagBytes t).length = 4 := by
  decide +kernel

theorem tc {t : List Char} (h : t ∈ [tHead, tSegm, tFlow, tTag, tGrai, tGbhd, tTils, tVghd, tComp, tCghd,
    tUnof, tAghd, tCahd, tEghd, tGrdt] := by simp) : TagConst t := (tagConst_all t h).1

theorem tne {t : List Char} (h : t ∈ [tHead, tSegm, tFlow, tTag, tGrai, tGbhd, tTils, tVghd, tComp, tCghd,
    tUnof, tAghd, tCahd, tEghd, tGrdt] := by simp) : t ≠ tSSBB := (tagConst_all t h).2.1

theorem tl4 {t : List Char} (h : t ∈ [tHead, tSegm, tFlow, tTag, tGrai, tGbhd, tTils, tVghd, tComp, tCghd,
    tUnof, tAghd, tCahd, tEghd, tGrdt] := by simp) : (tagBytes t).length = 4 := (tagConst_all t h).2.2

theorem length_flatMap_const {α β} (f : α → List β) (n : Nat) (l : List α) (h : ∀ a ∈ l, (f a).length = n) :
    (l.flatMap f).length = n * l.length := by
  induction l with
  | nil => rfl
  | cons a l ih =>
    rw [List.flatMap_cons, List.length_append, h a (by simp), ih (fun b hb => h b (by simp [hb])),
      List.length_cons, Nat.mul_succ, Nat.add_comm]

theorem length_flatMap_sum {α β} (f : α → List β) (g : α → Nat) (l : List α)
    (h : ∀ a ∈ l, (f a).length = g a) : (l.flatMap f).length = (l.map g).sum := by
  induction l with
  | nil => rfl
  | cons a l ih =>
    rw [List.flatMap_cons, List.length_append, h a (by simp), ih (fun b hb => h b (by simp [hb])),
      List.map_cons, List.sum_cons]

theorem flatMap_blks {α} (f : α → Bytes) (blk : α → Blk) (l : List α) (h : ∀ a ∈ l, f a = (blk a).bytes) :
    l.flatMap f = blksBytes (l.map blk) := by
  induction l with
  | nil => rfl
  | cons a l ih =>
    rw [List.flatMap_cons, h a (by simp), ih (fun b hb => h b (by simp [hb]))]
    rfl

/-! ## Head -/

def tagBlk (t : List Char × List Char) : Blk :=
  mkBlk tTag ((encodeUint (tagString t.1).length 2 ++ tagString t.1) ++
    (encodeUint (tagString t.2).length 2 ++ tagString t.2))

theorem encodeTag_eq (t) : encodeTag t = (tagBlk t).bytes := by
  rw [tagBlk, mkBlk_bytes, encodeTag, tagBlockSize]
  simp only [List.length_append, encodeUint_length, List.append_assoc]
  congr 3
  omega

/-- `src_id.bytes` and `flow_id.bytes` of a `uuid.UUID` are 16 bytes. -/
def FlowIn.Wf (f : FlowIn) : Prop := f.srcId.length = 16 ∧ f.flowId.length = 16

instance (f : FlowIn) : Decidable f.Wf := by unfold FlowIn.Wf; infer_instance

def flowBlk (f : FlowIn) : Blk :=
  mkBlk tFlow (f.srcId ++ (f.flowId ++ (padString f.format 64 ++ (encodeUint f.data.length 4 ++ f.data))))

theorem encodeFlow_eq (f : FlowIn) (h : f.Wf) : encodeFlow (some f) = (flowBlk f).bytes := by
  rw [flowBlk, mkBlk_bytes, encodeFlow, flowBlockSize]
  simp only [List.length_append, encodeUint_length, List.append_assoc, padString_length, h.1, h.2]
  congr 3
  omega

/-- The ids in the segment are 16 bytes long. -/
def SegmIn.Wf (sg : SegmIn) : Prop := sg.id.length = 16 ∧ ∀ f ∈ sg.flow, f.Wf

instance (sg : SegmIn) : Decidable sg.Wf := by unfold SegmIn.Wf; infer_instance

def segmKids (sg : SegmIn) : List Blk := sg.flow.toList.map flowBlk ++ sg.tags.map tagBlk

def segmBlk (sg : SegmIn) : Blk :=
  mkBlk tSegm (encodeUint sg.localId 2 ++ (sg.id ++ (encodeSint sg.count 8 ++ blksBytes (segmKids sg))))

theorem encodeTag_length (t) : (encodeTag t).length = tagBlockSize t := by
  rw [encodeTag, tagBlockSize]
  simp only [List.length_append, encodeUint_length, tl4 (t := tTag)]
  omega

theorem encodeFlow_length (f : Option FlowIn) (h : ∀ x ∈ f, x.Wf) :
    (encodeFlow f).length = flowBlockSize f := by
  cases f with
  | none => rfl
  | some f =>
    have h := h f rfl
    rw [encodeFlow, flowBlockSize]
    simp only [List.length_append, encodeUint_length, tl4 (t := tFlow), padString_length, h.1, h.2]

theorem segmPost_eq (sg : SegmIn) (h : sg.Wf) : encodeSegmPost sg = blksBytes (segmKids sg) := by
  rw [encodeSegmPost, segmKids, blksBytes_append, flatMap_blks encodeTag tagBlk _ (fun a _ => encodeTag_eq a)]
  congr 1
  cases hf : sg.flow with
  | none => rfl
  | some f => simp [encodeFlow_eq f (h.2 f hf)]

theorem encodeSegmPost_length (sg : SegmIn) (h : sg.Wf) :
    (encodeSegmPost sg).length = flowBlockSize sg.flow + (sg.tags.map tagBlockSize).sum := by
  rw [encodeSegmPost, List.length_append, encodeFlow_length _ h.2,
    length_flatMap_sum _ _ _ (fun a _ => encodeTag_length a)]

theorem encodeSegm_eq (sg : SegmIn) (h : sg.Wf) : encodeSegm sg = (segmBlk sg).bytes := by
  have hl := encodeSegmPost_length sg h
  rw [segmBlk, mkBlk_bytes, encodeSegm, encodeSegmPre, ← segmPost_eq sg h, segmBlockSize]
  simp only [List.length_append, encodeUint_length, encodeSint_length, List.append_assoc, h.1, hl]
  congr 3
  omega

theorem encodeSegm_length (sg : SegmIn) (h : sg.Wf) : (encodeSegm sg).length = segmBlockSize sg := by
  have hl := encodeSegmPost_length sg h
  rw [encodeSegm, encodeSegmPre, segmBlockSize]
  simp only [List.length_append, encodeUint_length, encodeSint_length, h.1, hl, tl4 (t := tSegm)]
  omega

def HeadIn.Wf (h : HeadIn) : Prop := h.id.length = 16 ∧ ∀ sg ∈ h.segments, sg.Wf

instance (h : HeadIn) : Decidable h.Wf := by unfold HeadIn.Wf; infer_instance

def headKids (h : HeadIn) : List Blk := h.segments.map segmBlk ++ h.tags.map tagBlk

def headFixed (h : HeadIn) : Bytes :=
  h.id ++ (encodeSint h.created.year 2 ++ (encodeUint h.created.month 1 ++
    (encodeUint h.created.day 1 ++ (encodeUint h.created.hour 1 ++
    (encodeUint h.created.minute 1 ++ encodeUint h.created.second 1)))))

theorem headFixed_length (h : HeadIn) (w : h.id.length = 16) : (headFixed h).length = 23 := by
  simp [headFixed, w]

def headBlk (h : HeadIn) : Blk := mkBlk tHead (headFixed h ++ blksBytes (headKids h))

theorem headKids_eq (h : HeadIn) (w : h.Wf) :
    h.segments.flatMap encodeSegm ++ h.tags.flatMap encodeTag = blksBytes (headKids h) := by
  rw [headKids, blksBytes_append, flatMap_blks encodeTag tagBlk _ (fun a _ => encodeTag_eq a),
    flatMap_blks encodeSegm segmBlk _ (fun a ha => encodeSegm_eq a (w.2 a ha))]

theorem headKids_length (h : HeadIn) (w : h.Wf) :
    (blksBytes (headKids h)).length =
      (h.segments.map segmBlockSize).sum + (h.tags.map tagBlockSize).sum := by
  rw [← headKids_eq h w, List.length_append,
    length_flatMap_sum _ _ _ (fun a _ => encodeTag_length a),
    length_flatMap_sum _ _ _ (fun a ha => encodeSegm_length a (w.2 a ha))]

theorem encodeHead_eq (h : HeadIn) (w : h.Wf) : encodeHead h = (headBlk h).bytes := by
  have hl := headKids_length h w
  have hf := headFixed_length h w.1
  have hk := headKids_eq h w
  rw [headBlk, mkBlk_bytes, encodeHead, List.append_assoc, hk, encodeHeadPre, headSize,
    List.length_append, hf, hl, headFixed]
  simp only [List.append_assoc]
  congr 3
  omega

/-! ## Grains -/

def tilsBlk (ls : List TimeLabel) : Blk :=
  mkBlk tTils (encodeUint ls.length 2 ++ ls.flatMap encodeTimeLabel)

@[simp] theorem encodeTimeLabel_length (l : TimeLabel) : (encodeTimeLabel l).length = 29 := by
  simp [encodeTimeLabel]

def tilsKids (ls : List TimeLabel) : List Blk := if ls.length > 0 then [tilsBlk ls] else []

theorem encodeTils_eq (ls) : encodeTils ls = blksBytes (tilsKids ls) := by
  unfold encodeTils tilsKids
  split
  · rw [blksBytes_cons, blksBytes_nil, List.append_nil, tilsBlk, mkBlk_bytes, List.length_append,
      length_flatMap_const _ 29 _ (fun a _ => encodeTimeLabel_length a), encodeUint_length]
    simp only [List.append_assoc]
    congr 3
    omega
  · rfl

@[simp] theorem encodeComponent_length (c : Component) : (encodeComponent c).length = 16 := by
  simp [encodeComponent]

def compBlk (cs : List Component) : Blk :=
  mkBlk tComp (encodeUint cs.length 2 ++ cs.flatMap encodeComponent)

def compKids (cs : List Component) : List Blk := if cs.length > 0 then [compBlk cs] else []

theorem encodeComp_eq (cs) : encodeComp cs = blksBytes (compKids cs) := by
  unfold encodeComp compKids
  split
  · rw [blksBytes_cons, blksBytes_nil, List.append_nil, compBlk, mkBlk_bytes, List.length_append,
      length_flatMap_const _ 16 _ (fun a _ => encodeComponent_length a), encodeUint_length]
    simp only [List.append_assoc]
    congr 3
    omega
  · rfl

theorem encodeComp_length (cs : List Component) : (encodeComp cs).length =
    if cs.length > 0 then 10 + 16 * cs.length else 0 := by
  unfold encodeComp
  split
  · simp only [List.length_append, encodeUint_length, tl4 (t := tComp),
      length_flatMap_const _ 16 _ (fun a _ => encodeComponent_length a)]
  · rfl

@[simp] theorem encodeRational_length (q : Rat) : (encodeRational q).length = 8 := by
  simp [encodeRational]

@[simp] theorem encodeAspect_length (q : Option Rat) : (encodeAspect q).length = 8 := by
  simp [encodeAspect]

def vghdFixed (v : VideoHdr) : Bytes :=
  encodeUint v.format 4 ++ (encodeUint v.layout 4 ++ (encodeUint v.width 4 ++ (encodeUint v.height 4 ++
    (encodeUint v.extension 4 ++ (encodeAspect v.srcAspect ++ encodeAspect v.pixAspect)))))

def vghdBlk (v : VideoHdr) : Blk :=
  mkBlk tVghd (encodeUint v.format 4 ++ (encodeUint v.layout 4 ++ (encodeUint v.width 4 ++
    (encodeUint v.height 4 ++ (encodeUint v.extension 4 ++ (encodeAspect v.srcAspect ++
    (encodeAspect v.pixAspect ++ blksBytes (compKids v.components))))))))

theorem encodeVghd_eq (v) : encodeVghd v = (vghdBlk v).bytes := by
  rw [vghdBlk, mkBlk_bytes, encodeVghd, vghdSize, ← encodeComp_eq]
  simp only [List.length_append, encodeUint_length, encodeAspect_length, encodeComp_length,
    List.append_assoc]
  congr 3
  omega

theorem encodeVghd_length (v) : (encodeVghd v).length = vghdSize v := by
  rw [encodeVghd, vghdSize]
  simp only [List.length_append, encodeUint_length, encodeAspect_length, encodeComp_length,
    tl4 (t := tVghd)]

def eghdBlk : Blk := mkBlk tEghd (encodeUint 0 1)

theorem encodeEghd_eq : encodeEghd = eghdBlk.bytes := by decide

def aghdBlk (a : AudioHdr) : Blk :=
  mkBlk tAghd (encodeUint a.format 4 ++ (encodeUint a.channels 2 ++ (encodeUint a.samples 4 ++
    encodeUint a.sampleRate 4)))

theorem encodeAghd_eq (a) : encodeAghd a = (aghdBlk a).bytes := by
  rw [aghdBlk, mkBlk_bytes, encodeAghd]
  simp only [List.length_append, encodeUint_length, List.append_assoc]
  congr 3

def cahdBlk (a : CodedAudioHdr) : Blk :=
  mkBlk tCahd (encodeUint a.format 4 ++ (encodeUint a.channels 2 ++ (encodeUint a.samples 4 ++
    (encodeUint a.priming 4 ++ (encodeUint a.remainder 4 ++ encodeUint a.sampleRate 4)))))

theorem encodeCahd_eq (a) : encodeCahd a = (cahdBlk a).bytes := by
  rw [cahdBlk, mkBlk_bytes, encodeCahd]
  simp only [List.length_append, encodeUint_length, List.append_assoc]
  congr 3

def unofBlk (offs : List Nat) : Blk :=
  mkBlk tUnof (encodeUint offs.length 2 ++ offs.flatMap (fun (o : Nat) => encodeUint o 4))

def unofKids (offs : List Nat) : List Blk := if offs.length > 0 then [unofBlk offs] else []

theorem encodeUnof_eq (offs) : encodeUnof offs = blksBytes (unofKids offs) := by
  unfold encodeUnof unofKids
  split
  · rw [blksBytes_cons, blksBytes_nil, List.append_nil, unofBlk, mkBlk_bytes, List.length_append,
      length_flatMap_const _ 4 _ (fun (a : Nat) _ => encodeUint_length a 4), encodeUint_length]
    simp only [List.append_assoc]
    congr 3
    omega
  · rfl

theorem encodeUnof_length (offs : List Nat) : (encodeUnof offs).length =
    if offs.length > 0 then 10 + 4 * offs.length else 0 := by
  unfold encodeUnof
  split
  · simp only [List.length_append, encodeUint_length, tl4 (t := tUnof),
      length_flatMap_const _ 4 _ (fun (a : Nat) _ => encodeUint_length a 4)]
  · rfl

@[simp] theorem encodeKeyFrame_length (k) : (encodeKeyFrame k).length = 1 := by simp [encodeKeyFrame]
@[simp] theorem encodeTemporal_length (k) : (encodeTemporal k).length = 4 := by simp [encodeTemporal]

def cghdBlk (c : CodedVideoHdr) : Blk :=
  mkBlk tCghd (encodeUint c.format 4 ++ (encodeUint c.layout 4 ++ (encodeUint c.originWidth 4 ++
    (encodeUint c.originHeight 4 ++ (encodeUint c.codedWidth 4 ++ (encodeUint c.codedHeight 4 ++
    ((encodeKeyFrame c.isKeyFrame ++ encodeTemporal c.temporalOffset) ++
    blksBytes (unofKids c.offsets))))))))

theorem encodeCghd_eq (c) : encodeCghd c = (cghdBlk c).bytes := by
  rw [cghdBlk, mkBlk_bytes, encodeCghd, cghdSize, ← encodeUnof_eq]
  simp only [List.length_append, encodeUint_length, encodeKeyFrame_length, encodeTemporal_length,
    encodeUnof_length, List.append_assoc]
  congr 3
  omega

theorem encodeCghd_length (c) : (encodeCghd c).length = cghdSize c := by
  rw [encodeCghd, cghdSize]
  simp only [List.length_append, encodeUint_length, encodeKeyFrame_length, encodeTemporal_length,
    encodeUnof_length, tl4 (t := tCghd)]

def bodyKids : Body → List Blk
  | .empty => []
  | .event => [eghdBlk]
  | .video v => [vghdBlk v]
  | .codedVideo c => [cghdBlk c]
  | .audio a => [aghdBlk a]
  | .codedAudio a => [cahdBlk a]

theorem encodeBody_eq (b) : encodeBody b = blksBytes (bodyKids b) := by
  cases b <;> simp [encodeBody, bodyKids, encodeEghd_eq, encodeVghd_eq, encodeCghd_eq, encodeAghd_eq,
    encodeCahd_eq]

theorem encodeBody_length (b) : (encodeBody b).length = bodySize b := by
  cases b with
  | empty => rfl
  | event => rfl
  | video v => exact encodeVghd_length v
  | codedVideo c => exact encodeCghd_length c
  | audio a => simp [encodeBody, bodySize, encodeAghd, tl4 (t := tAghd)]
  | codedAudio a => simp [encodeBody, bodySize, encodeCahd, tl4 (t := tCahd)]

/-- `source_id.bytes` and `flow_id.bytes` are 16 bytes, and `length` is the length of the data (false
only for a deferred grain that was not awaited). -/
def Grain.Wf (g : Grain) : Prop :=
  g.sourceId.length = 16 ∧ g.flowId.length = 16 ∧ (g.data.getD []).length = g.length

instance (g : Grain) : Decidable g.Wf := by unfold Grain.Wf; infer_instance

def gbhdKids (g : Grain) : List Blk := tilsKids g.timelabels ++ bodyKids g.body

def gbhdBlk (major : Nat) (g : Grain) : Blk :=
  mkBlk tGbhd (encodeGbhdFixed major g ++ blksBytes (gbhdKids g))

@[simp] theorem encodeTsV7_length (t) : (encodeTsV7 t).length = 10 := by simp [encodeTsV7]
@[simp] theorem encodeTs_length (t) : (encodeTs t).length = 11 := by simp [encodeTs]

theorem encodeGbhdFixed_length (major : Nat) (g : Grain) (h1 : g.sourceId.length = 16)
    (h2 : g.flowId.length = 16) :
    (encodeGbhdFixed major g).length + 8 = if major = 7 then 92 else 78 := by
  unfold encodeGbhdFixed
  split <;> simp [h1, h2]

theorem encodeTils_length (ls : List TimeLabel) : (encodeTils ls).length =
    if ls.length > 0 then 10 + 29 * ls.length else 0 := by
  unfold encodeTils
  split
  · simp only [List.length_append, encodeUint_length, tl4 (t := tTils),
      length_flatMap_const _ 29 _ (fun a _ => encodeTimeLabel_length a)]
  · rfl

theorem gbhdKids_eq (g : Grain) : encodeTils g.timelabels ++ encodeBody g.body = blksBytes (gbhdKids g) := by
  rw [gbhdKids, blksBytes_append, encodeTils_eq, encodeBody_eq]

theorem encodeGbhd_eq (major : Nat) (g : Grain) (h : g.Wf) :
    encodeGbhd major g = (gbhdBlk major g).bytes := by
  have hf := encodeGbhdFixed_length major g h.1 h.2.1
  have e1 := encodeTils_length g.timelabels
  have e2 := encodeBody_length g.body
  rw [gbhdBlk, mkBlk_bytes, encodeGbhd, gbhdSize, ← gbhdKids_eq]
  simp only [List.length_append, List.append_assoc]
  congr 3
  by_cases h7 : major = 7
  · rw [if_pos h7] at hf ⊢; omega
  · rw [if_neg h7] at hf ⊢; omega

theorem encodeGbhd_length (major : Nat) (g : Grain) (h : g.Wf) :
    (encodeGbhd major g).length = gbhdSize major g := by
  have hf := encodeGbhdFixed_length major g h.1 h.2.1
  have e1 := encodeTils_length g.timelabels
  have e2 := encodeBody_length g.body
  rw [encodeGbhd, gbhdSize]
  simp only [List.length_append, encodeUint_length, tl4 (t := tGbhd)]
  by_cases h7 : major = 7
  · rw [if_pos h7] at hf ⊢; omega
  · rw [if_neg h7] at hf ⊢; omega

def grdtBlk (g : Grain) : Blk := mkBlk tGrdt (g.data.getD [])

theorem encodeGrdt_eq (g : Grain) (h : g.Wf) : encodeGrdt g = (grdtBlk g).bytes := by
  rw [grdtBlk, mkBlk_bytes, encodeGrdt, h.2.2, List.append_assoc]

def graiBlk (major localId : Nat) (g : Grain) : Blk :=
  mkBlk tGrai (encodeUint localId 2 ++ blksBytes [gbhdBlk major g, grdtBlk g])

theorem encodeGrain_eq (major localId : Nat) (g : Grain) (h : g.Wf) :
    encodeGrain major localId g = (graiBlk major localId g).bytes := by
  have e1 := encodeGbhd_length major g h
  have e2 := encodeGrdt_eq g h
  have e3 : (encodeGrdt g).length = 8 + g.length := by
    rw [encodeGrdt]; simp [h.2.2, tl4 (t := tGrdt)]; omega
  rw [graiBlk, mkBlk_bytes, encodeGrain, graiSize, blksBytes_cons, blksBytes_cons, blksBytes_nil,
    ← encodeGbhd_eq major g h, ← e2]
  simp only [List.length_append, encodeUint_length, List.append_assoc, List.append_nil, e1, e3]
  congr 3
  omega

theorem encodeGrain_length (major localId : Nat) (g : Grain) (h : g.Wf) :
    (encodeGrain major localId g).length = graiSize major g := by
  have e1 := encodeGbhd_length major g h
  have e3 : (encodeGrdt g).length = 8 + g.length := by
    rw [encodeGrdt]; simp [h.2.2, tl4 (t := tGrdt)]; omega
  rw [encodeGrain, graiSize]
  simp only [List.length_append, encodeUint_length, tl4 (t := tGrai), e1, e3]
  omega

end Verif.Gsf

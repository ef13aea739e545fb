import Verif.Props.Sample

/-!
# C02: declared block sizes are exact
-/

namespace Verif.Props

open Verif Verif.Gsf

/-! ## Specification: a reader that knows nothing but block headers -/

/-- A block: its tag, the bytes before its children, its children. -/
inductive Tree where
  | node (tag : Bytes) (fields : Bytes) (kids : List Tree)

/-- Walk over `bs`, which must be tiled by blocks: four tag bytes, four bytes of size (of the whole
block, little endian), the rest.  `schema tag` is the number of bytes before the children of a block with
that tag, `none` if it has no children.  A block that is cut short, stray bytes between blocks or at the
end of a parent, and a child that sticks out of its parent all give `none`. The first argument bounds
nesting and length. -/
def walk (schema : Bytes → Option Nat) : Nat → Bytes → Option (List Tree)
  | _, [] => some []
  | 0, _ => none
  | fuel + 1, bs =>
    let tag := bs.take 4
    let size := uintOf ((bs.drop 4).take 4)
    let body := (bs.take size).drop 8
    if bs.length < 8 ∨ size < 8 ∨ bs.length < size then none
    else
      match schema tag with
      | none => (walk schema fuel (bs.drop size)).map (Tree.node tag body [] :: ·)
      | some n =>
        if body.length < n then none
        else
          match walk schema fuel (body.drop n), walk schema fuel (bs.drop size) with
          | some kids, some rest => some (Tree.node tag (body.take n) kids :: rest)
          | _, _ => none

/-- A tag as bytes. -/
def tg (s : List Char) : Bytes := tagBytes s

/-- How many bytes come before the children of a block (`docs/gsf.md`; a version 7 grain header has 14
more). -/
def schema (major : Nat) (tag : Bytes) : Option Nat :=
  if tag = tg tHead then some 23
  else if tag = tg tSegm then some 26
  else if tag = tg tGrai then some 2
  else if tag = tg tGbhd then some (if major = 7 then 84 else 70)
  else if tag = tg tVghd then some 36
  else if tag = tg tCghd then some 29
  else none

/-! ### The block tree of a file -/

def tagTree (t : List Char × List Char) : Tree :=
  .node (tg tTag) (encodeUint (tagString t.1).length 2 ++ tagString t.1 ++
    encodeUint (tagString t.2).length 2 ++ tagString t.2) []

def flowTree (f : FlowIn) : Tree :=
  .node (tg tFlow) (f.srcId ++ f.flowId ++ padString f.format 64 ++ encodeUint f.data.length 4 ++ f.data) []

def segmTree (sg : SegmIn) : Tree :=
  .node (tg tSegm) (encodeUint sg.localId 2 ++ sg.id ++ encodeSint sg.count 8)
    (sg.flow.toList.map flowTree ++ sg.tags.map tagTree)

def headTree (h : HeadIn) : Tree :=
  .node (tg tHead) (h.id ++ encodeSint h.created.year 2 ++ encodeUint h.created.month 1 ++
    encodeUint h.created.day 1 ++ encodeUint h.created.hour 1 ++ encodeUint h.created.minute 1 ++
    encodeUint h.created.second 1) (h.segments.map segmTree ++ h.tags.map tagTree)

def tilsTrees (ls : List TimeLabel) : List Tree :=
  if ls = [] then [] else [.node (tg tTils) (encodeUint ls.length 2 ++ ls.flatMap encodeTimeLabel) []]

def compTrees (cs : List Component) : List Tree :=
  if cs = [] then [] else [.node (tg tComp) (encodeUint cs.length 2 ++ cs.flatMap encodeComponent) []]

def unofTrees (us : List Nat) : List Tree :=
  if us = [] then [] else
    [.node (tg tUnof) (encodeUint us.length 2 ++ us.flatMap (fun (o : Nat) => encodeUint o 4)) []]

def bodyTrees : Body → List Tree
  | .empty => []
  | .event => [.node (tg tEghd) [0] []]
  | .video v => [.node (tg tVghd) (encodeUint v.format 4 ++ encodeUint v.layout 4 ++ encodeUint v.width 4 ++
      encodeUint v.height 4 ++ encodeUint v.extension 4 ++ encodeAspect v.srcAspect ++
      encodeAspect v.pixAspect) (compTrees v.components)]
  | .codedVideo c => [.node (tg tCghd) (encodeUint c.format 4 ++ encodeUint c.layout 4 ++
      encodeUint c.originWidth 4 ++ encodeUint c.originHeight 4 ++ encodeUint c.codedWidth 4 ++
      encodeUint c.codedHeight 4 ++ encodeKeyFrame c.isKeyFrame ++ encodeTemporal c.temporalOffset)
      (unofTrees (c.unitOffsets.getD []))]
  | .audio a => [.node (tg tAghd) (encodeUint a.format 4 ++ encodeUint a.channels 2 ++
      encodeUint a.samples 4 ++ encodeUint a.sampleRate 4) []]
  | .codedAudio a => [.node (tg tCahd) (encodeUint a.format 4 ++ encodeUint a.channels 2 ++
      encodeUint a.samples 4 ++ encodeUint a.priming 4 ++ encodeUint a.remainder 4 ++
      encodeUint a.sampleRate 4) []]

def grainTree (major lid : Nat) (g : Grain) : Tree :=
  .node (tg tGrai) (encodeUint lid 2)
    [.node (tg tGbhd) (encodeGbhdFixed major g) (tilsTrees g.timelabels ++ bodyTrees g.body),
     .node (tg tGrdt) (g.data.getD []) []]

/-! ## Proof -/

mutual
def Tree.bytes : Tree → Bytes
  | .node tag fields kids =>
    tag ++ (encodeUint (8 + (fields.length + (treesBytes kids).length) : Nat) 4 ++ (fields ++ treesBytes kids))
def treesBytes : List Tree → Bytes
  | [] => []
  | t :: ts => t.bytes ++ treesBytes ts
end

theorem treesBytes_append (a b : List Tree) : treesBytes (a ++ b) = treesBytes a ++ treesBytes b := by
  induction a with
  | nil => simp [treesBytes]
  | cons x a ih => simp [treesBytes, ih]

mutual
/-- Tags are four bytes, fields are as long as the schema says. -/
def Tree.Fits (sch : Bytes → Option Nat) : Tree → Prop
  | .node tag fields kids => tag.length = 4 ∧
      (match sch tag with | none => kids = [] | some n => fields.length = n) ∧ treesFit sch kids
def treesFit (sch : Bytes → Option Nat) : List Tree → Prop
  | [] => True
  | t :: ts => t.Fits sch ∧ treesFit sch ts
end

theorem treesFit_append {sch a b} (h1 : treesFit sch a) (h2 : treesFit sch b) : treesFit sch (a ++ b) := by
  induction a with
  | nil => exact h2
  | cons x a ih => exact ⟨h1.1, ih h1.2⟩

theorem treesFit_map {α} {sch} (f : α → Tree) (l : List α) (h : ∀ a ∈ l, (f a).Fits sch) :
    treesFit sch (l.map f) := by
  induction l with
  | nil => trivial
  | cons a l ih => exact ⟨h a (by simp), ih (fun b hb => h b (by simp [hb]))⟩

theorem treesBytes_map {α} (f : α → Tree) (g : α → Bytes) (l : List α) (h : ∀ a ∈ l, (f a).bytes = g a) :
    treesBytes (l.map f) = l.flatMap g := by
  induction l with
  | nil => simp [treesBytes]
  | cons a l ih =>
    rw [List.map_cons, treesBytes, h a (by simp), ih (fun b hb => h b (by simp [hb])), List.flatMap_cons]

theorem walk_bytes (sch : Bytes → Option Nat) : ∀ (fuel : Nat) (ts : List Tree), treesFit sch ts →
    (treesBytes ts).length < 2 ^ 32 → (treesBytes ts).length ≤ fuel → walk sch fuel (treesBytes ts) = some ts := by
  intro fuel
  induction fuel with
  | zero =>
    intro ts hf _ hl
    cases ts with
    | nil => simp [treesBytes, walk]
    | cons t ts =>
      obtain ⟨tag, fields, kids⟩ := t
      simp [treesBytes, Tree.bytes] at hl
  | succ fuel ih =>
    intro ts hf hb hl
    cases ts with
    | nil => simp [treesBytes, walk]
    | cons t ts =>
      obtain ⟨tag, fields, kids⟩ := t
      obtain ⟨⟨ht, hs, hk⟩, hts⟩ := hf
      generalize hr : treesBytes ts = rest at *
      generalize hkb : treesBytes kids = kb at *
      have e : treesBytes (.node tag fields kids :: ts) =
          tag ++ (encodeUint (8 + (fields.length + kb.length) : Nat) 4 ++ (fields ++ (kb ++ rest))) := by
        rw [treesBytes, Tree.bytes, hr, hkb]; simp
      rw [e] at hb hl ⊢
      simp only [List.length_append, encodeUint_length, ht] at hb hl
      generalize hsz : encodeUint (8 + (fields.length + kb.length) : Nat) 4 = sz at *
      have hszl : sz.length = 4 := by rw [← hsz, encodeUint_length]
      have hu : uintOf sz = 8 + (fields.length + kb.length) := by
        rw [← hsz, uintOf_encodeUint_nat]
        omega
      generalize hbs : tag ++ (sz ++ (fields ++ (kb ++ rest))) = bs at *
      have h1 : bs.take 4 = tag := by rw [← hbs, List.take_append_of_le_length (by omega), List.take_of_length_le (by omega)]
      have h2 : (bs.drop 4).take 4 = sz := by
        rw [← hbs, List.drop_append_of_le_length (by omega), List.drop_of_length_le (by omega : tag.length ≤ 4),
          List.nil_append, List.take_append_of_le_length (by omega), List.take_of_length_le (by omega)]
      have hlen : bs.length = 8 + (fields.length + kb.length) + rest.length := by
        rw [← hbs]; simp only [List.length_append, ht, hszl]; omega
      have h3 : bs.drop (8 + (fields.length + kb.length)) = rest := by
        have : bs = (tag ++ (sz ++ (fields ++ kb))) ++ rest := by rw [← hbs]; simp
        rw [this, List.drop_append_of_le_length (by simp only [List.length_append]; omega),
          List.drop_of_length_le (by simp only [List.length_append]; omega), List.nil_append]
      have h4 : (bs.take (8 + (fields.length + kb.length))).drop 8 = fields ++ kb := by
        have : bs = (tag ++ (sz ++ (fields ++ kb))) ++ rest := by rw [← hbs]; simp
        rw [this, List.take_append_of_le_length (by simp only [List.length_append]; omega),
          List.take_of_length_le (by simp only [List.length_append]; omega), ← List.append_assoc,
          List.drop_append_of_le_length (by simp only [List.length_append]; omega),
          List.drop_of_length_le (by simp only [List.length_append]; omega), List.nil_append]
      have hne : bs ≠ [] := by intro h0; rw [h0] at hlen; simp at hlen; omega
      have hrec := ih ts hts (by rw [hr]; omega) (by rw [hr]; omega)
      rw [hr] at hrec
      have hrk := ih kids hk (by rw [hkb]; omega) (by rw [hkb]; omega)
      rw [hkb] at hrk
      rw [walk.eq_def]
      cases bs with
      | nil => exact absurd rfl hne
      | cons b0 bs0 =>
        simp only [h1, h2, hu, h3, h4]
        rw [if_neg (by omega)]
        cases hsc : sch tag with
        | none =>
          rw [hsc] at hs
          subst hs
          have hkb0 : kb = [] := by rw [← hkb, treesBytes]
          subst hkb0
          simp [hrec]
        | some n =>
          rw [hsc] at hs
          simp only at hs
          subst hs
          simp only [List.length_append]
          rw [if_neg (by omega)]
          simp [hrec, hrk]

theorem tagTree_bytes (t) : (tagTree t).bytes = encodeTag t := by
  rw [encodeTag_eq, tagBlk, mkBlk_bytes, tagTree, Tree.bytes]
  simp [treesBytes, tg]

theorem tagTree_fits (major t) : (tagTree t).Fits (schema major) := by
  have : schema major (tg tTag) = none := by
    unfold schema; rw [if_neg, if_neg, if_neg, if_neg, if_neg, if_neg] <;> decide
  refine ⟨by decide, ?_, trivial⟩
  rw [this]

theorem flowTree_bytes {f : FlowIn} (h : f.Wf) : (flowTree f).bytes = encodeFlow (some f) := by
  rw [encodeFlow_eq f h, flowBlk, mkBlk_bytes, flowTree, Tree.bytes]
  simp [treesBytes, tg]

theorem leaf_fits {major : Nat} {t : List Char} (h : t ∈ [tTag, tFlow, tTils, tComp, tUnof, tEghd, tAghd, tCahd, tGrdt])
    (f : Bytes) : (Tree.node (tg t) f []).Fits (schema major) := by
  have h1 : ∀ t ∈ [tTag, tFlow, tTils, tComp, tUnof, tEghd, tAghd, tCahd, tGrdt], (tg t).length = 4 ∧
    tg t ≠ tg tHead ∧ tg t ≠ tg tSegm ∧ tg t ≠ tg tGrai ∧ tg t ≠ tg tGbhd ∧ tg t ≠ tg tVghd ∧ tg t ≠ tg tCghd := by
    decide
  obtain ⟨a, b⟩ := h1 t h
  refine ⟨a, ?_, trivial⟩
  have : schema major (tg t) = none := by unfold schema; simp [b]
  rw [this]

theorem segmTree_bytes {sg : SegmIn} (h : sg.Wf) : (segmTree sg).bytes = encodeSegm sg := by
  have hk : treesBytes (sg.flow.toList.map flowTree ++ sg.tags.map tagTree) = blksBytes (segmKids sg) := by
    rw [← segmPost_eq sg h, treesBytes_append, treesBytes_map tagTree encodeTag _ (fun a _ => tagTree_bytes a),
      encodeSegmPost]
    congr 1
    cases hf : sg.flow with
    | none => simp [treesBytes, encodeFlow]
    | some f => simp [treesBytes, flowTree_bytes (h.2 f hf)]
  rw [encodeSegm_eq sg h, segmBlk, mkBlk_bytes, segmTree, Tree.bytes, hk]
  simp [tg]; congr 1; omega

theorem segmTree_fits (major : Nat) {sg : SegmIn} (h : sg.Wf) : (segmTree sg).Fits (schema major) := by
  have : schema major (tg tSegm) = some 26 := by
    unfold schema; rw [if_neg (by decide), if_pos rfl]
  refine ⟨by decide, ?_, treesFit_append (treesFit_map _ _ fun a _ => leaf_fits (by simp) _)
    (treesFit_map _ _ fun a _ => leaf_fits (by simp) _)⟩
  rw [this]
  simp [h.1]

theorem headTree_bytes {h : HeadIn} (w : h.Wf) : (headTree h).bytes = encodeHead h := by
  have hk : treesBytes (h.segments.map segmTree ++ h.tags.map tagTree) = blksBytes (headKids h) := by
    rw [← headKids_eq h w, treesBytes_append, treesBytes_map tagTree encodeTag _ (fun a _ => tagTree_bytes a),
      treesBytes_map segmTree encodeSegm _ (fun a ha => segmTree_bytes (w.2 a ha))]
  rw [encodeHead_eq h w, headBlk, mkBlk_bytes, headTree, Tree.bytes, hk, headFixed]
  simp [tg]; congr 1; omega

theorem headTree_fits (major : Nat) {h : HeadIn} (w : h.Wf) : (headTree h).Fits (schema major) := by
  have : schema major (tg tHead) = some 23 := by unfold schema; rw [if_pos rfl]
  refine ⟨by decide, ?_, treesFit_append (treesFit_map _ _ fun a ha => segmTree_fits major (w.2 a ha))
    (treesFit_map _ _ fun a _ => leaf_fits (by simp) _)⟩
  rw [this]
  simp [w.1]

theorem tilsTrees_bytes (ls) : treesBytes (tilsTrees ls) = encodeTils ls := by
  rw [encodeTils_eq]
  unfold tilsTrees tilsKids
  cases ls with
  | nil => simp [treesBytes]
  | cons a l => simp [treesBytes, Tree.bytes, tilsBlk, mkBlk_bytes, tg]

theorem compTrees_bytes (ls) : treesBytes (compTrees ls) = encodeComp ls := by
  rw [encodeComp_eq]
  unfold compTrees compKids
  cases ls with
  | nil => simp [treesBytes]
  | cons a l => simp [treesBytes, Tree.bytes, compBlk, mkBlk_bytes, tg]

theorem unofTrees_bytes (ls) : treesBytes (unofTrees ls) = encodeUnof ls := by
  rw [encodeUnof_eq]
  unfold unofTrees unofKids
  cases ls with
  | nil => simp [treesBytes]
  | cons a l => simp [treesBytes, Tree.bytes, unofBlk, mkBlk_bytes, tg]

theorem bodyTrees_bytes (b) : treesBytes (bodyTrees b) = encodeBody b := by
  rw [encodeBody_eq]
  cases b with
  | empty => simp [bodyTrees, bodyKids, treesBytes]
  | event => simp [bodyTrees, bodyKids, treesBytes, Tree.bytes, eghdBlk, mkBlk_bytes, tg]; decide
  | audio a => simp [bodyTrees, bodyKids, treesBytes, Tree.bytes, aghdBlk, mkBlk_bytes, tg]
  | codedAudio a => simp [bodyTrees, bodyKids, treesBytes, Tree.bytes, cahdBlk, mkBlk_bytes, tg]
  | video v =>
    simp [bodyTrees, bodyKids, treesBytes, Tree.bytes, vghdBlk, mkBlk_bytes, tg, compTrees_bytes, encodeComp_eq]
    congr 2; omega
  | codedVideo v =>
    simp [bodyTrees, bodyKids, treesBytes, Tree.bytes, cghdBlk, mkBlk_bytes, tg, unofTrees_bytes, encodeUnof_eq,
      CodedVideoHdr.offsets]
    congr 2; omega

theorem bodyTrees_fit (major : Nat) (b) : treesFit (schema major) (bodyTrees b) := by
  have h1 : schema major (tg tVghd) = some 36 := by
    unfold schema; rw [if_neg (by decide), if_neg (by decide), if_neg (by decide), if_neg (by decide), if_pos rfl]
  have h2 : schema major (tg tCghd) = some 29 := by
    unfold schema
    rw [if_neg (by decide), if_neg (by decide), if_neg (by decide), if_neg (by decide), if_neg (by decide), if_pos rfl]
  cases b with
  | empty => trivial
  | event => exact ⟨leaf_fits (by simp) _, trivial⟩
  | audio a => exact ⟨leaf_fits (by simp) _, trivial⟩
  | codedAudio a => exact ⟨leaf_fits (by simp) _, trivial⟩
  | video v =>
    refine ⟨⟨by decide, ?_, ?_⟩, trivial⟩
    · rw [h1]; simp
    · unfold compTrees; split
      · trivial
      · exact ⟨leaf_fits (by simp) _, trivial⟩
  | codedVideo v =>
    refine ⟨⟨by decide, ?_, ?_⟩, trivial⟩
    · rw [h2]; simp
    · unfold unofTrees; split
      · trivial
      · exact ⟨leaf_fits (by simp) _, trivial⟩

theorem grainTree_bytes (major lid : Nat) {g : Grain} (h : g.Wf) :
    (grainTree major lid g).bytes = encodeGrain major lid g := by
  rw [encodeGrain_eq _ _ _ h, graiBlk, mkBlk_bytes, grainTree, Tree.bytes]
  have e1 : treesBytes [Tree.node (tg tGbhd) (encodeGbhdFixed major g) (tilsTrees g.timelabels ++ bodyTrees g.body),
      Tree.node (tg tGrdt) (g.data.getD []) []] = blksBytes [gbhdBlk major g, grdtBlk g] := by
    simp [treesBytes, Tree.bytes, treesBytes_append, tilsTrees_bytes, bodyTrees_bytes, gbhdBlk, grdtBlk,
      mkBlk_bytes, ← gbhdKids_eq, tg]
  rw [e1]
  simp [tg]

theorem grainTree_fits (major lid : Nat) {g : Grain} (h : g.Wf) : (grainTree major lid g).Fits (schema major) := by
  have h1 : schema major (tg tGrai) = some 2 := by
    unfold schema; rw [if_neg (by decide), if_neg (by decide), if_pos rfl]
  have h2 : schema major (tg tGbhd) = some (if major = 7 then 84 else 70) := by
    unfold schema; rw [if_neg (by decide), if_neg (by decide), if_neg (by decide), if_pos rfl]
  refine ⟨by decide, by rw [h1]; simp, ⟨by decide, ?_, treesFit_append ?_ (bodyTrees_fit _ _)⟩,
    leaf_fits (by simp) _, trivial⟩
  · rw [h2]
    have := encodeGbhdFixed_length major g h.1 h.2.1
    simp only
    split <;> simp_all
  · unfold tilsTrees; split
    · trivial
    · exact ⟨leaf_fits (by simp) _, trivial⟩

/-! ## The property -/

theorem treesBytes_fit_append {sch a b} (fa : treesFit sch a) (fb : treesFit sch b) : treesFit sch (a ++ b) :=
  treesFit_append fa fb

/-- **C02**, one grain: the bytes written for a grain are one block, and walking it by nothing but block
headers finds exactly the grain header with its children and the data. -/
theorem C02_grain (major lid : Nat) (g : Grain) (hw : g.Wf) (hs : (encodeGrain major lid g).length < 2 ^ 32) :
    walk (schema major) (encodeGrain major lid g).length (encodeGrain major lid g) =
      some [grainTree major lid g] := by
  have e : treesBytes [grainTree major lid g] = encodeGrain major lid g := by
    simp [treesBytes, grainTree_bytes major lid hw]
  have := walk_bytes (schema major) (encodeGrain major lid g).length [grainTree major lid g]
    ⟨grainTree_fits major lid hw, trivial⟩ (by rw [e]; exact hs) (by rw [e]; exact Nat.le_refl _)
  rwa [e] at this

/-- **C02**, the head. -/
theorem C02_head (major : Nat) (h : HeadIn) (hw : h.Wf) (hs : (encodeHead h).length < 2 ^ 32) :
    walk (schema major) (encodeHead h).length (encodeHead h) = some [headTree h] := by
  have e : treesBytes [headTree h] = encodeHead h := by
    simp [treesBytes, headTree_bytes hw]
  have := walk_bytes (schema major) (encodeHead h).length [headTree h]
    ⟨headTree_fits major hw, trivial⟩ (by rw [e]; exact hs) (by rw [e]; exact Nat.le_refl _)
  rwa [e] at this

/-- The walk does not depend on its bound, and the walk of two runs of blocks is the walks one after the
other, so a file of any length can be walked. -/
theorem walk_append (sch : Bytes → Option Nat) : ∀ (fuel : Nat) (a b : Bytes) (ta tb : List Tree) (fa : Nat),
    walk sch fa a = some ta → walk sch (b.length) b = some tb → a.length + b.length ≤ fuel →
    walk sch fuel (a ++ b) = some (ta ++ tb) := by
  -- more fuel does not change a result
  have mono : ∀ (f f' : Nat) (x : Bytes) (t : List Tree), walk sch f x = some t → f ≤ f' →
      walk sch f' x = some t := by
    intro f
    induction f with
    | zero =>
      intro f' x t h _
      cases x with
      | nil => cases f' <;> simpa [walk] using h
      | cons c x => simp [walk] at h
    | succ f ih =>
      intro f' x t h hle
      cases f' with
      | zero => omega
      | succ f' =>
        cases x with
        | nil => simpa [walk] using h
        | cons c x =>
          generalize hx : c :: x = y at *
          rw [walk.eq_def] at h ⊢
          subst hx
          simp only at h ⊢
          by_cases hc : (c :: x).length < 8 ∨ uintOf (((c :: x).drop 4).take 4) < 8 ∨
              (c :: x).length < uintOf (((c :: x).drop 4).take 4)
          · rw [if_pos hc] at h; simp at h
          · rw [if_neg hc] at h ⊢
            cases hs : sch ((c :: x).take 4) with
            | none =>
              rw [hs] at h
              simp only [Option.map_eq_some_iff] at h ⊢
              obtain ⟨r, h1, h2⟩ := h
              exact ⟨r, ih _ _ _ h1 (by omega), h2⟩
            | some n =>
              rw [hs] at h
              simp only at h ⊢
              split at h
              · simp at h
              · rename_i hb
                rw [if_neg hb]
                split at h
                · rename_i kids rest h1 h2
                  rw [ih _ _ _ h1 (by omega), ih _ _ _ h2 (by omega)]
                  exact h
                · simp at h
  intro fuel
  induction fuel with
  | zero =>
    intro a b ta tb fa h1 h2 hl
    have ha : a = [] := List.length_eq_zero_iff.1 (by omega)
    have hb : b = [] := List.length_eq_zero_iff.1 (by omega)
    subst ha; subst hb
    cases fa <;> simp_all [walk]
  | succ fuel ih =>
    intro a b ta tb fa h1 h2 hl
    cases a with
    | nil =>
      have : ta = [] := by cases fa <;> simpa [walk] using h1.symm
      subst this
      exact mono _ _ _ _ h2 (by simpa using hl)
    | cons c x =>
      cases fa with
      | zero => simp [walk] at h1
      | succ fa =>
        rw [walk.eq_def] at h1
        simp only at h1
        have hy : (c :: x) ++ b = c :: (x ++ b) := rfl
        rw [walk.eq_def, hy]
        simp only
        rw [← hy]
        generalize hX : c :: x = X at *
        by_cases hc : X.length < 8 ∨ uintOf ((X.drop 4).take 4) < 8 ∨ X.length < uintOf ((X.drop 4).take 4)
        · rw [if_pos hc] at h1; simp at h1
        · rw [if_neg hc] at h1
          have e1 : (X ++ b).take 4 = X.take 4 := List.take_append_of_le_length (by omega)
          have e2 : ((X ++ b).drop 4).take 4 = (X.drop 4).take 4 := by
            rw [List.drop_append_of_le_length (by omega), List.take_append_of_le_length (by simp; omega)]
          rw [e1, e2]
          generalize hsz : uintOf ((X.drop 4).take 4) = sz at *
          have e3 : (X ++ b).take sz = X.take sz := List.take_append_of_le_length (by omega)
          have e4 : (X ++ b).drop sz = X.drop sz ++ b := List.drop_append_of_le_length (by omega)
          rw [e3, e4, if_neg (by simp only [List.length_append]; omega)]
          have hdl : (X.drop sz).length + b.length ≤ fuel := by
            simp only [List.length_drop]; omega
          cases hs : sch (X.take 4) with
          | none =>
            rw [hs] at h1
            simp only [Option.map_eq_some_iff] at h1 ⊢
            obtain ⟨r, h3, rfl⟩ := h1
            exact ⟨_, ih _ _ _ _ _ h3 h2 hdl, rfl⟩
          | some n =>
            rw [hs] at h1
            simp only at h1 ⊢
            split at h1
            · simp at h1
            · rename_i hb
              rw [if_neg hb]
              split at h1
              · rename_i kids rest h3 h4
                rw [ih _ _ _ _ _ h4 h2 hdl]
                have hk : walk sch fuel (((X.take sz).drop 8).drop n) = some kids := by
                  have hkl : (((X.take sz).drop 8).drop n).length ≤ fuel := by
                    simp only [List.length_drop, List.length_take]; omega
                  have := ih (((X.take sz).drop 8).drop n) [] kids [] fa h3 (by simp [walk]) (by simpa using hkl)
                  simpa using this
                rw [hk]
                simp only [Option.some.injEq] at h1 ⊢
                rw [← h1]; rfl
              · simp at h1

theorem walk_grains (major : Nat) (gs : List (Nat × Grain))
    (h : ∀ x ∈ gs, x.2.Wf ∧ (encodeGrain major x.1 x.2).length < 2 ^ 32) :
    walk (schema major) (gs.flatMap (fun x => encodeGrain major x.1 x.2)).length
      (gs.flatMap (fun x => encodeGrain major x.1 x.2)) = some (gs.map (fun x => grainTree major x.1 x.2)) := by
  induction gs with
  | nil => simp [walk]
  | cons x gs ih =>
    have hx := h x (by simp)
    rw [List.flatMap_cons]
    have := walk_append (schema major) _ _ _ _ _ _ (C02_grain major x.1 x.2 hx.1 hx.2)
      (ih (fun y hy => h y (by simp [hy]))) (Nat.le_of_eq (List.length_append).symm)
    rw [this]
    rfl

/-- **C02**: between the 12 byte file header and the 8 byte terminator a file is tiled by blocks; walking
it by nothing but block headers finds exactly the head with its segments and tags, and the grains with
their headers and data, each with the contents it was written with. Any number of grains of any size that
fits a 32-bit size field. -/
theorem C02_file (f : FileSpec) (hw : f.head.Wf) (hs : (encodeHead f.head).length < 2 ^ 32)
    (hg : ∀ x ∈ f.grains, x.2.Wf ∧ (encodeGrain f.major x.1 x.2).length < 2 ^ 32) :
    ∃ blocks, f.bytes = f.bytes.take 12 ++ blocks ++ [0x67, 0x72, 0x61, 0x69, 0, 0, 0, 0] ∧
      walk (schema f.major) blocks.length blocks =
        some (headTree f.head :: f.grains.map (fun x => grainTree f.major x.1 x.2)) := by
  refine ⟨encodeHead f.head ++ f.grains.flatMap (fun x => encodeGrain f.major x.1 x.2), ?_, ?_⟩
  · have h12 : (encodeFileHeader f.major f.minor).length = 12 := by
      have e1 : (tagBytes tSSBB).length = 4 := by decide
      have e2 : (tagBytes tGrsg).length = 4 := by decide
      simp [encodeFileHeader, e1, e2]
    have ht : terminator = [0x67, 0x72, 0x61, 0x69, 0, 0, 0, 0] := by decide
    unfold FileSpec.bytes
    rw [List.take_append_of_le_length (by omega), List.take_of_length_le (by omega), ht]
    simp
  · exact walk_append (schema f.major) _ _ _ _ _ _ (C02_head f.major f.head hw hs) (walk_grains f.major f.grains hg)
      (Nat.le_of_eq (List.length_append).symm)

/-- The hypotheses hold for a file with every grain type. -/
example : sample.head.Wf ∧ (encodeHead sample.head).length < 2 ^ 32 ∧
    ∀ x ∈ sample.grains, x.2.Wf ∧ (encodeGrain sample.major x.1 x.2).length < 2 ^ 32 := by decide +kernel

/-- The walker does reject: one stray byte at the end. -/
example : walk (schema 9) 100 (encodeEghd ++ [0]) = none := by decide +kernel

end Verif.Props

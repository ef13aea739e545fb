import Verif.Gsf.Easy
import Verif.Props.C12
import Verif.Props.C23
import Verif.Props.C23Async
import Verif.Props.C68

/-!
# C71: `dumps` and `loads` are inverse to each other
-/

namespace Verif.Easy

open Verif Verif.Gsf Verif.Props
open Verif.Attrs (Lib AErr)
open Verif.Objects (Obj Same Typed)

/-! ## Specification -/

/-- The heads of the segments given to the encoder, and the first free local id after them: a segment without local id gets the next
number after all that were used. -/
def placed : Nat → List SegArg → List SegmIn × Nat
  | n, [] => ([], n)
  | n, s :: ss =>
    let l := s.localId.getD n
    let r := placed (max n (l + 1)) ss
    (⟨l, s.id.getD s.fresh, 0, none, s.tags⟩ :: r.1, r.2)

/-- The local id of the segment that `dump` makes. -/
def newLocal (a : EncArgs) : Nat := (placed 1 a.segments).2

/-- The file that `dump` is to write: the tags and segments of the arguments, and a further segment with all grains. -/
def fileOf (a : EncArgs) (segTags : List Tag) (fresh : Bytes) (gs : List Grain) : FileSpec :=
  ⟨a.major, a.minor,
    ⟨a.id, a.created, (placed 1 a.segments).1 ++ [⟨newLocal a, fresh, gs.length, none, segTags⟩], a.tags⟩,
    gs.map (fun g => (newLocal a, g))⟩

/-- No local id is given twice. -/
def DistinctIds (a : EncArgs) : Prop := ((placed 1 a.segments).1.map SegmIn.localId).Nodup

instance (a : EncArgs) : Decidable (DistinctIds a) := by unfold DistinctIds; infer_instance

/-! ## Proofs -/

theorem placed_lt (n : Nat) (ss : List SegArg) : n ≤ (placed n ss).2 ∧ ∀ sg ∈ (placed n ss).1, sg.localId < (placed n ss).2 := by
  induction ss generalizing n with
  | nil => exact ⟨Nat.le_refl n, by simp [placed]⟩
  | cons s ss ih =>
    obtain ⟨h1, h2⟩ := ih (max n (s.localId.getD n + 1))
    refine ⟨Nat.le_trans (Nat.le_max_left _ _) h1, ?_⟩
    intro sg hsg
    rcases List.mem_cons.mp hsg with rfl | hsg
    · show s.localId.getD n < _
      exact Nat.lt_of_lt_of_le (Nat.lt_succ_self _) (Nat.le_trans (Nat.le_max_right n _) h1)
    · exact h2 sg hsg

theorem placed_zero (n : Nat) (ss : List SegArg) : ∀ sg ∈ (placed n ss).1, sg.count = 0 ∧ sg.flow = none := by
  induction ss generalizing n with
  | nil => simp [placed]
  | cons s ss ih =>
    intro sg hsg
    rcases List.mem_cons.mp hsg with rfl | hsg
    · exact ⟨rfl, rfl⟩
    · exact ih _ sg hsg

/-- The segment as the encoder keeps it. -/
def kept (sg : SegmIn) : Seg := Seg.new sg.id sg.localId sg.tags none

theorem tryAll_append (e : Enc) (a b : List Op) (e1 : Enc) (h : tryAll e a = .ok e1) : tryAll e (a ++ b) = tryAll e1 b := by
  induction a generalizing e with
  | nil => cases h; rfl
  | cons o os ih =>
    simp only [List.cons_append, tryAll] at h ⊢
    split
    · rename_i hr
      rw [hr] at h
      cases h
    · rename_i hr
      rw [hr] at h
      exact ih _ h

theorem try_segments (e : Enc) (ss : List SegArg) (ho : e.syncOpen = none)
    (hn : (e.segs.map Seg.localId ++ (placed e.nextLocal ss).1.map SegmIn.localId).Nodup) :
    tryAll e (ss.map (fun s => .addSegment s.id s.localId s.tags s.fresh)) =
      .ok { e with segs := e.segs ++ (placed e.nextLocal ss).1.map kept, nextLocal := (placed e.nextLocal ss).2 } := by
  induction ss generalizing e with
  | nil => simp [tryAll, placed]
  | cons s ss ih =>
    have hb : bumpLocal e.nextLocal (s.localId.getD e.nextLocal) = max e.nextLocal (s.localId.getD e.nextLocal + 1) := by
      unfold bumpLocal
      split <;> omega
    have hfree : (({ e with nextLocal := bumpLocal e.nextLocal (s.localId.getD e.nextLocal) } : Enc).hasSeg (s.localId.getD e.nextLocal)) = false := by
      unfold Enc.hasSeg
      rw [Bool.eq_false_iff]
      intro h
      obtain ⟨x, hx, hl⟩ := List.any_eq_true.mp h
      have h1 := (List.nodup_append.mp hn).2.2
      exact h1 x.localId (List.mem_map.mpr ⟨x, hx, rfl⟩) (s.localId.getD e.nextLocal) (by simp [placed]) (by simpa using hl)
    have hstep : Op.run e (.addSegment s.id s.localId s.tags s.fresh) =
        ({ e with nextLocal := max e.nextLocal (s.localId.getD e.nextLocal + 1),
                  segs := e.segs ++ [Seg.new (s.id.getD s.fresh) (s.localId.getD e.nextLocal) s.tags none] },
          .ok (some (s.localId.getD e.nextLocal))) := by
      have h1 : e.addSegment s.id s.localId s.tags s.fresh =
          ({ e with nextLocal := max e.nextLocal (s.localId.getD e.nextLocal + 1),
                    segs := e.segs ++ [Seg.new (s.id.getD s.fresh) (s.localId.getD e.nextLocal) s.tags none] },
            .ok (s.localId.getD e.nextLocal)) := by
        unfold Enc.addSegment
        simp only [hb] at hfree ⊢
        rw [if_neg (by rw [ho]; simp), if_neg (by rw [hfree]; simp)]
      simp only [Op.run, h1]
      rfl
    simp only [List.map_cons, tryAll, hstep]
    rw [ih]
    · simp only [placed, List.map_cons, List.append_assoc, List.singleton_append]
      rfl
    · exact ho
    · simp only [List.map_append, List.map_cons, List.map_nil, List.append_assoc, List.singleton_append]
      exact hn

theorem try_tags (e : Enc) (ts : List Tag) (ho : e.syncOpen = none) :
    tryAll e (ts.map .addTag) = .ok { e with tags := e.tags ++ ts } := by
  induction ts generalizing e with
  | nil => simp [tryAll]
  | cons t ts ih =>
    have hstep : Op.run e (.addTag t) = ({ e with tags := e.tags ++ [t] }, .ok none) := by
      simp [Op.run, Enc.addTag, ho, Except.map]
    simp only [List.map_cons, tryAll, hstep]
    rw [ih]
    · simp
    · exact ho

/-- The encoder that `dump` makes. -/
def made (file : OutFile) (a : EncArgs) : Enc :=
  { Enc.new file a.major a.minor a.id a.created a.streaming with
    segs := (placed 1 a.segments).1.map kept, nextLocal := newLocal a, tags := a.tags }

theorem construct_ok (file : OutFile) (a : EncArgs) (h : DistinctIds a) : construct file a = .ok (made file a) := by
  unfold construct
  have h1 := try_segments (Enc.new file a.major a.minor a.id a.created a.streaming) a.segments rfl (by simpa [Enc.new, DistinctIds] using h)
  rw [tryAll_append _ _ _ _ h1, try_tags _ _ rfl]
  rfl

theorem made_free (file : OutFile) (a : EncArgs) : ∀ s ∈ (made file a).segs, s.localId < newLocal a := by
  intro s hs
  obtain ⟨sg, hsg, rfl⟩ := List.mem_map.mp hs
  exact (placed_lt 1 a.segments).2 sg hsg

/-- The state in which the segment of `dump` has been made. -/
def withSeg (file : OutFile) (a : EncArgs) (segTags : List Tag) (fresh : Bytes) (gs : List Grain) : Enc :=
  { made file a with
    handles := [⟨false, newLocal a + 1, false⟩], syncOpen := some 0
    segs := (made file a).segs ++ [{ Seg.new fresh (newLocal a) segTags (some 0) with grains := gs }] }

theorem dump_segment (file : OutFile) (a : EncArgs) (hs : a.streaming = false) (segTags : List Tag) (fresh : Bytes) :
    (made file a).enter.hAddSegment 0 none none segTags fresh = (withSeg file a segTags fresh [], .ok (newLocal a)) := by
  have he : (made file a).enter = { made file a with handles := [⟨false, newLocal a, false⟩], syncOpen := some 0 } := by
    have : (made file a).streaming = false := hs
    simp only [Enc.enter, Enc.makeHandle, this, Bool.false_eq_true, if_false]
    rfl
  have hfree : ∀ e : Enc, e.segs = (made file a).segs → e.hasSeg (newLocal a) = false := by
    intro e hse
    unfold Enc.hasSeg
    rw [hse, Bool.eq_false_iff]
    intro h
    obtain ⟨x, hx, hl⟩ := List.any_eq_true.mp h
    have h1 := made_free file a x hx
    have : x.localId = newLocal a := by simpa using hl
    omega
  rw [he]
  unfold Enc.hAddSegment
  simp only [List.getElem?_cons_zero, Option.getD_none]
  have hf := hfree (({ made file a with handles := [⟨false, newLocal a, false⟩], syncOpen := some 0 } : Enc).updHandle 0
      (fun h => { h with nextLocal := bumpLocal h.nextLocal (newLocal a) })) rfl
  rw [if_neg (by rw [hf]; simp), if_neg (by simp)]
  have hb : bumpLocal (newLocal a) (newLocal a) = newLocal a + 1 := by simp [bumpLocal]
  simp only [Enc.updHandle, List.modify_zero_cons, hb]
  rfl

theorem dump_grains (file : OutFile) (a : EncArgs) (segTags : List Tag) (fresh : Bytes) (gs : List Grain) :
    ((withSeg file a segTags fresh []).sAddGrains (newLocal a) gs).1 = withSeg file a segTags fresh gs := by
  have hseg : (withSeg file a segTags fresh []).seg (newLocal a) = some (Seg.new fresh (newLocal a) segTags (some 0)) := by
    unfold Enc.seg withSeg
    simp only [List.find?_append]
    rw [List.find?_eq_none.mpr]
    · simp [Seg.new]
    · intro s hs h
      have h1 := made_free file a s hs
      have : s.localId = newLocal a := by simpa using h
      omega
  unfold Enc.sAddGrains
  rw [hseg]
  have hp : (((withSeg file a segTags fresh []).parentHandle (Seg.new fresh (newLocal a) segTags (some 0))).map Handle.active).getD false = false := rfl
  simp only [hp, Bool.false_eq_true, if_false]
  unfold Enc.updSeg withSeg
  simp only [List.map_append, List.map_cons, List.map_nil]
  congr 1
  congr 1
  · conv => rhs; rw [← List.map_id (made file a).segs]
    apply List.map_congr_left
    intro s hs
    have h1 := made_free file a s hs
    rw [if_neg (by omega)]
    rfl
  · rw [if_pos (by rfl)]
    rfl

theorem dump_bytes (file : OutFile) (a : EncArgs) (hs : a.streaming = false) (segTags : List Tag) (fresh : Bytes) (gs : List Grain) :
    (withSeg file a segTags fresh gs).exit.file.bytes = (if file.seekable then [] else file.bytes) ++ (fileOf a segTags fresh gs).bytes := by
  have h := exit_all (e := withSeg file a segTags fresh gs) (k := 0) (n := newLocal a + 1) rfl rfl hs (by
    intro s hs
    rcases List.mem_append.mp hs with hs | hs
    · obtain ⟨sg, -, rfl⟩ := List.mem_map.mp hs
      rfl
    · rw [List.mem_singleton] at hs
      subst hs
      rfl)
  rw [h]
  have hf : (withSeg file a segTags fresh gs).file = file := rfl
  have hplain : plainSpec (withSeg file a segTags fresh gs) true [] = fileOf a segTags fresh gs := by
    unfold plainSpec fileOf
    have h1 : (withSeg file a segTags fresh gs).headIn true =
        ⟨a.id, a.created, (placed 1 a.segments).1 ++ [⟨newLocal a, fresh, gs.length, none, segTags⟩], a.tags⟩ := by
      unfold Enc.headIn withSeg made
      simp only [List.map_append, List.map_map, List.map_cons, List.map_nil]
      congr 1
      congr 1
      conv => rhs; rw [← List.map_id (placed 1 a.segments).1]
      apply List.map_congr_left
      intro sg hsg
      obtain ⟨z1, z2⟩ := placed_zero 1 a.segments sg hsg
      cases sg
      simp only at z1 z2
      subst z1 z2
      rfl
    have h2 : (withSeg file a segTags fresh gs).pending = gs.map (fun g => (newLocal a, g)) := by
      unfold Enc.pending withSeg made
      simp only [List.flatMap_append, List.flatMap_map, List.flatMap_cons, List.flatMap_nil, List.append_nil]
      have : (placed 1 a.segments).1.flatMap (fun sg => (kept sg).grains.map (fun g => ((kept sg).localId, g))) = [] := by
        apply List.flatMap_eq_nil_iff.mpr
        intro sg _
        rfl
      rw [this]
      rfl
    rw [h1, h2, List.append_nil]
    rfl
  rw [hplain, hf]

theorem made_pending (file : OutFile) (a : EncArgs) : (made file a).pending = [] := by
  unfold Enc.pending made
  simp only [List.flatMap_map]
  apply List.flatMap_eq_nil_iff.mpr
  intro sg _
  rfl

theorem made_heads (file : OutFile) (a : EncArgs) : (opened (made file a)).segs.map (fun s => (⟨s.localId, s.id,
      ((s.writeCount + s.grains.length + (ofSeg s.localId []).length : Nat) : Int), s.flow, s.tags⟩ : SegmIn)) = (placed 1 a.segments).1 := by
  show ((placed 1 a.segments).1.map kept).map _ = _
  rw [List.map_map]
  conv => rhs; rw [← List.map_id (placed 1 a.segments).1]
  apply List.map_congr_left
  intro sg hsg
  obtain ⟨z1, z2⟩ := placed_zero 1 a.segments sg hsg
  cases sg
  simp only at z1 z2
  subst z1 z2
  rfl

theorem tryAll_runs {e e1 : Enc} {ops : List Op} (h : tryAll e ops = .ok e1) : e1 = e.runs ops := by
  induction ops generalizing e with
  | nil => cases h; rfl
  | cons o os ih =>
    simp only [tryAll] at h
    cases hr : o.run e with
    | mk e2 r =>
      rw [hr] at h
      cases r with
      | error x => cases h
      | ok v =>
        have := ih h
        rw [this]
        show _ = (o.run e).1.runs os
        rw [hr]

theorem made_born (file : OutFile) (a : EncArgs) (hd : DistinctIds a) : Born (made file a) := by
  have h := tryAll_runs (construct_ok file a hd)
  rw [h]
  apply (born_new file a.major a.minor a.id a.created a.streaming).edits
  intro o ho
  rcases List.mem_append.mp ho with ho | ho
  · obtain ⟨s, -, rfl⟩ := List.mem_map.mp ho
    rfl
  · obtain ⟨t, -, rfl⟩ := List.mem_map.mp ho
    rfl

theorem entered (file : OutFile) (a : EncArgs) (hs : a.streaming = true) :
    (made file a).enter = (opened (made file a)).start 0 false := by
  rw [Props.enter_eq]
  exact if_pos hs

theorem entered_ids (file : OutFile) (a : EncArgs) (hs : a.streaming = true) :
    (made file a).enter.segs.map Seg.localId = (made file a).segs.map Seg.localId := by
  rw [entered file a hs]
  have h := congrArg (List.map SegmIn.localId) (setPositions_header false
    ((opened (made file a)).file.clear.pos + (encodeFileHeader a.major a.minor).length +
      (encodeHeadPre ((opened (made file a)).headIn false)).length) (made file a).segs false)
  simp only [List.map_map] at h
  unfold Enc.start
  simp only [List.map_map]
  split
  · exact h
  · rfl

/-- The file that `dump` leaves. -/
theorem dump_eq (lib : Lib) (file : OutFile) (a : EncArgs) (hs : a.streaming = false) (hd : DistinctIds a) (segTags : List Tag)
    (fresh : Bytes) (src : Source) (gs : List Grain) (hw : src.objs.mapM (Objects.write lib) = .ok gs) :
    dump lib file a segTags fresh src =
      ((withSeg file a segTags fresh gs).exit.file, if src.raises then some .source else none) := by
  unfold dump
  rw [construct_ok file a hd]
  simp only [dump_segment file a hs segTags fresh, hw, dump_grains]

theorem groups_shape {concat : Bool} {s : Bytes} {h : Hdr} {m : Groups} (hd : decodeAll concat s = .ok (h, m)) :
    (m.map Prod.fst).Nodup ∧ (∀ e ∈ m, e.2 ≠ [] ∧ m.get e.1 = some e.2) := by
  unfold decodeAll at hd
  cases hr : decodeFile { mode := .loadImmediately, concat := concat } s with
  | error e => rw [hr] at hd; cases hd
  | ok r =>
    rw [hr] at hd
    simp only at hd
    have hm : m = groupItems r.items := by
      cases he : r.ending with
      | err e => rw [he] at hd; cases hd
      | eof => rw [he] at hd; cases hd; rfl
      | break_ => rw [he] at hd; cases hd; rfl
    subst hm
    obtain ⟨h1, h2⟩ := groupItems_spec r.items
    exact ⟨h1, fun e he => ⟨((h2 e.1 e.2).mp he).2, get_of_mem h1 he⟩⟩

theorem mapM_forall {ε α β : Type} (f : α → Except ε β) : ∀ (l : List α) (r : List β), l.mapM f = .ok r →
    r.length = l.length ∧ ∀ (i : Nat) x y, l[i]? = some x → r[i]? = some y → f x = .ok y := by
  intro l
  induction l with
  | nil => intro r h; cases h; exact ⟨rfl, fun i x y h => by simp at h⟩
  | cons a l ih =>
    intro r h
    rw [List.mapM_cons] at h
    simp only [bind, Objects.C68.bind_ok, pure, Except.pure] at h
    obtain ⟨b, h5, bs, h6, h7⟩ := h
    injection h7 with h7
    subst h7
    obtain ⟨e1, e2⟩ := ih bs h6
    refine ⟨by simp [e1], ?_⟩
    intro i x y hx hy
    cases i with
    | zero =>
      simp only [List.getElem?_cons_zero, Option.some.injEq] at hx hy
      subst hx hy
      exact h5
    | succ i => exact e2 i x y (by simpa using hx) (by simpa using hy)

theorem mapM_exists {ε α β : Type} (f : α → Except ε β) (P : α → β → Prop) : ∀ (l : List α), (∀ x ∈ l, ∃ y, f x = .ok y ∧ P x y) →
    ∃ r, l.mapM f = .ok r ∧ r.length = l.length ∧ ∀ (i : Nat) x y, l[i]? = some x → r[i]? = some y → P x y := by
  intro l
  induction l with
  | nil => intro _; exact ⟨[], rfl, rfl, fun i x y h => by simp at h⟩
  | cons a l ih =>
    intro h
    obtain ⟨b, hb, pb⟩ := h a (by simp)
    obtain ⟨r, h1, h2, h3⟩ := ih (fun x hx => h x (by simp [hx]))
    refine ⟨b :: r, ?_, by simp [h2], ?_⟩
    · rw [List.mapM_cons, hb, h1]
      rfl
    · intro i x y hx hy
      cases i with
      | zero =>
        simp only [List.getElem?_cons_zero, Option.some.injEq] at hx hy
        subst hx hy
        exact pb
      | succ i => exact h3 i x y (by simpa using hx) (by simpa using hy)

/-- What `load` makes of a file with the grains of one segment. -/
theorem load_one (lib : Lib) (hl : lib.Lawful) (now : Int) (concat : Option Bool) (f : FileSpec) (hf : f.Ok) (l : Nat) (objs : List Obj)
    (gs : List Grain) (hg : f.grains = gs.map (fun g => (l, g))) (hw : objs.mapM (Objects.write lib) = .ok gs)
    (ht : ∀ o ∈ objs, Typed lib o) (hp : ∀ g ∈ gs, PlainValues f.major g) :
    ∃ m, load lib now f.bytes concat = .ok (hdrOf f, m) ∧
      ((objs = [] ∧ m = []) ∨ ∃ objs', m = [(l, objs')] ∧ objs ≠ [] ∧ objs'.length = objs.length ∧
        ∀ (i : Nat) o o', objs[i]? = some o → objs'[i]? = some o' → Same lib o o') := by
  obtain ⟨m, h1, h2⟩ := C23_written (concat.getD true) f hf
  obtain ⟨h3, h4⟩ := groups_shape h1
  obtain ⟨z1, z2⟩ := mapM_forall _ _ _ hw
  have hkey : ∀ e ∈ m, e.1 = l := by
    intro e he
    obtain ⟨h5, h6⟩ := h4 e he
    have h7 := h2 e.1
    rw [h6, hg] at h7
    by_cases hk : e.1 = l
    · exact hk
    · exfalso
      rw [List.filter_eq_nil_iff.mpr (by
        intro x hx
        obtain ⟨g, -, rfl⟩ := List.mem_map.mp hx
        simp only [beq_iff_eq]
        exact fun h => hk h.symm)] at h7
      simp only [Option.getD_some, List.map_nil, List.map_eq_nil_iff] at h7
      exact h5 h7
  have hl2 := h2 l
  rw [hg, List.filter_eq_self.mpr (by
    intro x hx
    obtain ⟨g, -, rfl⟩ := List.mem_map.mp hx
    simp), List.map_map] at hl2
  cases hm : m with
  | nil =>
    subst hm
    have hgs : gs = [] := by
      simpa [Groups.get] using hl2.symm
    subst hgs
    have ho : objs = [] := List.eq_nil_of_length_eq_zero (by simpa using z1.symm)
    refine ⟨[], ?_, .inl ⟨ho, rfl⟩⟩
    unfold load
    rw [h1]
    rfl
  | cons e rest =>
    have hr : rest = [] := by
      cases rest with
      | nil => rfl
      | cons e2 rest =>
        subst hm
        have a1 := hkey e (by simp)
        have a2 := hkey e2 (by simp)
        simp [a1, a2] at h3
    subst hr
    have he1 : e.1 = l := hkey e (by simp [hm])
    obtain ⟨h5, h6⟩ := h4 e (by simp [hm])
    rw [he1] at h6
    rw [h6] at hl2
    simp only [Option.getD_some] at hl2
    have hlen : e.2.length = objs.length := by
      have := congrArg List.length hl2
      simp only [List.length_map] at this
      omega
    have hitem : ∀ (i : Nat) it o, e.2[i]? = some it → objs[i]? = some o →
        ∃ o', Objects.read lib now it.info (it.data.load f.bytes) = .ok o' ∧ Same lib o o' := by
      intro i it o hi ho
      have hgi : ∃ g, gs[i]? = some g := by
        have : i < gs.length := by
          rw [z1]
          exact (List.getElem?_eq_some_iff.mp ho).1
        exact ⟨gs[i], List.getElem?_eq_getElem this⟩
      obtain ⟨g, hgi⟩ := hgi
      have hwr := z2 i o g ho hgi
      have hpair := congrArg (fun l => l[i]?) hl2
      simp only [List.getElem?_map, hi, hgi, Option.map_some, Option.some.injEq, Function.comp, Prod.mk.injEq] at hpair
      obtain ⟨p1, p2⟩ := hpair
      have hmem : g ∈ gs := List.mem_of_getElem? hgi
      have hgr := hf.grains (l, g) (by rw [hg]; exact List.mem_map.mpr ⟨g, hmem, rfl⟩)
      have hmm : g.toMeta f.major = metaOf g := toMeta_plain (g := { g with data := none }) hf.major (hp g hmem)
      have hwf := hgr.2.wf
      obtain ⟨o', h8, h9, -⟩ := Objects.C68.read_same hl now hwr (ht o (List.mem_of_getElem? ho)) ⟨hwf.1, hwf.2.1⟩
      refine ⟨o', ?_, h9⟩
      rw [p1, p2, hmm]
      exact h8
    obtain ⟨os, q1, q2, q3⟩ := mapM_exists (fun it : Item => Objects.read lib now it.info (it.data.load f.bytes))
      (fun it y => Objects.read lib now it.info (it.data.load f.bytes) = .ok y) e.2 (by
        intro it hit
        obtain ⟨i, hi⟩ := List.mem_iff_getElem?.mp hit
        have : i < objs.length := by
          rw [← hlen]
          exact (List.getElem?_eq_some_iff.mp hi).1
        obtain ⟨o', h8, -⟩ := hitem i it objs[i] hi (List.getElem?_eq_getElem this)
        exact ⟨o', h8, h8⟩)
    refine ⟨[(l, os)], ?_, .inr ⟨os, rfl, ?_, by omega, ?_⟩⟩
    · unfold load
      rw [h1, hm]
      simp only [List.mapM_cons, List.mapM_nil, objects, q1, he1]
      rfl
    · intro ho
      rw [ho] at hlen
      exact h5 (List.eq_nil_of_length_eq_zero hlen)
    · intro i o o' ho ho'
      have hii : ∃ it, e.2[i]? = some it := by
        have : i < e.2.length := by
          rw [hlen]
          exact (List.getElem?_eq_some_iff.mp ho).1
        exact ⟨e.2[i], List.getElem?_eq_getElem this⟩
      obtain ⟨it, hi⟩ := hii
      obtain ⟨o2, h8, h9⟩ := hitem i it o hi ho
      have h10 := q3 i it o' hi ho'
      rw [h8] at h10
      cases h10
      exact h9

end Verif.Easy

namespace Verif.Easy

open Verif Verif.Gsf Verif.Props

theorem try_refused (e : Enc) (ss : List SegArg) (ops : List Op) (ho : e.syncOpen = none) (h0 : (e.segs.map Seg.localId).Nodup)
    (hn : ¬ (e.segs.map Seg.localId ++ (placed e.nextLocal ss).1.map SegmIn.localId).Nodup) :
    tryAll e (ss.map (fun s => .addSegment s.id s.localId s.tags s.fresh) ++ ops) = .error .encode := by
  induction ss generalizing e with
  | nil =>
    exfalso
    apply hn
    simpa [placed] using h0
  | cons s ss ih =>
    have hb : bumpLocal e.nextLocal (s.localId.getD e.nextLocal) = max e.nextLocal (s.localId.getD e.nextLocal + 1) := by
      unfold bumpLocal
      split <;> omega
    simp only [List.map_cons, List.cons_append, tryAll]
    by_cases hin : s.localId.getD e.nextLocal ∈ e.segs.map Seg.localId
    · have h1 : ∃ e1, e.addSegment s.id s.localId s.tags s.fresh = (e1, .error .encode) := by
        unfold Enc.addSegment
        have hh : ({ e with nextLocal := bumpLocal e.nextLocal (s.localId.getD e.nextLocal) } : Enc).hasSeg
            (s.localId.getD e.nextLocal) = true := by
          obtain ⟨x, hx, hl⟩ := List.mem_map.mp hin
          exact List.any_eq_true.mpr ⟨x, hx, by simpa using hl⟩
        rw [if_neg (by rw [ho]; simp), if_pos hh]
        exact ⟨_, rfl⟩
      obtain ⟨e1, h1⟩ := h1
      simp only [Op.run, h1]
      rfl
    · have hfree : ({ e with nextLocal := bumpLocal e.nextLocal (s.localId.getD e.nextLocal) } : Enc).hasSeg
          (s.localId.getD e.nextLocal) = false := by
        unfold Enc.hasSeg
        rw [Bool.eq_false_iff]
        intro h
        obtain ⟨x, hx, hl⟩ := List.any_eq_true.mp h
        exact hin (List.mem_map.mpr ⟨x, hx, by simpa using hl⟩)
      have h1 : e.addSegment s.id s.localId s.tags s.fresh =
          ({ e with nextLocal := max e.nextLocal (s.localId.getD e.nextLocal + 1),
                    segs := e.segs ++ [Seg.new (s.id.getD s.fresh) (s.localId.getD e.nextLocal) s.tags none] },
            .ok (s.localId.getD e.nextLocal)) := by
        unfold Enc.addSegment
        simp only [hb] at hfree ⊢
        rw [if_neg (by rw [ho]; simp), if_neg (by rw [hfree]; simp)]
      simp only [Op.run, h1]
      apply ih
      · exact ho
      · simp only [List.map_append, List.map_cons, List.map_nil]
        refine List.nodup_append.mpr ⟨h0, by simp, ?_⟩
        intro x hx y hy hxy
        rw [List.mem_singleton] at hy
        subst hxy
        rw [hy] at hx
        exact hin hx
      · simp only [List.map_append, List.map_cons, List.map_nil, List.append_assoc, List.singleton_append]
        exact hn

end Verif.Easy

namespace Verif.Props

open Verif.Gsf Verif.Easy
open Verif.Attrs (Lib AErr)
open Verif.Objects (Obj Same Typed)

/-- **C71.** What `dumps` makes of a list of grains, `loads` turns into the same grains again: one list, under the local id of the new
segment, in the order given (an empty list leaves no key). The header has the tags and the segments that were given to the encoder, and
the new segment with its tags and the number of grains. Partial: the grains as in C68 (`Typed`, and values the format can hold), the
file header fits (`Ok`). -/
theorem C71_round_trip_partial (lib : Lib) (hl : lib.Lawful) (now : Int) (a : EncArgs) (hs : a.streaming = false) (hd : DistinctIds a)
    (segTags : List Tag) (fresh : Bytes) (objs : List Obj) (ht : ∀ o ∈ objs, Typed lib o) (gs : List Grain)
    (hw : objs.mapM (Objects.write lib) = .ok gs) (hf : (fileOf a segTags fresh gs).Ok) (hp : ∀ g ∈ gs, PlainValues a.major g)
    (concat : Option Bool) :
    ∃ s m, dumps lib a segTags fresh { objs := objs } = .ok s ∧
      loads lib now s concat = .ok (hdrOf (fileOf a segTags fresh gs), m) ∧
      ((objs = [] ∧ m = []) ∨ ∃ objs', m = [(newLocal a, objs')] ∧ objs ≠ [] ∧ objs'.length = objs.length ∧
        ∀ (i : Nat) o o', objs[i]? = some o → objs'[i]? = some o' → Same lib o o') := by
  obtain ⟨m, h1, h2⟩ := load_one lib hl now none (fileOf a segTags fresh gs) hf (newLocal a) objs gs rfl hw ht hp
  refine ⟨(fileOf a segTags fresh gs).bytes, m, ?_, h1, h2⟩
  unfold dumps
  rw [dump_eq lib ⟨true, [], 0⟩ a hs hd segTags fresh { objs := objs } gs hw]
  simp only [Bool.false_eq_true, if_false]
  rw [dump_bytes _ a hs]
  rfl

/-- **C71**: `load` of an asynchronous file (no `AsyncBytesIO`) gives for all bytes what `load` of a synchronous one gives. -/
theorem C71_load_async (lib : Lib) (now : Int) (s : Bytes) (concat : Option Bool) : loadA false lib now s concat = load lib now s concat := by
  unfold loadA load
  rw [C23_async]

/-- **C71** for what `dumps` wrote, read from an asynchronous file of any kind. -/
theorem C71_async_partial (lib : Lib) (hl : lib.Lawful) (now : Int) (a : EncArgs) (hs : a.streaming = false) (hd : DistinctIds a)
    (segTags : List Tag) (fresh : Bytes) (objs : List Obj) (ht : ∀ o ∈ objs, Typed lib o) (gs : List Grain)
    (hw : objs.mapM (Objects.write lib) = .ok gs) (hf : (fileOf a segTags fresh gs).Ok) (hp : ∀ g ∈ gs, PlainValues a.major g)
    (concat : Option Bool) (strict : Bool) :
    ∃ s m, dumps lib a segTags fresh { objs := objs } = .ok s ∧
      loadA strict lib now s concat = .ok (hdrOf (fileOf a segTags fresh gs), m) ∧
      ((objs = [] ∧ m = []) ∨ ∃ objs', m = [(newLocal a, objs')] ∧ objs ≠ [] ∧ objs'.length = objs.length ∧
        ∀ (i : Nat) o o', objs[i]? = some o → objs'[i]? = some o' → Same lib o o') := by
  obtain ⟨m, h1, h2⟩ := load_one lib hl now concat (fileOf a segTags fresh gs) hf (newLocal a) objs gs rfl hw ht hp
  refine ⟨(fileOf a segTags fresh gs).bytes, m, ?_, ?_, h2⟩
  · unfold dumps
    rw [dump_eq lib ⟨true, [], 0⟩ a hs hd segTags fresh { objs := objs } gs hw]
    simp only [Bool.false_eq_true, if_false]
    rw [dump_bytes _ a hs]
    rfl
  · have e : decodeAllA strict (concat.getD true) (fileOf a segTags fresh gs).bytes =
        decodeAll (concat.getD true) (fileOf a segTags fresh gs).bytes := by
      cases strict with
      | false => exact C23_async _ _
      | true =>
        cases concat.getD true with
        | true => simpa using C23_bytesio _ _ hf (decoFile_self hf) [] (by simp)
        | false => simpa using C23_bytesio_single _ _ hf (decoFile_self hf) []
    unfold loadA
    rw [e]
    exact h1

/-- **C71**, with a file: whatever the file held and wherever it was positioned, after `dump` a file that can seek holds the same bytes
`dumps` would return, and one that cannot has them at its end. If the iterable of grains raises, the exception comes out and the file
has the grains before it, complete. -/
theorem C71_dump (lib : Lib) (file : OutFile) (a : EncArgs) (hs : a.streaming = false) (hd : DistinctIds a) (segTags : List Tag)
    (fresh : Bytes) (objs : List Obj) (raises : Bool) (gs : List Grain) (hw : objs.mapM (Objects.write lib) = .ok gs) :
    ∃ f s, dump lib file a segTags fresh ⟨objs, raises⟩ = (f, if raises then some .source else none) ∧
      dumps lib a segTags fresh { objs := objs } = .ok s ∧ f.bytes = (if file.seekable then [] else file.bytes) ++ s := by
  refine ⟨_, (fileOf a segTags fresh gs).bytes, dump_eq lib file a hs hd segTags fresh ⟨objs, raises⟩ gs hw, ?_, dump_bytes file a hs segTags fresh gs⟩
  unfold dumps
  rw [dump_eq lib ⟨true, [], 0⟩ a hs hd segTags fresh { objs := objs } gs hw]
  simp only [Bool.false_eq_true, if_false]
  rw [dump_bytes _ a hs]
  rfl

/-- **C71.** If a local id is given twice, an exception says so and the file is untouched. -/
theorem C71_refused (lib : Lib) (file : OutFile) (a : EncArgs) (hd : ¬ DistinctIds a) (segTags : List Tag) (fresh : Bytes) (src : Source) :
    dump lib file a segTags fresh src = (file, some (.encoder .encode)) := by
  have h : construct file a = .error .encode := by
    unfold construct
    apply try_refused
    · rfl
    · simp [Enc.new]
    · simpa [Enc.new, DistinctIds] using hd
  unfold dump
  rw [h]

/-- With `streaming=True`, which is handed to the encoder like any other keyword argument, `dump` never works: it raises without looking
at the grains, and leaves a complete file that has no grains. -/
theorem C71_streaming_counterexample (lib : Lib) (file : OutFile) (hk : file.seekable = true) (a : EncArgs) (hs : a.streaming = true)
    (hd : DistinctIds a) (segTags : List Tag) (fresh : Bytes) (src : Source) :
    ∃ f : OutFile, dump lib file a segTags fresh src = (f, some (.encoder .activeDump)) ∧
      ∃ spec : FileSpec, f.bytes = spec.bytes ∧ spec.grains = [] ∧
        spec.head = ⟨a.id, a.created, (placed 1 a.segments).1, a.tags⟩ := by
  have he := entered file a hs
  have hh : (made file a).enter.handles[0]? = some ⟨false, newLocal a, true⟩ := by rw [he]; rfl
  have hadd : ∃ e1, (made file a).enter.hAddSegment 0 none none segTags fresh = (e1, .error .activeDump) := by
    unfold Enc.hAddSegment
    rw [hh]
    simp only [Option.getD_none]
    rw [if_neg, if_pos trivial]
    · exact ⟨_, rfl⟩
    · have : ((made file a).enter.updHandle 0 (fun h => { h with nextLocal := bumpLocal h.nextLocal (newLocal a) })).hasSeg (newLocal a) =
          (made file a).enter.hasSeg (newLocal a) := rfl
      rw [this]
      intro h
      obtain ⟨x, hx, hl⟩ := List.any_eq_true.mp h
      have hl : x.localId = newLocal a := by simpa using hl
      have hm := entered_ids file a hs
      have hx2 : x.localId ∈ (made file a).segs.map Seg.localId := hm ▸ List.mem_map.mpr ⟨x, hx, rfl⟩
      obtain ⟨y, hy, hyl⟩ := List.mem_map.mp hx2
      have := made_free file a y hy
      omega
  obtain ⟨e1, hadd⟩ := hadd
  have hdump : dump lib file a segTags fresh src = (e1.exit.file, some (.encoder .activeDump)) := by
    unfold dump
    rw [construct_ok file a hd]
    simp only [hadd]
  refine ⟨_, hdump, streamSpec (opened (made file a)) [], ?_, ?_, ?_⟩
  · obtain ⟨held, e', hl, hfile⟩ := stream_session (made_born file a hd) (start := .enter) (stop := .exit)
      (.inr ⟨hs, rfl, rfl⟩) (during := [.hAddSegment 0 none none segTags fresh]) (edits_of rfl)
    have hr : ((made file a).runs (.enter :: ([.hAddSegment 0 none none segTags fresh] ++ [.exit]))) = e1.exit := by
      show (Op.exit.run (Op.run ((made file a).enter) (.hAddSegment 0 none none segTags fresh)).1).1 = _
      simp only [Op.run, hadd]
    rw [hr] at hfile
    rw [hfile]
    have htaken : ((Op.enter.run (made file a)).1.taken [.hAddSegment 0 none none segTags fresh]) = [] := by
      show Op.takes (made file a).enter (.hAddSegment 0 none none segTags fresh) ++ [] = []
      simp only [Op.takes, Op.run, hadd, List.append_nil]
      rfl
    rw [htaken] at hl
    exact stream_file hl hk
  · show (opened (made file a)).pending ++ [] = []
    rw [List.append_nil]
    exact made_pending file a
  · unfold streamSpec
    simp only
    congr 1
    exact made_heads file a

/-- A grain that cannot be encoded: `dump` raises after it has cut the file, and what a seekable file held before is gone. -/
theorem C71_bad_grain_counterexample (lib : Lib) (file : OutFile) (hf : file.seekable = true) (a : EncArgs) (hs : a.streaming = false)
    (hd : DistinctIds a) (segTags : List Tag) (fresh : Bytes) (src : Source) (x : AErr)
    (hw : src.objs.mapM (Objects.write lib) = .error x) :
    ∃ f, dump lib file a segTags fresh src = (f, some (.grain x)) ∧ f.bytes = [] := by
  unfold dump
  rw [construct_ok file a hd]
  simp only [dump_segment file a hs segTags fresh, hw]
  refine ⟨_, rfl, ?_⟩
  have : (withSeg file a segTags fresh []).file = file := rfl
  rw [this]
  simp [OutFile.clear, hf, OutFile.seek, OutFile.truncate]

/-- **C71.** `dumps` returns bytes exactly if no local id is given twice, `streaming` is not set, every grain can be written and the
iterable does not raise. Otherwise an exception comes out. -/
theorem C71_dumps_raises (lib : Lib) (a : EncArgs) (segTags : List Tag) (fresh : Bytes) (src : Source) :
    (∃ s, dumps lib a segTags fresh src = .ok s) ↔
      DistinctIds a ∧ a.streaming = false ∧ (∃ gs, src.objs.mapM (Objects.write lib) = .ok gs) ∧ src.raises = false := by
  have no : ∀ {f x}, dump lib ⟨true, [], 0⟩ a segTags fresh src = (f, some x) → ¬ ∃ s, dumps lib a segTags fresh src = .ok s := by
    rintro f x h ⟨s, hs⟩
    unfold dumps at hs
    rw [h] at hs
    cases hs
  by_cases hd : DistinctIds a
  · cases hst : a.streaming with
    | true =>
      obtain ⟨f, h, -⟩ := C71_streaming_counterexample lib ⟨true, [], 0⟩ rfl a hst hd segTags fresh src
      exact ⟨fun k => absurd k (no h), fun k => by cases k.2.1⟩
    | false =>
      cases hw : src.objs.mapM (Objects.write lib) with
      | error x =>
        obtain ⟨f, h, -⟩ := C71_bad_grain_counterexample lib ⟨true, [], 0⟩ rfl a hst hd segTags fresh src x hw
        exact ⟨fun k => absurd k (no h), fun ⟨_, _, ⟨gs, k⟩, _⟩ => by cases k⟩
      | ok gs =>
        obtain ⟨f, s, h1, h2, -⟩ := C71_dump lib ⟨true, [], 0⟩ a hst hd segTags fresh src.objs src.raises gs hw
        cases hr : src.raises with
        | true =>
          rw [hr] at h1
          have : (⟨src.objs, true⟩ : Source) = src := by cases src; simp_all
          rw [this] at h1
          exact ⟨fun k => absurd k (no h1), fun k => by cases k.2.2.2⟩
        | false =>
          have : ({ objs := src.objs } : Source) = src := by cases src; simp_all
          rw [this] at h2
          exact ⟨fun _ => ⟨hd, rfl, ⟨gs, rfl⟩, rfl⟩, fun _ => ⟨s, h2⟩⟩
  · exact ⟨fun k => absurd k (no (C71_refused lib _ a hd segTags fresh src)), fun k => absurd k.1 hd⟩

/-- The number of grains in each list that was loaded. -/
def C71_counts (r : Except LoadErr (Hdr × List (Nat × List Obj))) : Option (List (Nat × Nat)) :=
  r.toOption.map (fun x => x.2.map (fun e => (e.1, e.2.length)))

/-- `loads` says that further keyword arguments go to the decoder, as with `load`, but drops them: with
`support_concatenation=False` it still reads the second of two files put one after the other. -/
theorem C71_kwargs_counterexample :
    C71_counts (load C64_lib 7 (C68_file.bytes ++ C68_file.bytes) (some false)) = some [(1, 3)] ∧
      C71_counts (loads C64_lib 7 (C68_file.bytes ++ C68_file.bytes) (some false)) = some [(1, 6)] := by
  decide +kernel

/-! ## The hypotheses are met -/

/-- Two segments are declared, the second without local id: the grains go to segment 6. -/
def C71_args : EncArgs :=
  { id := List.replicate 16 9, created := sampleHead.created, tags := [(['k'], ['v'])]
    segments := [⟨some (List.replicate 16 3), some 4, [], List.replicate 16 0⟩, ⟨none, none, [(['a'], ['b'])], List.replicate 16 5⟩] }

example : newLocal C71_args = 6 ∧ C71_args.streaming = false ∧ DistinctIds C71_args ∧ C68_grains.length = 3 ∧
    ((C68_objs.map Prod.snd).mapM (Objects.write C64_lib)).toOption = some (C68_grains.map Prod.snd) ∧
    (fileOf C71_args [(['x'], ['y'])] (List.replicate 16 7) (C68_grains.map Prod.snd)).Ok ∧
    (∀ g ∈ C68_grains.map Prod.snd, PlainValues C71_args.major g) := by
  decide +kernel

/-- The whole way, computed: three grains under the key 6. -/
example : (match dumps C64_lib C71_args [] (List.replicate 16 7) { objs := C68_objs.map Prod.snd } with
    | .ok s => C71_counts (loads C64_lib 7 s none)
    | .error _ => none) = some [(6, 3)] := by
  decide +kernel

/-- A local id that is given twice. -/
example : ¬ DistinctIds { C71_args with segments := C71_args.segments ++ [⟨none, some 4, [], List.replicate 16 8⟩] } := by
  decide +kernel

/-- A grain that lacks its attributes cannot be encoded. -/
example : (([Objects.ofMade .video [] ⟨fun _ => none, [], none⟩] : List Obj).mapM (Objects.write C64_lib)).toOption.isNone = true := by
  decide +kernel

end Verif.Props

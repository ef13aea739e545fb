import Verif.Gsf.CopyAsync
import Verif.Props.C86
import Verif.Props.C92

/-!
# C94: copying a file with the asynchronous interfaces

* `C94_same`: for all bytes, if no data is deferred, the file and the exception are those of the synchronous program.
* `C94_joined`, `C94_unfinished`, `C94_cut`, `C94_salvaged`: joined, unfinished, cut and damaged files; the words of the specification are those of C92.
* `C94_bytesio`: `AsyncBytesIO`.
-/

namespace Verif.Props

open Verif Verif.Gsf Verif.Easy
open Verif.Attrs (Lib)

namespace C94L

open Verif.Props.Copy C92L

/-! ### The asynchronous encoder does what the synchronous one does -/

/-- The same encoder with its handle asynchronous. -/
def swap (e : Enc) : Enc :=
  { e with handles := e.handles.map (fun h => { h with isAsync := true }), syncOpen := none, asyncOpen := e.syncOpen }

/-- Inside the `with` block of an encoder that had none before. -/
structure Open (e : Enc) : Prop where
  handle : ∃ h, e.handles = [h] ∧ h.isAsync = false
  sync : e.syncOpen = some 0
  async : e.asyncOpen = none


theorem open_aenter {e : Enc} (h1 : e.handles = []) (h2 : e.syncOpen = none) (h3 : e.asyncOpen = none) : e.aenter = swap e.enter ∧ Open e.enter := by
  obtain ⟨a1, a2, a3, a4, st, a6, a7, a8, a9, a10, a11, a12⟩ := e
  simp only at h1 h2 h3
  subst h1 h2 h3
  cases st with
  | false => exact ⟨rfl, ⟨_, rfl, rfl⟩, rfl, rfl⟩
  | true => exact ⟨rfl, ⟨_, rfl, rfl⟩, rfl, rfl⟩

theorem open_aexit {e : Enc} (h : Open e) : (swap e).aexit.file = e.exit.file := by
  obtain ⟨⟨x, h1, hx⟩, h2, h3⟩ := h
  obtain ⟨a1, a2, a3, a4, st, a6, a7, a8, a9, a10, a11, a12⟩ := e
  simp only at h1 h2 h3
  subst h1 h2 h3
  obtain ⟨b1, b2, b3⟩ := x
  cases st <;> cases b3 <;> rfl

theorem swap_write (l : Nat) : ∀ (gs : List Grain) (e : Enc), (swap e).writeGrains l gs = swap (e.writeGrains l gs) ∧ (Open e → Open (e.writeGrains l gs))
  | [], e => ⟨rfl, id⟩
  | g :: gs, e => by
    obtain ⟨h1, h2⟩ := swap_write l gs (e.writeGrain l g)
    exact ⟨h1, fun h => h2 ⟨h.handle, h.sync, h.async⟩⟩

theorem swap_seg {e : Enc} (h : Open e) (l : Nat) (gs : List Grain) (hi : ∀ x, e.handles = [x] → x.active = false) :
    (swap e).sAddGrains l gs = (swap (e.sAddGrains l gs).1, (e.sAddGrains l gs).2) ∧ Open (e.sAddGrains l gs).1 := by
  obtain ⟨⟨x, h1, hx⟩, h2, h3⟩ := h
  have hact := hi x h1
  have e1 : ∀ s, ((e.parentHandle s).map Handle.active).getD false = false := by
    intro s
    unfold Enc.parentHandle
    rw [h1, h2]
    cases s.parent with
    | none => simp [hact]
    | some k =>
      cases k with
      | zero => simp [Option.filter, hx, hact]
      | succ k => simp
  have e2 : ∀ s, (((swap e).parentHandle s).map Handle.active).getD false = false := by
    intro s
    unfold Enc.parentHandle swap
    rw [h1]
    cases s.parent with
    | none => simp
    | some k =>
      cases k with
      | zero => simp [Option.filter]
      | succ k => simp
  unfold Enc.sAddGrains
  have e3 : (swap e).seg l = e.seg l := rfl
  rw [e3]
  cases e.seg l with
  | none => exact ⟨rfl, ⟨x, h1, hx⟩, h2, h3⟩
  | some s =>
    simp only [e1, e2, Bool.false_eq_true, if_false]
    exact ⟨rfl, ⟨x, h1, hx⟩, h2, h3⟩

theorem swap_add {e : Enc} (h : Open e) (gs : List Grain) (sid : Option Bytes) (lid : Option Nat) (fresh : Bytes) :
    (swap e).hAddGrains 0 gs sid lid fresh = (swap (e.addGrains gs sid lid fresh).1, (e.addGrains gs sid lid fresh).2) ∧
      Open (e.addGrains gs sid lid fresh).1 := by
  have h0 := h
  obtain ⟨⟨x, h1, hx⟩, h2, h3⟩ := h
  unfold Enc.addGrains
  rw [h2]
  simp only
  unfold Enc.hAddGrains
  have e1 : (swap e).handles[0]? = some { x with isAsync := true } := by unfold swap; rw [h1]; rfl
  have e2 : e.handles[0]? = some x := by rw [h1]; rfl
  have e3 : ((swap e).choose sid lid).filter (swap e).hasSeg = (e.choose sid lid).filter e.hasSeg := rfl
  have e4 : (swap e).choose sid lid = e.choose sid lid := rfl
  rw [e1, e2, e3, e4]
  simp only
  cases hc : (e.choose sid lid).filter e.hasSeg with
  | some l =>
    simp only
    cases ha : x.active with
    | true =>
      obtain ⟨k1, k2⟩ := swap_write l gs e
      simp only [if_true]
      exact ⟨by rw [k1], k2 h0⟩
    | false =>
      simp only [Bool.false_eq_true, if_false]
      exact swap_seg h0 l gs (by intro y hy; rw [h1] at hy; cases hy; exact ha)
  | none =>
    cases ha : x.active with
    | true => exact ⟨rfl, h0⟩
    | false =>
      simp only [Bool.false_eq_true, if_false]
      unfold Enc.hAddSegment
      rw [e1, e2]
      simp only [ha]
      generalize (e.choose sid lid).getD x.nextLocal = l
      have e5 : ((swap e).updHandle 0 (fun h => { h with nextLocal := bumpLocal h.nextLocal l })).hasSeg l =
        (e.updHandle 0 (fun h => { h with nextLocal := bumpLocal h.nextLocal l })).hasSeg l := rfl
      have e6 : (swap e).updHandle 0 (fun h => { h with nextLocal := bumpLocal h.nextLocal l }) =
          swap (e.updHandle 0 (fun h => { h with nextLocal := bumpLocal h.nextLocal l })) := by
        unfold swap Enc.updHandle
        simp [h1]
      have e7 : Open (e.updHandle 0 (fun h => { h with nextLocal := bumpLocal h.nextLocal l })) := by
        refine ⟨⟨{ x with nextLocal := bumpLocal x.nextLocal l }, ?_, hx⟩, h2, h3⟩
        unfold Enc.updHandle
        simp [h1]
      have e8 : (e.updHandle 0 (fun h => { h with nextLocal := bumpLocal h.nextLocal l })).handles = [{ x with nextLocal := bumpLocal x.nextLocal l }] := by
        unfold Enc.updHandle
        simp [h1]
      rw [e5, e6]
      generalize e.updHandle 0 (fun h => { h with nextLocal := bumpLocal h.nextLocal l }) = e' at e7 e8
      cases e'.hasSeg l with
      | true => exact ⟨rfl, e7⟩
      | false =>
        simp only [Bool.false_eq_true, if_false]
        exact swap_seg (e := { e' with segs := e'.segs ++ [Seg.new (sid.getD fresh) l [] (some 0)] }) ⟨e7.handle, e7.sync, e7.async⟩ l gs
          (by intro y hy; have hy : e'.handles = [y] := hy; rw [e8] at hy; cases hy; exact ha)

/-! ### One turn -/

/-- The grain with its data, as after awaiting it. -/
def loaded (file : Bytes) (it : Item) : Item :=
  { it with data := match it.data.load file with | none => .none | some b => .bytes b }

theorem loaded_load (file : Bytes) (it : Item) : (loaded file it).data.load file = it.data.load file := by
  unfold loaded
  simp only
  cases it.data.load file <;> rfl

theorem loaded_view (file : Bytes) (it : Item) : (loaded file it).view file = it.view file := by
  unfold Item.view
  rw [loaded_load]
  rfl

theorem loaded_honest (file : Bytes) (it : Item) : Honest file (loaded file it) := by
  intro a n h
  unfold loaded at h
  simp only at h
  cases hl : it.data.load file with
  | none => rw [hl] at h; cases h
  | some b => rw [hl] at h; cases h

theorem loaded_live (lib : Lib) (now : Int) (file : Bytes) (it : Item) (d : Option Bytes) :
    liveGrain lib now (loaded file it) d = rewrite lib now (it.info, d, it.localId) := by
  unfold liveGrain
  have e : rewrite lib now ((loaded file it).info, d, (loaded file it).localId) = rewrite lib now (it.info, d, it.localId) := rfl
  rw [e]
  cases rewrite lib now (it.info, d, it.localId) with
  | error x => rfl
  | ok y =>
    obtain ⟨l, g⟩ := y
    have : lengthened (loaded file it) g = g := by
      unfold lengthened loaded
      simp only
      cases it.data.load file <;> rfl
    simp only [this]

theorem loaded_kept {file : Bytes} {it : Item} (h : ∀ a n, it.data ≠ .deferred a n) : loaded file it = it := by
  unfold loaded
  obtain ⟨m, d, l⟩ := it
  cases d with
  | none => rfl
  | bytes b => rfl
  | deferred a n => exact absurd rfl (h a n)

theorem swap_hand {e : Enc} (h : Open e) (lib : Lib) (now : Int) (file : Bytes) (it : Item) :
    handOverA lib now 0 (it.view file) (swap e) =
        (swap (handOver lib now (loaded file it) ((loaded file it).data.load file) e).1, (handOver lib now (loaded file it) ((loaded file it).data.load file) e).2) ∧
      Open (handOver lib now (loaded file it) ((loaded file it).data.load file) e).1 := by
  rw [loaded_load]
  have hv : it.view file = (it.info, it.data.load file, it.localId) := rfl
  have hl := loaded_live lib now file it (it.data.load file)
  unfold handOverA
  rw [hv]
  cases hr : rewrite lib now (it.info, it.data.load file, it.localId) with
  | error x =>
    rw [hr] at hl
    unfold handOver
    rw [hl]
    exact ⟨rfl, h⟩
  | ok y =>
    rw [hr] at hl
    rw [handOver_ok hl]
    obtain ⟨l, g⟩ := y
    obtain ⟨k1, k2⟩ := swap_add h [g] none (some l) []
    simp only [Op.run, k1]
    generalize e.addGrains [g] none (some l) [] = r at k2
    obtain ⟨e', v⟩ := r
    cases v with
    | error x => exact ⟨rfl, k2⟩
    | ok w => exact ⟨rfl, k2⟩

/-! ### The loop -/

/-- What the loop does, from the grains that are awaited. -/
def feedA (lib : Lib) (now : Int) (file : Bytes) : Enc → List Item → AEnd → Enc × Option ACopyErr
  | e, [], en => (e, AEnd.raises en)
  | e, it :: its, en =>
    match (handOverA lib now 0 (it.view file) e).2 with
    | some x => ((handOverA lib now 0 (it.view file) e).1, some (.copy x))
    | none => feedA lib now file (handOverA lib now 0 (it.view file) e).1 its en

theorem feedA_eq (lib : Lib) (now : Int) (file : Bytes) (en : AEnd) : ∀ (items : List Item) {e : Enc}, Open e →
    feedA lib now file (swap e) items en =
      (swap (feed lib now file e (items.map (loaded file)) .eof).1,
        ((feed lib now file e (items.map (loaded file)) .eof).2.map ACopyErr.copy).or (AEnd.raises en)) ∧
      Open (feed lib now file e (items.map (loaded file)) .eof).1
  | [], e, h => ⟨by simp [feedA, feed, raisedBy], h⟩
  | it :: its, e, h => by
    obtain ⟨h1, h2⟩ := swap_hand h lib now file it
    simp only [feedA, List.map_cons, feed, h1]
    generalize handOver lib now (loaded file it) ((loaded file it).data.load file) e = r at h2
    obtain ⟨e', x⟩ := r
    cases x with
    | some x => exact ⟨rfl, h2⟩
    | none => exact feedA_eq lib now file en its h2

theorem pumpA_eq (lib : Lib) (now : Int) {file : Bytes} {o : Opts} : ∀ (n : Nat) {st : Sess} {sp : Spec} {items : List Item} {en : AEnd} (e : Enc),
    SessInv file o st sp → sp.rest = some (items, en) → items.length < n →
    pumpA lib now false o file 0 n e st = feedA lib now file e items en
  | 0, st, sp, items, en, e, _, _, hn => by omega
  | n + 1, st, sp, [], en, e, hi, hr, _ => by
    obtain ⟨h1, -⟩ := hi.step .next
    simp only [Spec.step, hr] at h1
    rw [pumpA]
    unfold awaitNext
    generalize hs : st.step false o file .next = x at h1
    obtain ⟨ev, st1⟩ := x
    simp only at h1
    subst h1
    rfl
  | n + 1, st, sp, it :: items, en, e, hi, hr, hn => by
    obtain ⟨h1, h2⟩ := hi.step .next
    simp only [Spec.step, hr] at h1 h2
    rw [pumpA]
    unfold awaitNext
    generalize hs : st.step false o file .next = x at h1 h2
    obtain ⟨ev, st1⟩ := x
    simp only at h1 h2
    subst h1
    simp only [List.length_cons] at hn
    have fin : ∀ {st' : Sess} {sp' : Spec}, SessInv file o st' sp' → sp'.rest = some (items, en) →
        (match (handOverA lib now 0 (it.view file) e).2 with
          | some x => ((handOverA lib now 0 (it.view file) e).1, some (.copy x))
          | none => pumpA lib now false o file 0 n (handOverA lib now 0 (it.view file) e).1 st') = feedA lib now file e (it :: items) en := by
      intro st' sp' hi' hr'
      rw [pumpA_eq lib now n _ hi' hr' (by omega)]
      rfl
    cases hd : it.data with
    | none => rw [hd] at h2; simp only [hd]; exact fin h2 rfl
    | bytes bs => rw [hd] at h2; simp only [hd]; exact fin h2 rfl
    | deferred p k =>
      rw [hd] at h2
      simp only at h2
      have hl := h2.len
      simp only [List.length_append, List.length_singleton] at hl
      obtain ⟨h3, h4⟩ := h2.step (.await (st1.lazies.length - 1))
      have hget : (sp.seen ++ [(Data.load file (.deferred p k), false)])[st1.lazies.length - 1]? =
          some (Data.load file (.deferred p k), false) := by
        rw [hl, Nat.add_sub_cancel, List.getElem?_append_right (Nat.le_refl _)]
        simp
      simp only [Spec.step, hget] at h3 h4
      simp only [hd]
      generalize hs2 : st1.step false o file (.await (st1.lazies.length - 1)) = y at h3 h4
      obtain ⟨ev2, st2⟩ := y
      simp only at h3 h4
      subst h3
      simp only
      have := fin h4 rfl
      unfold Item.view at this
      rw [hd] at this
      exact this

/-! ### The program -/

structure Closed (e : Enc) : Prop where
  handles : e.handles = []
  sync : e.syncOpen = none
  async : e.asyncOpen = none

theorem closed_try : ∀ (ops : List Gsf.Op) {e e1 : Enc}, (∀ o ∈ ops, ∀ e, Closed e → Closed (o.run e).1) → Closed e → tryAll e ops = .ok e1 → Closed e1
  | [], e, e1, _, h, ht => by cases ht; exact h
  | o :: ops, e, e1, ho, h, ht => by
    simp only [tryAll] at ht
    have h1 := ho o (by simp) e h
    generalize o.run e = r at ht h1
    obtain ⟨e', v⟩ := r
    cases v with
    | error x => cases ht
    | ok w => exact closed_try ops (fun o' ho' => ho o' (by simp [ho'])) h1 ht

theorem closed_made {out : OutFile} {h : Hdr} {streaming : Bool} {e0 e1 : Enc} (h0 : construct out (copyArgs h streaming) = .ok e0)
    (h1 : tryAll e0 (flowOps h) = .ok e1) : Closed e1 := by
  have k0 : Closed e0 := by
    refine closed_try _ ?_ (e := Enc.new out _ _ _ _ _) ⟨rfl, rfl, rfl⟩ h0
    intro o ho e he
    rcases List.mem_append.1 ho with ho | ho
    · obtain ⟨s, -, rfl⟩ := List.mem_map.1 ho
      simp only [Gsf.Op.run, Enc.addSegment]
      split
      · exact he
      · split <;> exact ⟨he.handles, he.sync, he.async⟩
    · obtain ⟨s, -, rfl⟩ := List.mem_map.1 ho
      simp only [Gsf.Op.run, Enc.addTag]
      split <;> exact ⟨he.handles, he.sync, he.async⟩
  refine closed_try _ ?_ k0 h1
  intro o ho e he
  obtain ⟨s, -, ho⟩ := List.mem_flatMap.1 ho
  obtain ⟨f, -, rfl⟩ := List.mem_map.1 ho
  simp only [Gsf.Op.run, Enc.sAddFlow]
  split
  · exact he
  · split <;> exact ⟨he.handles, he.sync, he.async⟩

/-- What an encoder that was made gives for these grains. -/
def outcome (lib : Lib) (now : Int) (file : Bytes) (e1 : Enc) (c : List Item × AEnd) : OutFile × Option ACopyErr :=
  ((feed lib now file e1.enter (c.1.map (loaded file)) .eof).1.exit.file,
    ((feed lib now file e1.enter (c.1.map (loaded file)) .eof).2.map ACopyErr.copy).or (AEnd.raises c.2))

theorem async_pump {lib : Lib} {now : Int} {o : Opts} {out : OutFile} {streaming : Bool} {file : Bytes} {h : Hdr} {p : Nat} {r : Run} {e0 e1 : Enc}
    (hh : decodeFileHeaders false ⟨0, file⟩ 0 = .ok (h, p)) (hr : decodeFile o file = .ok r)
    (h0 : construct out (copyArgs h streaming) = .ok e0) (h1 : tryAll e0 (flowOps h) = .ok e1) :
    copyAsync lib now false o out streaming file = outcome lib now file e1 (cutRun r) := by
  have hi := openA_inv o file
  rw [hr] at hi
  obtain ⟨st, h2, h3⟩ := hi
  unfold openA at h2
  unfold copyAsync
  rw [decodeFileHeadersA_false] at h2 ⊢
  rw [hh] at h2 ⊢
  simp only [Except.ok.injEq] at h2
  subst h2
  simp only [h0, h1]
  have hc := closed_made h0 h1
  obtain ⟨h4, h5⟩ := open_aenter hc.handles hc.sync hc.async
  have hlen : (cutRun r).1.length < file.length + 1 := by
    have hr' := hr
    unfold decodeFile at hr'
    rw [hh] at hr'
    cases hr'
    have k1 := items_le o file file.length h false p (by omega)
    rw [← grains_eq_run] at k1
    have k2 : (cutRun (grains o file h p)).1.length ≤ (grains o file h p).items.length := (List.takeWhile_sublist _).length_le
    omega
  have e1' : e1.handles.length = 0 := by rw [hc.handles]; rfl
  have e2' : (Gsf.Op.aenter.run e1).1 = swap e1.enter := h4
  rw [e1', e2', pumpA_eq lib now (file.length + 1) (items := (cutRun r).1) (en := (cutRun r).2) (swap e1.enter) h3 rfl hlen]
  obtain ⟨h6, h7⟩ := feedA_eq lib now file (cutRun r).2 (cutRun r).1 h5
  rw [h6]
  show ((swap _).aexit.file, _) = _
  rw [open_aexit h7]
  rfl

theorem feed_end (lib : Lib) (now : Int) (file : Bytes) (en : End) : ∀ (items : List Item) (e : Enc),
    feed lib now file e items en = ((feed lib now file e items .eof).1, (feed lib now file e items .eof).2.or (raisedBy en))
  | [], e => by simp [feed, raisedBy]
  | it :: its, e => by
    simp only [feed]
    generalize handOver lib now it (it.data.load file) e = r
    obtain ⟨e', x⟩ := r
    cases x with
    | some x => rfl
    | none => exact feed_end lib now file en its e'

theorem raises_toA (en : End) : AEnd.raises en.toA = (raisedBy en).map ACopyErr.copy := by cases en <;> rfl

theorem shows_loaded {file : Bytes} {items : List Item} {gs : List (Nat × Nat × Grain)} (h : List.Forall₂ (Shows file) items gs) :
    List.Forall₂ (Shows file) (items.map (loaded file)) gs := by
  induction h with
  | nil => exact .nil
  | cons h1 _ ih => exact .cons ⟨h1.info, h1.lid, by rw [loaded_load]; exact h1.data, fun h => by rw [loaded_load]; exact h1.event h⟩ ih

theorem map_view (file : Bytes) (items : List Item) : (items.map (loaded file)).map (Item.view file) = items.map (Item.view file) := by
  rw [List.map_map]
  exact List.map_congr_left (fun it _ => loaded_view file it)

theorem honest_loaded (file : Bytes) (items : List Item) : ∀ it ∈ items.map (loaded file), Honest file it := by
  intro it hit
  obtain ⟨x, -, rfl⟩ := List.mem_map.1 hit
  exact loaded_honest file x

/-- All the grains are good and can be awaited, and the segments are there. -/
theorem whole_async {lib : Lib} (hl : lib.Lawful) (now : Int) {o : Opts} {out : OutFile} {streaming : Bool} {file : Bytes}
    {f : FileSpec} {p : Nat} (hf : f.Ok) (hn : (f.head.segments.map SegmIn.localId).Nodup)
    (hh : decodeFileHeaders false ⟨0, file⟩ 0 = .ok (f.hdr, p)) {r : Run} (hr : decodeFile o file = .ok r) {gs : List (Nat × Nat × Grain)}
    (hv : List.Forall₂ (Shows file) r.items gs) (hg : ∀ x ∈ gs, x.2.2.Wf ∧ Objective x.1 x.2.2)
    (hd : ∀ x ∈ gs, x.2.1 ∈ f.head.segments.map SegmIn.localId) (hev : ∀ x ∈ gs, Awaitable o (x.2.2.toMeta x.1)) (hend : raisedBy r.ending = none) :
    ∃ out', copyAsync lib now false o out streaming file = (out', none) ∧ out'.bytes = written out (copyOf f streaming out.seekable gs) := by
  obtain ⟨h5, h6⟩ := setup_ok out f streaming hf hn
  have hev' : ∀ v ∈ r.view file, Awaitable o v.1 := by
    intro v hv'
    obtain ⟨it, hit, rfl⟩ := List.mem_map.1 hv'
    obtain ⟨x, hx, hs⟩ : ∃ x ∈ gs, Shows file it x := by
      clear hr hg hd hev hend hv'
      generalize r.items = items at hv hit
      induction hv with
      | nil => cases hit
      | @cons a b l m h1 _ ih =>
        rcases List.mem_cons.1 hit with rfl | hit
        · exact ⟨b, by simp, h1⟩
        · obtain ⟨x, hx, hs⟩ := ih hit
          exact ⟨x, by simp [hx], hs⟩
    show Awaitable o it.info
    rw [hs.info]
    exact hev x hx
  obtain ⟨e1, k1, k2⟩ := feed_whole hl now (out := out) (streaming := streaming) hf hn .eof (shows_loaded hv) (honest_loaded file r.items) hg hd
  refine ⟨e1.exit.file, ?_, k2⟩
  have k1' : feed lib now file (setUp out f streaming).enter (r.items.map (loaded file)) .eof = (e1, none) := k1
  rw [async_pump hh hr h5 h6, cutRun_plain r (C86.not_refused hr hev')]
  unfold outcome
  simp only [k1', raises_toA, hend]
  rfl

theorem pumpA_same (lib : Lib) (now : Int) {o : Opts} {file : Bytes} (k : Nat) : ∀ (n : Nat) (e : Enc) {st : Sess},
    (∀ ops, st.steps true o file ops = st.steps false o file ops) → pumpA lib now true o file k n e st = pumpA lib now false o file k n e st
  | 0, _, _, _ => rfl
  | n + 1, e, st, h => by
    obtain ⟨h1, h2⟩ := C86.next_same h .next
    rw [pumpA, pumpA]
    unfold awaitNext
    rw [h1]
    generalize st.step false o file .next = x at h2
    obtain ⟨ev, st1⟩ := x
    cases ev with
    | item it =>
      simp only
      cases it.data with
      | none => simp only [pumpA_same lib now k n _ h2]
      | bytes bs => simp only [pumpA_same lib now k n _ h2]
      | deferred p m =>
        simp only at h2
        obtain ⟨h3, h4⟩ := C86.next_same h2 (.await (st1.lazies.length - 1))
        simp only [h3]
        generalize st1.step false o file (.await (st1.lazies.length - 1)) = y at h4
        obtain ⟨ev2, st2⟩ := y
        cases ev2 with
        | awaited r => cases r <;> simp only [pumpA_same lib now k n _ h4]
        | item it' => rfl
        | stopped e => rfl
        | nothing => rfl
    | stopped e => rfl
    | awaited r => rfl
    | nothing => rfl

end C94L

/-! ## Theorems -/

open Copy (Loads Objective)

/-- **C94**, for all bytes, when no data is deferred (the data is loaded at once or left out, or the input cannot be seeked): the program with the
asynchronous interfaces makes the file that the synchronous one makes, and raises what that raises. -/
theorem C94_same (lib : Lib) (now : Int) (o : Opts) (ho : o.defers = false) (out : OutFile) (streaming : Bool) (file : Bytes) :
    copyAsync lib now false o out streaming file =
      ((copyLive lib now o out streaming file).1, (copyLive lib now o out streaming file).2.map ACopyErr.copy) := by
  cases hh : decodeFileHeaders false ⟨0, file⟩ 0 with
  | error e => unfold copyAsync copyLive; rw [decodeFileHeadersA_false, hh]; rfl
  | ok v =>
    obtain ⟨h, p⟩ := v
    cases h0 : construct out (copyArgs h streaming) with
    | error e => unfold copyAsync copyLive; rw [decodeFileHeadersA_false, hh]; simp only [h0]; rfl
    | ok e0 =>
      cases h1 : tryAll e0 (flowOps h) with
      | error e => unfold copyAsync copyLive; rw [decodeFileHeadersA_false, hh]; simp only [h0, h1]; rfl
      | ok e1 =>
        have hr : decodeFile o file = .ok (grains o file h p) := by unfold decodeFile; rw [hh]
        have hkept : ∀ it ∈ (grains o file h p).items, ∀ a n, it.data ≠ .deferred a n := fun it hit => C86.loop_kept ho _ _ _ _ _ it hit
        have hload : (grains o file h p).items.map (C94L.loaded file) = (grains o file h p).items := by
          rw [List.map_congr_left (f := C94L.loaded file) (g := id) (fun it hit => C94L.loaded_kept (hkept it hit)), List.map_id]
        rw [C94L.async_pump hh hr h0 h1, cutRun_plain _ (C86.not_refused hr (fun _ _ => .inr ho))]
        have hlive : copyLive lib now o out streaming file =
            ((C92L.feed lib now file e1.enter (grains o file h p).items (grains o file h p).ending).1.exit.file,
              (C92L.feed lib now file e1.enter (grains o file h p).items (grains o file h p).ending).2) := by
          unfold copyLive
          simp only [hh, h0, h1]
          rw [C92L.pump_eq lib now o file (file.length + 1) (file.length - p) _ _ _ _ (Nat.le_refl _) (by omega), ← grains_eq_run]
          rfl
        rw [hlive, C94L.feed_end lib now file (grains o file h p).ending]
        unfold C94L.outcome
        simp only [hload, C94L.raises_toA]
        generalize C92L.feed lib now file e1.enter (grains o file h p).items .eof = q
        obtain ⟨e2, x⟩ := q
        cases x <;> rfl

/-- **C94.** Whole files are joined, and copied with any options that hand out the data. If none of the grains that are asked for is an event whose data is
deferred, nothing raises, and the copy is the one that the synchronous program makes (`C92_joined`). -/
theorem C94_joined (lib : Lib) (hl : lib.Lawful) (now : Int) (o : Opts) (ho : Loads o) (hc : o.concat = true) (f : FileSpec) (bs : Bytes)
    (fs : List (FileSpec × Bytes)) (hfs : ∀ x ∈ (f, bs) :: fs, x.1.Ok ∧ DecoFile x.1 x.2)
    (hn : (f.head.segments.map SegmIn.localId).Nodup)
    (hg : ∀ x ∈ ((f, bs) :: fs).flatMap (fun y => asked o y.1), Objective x.1 x.2.2 ∧ x.2.1 ∈ f.head.segments.map SegmIn.localId)
    (hev : ∀ x ∈ ((f, bs) :: fs).flatMap (fun y => asked o y.1), Awaitable o (x.2.2.toMeta x.1))
    (out : OutFile) (streaming : Bool) :
    ∃ out', copyAsync lib now false o out streaming (bs ++ fs.flatMap Prod.snd) = (out', none) ∧
      out'.bytes = written out (copyOf f streaming out.seekable (((f, bs) :: fs).flatMap (fun y => asked o y.1))) := by
  have hf := hfs (f, bs) (by simp)
  obtain ⟨r, h1, h2, -, h4, h5⟩ := decodeD_concat hc hf.1 hf.2 (fs := fs) (fun x hx => hfs x (by simp [hx]))
  obtain ⟨p, hh⟩ := C92L.header_at hf.1 hf.2 (fs.flatMap Prod.snd)
  have hr := h1 .file
  rw [decodeD_file] at hr
  have hw : ∀ x ∈ ((f, bs) :: fs).flatMap (fun y => asked o y.1), x.2.2.Wf ∧ Objective x.1 x.2.2 := by
    intro x hx
    obtain ⟨y, hy, hx'⟩ := List.mem_flatMap.1 hx
    exact ⟨C92L.asked_wf (hfs y hy).1 hx', (hg x hx).1⟩
  have hv : List.Forall₂ (C92L.Shows (bs ++ fs.flatMap Prod.snd)) r.items (((f, bs) :: fs).flatMap (fun y => asked o y.1)) := by
    refine C92L.shows_all _ _ ?_
    show r.view (bs ++ fs.flatMap Prod.snd) = _
    rw [h2, List.map_flatMap]
    congr 1
    funext x
    exact C92L.asked_seen ho x.1
  have hend : raisedBy r.ending = none := by rw [h4]; rfl
  generalize ((f, bs) :: fs).flatMap (fun y => asked o y.1) = gs at hv hw hg hev ⊢
  generalize bs ++ fs.flatMap Prod.snd = file at hv hr hh ⊢
  exact C94L.whole_async hl now hf.1 hn hh hr hv hw (fun x hx => (hg x hx).2) hev hend

/-- **C94** for joined files whose writers did not finish (C83): the copy is a whole file. -/
theorem C94_unfinished (lib : Lib) (hl : lib.Lawful) (now : Int) (o : Opts) (ho : Loads o) (hc : o.concat = true) (x : Piece) (xs : List Piece)
    (hx : ∀ y ∈ x :: xs, y.spec.Ok) (hn : (x.spec.head.segments.map SegmIn.localId).Nodup)
    (hg : ∀ g ∈ (x :: xs).flatMap (fun y => asked o y.spec), Objective g.1 g.2.2 ∧ g.2.1 ∈ x.spec.head.segments.map SegmIn.localId)
    (hev : ∀ g ∈ (x :: xs).flatMap (fun y => asked o y.spec), Awaitable o (g.2.2.toMeta g.1))
    (out : OutFile) (streaming : Bool) :
    ∃ out', copyAsync lib now false o out streaming ((x :: xs).flatMap Piece.bytes) = (out', none) ∧
      out'.bytes = written out (copyOf x.spec streaming out.seekable ((x :: xs).flatMap (fun y => asked o y.spec))) := by
  obtain ⟨r, hr, h2, -, h4⟩ := C83_joined hc hx
  have hh : decodeFileHeaders false ⟨0, (x :: xs).flatMap Piece.bytes⟩ 0 = .ok (x.spec.hdr, (C83.headBytes x.spec).length) := by
    apply C83.open_at (hx x (by simp))
    have e : (x :: xs).flatMap Piece.bytes = C83.headBytes x.spec ++ (x.spec.grains.flatMap (fun y => encodeGrain x.spec.major y.1 y.2) ++
        ((if x.finished then terminator else []) ++ xs.flatMap Piece.bytes)) := by simp [Piece.bytes, C83.headBytes]
    rw [e]
    exact (at_self _ _).left
  have hw : ∀ g ∈ (x :: xs).flatMap (fun y => asked o y.spec), g.2.2.Wf ∧ Objective g.1 g.2.2 := by
    intro g hg1
    obtain ⟨y, hy, hx'⟩ := List.mem_flatMap.1 hg1
    exact ⟨C92L.asked_wf (hx y hy) hx', (hg g hg1).1⟩
  have hv : List.Forall₂ (C92L.Shows ((x :: xs).flatMap Piece.bytes)) r.items ((x :: xs).flatMap (fun y => asked o y.spec)) := by
    refine C92L.shows_all _ _ ?_
    show r.view ((x :: xs).flatMap Piece.bytes) = _
    rw [h2, List.map_flatMap]
    congr 1
    funext y
    exact C92L.asked_seen ho y.spec
  have hend : raisedBy r.ending = none := by rw [h4]; rfl
  have hf := hx x (by simp)
  generalize (x :: xs).flatMap (fun y => asked o y.spec) = gs at hv hw hg hev ⊢
  generalize (x :: xs).flatMap Piece.bytes = file at hv hr hh ⊢
  exact C94L.whole_async hl now hf hn hh hr hv hw (fun x hx => (hg x hx).2) hev hend

/-- **C94** for a file that was cut behind its headers. Nothing raises, and the copy is a whole file with the whole grains and at most one more, the cut one,
with as much of its data as there was and a length that says so. This holds in the modes that defer loading too, in which the synchronous
program writes a length that is wrong (`C92_cut_counterexample`). -/
theorem C94_cut (lib : Lib) (hl : lib.Lawful) (now : Int) (o : Opts) (ho : Loads o) (f : FileSpec) (hf : f.Ok) (n : Nat)
    (hcut : grainsEnd f 0 ≤ n) (hn : (f.head.segments.map SegmIn.localId).Nodup)
    (hg : ∀ x ∈ asked o f, Objective x.1 x.2.2 ∧ x.2.1 ∈ f.head.segments.map SegmIn.localId)
    (hev : ∀ y ∈ f.grains, Awaitable o (y.2.toMeta f.major))
    (hevent : ∀ k x, f.grains[k]? = some x → grainsEnd f k ≤ n → n < grainsEnd f (k + 1) → x.2.body ≠ .event)
    (out : OutFile) (streaming : Bool) :
    ∃ out' k tail, copyAsync lib now false o out streaming (f.bytes.take n) = (out', none) ∧
      k ≤ f.grains.length ∧ grainsEnd f k ≤ n ∧ (k < f.grains.length → n < grainsEnd f (k + 1)) ∧
      out'.bytes = written out (copyOf f streaming out.seekable (asked o { f with grains := f.grains.take k } ++ tail)) ∧
      (tail = [] ∨ ∃ x m, f.grains[k]? = some x ∧ o.drops x.1 = false ∧
        tail = [(f.major, x.1, { x.2 with data := some ((x.2.data.getD []).take m), length := ((x.2.data.getD []).take m).length })]) := by
  obtain ⟨r, k, tail, h1, hh, hend, h4, h5, h6, h7, h8, h9⟩ := C92L.cut_shows ho hf hcut hg hevent
  obtain ⟨out', h10, h11⟩ := C94L.whole_async hl now (out := out) (streaming := streaming) hf hn hh h1 h7
    (fun z hz => ⟨(h8 z hz).1, (h8 z hz).2.1⟩) (fun z hz => (h8 z hz).2.2.1) (by
      intro z hz
      obtain ⟨-, -, -, y, hy, e⟩ := h8 z hz
      rw [e]
      exact hev y hy) hend
  exact ⟨out', k, tail, h10, h4, h5, h6, h11, h9⟩

/-- **C94** for damaged files and files with events: the input begins with the headers and some whole grains that can be awaited, and anything may follow,
for instance an event whose data is deferred; the encoder streams. However the program ends, the copy is closed, and whoever reads it gets the headers
and first of all these grains, as they were in the input. -/
theorem C94_salvaged (lib : Lib) (hl : lib.Lawful) (now : Int) (o : Opts) (ho : Loads o) (f : FileSpec) (hf : f.Ok) (rest : Bytes)
    (hn : (f.head.segments.map SegmIn.localId).Nodup)
    (hg : ∀ x ∈ asked o f, Objective x.1 x.2.2 ∧ x.2.1 ∈ f.head.segments.map SegmIn.localId)
    (hev : ∀ x ∈ asked o f, Awaitable o (x.2.2.toMeta x.1))
    (hlen : (C83.headBytes f ++ (f.grains.flatMap (fun y => encodeGrain f.major y.1 y.2) ++ rest)).length < 2 ^ 63)
    (out : OutFile) :
    ∃ out' x ws copy, copyAsync lib now false o out true (C83.headBytes f ++ (f.grains.flatMap (fun y => encodeGrain f.major y.1 y.2) ++ rest)) = (out', x) ∧
      out'.bytes = written out copy ∧
      copy = (if out.seekable then counted f ((asked o f).map normalAs ++ ws) else uncounted f ((asked o f).map normalAs ++ ws)) ∧
      ∃ r tail, decodeFile {} copy.bytes = .ok r ∧ r.view copy.bytes = (asked o f).map seenAs ++ tail := by
  generalize hfile : C83.headBytes f ++ (f.grains.flatMap (fun y => encodeGrain f.major y.1 y.2) ++ rest) = file
  have hat : At ⟨0, file⟩ 0 (C83.headBytes f ++ (f.grains.flatMap (fun y => encodeGrain f.major y.1 y.2) ++ rest)) := by
    rw [hfile]; exact at_self _ _
  rw [hfile] at hlen
  have hh := C83.open_at hf hat.left
  obtain ⟨i1, t1, v1⟩ := DecoGrains.turns o f.hdr (decoGrains_self f.grains hf.grains) (0 + (C83.headBytes f).length)
  have r1 := t1.run (s := ⟨0, file⟩) (Nat.zero_le _) hat.right.left
  rw [Nat.zero_add] at r1
  have hr : decodeFile o file = .ok (grains o file f.hdr (C83.headBytes f).length) := by unfold decodeFile; rw [hh]
  have hi : (grains o file f.hdr (C83.headBytes f).length).items = i1 ++ (run o ⟨0, file⟩ f.hdr false ((C83.headBytes f).length +
      (f.grains.flatMap (fun y => encodeGrain f.hdr.major y.1 y.2)).length)).items := by rw [grains_eq_run, r1]; rfl
  have hlong : (grains o file f.hdr (C83.headBytes f).length).items.length ≤ file.length := by
    rw [grains_eq_run]
    exact C92L.items_le o file file.length f.hdr false (C83.headBytes f).length (by omega)
  generalize (run o ⟨0, file⟩ f.hdr false ((C83.headBytes f).length + (f.grains.flatMap (fun y => encodeGrain f.hdr.major y.1 y.2)).length)).items = i2 at hi
  have hseen : i1.map (Item.view file) = (asked o f).map seenAs := (v1 file hat.right.left).trans (C92L.asked_seen ho f)
  have hplain : ∀ it ∈ i1, it.refused = false := by
    intro it hit
    unfold Item.refused
    cases hd : it.data with
    | none => rfl
    | bytes bs => rfl
    | deferred a n =>
      simp only
      have hm : it.view file ∈ (asked o f).map seenAs := by rw [← hseen]; exact List.mem_map_of_mem hit
      obtain ⟨x, hx, e⟩ := List.mem_map.1 hm
      have e' : x.2.2.toMeta x.1 = it.info := congrArg (fun v => v.1) e
      rcases hev x hx with h | h
      · rw [e'] at h
        simp [h]
      · exact absurd hd (C86.loop_kept h _ _ _ _ _ it (by
          have : it ∈ (grains o file f.hdr (C83.headBytes f).length).items := by rw [hi]; simp [hit]
          exact this) a n)
  have hcut : (cutRun (grains o file f.hdr (C83.headBytes f).length)).1 = i1 ++ i2.takeWhile (fun it => !it.refused) := by
    unfold cutRun
    rw [hi]
    exact List.takeWhile_append_of_pos (fun it hit => by simp [hplain it hit])
  obtain ⟨h5, h6⟩ := Copy.setup_ok out f true hf hn
  obtain ⟨ws, k1, k2⟩ := C92L.feed_salvage hl now (out := out) hf hn ((i2.takeWhile (fun it => !it.refused)).map (C94L.loaded file)) .eof
    (i1 := i1.map (C94L.loaded file)) (gs := asked o f) (by rw [C94L.map_view]; exact hseen) (C94L.honest_loaded file i1)
    (fun x hx => ⟨C92L.asked_wf hf hx, (hg x hx).1⟩) (fun x hx => (hg x hx).2)
  have hask : (asked o f).length = i1.length := by
    have h1 := congrArg List.length hseen
    simpa using h1.symm
  have hws : (asked o f).length + ws.length < 2 ^ 63 := by
    have k3 : (i2.takeWhile (fun it => !it.refused)).length ≤ i2.length := (List.takeWhile_sublist _).length_le
    rw [hi, List.length_append] at hlong
    rw [List.length_map] at k2
    omega
  refine ⟨_, _, ws, _, C94L.async_pump hh hr h5 h6, ?_, rfl, C92L.reads_first hf o ws out.seekable hws⟩
  rw [← List.map_append, ← hcut] at k1
  exact k1

/-- **C94** for inputs that are `AsyncBytesIO`: whole files, joined or not, are copied as from any other input. -/
theorem C94_bytesio (lib : Lib) (now : Int) (o : Opts) (hc : o.concat = true) (f : FileSpec) (bs : Bytes) (hf : f.Ok) (hd : DecoFile f bs)
    (fs : List (FileSpec × Bytes)) (hfs : ∀ x ∈ fs, x.1.Ok ∧ DecoFile x.1 x.2) (out : OutFile) (streaming : Bool) :
    copyAsync lib now true o out streaming (bs ++ fs.flatMap Prod.snd) = copyAsync lib now false o out streaming (bs ++ fs.flatMap Prod.snd) := by
  obtain ⟨st, h1, h2, h3⟩ := C24_bytesio_complete o hc f bs hf hd fs hfs
  generalize bs ++ fs.flatMap Prod.snd = file at h1 h2 h3
  unfold openA at h1 h2
  unfold copyAsync
  cases ha : decodeFileHeadersA true false ⟨0, file⟩ 0 with
  | error e => rw [ha] at h1; cases h1
  | ok v =>
    cases hb : decodeFileHeadersA false false ⟨0, file⟩ 0 with
    | error e => rw [hb] at h2; cases h2
    | ok w =>
      obtain ⟨h, p⟩ := v
      obtain ⟨h', p'⟩ := w
      rw [ha] at h1
      rw [hb] at h2
      simp only [Except.ok.injEq] at h1 h2
      have h4 := h1.trans h2.symm
      simp only [Sess.mk.injEq, Option.some.injEq, Prod.mk.injEq, true_and, and_true] at h4
      obtain ⟨rfl, rfl⟩ := h4
      subst h1
      simp only
      split
      · rfl
      · split
        · rfl
        · rw [C94L.pumpA_same lib now _ _ _ (fun ops => (h3 ops).1)]

/-! ## Counterexamples and examples -/

/-- The grains of the copy of a file, and what was raised. -/
def C94_copied (strict : Bool) (o : Opts) (streaming : Bool) (bs : Bytes) : Option (List (Option Bytes × Nat) × End) × Option ACopyErr :=
  (C92_read (copyAsync C64_lib 7 strict o C79_out streaming bs).1.bytes, (copyAsync C64_lib 7 strict o C79_out streaming bs).2)

/-- A file with a picture, an event and another picture. -/
def C94_event : FileSpec := { C92_one with grains := C92_one.grains ++ [(1, C79_event)] ++ C92_one.grains }

/-- In the default mode the program stops at an event, with the `AttributeError` of the generator. An encoder that streams has written what came before,
and so has one that writes at the end. The synchronous program copies all of it, and so does the asynchronous one if the data is loaded at once. -/
theorem C94_event_counterexample :
    C94_copied false {} true C94_event.bytes = (some ([(some [1, 2, 3, 4, 5], 1)], .eof), some .attribute) ∧
      C94_copied false {} false C94_event.bytes = (some ([(some [1, 2, 3, 4, 5], 1)], .eof), some .attribute) ∧
      (C92_copied {} true C94_event.bytes).2 = false ∧ (C92_copied {} true C94_event.bytes).1.map (fun x => x.1.length) = some 3 ∧
      (C94_copied false { mode := .loadImmediately } true C94_event.bytes).2 = none ∧
      (C94_copied false { mode := .loadImmediately } true C94_event.bytes).1.map (fun x => x.1.length) = some 3 := by
  refine ⟨Prod.ext ?_ ?_, Prod.ext ?_ ?_, ?_, ?_, ?_, ?_⟩ <;> decide +kernel

/-- `AsyncBytesIO` raises when awaiting a grain whose data was cut; from a file the grain is copied with the data that is left, which is not what the
synchronous program does (`C92_cut_counterexample`). -/
theorem C94_bytesio_counterexample :
    C94_copied true {} true (C92_short C92_two) = (some ([(some [255, 0], 300)], .eof), some (.await .eofError)) ∧
      C94_copied false {} true (C92_short C92_two) = (some ([(some [255, 0], 300), (some [1, 2, 3], 1)], .eof), none) ∧
      C94_copied false {} false (C92_short C92_two) = (some ([(some [1, 2, 3], 1), (some [255, 0], 300)], .eof), none) := by
  refine ⟨Prod.ext ?_ ?_, Prod.ext ?_ ?_, Prod.ext ?_ ?_⟩ <;> decide +kernel

/-- The hypotheses of the theorems that are not those of C92: in the default mode, for files without events; and for files with events, if the data is
loaded at once. -/
example : (∀ x ∈ asked {} C92_two, Awaitable {} (x.2.2.toMeta x.1)) ∧ (∀ y ∈ C92_two.grains, Awaitable {} (y.2.toMeta C92_two.major)) ∧
    (∀ x ∈ C92_pieces.flatMap (fun y => asked {} y.spec), Awaitable {} (x.2.2.toMeta x.1)) ∧
    (∀ x ∈ asked { mode := .loadImmediately } C94_event, Awaitable { mode := .loadImmediately } (x.2.2.toMeta x.1)) ∧ (asked {} C92_two).length = 2 :=
  ⟨fun x hx => .inl ((by decide +kernel : ∀ x ∈ asked {} C92_two, (x.2.2.toMeta x.1).grainType ≠ some .event) x hx),
   fun x hx => .inl ((by decide +kernel : ∀ x ∈ C92_two.grains, (x.2.toMeta C92_two.major).grainType ≠ some .event) x hx),
   fun x hx => .inl ((by decide +kernel : ∀ x ∈ C92_pieces.flatMap (fun y => asked {} y.spec), (x.2.2.toMeta x.1).grainType ≠ some .event) x hx),
   fun _ _ => .inr rfl, by decide +kernel⟩

end Verif.Props

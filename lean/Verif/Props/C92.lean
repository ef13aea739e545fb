import Verif.Gsf.CopyLive
import Verif.Props.C79
import Verif.Props.C86

/-!
# C92: files copied grain by grain, joined files, and what is left of damaged ones
-/

namespace Verif.Props

open Verif Verif.Gsf Verif.Easy
open Verif.Attrs (Lib)

/-! ## Specification -/

/-- A file with the headers of `f` but for the counts, which are right, and the grains `gs`. -/
def counted (f : FileSpec) (gs : List (Nat × Grain)) : FileSpec :=
  ⟨f.major, f.minor,
    { f.head with segments := f.head.segments.map (fun sg => { sg with count := ((gs.filter (fun x => x.1 == sg.localId)).length : Nat) }) }, gs⟩

/-- The same file with counts of -1, as an encoder writes it that does not know how many grains there will be. -/
def uncounted (f : FileSpec) (gs : List (Nat × Grain)) : FileSpec :=
  ⟨f.major, f.minor, { f.head with segments := f.head.segments.map (fun sg => { sg with count := -1 }) }, gs⟩

/-- A grain of a file of version `x.1`, with local id `x.2.1`, as a program reads it. -/
def seenAs (x : Nat × Nat × Grain) : Meta × Option Bytes × Nat := (x.2.2.toMeta x.1, x.2.2.payload, x.2.1)

/-- The same grain in the normal form of its version (C79). -/
def normalAs (x : Nat × Nat × Grain) : Nat × Grain := (x.2.1, Copy.normal x.1 x.2.2)

/-- What the copying program makes of these grains, with the headers of `f`: a file with them in their order if the encoder streams, grouped by
segment if it writes at the end. The counts are right, unless the encoder streams to an output that cannot seek. -/
def copyOf (f : FileSpec) (streaming seekable : Bool) (gs : List (Nat × Nat × Grain)) : FileSpec :=
  if streaming then (if seekable then counted f (gs.map normalAs) else uncounted f (gs.map normalAs)) else Copy.grouped (counted f (gs.map normalAs))

/-- What is in an output after this file was written to it: one that can seek holds nothing else, in another (a pipe) it follows what was there. -/
def written (out : OutFile) (f : FileSpec) : Bytes := (if out.seekable then [] else out.bytes) ++ f.bytes

/-- The exception of a generator that ends so. -/
def raisedBy : End → Option CopyErr
  | .err e => some (.decoder e)
  | _ => none

/-- The grains that are asked for, of a file or of a piece of one. -/
def asked (o : Opts) (f : FileSpec) : List (Nat × Nat × Grain) :=
  (f.grains.filter (fun x => !o.drops x.1)).map (fun x => (f.major, x.1, x.2))

/-! ## Proofs -/

namespace C92L

open Verif.Props.Copy

/-- What the loop does, from the grains that the decoder yields. -/
def feed (lib : Lib) (now : Int) (file : Bytes) : Enc → List Item → End → Enc × Option CopyErr
  | e, [], en => (e, raisedBy en)
  | e, it :: its, en =>
    match (handOver lib now it (it.data.load file) e).2 with
    | some x => ((handOver lib now it (it.data.load file) e).1, some x)
    | none => feed lib now file (handOver lib now it (it.data.load file) e).1 its en

theorem fetch_eq (file : Bytes) (q : Nat) (d : Data) : Session.fetch file (some q) d = (d.load file, some q) := by
  cases d <;> rfl

theorem pump_succ (lib : Lib) (now : Int) (o : Opts) (file : Bytes) (n : Nat) (e : Enc) (h : Hdr) (hc : Bool) (p : Nat) :
    pump lib now o file (n + 1) e h hc p =
      match Session.pull o file h hc p with
      | (.stop, _, _) => (e, none)
      | (.raised x, _, _) => (e, some (.decoder x))
      | (.item it, h', q) =>
        match (handOver lib now it (Session.fetch file q it.data).1 e).2 with
        | some x => ((handOver lib now it (Session.fetch file q it.data).1 e).1, some x)
        | none =>
          pump lib now o file n (handOver lib now it (Session.fetch file q it.data).1 e).1 h' false ((Session.fetch file q it.data).2.getD 0) := by
  rw [pump]
  generalize Session.pull o file h hc p = r
  obtain ⟨a, h', q⟩ := r
  cases a with
  | stop => rfl
  | raised x => rfl
  | item it =>
    simp only
    generalize handOver lib now it (Session.fetch file q it.data).1 e = r
    obtain ⟨e', x⟩ := r
    cases x <;> rfl

theorem pump_eq (lib : Lib) (now : Int) (o : Opts) (file : Bytes) : ∀ (n : Nat) (m : Nat) (e : Enc) (h : Hdr) (hc : Bool) (p : Nat),
    file.length - p ≤ m → file.length - p < n →
    pump lib now o file n e h hc p = feed lib now file e (run o ⟨0, file⟩ h hc p).items (run o ⟨0, file⟩ h hc p).ending := by
  have hfin : (⟨0, file⟩ : Stream).fin = file.length := by simp [Stream.fin]
  intro n
  induction n with
  | zero => intro m e h hc p _ h2; omega
  | succ n ihn =>
    intro m
    induction m with
    | zero =>
      intro e h hc p h1 h2
      rw [pump_succ, Session.pull_eq, run_eq _ _ _ _ _ (Nat.zero_le _)]
      cases hs : grainsStep o h hc ⟨0, file⟩ p with
      | error x => cases x <;> simp only [feed, raisedBy]
      | ok v =>
        obtain ⟨st, q⟩ := v
        have := grainsStep_progress (Nat.zero_le _) hs
        rw [hfin] at this
        omega
    | succ m ihm =>
      intro e h hc p h1 h2
      rw [pump_succ, Session.pull_eq, run_eq _ _ _ _ _ (Nat.zero_le _)]
      cases hs : grainsStep o h hc ⟨0, file⟩ p with
      | error x => cases x <;> simp only [feed, raisedBy]
      | ok v =>
        obtain ⟨st, q⟩ := v
        have hq := grainsStep_progress (Nat.zero_le _) hs
        rw [hfin] at hq
        cases st with
        | stop => simp only [feed, raisedBy]
        | next h' hc' =>
          simp only
          rw [← pump_succ]
          exact ihm e h' hc' q (by omega) (by omega)
        | yield it =>
          simp only [fetch_eq, Run.prepend, List.singleton_append, feed, Option.getD_some]
          generalize handOver lib now it (it.data.load file) e = r
          obtain ⟨e', x⟩ := r
          cases x with
          | some x => rfl
          | none => exact ihn _ e' h false q (Nat.le_refl _) (by omega)

/-- A grain that is made is handed over by one call. -/
theorem handOver_ok {lib : Lib} {now : Int} {it : Item} {d : Option Bytes} {y : Nat × Grain} (h : liveGrain lib now it d = .ok y) (e : Enc) :
    handOver lib now it d e =
      match (Op.addGrains [y.2] none (some y.1) []).run e with
      | (e', .error x) => (e', some (.encoder x))
      | (e', .ok _) => (e', none) := by
  obtain ⟨l, g⟩ := y
  unfold handOver
  simp only [h]
  generalize Op.run e (Op.addGrains [g] none (some l) []) = r
  obtain ⟨e', v⟩ := r
  cases v <;> rfl

theorem handOver_taken {lib : Lib} {now : Int} {it : Item} {d : Option Bytes} {y : Nat × Grain} (h : liveGrain lib now it d = .ok y) {e e1 : Enc}
    {ws : List (Nat × Grain)} (ht : tryAll e (adds (y :: ws)) = .ok e1) :
    ∃ e', handOver lib now it d e = (e', none) ∧ tryAll e' (adds ws) = .ok e1 := by
  rw [handOver_ok h]
  change (match Op.run e (Op.addGrains [y.2] none (some y.1) []) with
    | (_, Except.error x) => Except.error x
    | (e1, Except.ok _) => tryAll e1 (adds ws)) = Except.ok e1 at ht
  generalize Op.run e (Op.addGrains [y.2] none (some y.1) []) = r at ht
  obtain ⟨e', v⟩ := r
  cases v with
  | error x => cases ht
  | ok w => exact ⟨e', rfl, ht⟩

theorem handOver_runs (lib : Lib) (now : Int) (it : Item) (d : Option Bytes) (e : Enc) :
    ∃ ws, (handOver lib now it d e).1 = e.runs (adds ws) ∧ ws.length ≤ 1 := by
  cases h : liveGrain lib now it d with
  | error x =>
    refine ⟨[], ?_, by simp⟩
    unfold handOver
    rw [h]
    rfl
  | ok y =>
    refine ⟨[y], ?_, by simp⟩
    rw [handOver_ok h]
    show _ = (Op.run e (Op.addGrains [y.2] none (some y.1) [])).1
    generalize Op.run e (Op.addGrains [y.2] none (some y.1) []) = r
    obtain ⟨e', v⟩ := r
    cases v <;> rfl

/-- The grains of some items are handed over, and the encoder takes them. -/
theorem feed_prefix (lib : Lib) (now : Int) (file : Bytes) (en : End) : ∀ (a b : List Item) (ws : List (Nat × Grain)) (e e1 : Enc),
    a.mapM (fun it => liveGrain lib now it (it.data.load file)) = .ok ws → tryAll e (adds ws) = .ok e1 →
    feed lib now file e (a ++ b) en = feed lib now file e1 b en := by
  intro a
  induction a with
  | nil =>
    intro b ws e e1 h1 h2
    cases h1
    cases h2
    rfl
  | cons it a ih =>
    intro b ws e e1 h1 h2
    rw [List.mapM_cons] at h1
    cases hl : liveGrain lib now it (it.data.load file) with
    | error x => rw [hl] at h1; cases h1
    | ok y =>
      rw [hl] at h1
      cases hm : a.mapM (fun it => liveGrain lib now it (it.data.load file)) with
      | error x => rw [hm] at h1; cases h1
      | ok ws' =>
        rw [hm] at h1
        cases h1
        obtain ⟨e', h3, h4⟩ := handOver_taken hl h2
        simp only [List.cons_append, feed, h3]
        exact ih b ws' e' e1 hm h4

theorem adds_append (a b : List (Nat × Grain)) : adds (a ++ b) = adds a ++ adds b := by simp [adds]

/-- Whatever happens, the encoder has been given some grains, one by one. -/
theorem feed_runs (lib : Lib) (now : Int) (file : Bytes) (en : End) : ∀ (a : List Item) (e : Enc),
    ∃ ws, (feed lib now file e a en).1 = e.runs (adds ws) ∧ ws.length ≤ a.length := by
  intro a
  induction a with
  | nil => intro e; exact ⟨[], rfl, Nat.le_refl _⟩
  | cons it a ih =>
    intro e
    simp only [feed]
    obtain ⟨ws, h1, h2⟩ := handOver_runs lib now it (it.data.load file) e
    generalize handOver lib now it (it.data.load file) e = r at h1
    obtain ⟨e', x⟩ := r
    simp only at h1
    cases x with
    | some x => exact ⟨ws, h1, by simp only [List.length_cons]; omega⟩
    | none =>
      obtain ⟨ws', h3, h4⟩ := ih e'
      refine ⟨ws ++ ws', ?_, by simp only [List.length_append, List.length_cons]; omega⟩
      simp only
      rw [h3, h1, adds_append, runs_append]

/-! ### One grain -/

/-- Deferred data is all there. -/
def Honest (file : Bytes) (it : Item) : Prop := ∀ a n, it.data = .deferred a n → ((file.drop a).take n).length = n

theorem inside_honest {file : Bytes} {it : Item} (h : it.Inside file) : Honest file it := by
  intro a n he
  have := h a n he
  simp only [List.length_take, List.length_drop]
  omega

/-- An item is a grain of a file of version `x.1`. -/
structure Shows (file : Bytes) (it : Item) (x : Nat × Nat × Grain) : Prop where
  info : it.info = x.2.2.toMeta x.1
  lid : it.localId = x.2.1
  data : (it.data.load file).getD [] = x.2.2.data.getD []
  event : x.2.2.body = .event → it.data.load file = x.2.2.payload

/-- Grains that are written alike. -/
def Same (y z : Nat × Grain) : Prop := y.1 = z.1 ∧ ∀ m, encodeGrain m y.1 y.2 = encodeGrain m z.1 z.2

theorem shows_of {file : Bytes} {it : Item} {x : Nat × Nat × Grain} (h : it.view file = seenAs x) : Shows file it x := by
  have hd : it.data.load file = x.2.2.payload := congrArg (fun v => v.2.1) h
  exact ⟨congrArg (fun v => v.1) h, congrArg (fun v => v.2.2) h, by rw [hd, payload_getD], fun _ => hd⟩

theorem shows_all {file : Bytes} : ∀ (items : List Item) (gs : List (Nat × Nat × Grain)),
    items.map (Item.view file) = gs.map seenAs → List.Forall₂ (Shows file) items gs := by
  intro items
  induction items with
  | nil =>
    intro gs h
    cases gs with
    | nil => exact .nil
    | cons x gs => cases h
  | cons it items ih =>
    intro gs h
    cases gs with
    | nil => cases h
    | cons x gs =>
      simp only [List.map_cons, List.cons.injEq] at h
      exact .cons (shows_of h.1) (ih gs h.2)

theorem live_one {lib : Lib} (hl : lib.Lawful) (now : Int) {file : Bytes} {it : Item} {x : Nat × Nat × Grain} (hv : Shows file it x)
    (hh : Honest file it) (hw : x.2.2.Wf) (ho : Objective x.1 x.2.2) :
    ∃ y, liveGrain lib now it (it.data.load file) = .ok y ∧ Same y (normalAs x) := by
  have hbody : (normal x.1 x.2.2).body = .event → x.2.2.body = .event := by
    show normalBody x.1 x.2.2.body = .event → _
    cases x.2.2.body <;> intro h <;> first | rfl | cases h
  obtain ⟨o, b, h1, h2, h3⟩ := remade_any hl now (g := normal x.1 x.2.2) ⟨hw.1, hw.2.1⟩ (normal_objective ho) (normal_offsets x.1 x.2.2)
    (q := it.data.load file) hv.data (fun h => hv.event (hbody h))
  have hr : rewrite lib now (it.info, it.data.load file, it.localId) =
      .ok (x.2.1, { normal x.1 x.2.2 with data := b, length := (b.getD []).length }) := by
    unfold rewrite
    simp only [hv.info, hv.lid, toMeta_normal, h1, h2]
  refine ⟨(x.2.1, { normal x.1 x.2.2 with data := b, length := (b.getD []).length }), ?_, rfl, fun m => ?_⟩
  · unfold liveGrain
    rw [hr]
    simp only
    congr 2
    unfold lengthened
    cases hdat : it.data with
    | none => rfl
    | bytes bs => rfl
    | deferred a n =>
      simp only
      split
      · rfl
      · have hn := hh a n hdat
        have hp := hv.data
        rw [hdat] at hp
        have hp' : (file.drop a).take n = x.2.2.data.getD [] := hp
        have : (b.getD []).length = n := by
          rw [h3]
          show (x.2.2.data.getD []).length = n
          rw [← hp', hn]
        rw [this]
  · exact encode_data (g := normal x.1 x.2.2) m x.2.1 hw.2.2 h3

theorem live_all {lib : Lib} (hl : lib.Lawful) (now : Int) {file : Bytes} {items : List Item} {gs : List (Nat × Nat × Grain)}
    (h : List.Forall₂ (Shows file) items gs) : (∀ it ∈ items, Honest file it) → (∀ x ∈ gs, x.2.2.Wf ∧ Objective x.1 x.2.2) →
    ∃ ws, items.mapM (fun it => liveGrain lib now it (it.data.load file)) = .ok ws ∧ List.Forall₂ Same ws (gs.map normalAs) := by
  induction h with
  | nil => intro _ _; exact ⟨[], rfl, .nil⟩
  | @cons it x items gs h1 _ ih =>
    intro hh hg
    obtain ⟨y, h3, h4⟩ := live_one hl now h1 (hh it (by simp)) (hg x (by simp)).1 (hg x (by simp)).2
    obtain ⟨ws, h5, h6⟩ := ih (fun z hz => hh z (by simp [hz])) (fun z hz => hg z (by simp [hz]))
    refine ⟨y :: ws, ?_, .cons h4 h6⟩
    rw [List.mapM_cons, h3, h5]
    rfl

/-! ### Files -/

theorem ofSeg_len (l : Nat) (ws : List (Nat × Grain)) : (ofSeg l ws).length = (ws.filter (fun x => x.1 == l)).length := by
  unfold ofSeg; rw [List.length_map]

theorem stream_spec (out : OutFile) (f : FileSpec) (streaming : Bool) (ws : List (Nat × Grain)) :
    streamSpec (opened (setUp out f streaming)) ws = counted f ws := by
  have h2 : (opened (setUp out f streaming)).pending ++ ws = ws := by rw [setup_pending, List.nil_append]
  unfold streamSpec counted
  rw [h2]
  have : (opened (setUp out f streaming)).segs = f.head.segments.map full := rfl
  rw [this, List.map_map]
  show FileSpec.mk _ _ (HeadIn.mk _ _ _ _) _ = FileSpec.mk _ _ (HeadIn.mk _ _ _ _) _
  congr 2
  apply List.map_congr_left
  intro sg _
  simp only [Function.comp_apply, ofSeg_len]
  show SegmIn.mk _ _ ((0 + 0 + _ : Nat) : Int) _ _ = _
  simp only [Nat.zero_add]
  rfl

theorem plain_spec (out : OutFile) (f : FileSpec) (streaming : Bool) (ws : List (Nat × Grain)) :
    plainSpec { opened (setUp out f streaming) with segs := withGrains (setUp out f streaming).segs ws } true [] = grouped (counted f ws) := by
  have hsegs : withGrains (setUp out f streaming).segs ws = f.head.segments.map (fun sg => { full sg with grains := ofSeg sg.localId ws }) := by
    unfold withGrains
    have : (setUp out f streaming).segs = f.head.segments.map full := rfl
    rw [this, List.map_map]
    rfl
  rw [hsegs]
  show FileSpec.mk _ _ (HeadIn.mk _ _ _ _) _ = FileSpec.mk _ _ (HeadIn.mk _ _ _ _) _
  congr 1
  · congr 1
    rw [List.map_map]
    apply List.map_congr_left
    intro sg _
    show SegmIn.mk _ _ (((ofSeg sg.localId ws).length + 0 : Nat) : Int) _ _ = _
    rw [ofSeg_len]
    rfl
  · show Enc.pending _ ++ [] = List.flatMap _ (f.head.segments.map _)
    rw [List.append_nil]
    unfold Enc.pending
    rw [List.flatMap_map, List.flatMap_map]
    congr 1
    funext sg
    exact filter_pairs sg.localId ws

theorem unpatched_spec (out : OutFile) (f : FileSpec) (streaming : Bool) (ws : List (Nat × Grain)) :
    plainSpec (opened (setUp out f streaming)) false ws = uncounted f ws := by
  have h2 : (opened (setUp out f streaming)).pending ++ ws = ws := by rw [setup_pending, List.nil_append]
  unfold plainSpec uncounted
  rw [h2]
  show FileSpec.mk _ _ (HeadIn.mk _ _ (List.map _ (f.head.segments.map full)) _) _ = FileSpec.mk _ _ (HeadIn.mk _ _ _ _) _
  rw [List.map_map]
  rfl

theorem encode_same (m : Nat) {a b : List (Nat × Grain)} (h : List.Forall₂ Same a b) :
    a.flatMap (fun x => encodeGrain m x.1 x.2) = b.flatMap (fun x => encodeGrain m x.1 x.2) := by
  induction h with
  | nil => rfl
  | cons h1 _ ih => rw [List.flatMap_cons, List.flatMap_cons, ih, h1.2]

theorem filter_same (l : Nat) {a b : List (Nat × Grain)} (h : List.Forall₂ Same a b) :
    List.Forall₂ Same (a.filter (fun x => x.1 == l)) (b.filter (fun x => x.1 == l)) := by
  induction h with
  | nil => exact .nil
  | @cons y z a b h1 _ ih =>
    rw [List.filter_cons, List.filter_cons, h1.1]
    split
    · exact .cons h1 ih
    · exact ih

theorem same_refl (a : List (Nat × Grain)) : List.Forall₂ Same a a := by
  induction a with
  | nil => exact .nil
  | cons x a ih => exact .cons ⟨rfl, fun _ => rfl⟩ ih

theorem same_append {a b c d : List (Nat × Grain)} (h : List.Forall₂ Same a b) (h' : List.Forall₂ Same c d) : List.Forall₂ Same (a ++ c) (b ++ d) := by
  induction h with
  | nil => exact h'
  | cons h1 _ ih => exact .cons h1 ih

theorem head_same (f : FileSpec) {a b : List (Nat × Grain)} (h : List.Forall₂ Same a b) : (counted f a).head = (counted f b).head := by
  unfold counted
  simp only
  congr 1
  apply List.map_congr_left
  intro sg _
  rw [(filter_same sg.localId h).length_eq]

theorem counted_same (f : FileSpec) {a b : List (Nat × Grain)} (h : List.Forall₂ Same a b) : (counted f a).bytes = (counted f b).bytes :=
  bytes_of rfl rfl (head_same f h) (encode_same _ h)

theorem uncounted_same (f : FileSpec) {a b : List (Nat × Grain)} (h : List.Forall₂ Same a b) : (uncounted f a).bytes = (uncounted f b).bytes :=
  bytes_of rfl rfl rfl (encode_same _ h)

theorem copy_bytes (f : FileSpec) (streaming seekable : Bool) {ws : List (Nat × Grain)} {gs : List (Nat × Nat × Grain)}
    (h : List.Forall₂ Same ws (gs.map normalAs)) :
    (if streaming then (if seekable then counted f ws else uncounted f ws) else grouped (counted f ws)).bytes = (copyOf f streaming seekable gs).bytes := by
  unfold copyOf
  cases streaming with
  | true =>
    cases seekable with
    | true => exact counted_same f h
    | false => exact uncounted_same f h
  | false =>
    simp only [Bool.false_eq_true, if_false]
    refine bytes_of rfl rfl (head_same f h) ?_
    show List.flatMap _ (List.flatMap _ (f.head.segments.map _)) = List.flatMap _ (List.flatMap _ (f.head.segments.map _))
    rw [List.flatMap_map, List.flatMap_map, List.flatMap_assoc, List.flatMap_assoc]
    congr 1
    funext sg
    exact encode_same _ (filter_same sg.localId h)

theorem same_lids {ws : List (Nat × Grain)} {gs : List (Nat × Nat × Grain)} (h : List.Forall₂ Same ws (gs.map normalAs)) {l : List Nat}
    (hd : ∀ x ∈ gs, x.2.1 ∈ l) : ∀ y ∈ ws, y.1 ∈ l := by
  induction gs generalizing ws with
  | nil => cases h; intro y hy; cases hy
  | cons x gs ih =>
    cases h with
    | cons h1 h2 =>
      intro y hy
      rcases List.mem_cons.1 hy with rfl | hy
      · rw [h1.1]; exact hd x (by simp)
      · exact ih h2 (fun z hz => hd z (by simp [hz])) y hy

/-! ### The program -/

theorem live_eq {lib : Lib} {now : Int} {o : Opts} {out : OutFile} {streaming : Bool} {file : Bytes} {f : FileSpec} {p : Nat} (hf : f.Ok)
    (hn : (f.head.segments.map SegmIn.localId).Nodup) (hh : decodeFileHeaders false ⟨0, file⟩ 0 = .ok (f.hdr, p)) {r : Run}
    (hr : decodeFile o file = .ok r) :
    copyLive lib now o out streaming file =
      (((feed lib now file (Op.enter.run (setUp out f streaming)).1 r.items r.ending).1.exit).file,
        (feed lib now file (Op.enter.run (setUp out f streaming)).1 r.items r.ending).2) := by
  obtain ⟨h5, h6⟩ := setup_ok out f streaming hf hn
  unfold decodeFile at hr
  rw [hh] at hr
  cases hr
  unfold copyLive
  simp only [hh, h5, h6]
  rw [pump_eq lib now o file (file.length + 1) (file.length - p) _ _ _ _ (Nat.le_refl _) (by omega), grains_eq_run]
  rfl

/-- All the grains are good and the segments are there. -/
theorem feed_whole {lib : Lib} (hl : lib.Lawful) (now : Int) {out : OutFile} {streaming : Bool} {file : Bytes}
    {f : FileSpec} (hf : f.Ok) (hn : (f.head.segments.map SegmIn.localId).Nodup) {items : List Item} (en : End) {gs : List (Nat × Nat × Grain)}
    (hv : List.Forall₂ (Shows file) items gs) (hhon : ∀ it ∈ items, Honest file it) (hg : ∀ x ∈ gs, x.2.2.Wf ∧ Objective x.1 x.2.2)
    (hd : ∀ x ∈ gs, x.2.1 ∈ f.head.segments.map SegmIn.localId) :
    ∃ e1, feed lib now file (Op.enter.run (setUp out f streaming)).1 items en = (e1, raisedBy en) ∧
      e1.exit.file.bytes = written out (copyOf f streaming out.seekable gs) := by
  have hb := setup_born out f streaming hf hn
  obtain ⟨ws, hlive, hsame⟩ := live_all hl now hv hhon hg
  have hd' : ∀ x ∈ ws, x.1 ∈ (setUp out f streaming).lids := by
    rw [lids_setup]
    exact same_lids hsame hd
  obtain ⟨e2, h7, h8⟩ := try_copy_any hb ws hd'
  have h7' : tryAll (Op.enter.run (setUp out f streaming)).1 (adds ws ++ [.exit]) = .ok e2 := h7
  obtain ⟨e1, h9⟩ : ∃ e1, tryAll (Op.enter.run (setUp out f streaming)).1 (adds ws) = .ok e1 := by
    have : ∀ (a : List Op) (b : List Op) (e : Enc), tryAll e (a ++ b) = .ok e2 → ∃ e1, tryAll e a = .ok e1 := by
      intro a
      induction a with
      | nil => intro b e _; exact ⟨e, rfl⟩
      | cons c a ih =>
        intro b e h
        simp only [List.cons_append, tryAll] at h ⊢
        cases hc : c.run e with
        | mk e' v =>
          rw [hc] at h
          cases v with
          | error x => cases h
          | ok w => exact ih b e' h
    exact this _ _ _ h7'
  rw [tryAll_append _ _ _ _ h9] at h7'
  cases h7'
  have hfeed := feed_prefix lib now file en items [] _ _ _ hlive h9
  rw [List.append_nil] at hfeed
  refine ⟨e1, hfeed, ?_⟩
  rw [show e1.exit.file.bytes = _ from h8]
  have hst : (setUp out f streaming).streaming = streaming := rfl
  have hfl : (setUp out f streaming).file = out := rfl
  rw [hst, hfl, stream_spec, plain_spec, unpatched_spec, copy_bytes f streaming out.seekable hsame]
  rfl

theorem whole {lib : Lib} (hl : lib.Lawful) (now : Int) {o : Opts} {out : OutFile} {streaming : Bool} {file : Bytes}
    {f : FileSpec} {p : Nat} (hf : f.Ok) (hn : (f.head.segments.map SegmIn.localId).Nodup)
    (hh : decodeFileHeaders false ⟨0, file⟩ 0 = .ok (f.hdr, p)) {r : Run} (hr : decodeFile o file = .ok r) {gs : List (Nat × Nat × Grain)}
    (hv : List.Forall₂ (Shows file) r.items gs) (hhon : ∀ it ∈ r.items, Honest file it) (hg : ∀ x ∈ gs, x.2.2.Wf ∧ Objective x.1 x.2.2)
    (hd : ∀ x ∈ gs, x.2.1 ∈ f.head.segments.map SegmIn.localId) :
    ∃ out', copyLive lib now o out streaming file = (out', raisedBy r.ending) ∧ out'.bytes = written out (copyOf f streaming out.seekable gs) := by
  obtain ⟨e1, h1, h2⟩ := feed_whole hl now (out := out) (streaming := streaming) hf hn r.ending hv hhon hg hd
  exact ⟨e1.exit.file, by rw [live_eq hf hn hh hr, h1], h2⟩

/-! ### What the decoder yields -/

theorem views_loads {o : Opts} (ho : Loads o) (major : Nat) (x : Nat × Grain) : o.viewOf major x = seenAs (major, x.1, x.2) := by
  unfold Opts.viewOf seenAs
  simp only
  rw [if_neg]
  rintro ⟨h1, h2⟩
  rcases ho with h | h
  · rw [h] at h1; cases h1
  · exact h h2

theorem asked_seen {o : Opts} (ho : Loads o) (f : FileSpec) :
    (f.grains.filter (fun x => !o.drops x.1)).map (o.viewOf f.major) = (asked o f).map seenAs := by
  unfold asked
  rw [List.map_map]
  exact List.map_congr_left (fun x _ => views_loads ho f.major x)

theorem asked_mem {o : Opts} {f : FileSpec} {x : Nat × Nat × Grain} (h : x ∈ asked o f) : x.1 = f.major ∧ (x.2.1, x.2.2) ∈ f.grains := by
  obtain ⟨y, hy, rfl⟩ := List.mem_map.mp h
  exact ⟨rfl, (List.mem_filter.1 hy).1⟩

theorem asked_wf {o : Opts} {f : FileSpec} (hf : f.Ok) {x : Nat × Nat × Grain} (h : x ∈ asked o f) : x.2.2.Wf :=
  (hf.grains _ (asked_mem h).2).2.wf

/-- Data that does not depend on what follows is all there. -/
theorem stable_honest {p : Nat} {bs : Bytes} {items : List Item} {l : List (Meta × Option Bytes × Nat)}
    (h : ∀ file, At ⟨0, file⟩ p bs → items.map (Item.view file) = l) {file : Bytes} (hat : At ⟨0, file⟩ p bs) :
    ∀ it ∈ items, Honest file it := by
  intro it hit a n he
  have hat2 : At ⟨0, file ++ List.replicate (a + n) 0⟩ p bs := by
    refine ⟨Nat.zero_le _, ?_⟩
    have := hat.2
    simp only [Nat.sub_zero] at this ⊢
    exact this.trans ⟨(List.replicate (a + n) (0 : UInt8)).drop (p - file.length), by rw [List.drop_append]⟩
  have e := (h _ hat).trans (h _ hat2).symm
  have e2 := List.map_inj_left.1 e it hit
  have e3 : it.data.load file = it.data.load (file ++ List.replicate (a + n) 0) := congrArg (fun v => v.2.1) e2
  rw [he] at e3
  simp only [Data.load, Option.some.injEq] at e3
  rw [e3]
  simp only [List.length_take, List.length_drop, List.length_append, List.length_replicate]
  omega

theorem header_at {f : FileSpec} (hf : f.Ok) {bs : Bytes} (hd : DecoFile f bs) (rest : Bytes) :
    ∃ p, decodeFileHeaders false ⟨0, bs ++ rest⟩ 0 = .ok (f.hdr, p) := by
  obtain ⟨pre, hb, gb, post, hpre, hhd, -, -, rfl⟩ := hd
  refine ⟨_, fileHeaders_read hf.major hf.minor hf.head hhd hpre ⟨0, _⟩ 0 ?_⟩
  have : encodeFileHeader f.major f.minor ++ ((blksBytes pre ++ hb.bytes) ++ (gb ++ (terminator ++ blksBytes post))) ++ rest =
      (encodeFileHeader f.major f.minor ++ (blksBytes pre ++ hb.bytes)) ++ ((gb ++ (terminator ++ blksBytes post)) ++ rest) := by
    simp only [List.append_assoc]
  rw [this]
  exact at_self_append 0 _ _

theorem items_le (o : Opts) (file : Bytes) : ∀ (m : Nat) (h : Hdr) (hc : Bool) (p : Nat), file.length - p ≤ m →
    (run o ⟨0, file⟩ h hc p).items.length ≤ m := by
  have hfin : (⟨0, file⟩ : Stream).fin = file.length := by simp [Stream.fin]
  intro m
  induction m with
  | zero =>
    intro h hc p hm
    rw [run_eq _ _ _ _ _ (Nat.zero_le _)]
    cases hs : grainsStep o h hc ⟨0, file⟩ p with
    | error x => cases x <;> simp
    | ok v =>
      obtain ⟨st, q⟩ := v
      have := grainsStep_progress (Nat.zero_le _) hs
      rw [hfin] at this
      omega
  | succ m ih =>
    intro h hc p hm
    rw [run_eq _ _ _ _ _ (Nat.zero_le _)]
    cases hs : grainsStep o h hc ⟨0, file⟩ p with
    | error x => cases x <;> simp
    | ok v =>
      obtain ⟨st, q⟩ := v
      have := grainsStep_progress (Nat.zero_le _) hs
      rw [hfin] at this
      cases st with
      | stop => simp
      | next h' hc' => simp only; exact Nat.le_succ_of_le (ih h' hc' q (by omega))
      | yield it =>
        simp only [Run.prepend, List.singleton_append, List.length_cons]
        exact Nat.succ_le_succ (ih h false q (by omega))

theorem entered {e : Enc} (hb : Born e) (ws : List (Nat × Grain)) (hd : ∀ x ∈ ws, x.1 ∈ e.lids) :
    (Op.enter.run e).1.taken (adds ws) = ws := by
  obtain ⟨-, -, h3, h4⟩ := session_any e hb (adds ws) (adds_declared hd)
  rw [routed_adds] at h3 h4
  have hm : e.inMode e.streaming = e := rfl
  cases hs : e.streaming with
  | true => rw [hs] at hm; rw [hm] at h3; exact h3
  | false => rw [hs] at hm; rw [hm] at h4; exact h4

theorem adds_edits (ws : List (Nat × Grain)) : Edits (adds ws) := by
  intro o ho
  obtain ⟨x, -, rfl⟩ := List.mem_map.mp ho
  exact ⟨rfl, fun j hj => by cases hj⟩

/-- Some grains are handed over to an encoder that streams, then whatever comes. -/
theorem feed_salvage {lib : Lib} (hl : lib.Lawful) (now : Int) {out : OutFile} {file : Bytes}
    {f : FileSpec} (hf : f.Ok) (hn : (f.head.segments.map SegmIn.localId).Nodup) {i1 : List Item} (i2 : List Item) (en : End) {gs : List (Nat × Nat × Grain)}
    (hv : i1.map (Item.view file) = gs.map seenAs) (hhon : ∀ it ∈ i1, Honest file it) (hg : ∀ x ∈ gs, x.2.2.Wf ∧ Objective x.1 x.2.2)
    (hd : ∀ x ∈ gs, x.2.1 ∈ f.head.segments.map SegmIn.localId) :
    ∃ ws, (feed lib now file (Op.enter.run (setUp out f true)).1 (i1 ++ i2) en).1.exit.file.bytes =
      written out (if out.seekable then counted f (gs.map normalAs ++ ws) else uncounted f (gs.map normalAs ++ ws)) ∧ ws.length ≤ i2.length := by
  have hb := setup_born out f true hf hn
  obtain ⟨vs, hlive, hsame⟩ := live_all hl now (shows_all i1 gs hv) hhon hg
  have hd' : ∀ x ∈ vs, x.1 ∈ (setUp out f true).lids := by
    rw [lids_setup]
    exact same_lids hsame hd
  have htk := entered hb vs hd'
  have h9 := try_adds vs _ (congrArg List.length htk)
  have hfeed := feed_prefix lib now file en i1 i2 _ _ _ hlive h9
  obtain ⟨ws, h1, h2⟩ := feed_runs lib now file en i2 ((Op.enter.run (setUp out f true)).1.runs (adds vs))
  obtain ⟨held, e', hlv, hfile⟩ := stream_session hb (start := .enter) (stop := .exit) (.inr ⟨rfl, rfl, rfl⟩) (adds_edits (vs ++ ws))
  have hbytes : (e'.finish 0).file.bytes = written out (if out.seekable then
      streamSpec (opened (setUp out f true)) ((Op.enter.run (setUp out f true)).1.taken (adds (vs ++ ws)))
      else plainSpec (opened (setUp out f true)) false ((Op.enter.run (setUp out f true)).1.taken (adds (vs ++ ws)))) := by
    unfold written
    by_cases hout : out.seekable = true
    · rw [if_pos hout, if_pos hout]; exact stream_file hlv hout
    · rw [if_neg hout, if_neg hout, plain_file hlv (.inl (by show out.seekable = false; simpa using hout))]
      show (if out.seekable = true then _ else _) ++ _ = _
      rw [if_neg hout]; rfl
  rw [adds_append, taken_append, htk] at hbytes
  refine ⟨((Op.enter.run (setUp out f true)).1.runs (adds vs)).taken (adds ws), ?_, ?_⟩
  · rw [hfeed, h1, ← runs_append, ← adds_append]
    have e1 : ((Op.enter.run (setUp out f true)).1.runs (adds (vs ++ ws))).exit.file =
        ((setUp out f true).runs (.enter :: (adds (vs ++ ws) ++ [.exit]))).file := by
      show _ = ((Op.enter.run (setUp out f true)).1.runs (adds (vs ++ ws) ++ [.exit])).file
      rw [runs_append]
      rfl
    rw [e1, hfile, hbytes, stream_spec, unpatched_spec]
    generalize ((Op.enter.run (setUp out f true)).1.runs (adds vs)).taken (adds ws) = t
    unfold written
    by_cases hout : out.seekable = true
    · rw [if_pos hout, if_pos hout, if_pos hout, counted_same f (same_append hsame (same_refl t))]
    · rw [if_neg hout, if_neg hout, if_neg hout, uncounted_same f (same_append hsame (same_refl t))]
  · exact Nat.le_trans (taken_le ws _) h2

theorem salvage {lib : Lib} (hl : lib.Lawful) (now : Int) {o : Opts} {out : OutFile} {file : Bytes}
    {f : FileSpec} {p : Nat} (hf : f.Ok) (hn : (f.head.segments.map SegmIn.localId).Nodup)
    (hh : decodeFileHeaders false ⟨0, file⟩ 0 = .ok (f.hdr, p)) {r : Run} (hr : decodeFile o file = .ok r) {i1 i2 : List Item}
    (hi : r.items = i1 ++ i2) {gs : List (Nat × Nat × Grain)}
    (hv : i1.map (Item.view file) = gs.map seenAs) (hhon : ∀ it ∈ i1, Honest file it) (hg : ∀ x ∈ gs, x.2.2.Wf ∧ Objective x.1 x.2.2)
    (hd : ∀ x ∈ gs, x.2.1 ∈ f.head.segments.map SegmIn.localId) :
    ∃ out' x ws, copyLive lib now o out true file = (out', x) ∧ out'.bytes = written out (if out.seekable then counted f (gs.map normalAs ++ ws) else uncounted f (gs.map normalAs ++ ws)) ∧ ws.length ≤ i2.length := by
  obtain ⟨ws, h1, h2⟩ := feed_salvage hl now (out := out) hf hn i2 r.ending hv hhon hg hd
  rw [← hi] at h1
  exact ⟨_, _, ws, live_eq hf hn hh hr, h1, h2⟩

theorem counted_ok {f : FileSpec} (h : f.Ok) (gs : List (Nat × Grain)) (t : List (Nat × Grain)) (hn : (gs ++ t).length < 2 ^ 63)
    (hg : ∀ x ∈ gs, x.1 < 2 ^ 16 ∧ x.2.Ok f.major) : ({ counted f (gs ++ t) with grains := gs } : FileSpec).Ok where
  major := h.major
  minor := h.minor
  head := by
    obtain ⟨a1, a2, a3, a4, a5⟩ := h.head
    refine ⟨a1, a2, ?_, a4, ?_⟩
    · intro sg hs
      obtain ⟨x, hx, rfl⟩ := List.mem_map.mp hs
      obtain ⟨b1, b2, b3, b4, b5⟩ := a3 x hx
      refine ⟨b1, b2, ?_, b4, b5⟩
      have := List.length_filter_le (fun y : Nat × Grain => y.1 == x.localId) (gs ++ t)
      simp only
      omega
    · have : headSize (counted f (gs ++ t)).head = headSize f.head := by
        show 31 + ((f.head.segments.map _).map segmBlockSize).sum + _ = _
        rw [List.map_map]
        rfl
      show headSize (counted f (gs ++ t)).head < _
      omega
  grains := hg

theorem uncounted_ok {f : FileSpec} (h : f.Ok) (gs : List (Nat × Grain)) (t : List (Nat × Grain))
    (hg : ∀ x ∈ gs, x.1 < 2 ^ 16 ∧ x.2.Ok f.major) : ({ uncounted f t with grains := gs } : FileSpec).Ok where
  major := h.major
  minor := h.minor
  head := by
    obtain ⟨a1, a2, a3, a4, a5⟩ := h.head
    refine ⟨a1, a2, ?_, a4, ?_⟩
    · intro sg hs
      obtain ⟨x, hx, rfl⟩ := List.mem_map.mp hs
      obtain ⟨b1, b2, b3, b4, b5⟩ := a3 x hx
      exact ⟨b1, b2, by show -2 ^ 63 ≤ (-1 : Int) ∧ (-1 : Int) < 2 ^ 63; decide, b4, b5⟩
    · have : headSize (uncounted f t).head = headSize f.head := by
        show 31 + ((f.head.segments.map _).map segmBlockSize).sum + _ = _
        rw [List.map_map]
        rfl
      show headSize (uncounted f t).head < _
      omega
  grains := hg

theorem seen_normal (x : Nat × Nat × Grain) : seenAs (x.1, normalAs x) = seenAs x := by
  unfold seenAs normalAs
  simp only [toMeta_normal, normal_normal]
  rfl

/-- A file that begins with the grains that were asked for is read so. -/
theorem reads_first {f : FileSpec} (hf : f.Ok) (o : Opts) (ws : List (Nat × Grain)) (seekable : Bool) (hlen : (asked o f).length + ws.length < 2 ^ 63) :
    ∃ r tail, decodeFile {} (if seekable then counted f ((asked o f).map normalAs ++ ws) else uncounted f ((asked o f).map normalAs ++ ws)).bytes = .ok r ∧
      r.view (if seekable then counted f ((asked o f).map normalAs ++ ws) else uncounted f ((asked o f).map normalAs ++ ws)).bytes =
        (asked o f).map seenAs ++ tail := by
  have hgs : ∀ y ∈ (asked o f).map normalAs, y.1 < 2 ^ 16 ∧ y.2.Ok f.major := by
    intro y hy
    obtain ⟨z, hz, rfl⟩ := List.mem_map.mp hy
    obtain ⟨h1, h2⟩ := asked_mem hz
    have := hf.grains _ h2
    refine ⟨this.1, ?_⟩
    show (Copy.normal z.1 z.2.2).Ok f.major
    rw [h1]
    exact Copy.normal_ok this.2
  obtain ⟨c, hc1, hc2, hc3⟩ : ∃ c : FileSpec,
      (if seekable then counted f ((asked o f).map normalAs ++ ws) else uncounted f ((asked o f).map normalAs ++ ws)) =
        { c with grains := (asked o f).map normalAs ++ ws } ∧ ({ c with grains := (asked o f).map normalAs } : FileSpec).Ok ∧ c.major = f.major := by
    by_cases hout : seekable = true
    · rw [if_pos hout]
      exact ⟨counted f ((asked o f).map normalAs ++ ws), rfl, counted_ok hf _ _ (by
        rw [List.length_append, List.length_map]
        exact hlen) hgs, rfl⟩
    · rw [if_neg hout]
      exact ⟨uncounted f ((asked o f).map normalAs ++ ws), rfl, uncounted_ok hf _ _ hgs, rfl⟩
  rw [hc1]
  obtain ⟨r, tail, h1, h2⟩ := C83.begins {} hc2 (ws.flatMap (fun y => encodeGrain f.major y.1 y.2) ++ terminator)
  have hb : C83.headBytes { c with grains := (asked o f).map normalAs } ++
      (((asked o f).map normalAs).flatMap (fun y => encodeGrain c.major y.1 y.2) ++ (ws.flatMap (fun y => encodeGrain f.major y.1 y.2) ++ terminator)) =
      ({ c with grains := (asked o f).map normalAs ++ ws } : FileSpec).bytes := by
    simp [FileSpec.bytes, C83.headBytes, hc3]
  change decodeFile {} (C83.headBytes { c with grains := (asked o f).map normalAs } ++
      (((asked o f).map normalAs).flatMap (fun y => encodeGrain c.major y.1 y.2) ++ (ws.flatMap (fun y => encodeGrain f.major y.1 y.2) ++ terminator))) = .ok r at h1
  change r.view (C83.headBytes { c with grains := (asked o f).map normalAs } ++
      (((asked o f).map normalAs).flatMap (fun y => encodeGrain c.major y.1 y.2) ++ (ws.flatMap (fun y => encodeGrain f.major y.1 y.2) ++ terminator))) = _ at h2
  rw [hb] at h1 h2
  refine ⟨r, tail, h1, ?_⟩
  rw [h2]
  congr 1
  show (((asked o f).map normalAs).filter (fun y => !Opts.drops {} y.1)).map (Opts.viewOf {} c.major) = _
  have hall : ((asked o f).map normalAs).filter (fun y => !Opts.drops {} y.1) = (asked o f).map normalAs := List.filter_eq_self.2 (fun y _ => rfl)
  rw [hall, List.map_map]
  apply List.map_congr_left
  intro z hz
  obtain ⟨h3, -⟩ := asked_mem hz
  rw [← seen_normal z, Function.comp_apply, views_loads Copy.loads_all, h3, hc3]

/-- What a decoder finds in a file that was cut. -/
theorem cut_shows {o : Opts} (ho : Loads o) {f : FileSpec} (hf : f.Ok) {n : Nat} (hcut : grainsEnd f 0 ≤ n)
    (hg : ∀ x ∈ asked o f, Objective x.1 x.2.2 ∧ x.2.1 ∈ f.head.segments.map SegmIn.localId)
    (hevent : ∀ k x, f.grains[k]? = some x → grainsEnd f k ≤ n → n < grainsEnd f (k + 1) → x.2.body ≠ .event) :
    ∃ r k tail, decodeFile o (f.bytes.take n) = .ok r ∧ decodeFileHeaders false ⟨0, f.bytes.take n⟩ 0 = .ok (f.hdr, (C83.headBytes f).length) ∧
      raisedBy r.ending = none ∧ k ≤ f.grains.length ∧ grainsEnd f k ≤ n ∧ (k < f.grains.length → n < grainsEnd f (k + 1)) ∧
      List.Forall₂ (Shows (f.bytes.take n)) r.items (asked o { f with grains := f.grains.take k } ++ tail) ∧
      (∀ z ∈ asked o { f with grains := f.grains.take k } ++ tail, z.2.2.Wf ∧ Objective z.1 z.2.2 ∧ z.2.1 ∈ f.head.segments.map SegmIn.localId ∧
        ∃ y ∈ f.grains, z.2.2.toMeta z.1 = y.2.toMeta f.major) ∧
      (tail = [] ∨ ∃ x m, f.grains[k]? = some x ∧ o.drops x.1 = false ∧
        tail = [(f.major, x.1, { x.2 with data := some ((x.2.data.getD []).take m), length := ((x.2.data.getD []).take m).length })]) := by
  obtain ⟨r, k, tail, h1, -, h3, h4, h5, h6, h7, h8⟩ := C05_truncated f hf o n hcut
  have hh : decodeFileHeaders false ⟨0, f.bytes.take n⟩ 0 = .ok (f.hdr, (C83.headBytes f).length) := by
    apply C83.open_at hf
    have e : f.bytes = C83.headBytes f ++ (f.grains.flatMap (fun x => encodeGrain f.major x.1 x.2) ++ terminator) := by
      simp [FileSpec.bytes, C83.headBytes]
    refine ⟨Nat.zero_le _, ?_⟩
    simp only [Nat.sub_zero, List.drop_zero]
    rw [List.prefix_take_iff]
    refine ⟨⟨_, e.symm⟩, ?_⟩
    simpa [grainsEnd, C83.headBytes] using hcut
  have hend : raisedBy r.ending = none := by
    rcases h3 with h3 | ⟨h3, -⟩ <;> rw [h3] <;> rfl
  have hsub : ∀ x ∈ asked o { f with grains := f.grains.take k }, x ∈ asked o f := by
    intro x hx
    obtain ⟨y, hy, rfl⟩ := List.mem_map.mp hx
    refine List.mem_map.mpr ⟨y, ?_, rfl⟩
    rw [List.mem_filter] at hy ⊢
    exact ⟨List.mem_of_mem_take hy.1, hy.2⟩
  have hfirst := asked_seen ho { f with grains := f.grains.take k }
  rcases h8 with rfl | ⟨x, d, k1, k2, rfl, k4, -⟩
  · refine ⟨r, k, [], h1, hh, hend, h4, h5, h6, by rw [List.append_nil]; exact shows_all _ _ (h7.trans (by rw [List.append_nil]; exact hfirst)), ?_, .inl rfl⟩
    rw [List.append_nil]
    intro z hz
    exact ⟨asked_wf hf (hsub z hz), (hg z (hsub z hz)).1, (hg z (hsub z hz)).2, _, (asked_mem (hsub z hz)).2, by rw [(asked_mem (hsub z hz)).1]⟩
  · have hx : (f.major, x.1, x.2) ∈ asked o f := by
      refine List.mem_map.mpr ⟨x, ?_, rfl⟩
      rw [List.mem_filter]
      exact ⟨List.mem_of_getElem? k1, by simp [k2]⟩
    obtain ⟨i1, i2, hi, v1, v2⟩ := List.map_eq_append_iff.1 h7
    obtain ⟨it, rfl, hit⟩ := List.map_eq_singleton_iff.1 v2
    have hev := hevent k x k1 h5 (h6 (List.getElem?_eq_some_iff.1 k1).1)
    have hwf := (hf.grains x (List.mem_of_getElem? k1)).2.wf
    obtain ⟨m, hm⟩ : ∃ m, d.getD [] = (x.2.data.getD []).take m := by
      rw [views_loads ho] at k4
      have k4' : PartOf x.2.payload d := k4
      have hp := Copy.payload_getD x.2
      cases hpay : x.2.payload with
      | none =>
        rw [hpay] at k4' hp
        have k4'' : d = none := k4'
        exact ⟨0, by rw [k4'']; rfl⟩
      | some b =>
        rw [hpay] at k4' hp
        obtain ⟨m, hm⟩ := k4'
        exact ⟨m, by rw [hm, ← hp]; rfl⟩
    generalize hy : ({ x.2 with data := some ((x.2.data.getD []).take m), length := ((x.2.data.getD []).take m).length } : Grain) = y
    have hmeta : y.toMeta f.major = x.2.toMeta f.major := by rw [← hy]; rfl
    have hshow : Shows (f.bytes.take n) it (f.major, x.1, y) := by
      have e1 : it.info = x.2.toMeta f.major := congrArg (fun v => v.1) hit
      have e2 : it.data.load (f.bytes.take n) = d := congrArg (fun v => v.2.1) hit
      have e3 : it.localId = x.1 := congrArg (fun v => v.2.2) hit
      refine ⟨e1.trans hmeta.symm, e3, ?_, fun h => absurd (show x.2.body = .event by rw [← hy] at h; exact h) hev⟩
      rw [e2, hm, ← hy]
      rfl
    have hobj : Objective f.major y := by
      have hx1 := (hg _ hx).1
      rw [← hy]
      exact ⟨hx1.times, hx1.enums, fun h => absurd h hev⟩
    have hall : ∀ z ∈ asked o { f with grains := f.grains.take k } ++ [(f.major, x.1, y)],
        z.2.2.Wf ∧ Objective z.1 z.2.2 ∧ z.2.1 ∈ f.head.segments.map SegmIn.localId ∧ ∃ y ∈ f.grains, z.2.2.toMeta z.1 = y.2.toMeta f.major := by
      intro z hz
      rcases List.mem_append.1 hz with hz | hz
      · exact ⟨asked_wf hf (hsub z hz), (hg z (hsub z hz)).1, (hg z (hsub z hz)).2, _, (asked_mem (hsub z hz)).2, by rw [(asked_mem (hsub z hz)).1]⟩
      · rw [List.mem_singleton] at hz
        subst hz
        refine ⟨?_, hobj, (hg _ hx).2, x, List.mem_of_getElem? k1, hmeta⟩
        rw [← hy]
        exact ⟨hwf.1, hwf.2.1, rfl⟩
    exact ⟨r, k, [(f.major, x.1, y)], h1, hh, hend, h4, h5, h6,
      by rw [hi]; exact List.rel_append (shows_all _ _ (v1.trans hfirst)) (.cons hshow .nil), hall, .inr ⟨x, m, k1, k2, by rw [hy]⟩⟩

end C92L

/-! ## Theorems -/

open Copy (Loads Objective)

/-- **C92.** Files are joined, and the whole is copied grain by grain, with support for concatenation and any options that hand out the data. Nothing
raises, and the copy is one file: it has the headers of the first of the files, with the right counts, and the grains of all of them that were asked
for, each in the normal form of the version of its own file. -/
theorem C92_joined (lib : Lib) (hl : lib.Lawful) (now : Int) (o : Opts) (ho : Loads o) (hc : o.concat = true) (f : FileSpec) (bs : Bytes)
    (fs : List (FileSpec × Bytes)) (hfs : ∀ x ∈ (f, bs) :: fs, x.1.Ok ∧ DecoFile x.1 x.2)
    (hn : (f.head.segments.map SegmIn.localId).Nodup)
    (hg : ∀ x ∈ ((f, bs) :: fs).flatMap (fun y => asked o y.1), Objective x.1 x.2.2 ∧ x.2.1 ∈ f.head.segments.map SegmIn.localId)
    (out : OutFile) (streaming : Bool) :
    ∃ out', copyLive lib now o out streaming (bs ++ fs.flatMap Prod.snd) = (out', none) ∧
      out'.bytes = written out (copyOf f streaming out.seekable (((f, bs) :: fs).flatMap (fun y => asked o y.1))) := by
  have hf := hfs (f, bs) (by simp)
  obtain ⟨r, h1, h2, -, h4, h5⟩ := decodeD_concat hc hf.1 hf.2 (fs := fs) (fun x hx => hfs x (by simp [hx]))
  obtain ⟨p, hh⟩ := C92L.header_at hf.1 hf.2 (fs.flatMap Prod.snd)
  have hr := h1 .file
  rw [decodeD_file] at hr
  have hw : ∀ x ∈ ((f, bs) :: fs).flatMap (fun y => asked o y.1), x.2.2.Wf ∧ Objective x.1 x.2.2 := by
    intro x hx
    obtain ⟨y, hy, hx'⟩ := List.mem_flatMap.1 hx
    exact ⟨C92L.asked_wf (hfs y hy).1 hx', (hg x hx).1⟩
  have := C92L.whole hl now (out := out) (streaming := streaming) hf.1 hn hh hr (gs := ((f, bs) :: fs).flatMap (fun y => asked o y.1)) (by
    refine C92L.shows_all _ _ ?_
    show r.view (bs ++ fs.flatMap Prod.snd) = _
    rw [h2, List.map_flatMap]
    congr 1
    funext x
    exact C92L.asked_seen ho x.1) (fun it hit => C92L.inside_honest (h5 it hit)) hw (fun x hx => (hg x hx).2)
  rw [h4] at this
  exact this

/-- Without support for concatenation the first file is copied, whatever was joined to it. -/
theorem C92_first (lib : Lib) (hl : lib.Lawful) (now : Int) (o : Opts) (ho : Loads o) (hc : o.concat = false) (f : FileSpec) (hf : f.Ok) (bs : Bytes)
    (hd : DecoFile f bs) (rest : Bytes) (hn : (f.head.segments.map SegmIn.localId).Nodup)
    (hg : ∀ x ∈ asked o f, Objective x.1 x.2.2 ∧ x.2.1 ∈ f.head.segments.map SegmIn.localId) (out : OutFile) (streaming : Bool) :
    ∃ out', copyLive lib now o out streaming (bs ++ rest) = (out', none) ∧ out'.bytes = written out (copyOf f streaming out.seekable (asked o f)) := by
  obtain ⟨r, h1, h2, -, h4, h5⟩ := decodeD_single hc hf hd rest
  obtain ⟨p, hh⟩ := C92L.header_at hf hd rest
  have hr := h1 .file
  rw [decodeD_file] at hr
  have := C92L.whole hl now (out := out) (streaming := streaming) hf hn hh hr (gs := asked o f) (C92L.shows_all _ _ (h2.trans (C92L.asked_seen ho f)))
    (fun it hit => C92L.inside_honest (h5 it hit)) (fun x hx => ⟨C92L.asked_wf hf hx, (hg x hx).1⟩) (fun x hx => (hg x hx).2)
  rw [h4] at this
  exact this

/-- For one whole file it makes no difference that the grains are written while the file is read: the bytes are those of C79. -/
theorem C92_copy (lib : Lib) (hl : lib.Lawful) (now : Int) (o : Opts) (ho : Loads o) (f : FileSpec) (hf : f.Ok) (bs : Bytes)
    (hd : DecoFile f bs) (hs : Copy.Segmented (Copy.selected o f)) (hg : ∀ x ∈ (Copy.selected o f).grains, Objective f.major x.2)
    (out : OutFile) (hout : out.seekable = true) (streaming : Bool) :
    ∃ out' out'', copyLive lib now o out streaming bs = (out', none) ∧ copyFile lib now o out streaming bs = .ok out'' ∧ out'.bytes = out''.bytes := by
  obtain ⟨out'', h1, h2⟩ := C79_copy lib hl now o ho f hf bs hd hs hg out hout streaming
  have e : copyOf f streaming true (asked o f) =
      if streaming then Copy.normalFile (Copy.selected o f) else Copy.grouped (Copy.normalFile (Copy.selected o f)) := by
    have : counted f ((asked o f).map normalAs) = Copy.normalFile (Copy.selected o f) := by
      unfold counted Copy.normalFile asked Copy.selected
      simp only [List.map_map]
      congr 2
      apply List.map_congr_left
      intro sg _
      simp only [List.filter_map, List.length_map]
      rfl
    unfold copyOf
    rw [this, if_pos rfl]
  have hg' : ∀ x ∈ asked o f, Objective x.1 x.2.2 ∧ x.2.1 ∈ f.head.segments.map SegmIn.localId := by
    intro x hx
    obtain ⟨y, hy, rfl⟩ := List.mem_map.mp hx
    exact ⟨hg y hy, hs.declared y hy⟩
  cases hc : o.concat with
  | true =>
    obtain ⟨out', h3, h4⟩ := C92_joined lib hl now o ho hc f bs [] (by simpa using ⟨hf, hd⟩) hs.distinct (by simpa using hg') out streaming
    simp only [List.flatMap_nil, List.append_nil, List.flatMap_cons] at h3 h4
    exact ⟨out', out'', h3, h1, by rw [h4, h2, hout, e]; unfold written; rw [if_pos hout]; rfl⟩
  | false =>
    obtain ⟨out', h3, h4⟩ := C92_first lib hl now o ho hc f hf bs hd [] hs.distinct hg' out streaming
    rw [List.append_nil] at h3
    exact ⟨out', out'', h3, h1, by rw [h4, h2, hout, e]; unfold written; rw [if_pos hout]; rfl⟩

/-- **C92**, for joined files whose writers did not finish (C83): the copy is a whole file. -/
theorem C92_unfinished (lib : Lib) (hl : lib.Lawful) (now : Int) (o : Opts) (ho : Loads o) (hc : o.concat = true) (x : Piece) (xs : List Piece)
    (hx : ∀ y ∈ x :: xs, y.spec.Ok) (hn : (x.spec.head.segments.map SegmIn.localId).Nodup)
    (hg : ∀ g ∈ (x :: xs).flatMap (fun y => asked o y.spec), Objective g.1 g.2.2 ∧ g.2.1 ∈ x.spec.head.segments.map SegmIn.localId)
    (out : OutFile) (streaming : Bool) :
    ∃ out', copyLive lib now o out streaming ((x :: xs).flatMap Piece.bytes) = (out', none) ∧
      out'.bytes = written out (copyOf x.spec streaming out.seekable ((x :: xs).flatMap (fun y => asked o y.spec))) := by
  generalize hfile : (x :: xs).flatMap Piece.bytes = file
  have hat : At ⟨0, file⟩ 0 (x.bytes ++ xs.flatMap Piece.bytes) := by
    rw [← List.flatMap_cons, hfile]; exact at_self _ _
  have hok := hx x (by simp)
  have hat1 := hat.left
  have e : x.bytes = C83.headBytes x.spec ++ (x.spec.grains.flatMap (fun y => encodeGrain x.spec.major y.1 y.2) ++
      (if x.finished then terminator else [])) := by simp [Piece.bytes, C83.headBytes]
  rw [e] at hat1
  have hh := C83.open_at hok hat1.left
  obtain ⟨i1, t1, v1⟩ := C83.turns hc hok (0 + (C83.headBytes x.spec).length)
  obtain ⟨i2, t2, v2⟩ := C83.all_turns hc (fun y hy => hx y (by simp [hy])) x.spec.hdr (0 + x.bytes.length) (xs := xs)
  have r1 := t1.run (s := ⟨0, file⟩) (Nat.zero_le _) hat1.right
  have r2 := t2.run (s := ⟨0, file⟩) (Nat.zero_le _) hat.right
  have r3 := run_end o (xs.foldl (fun _ x => x.spec.hdr) x.spec.hdr) (s := ⟨0, file⟩)
    (p := 0 + x.bytes.length + (xs.flatMap Piece.bytes).length) (Nat.zero_le _) (by
    unfold Stream.fin; simp only [← hfile, List.flatMap_cons, List.length_append]; omega)
  have hlen : 0 + (C83.headBytes x.spec).length + (x.spec.grains.flatMap (fun y => encodeGrain x.spec.major y.1 y.2) ++
      (if x.finished then terminator else [])).length = 0 + x.bytes.length := by
    rw [e, List.length_append (as := C83.headBytes x.spec)]; omega
  rw [hlen, r2, r3, Nat.zero_add] at r1
  have hr : decodeFile o file = .ok (grains o file x.spec.hdr (C83.headBytes x.spec).length) := by unfold decodeFile; rw [hh]
  have hw : ∀ g ∈ (x :: xs).flatMap (fun y => asked o y.spec), g.2.2.Wf ∧ Objective g.1 g.2.2 := by
    intro g hg1
    obtain ⟨y, hy, hx'⟩ := List.mem_flatMap.1 hg1
    exact ⟨C92L.asked_wf (hx y hy) hx', (hg g hg1).1⟩
  have := C92L.whole hl now (out := out) (streaming := streaming) hok hn hh hr (gs := (x :: xs).flatMap (fun y => asked o y.spec)) (by
      refine C92L.shows_all _ _ ?_
      rw [grains_eq_run, r1]
      simp only [Run.prepend, List.append_nil, List.map_append]
      rw [v1 file hat1.right, v2 file hat.right, ← List.flatMap_cons, List.map_flatMap]
      congr 1
      funext y
      exact C92L.asked_seen ho y.spec) (by
      rw [grains_eq_run, r1]
      intro it hit
      simp only [Run.prepend, List.append_nil, List.mem_append] at hit
      rcases hit with hit | hit
      · exact C92L.stable_honest v1 hat1.right it hit
      · exact C92L.stable_honest v2 hat.right it hit) hw (fun g hg1 => (hg g hg1).2)
  rw [grains_eq_run, r1] at this
  exact this

/-- **C92**, for damaged files: the input begins with the headers and some whole grains, and anything may follow; the encoder streams. However the
program ends, with or without an exception, the copy is closed, and whoever reads it gets the headers and first of all these grains, as they
were in the input. -/
theorem C92_salvaged (lib : Lib) (hl : lib.Lawful) (now : Int) (o : Opts) (ho : Loads o) (f : FileSpec) (hf : f.Ok) (rest : Bytes)
    (hn : (f.head.segments.map SegmIn.localId).Nodup)
    (hg : ∀ x ∈ asked o f, Objective x.1 x.2.2 ∧ x.2.1 ∈ f.head.segments.map SegmIn.localId)
    (hlen : (C83.headBytes f ++ (f.grains.flatMap (fun y => encodeGrain f.major y.1 y.2) ++ rest)).length < 2 ^ 63)
    (out : OutFile) :
    ∃ out' x ws copy, copyLive lib now o out true (C83.headBytes f ++ (f.grains.flatMap (fun y => encodeGrain f.major y.1 y.2) ++ rest)) = (out', x) ∧
      out'.bytes = written out copy ∧
      copy = (if out.seekable then counted f ((asked o f).map normalAs ++ ws) else uncounted f ((asked o f).map normalAs ++ ws)) ∧
      ∃ r tail, decodeFile {} copy.bytes = .ok r ∧ r.view copy.bytes = (asked o f).map seenAs ++ tail := by
  generalize hfile : C83.headBytes f ++ (f.grains.flatMap (fun y => encodeGrain f.major y.1 y.2) ++ rest) = file
  have hat : At ⟨0, file⟩ 0 (C83.headBytes f ++ (f.grains.flatMap (fun y => encodeGrain f.major y.1 y.2) ++ rest)) := by
    rw [hfile]; exact at_self _ _
  rw [hfile] at hlen
  have hh := C83.open_at hf hat.left
  obtain ⟨i1, t1, v1⟩ := DecoGrains.turns o f.hdr (decoGrains_self f.grains hf.grains) (0 + (C83.headBytes f).length)
  have r1 := t1.run (s := ⟨0, file⟩) (Nat.zero_le _) hat.right.left
  rw [Nat.zero_add] at r1
  have hr : decodeFile o file = .ok (grains o file f.hdr (C83.headBytes f).length) := by unfold decodeFile; rw [hh]
  have hlong : i1.length + (run o ⟨0, file⟩ f.hdr false ((C83.headBytes f).length +
      (f.grains.flatMap (fun y => encodeGrain f.hdr.major y.1 y.2)).length)).items.length ≤ file.length := by
    have := C92L.items_le o file file.length f.hdr false (C83.headBytes f).length (by omega)
    rw [r1] at this
    simpa [Run.prepend] using this
  obtain ⟨out', x, ws, k1, k2, k3⟩ := C92L.salvage hl now (out := out) hf hn hh hr (gs := asked o f) (i1 := i1) (by
    rw [grains_eq_run, r1]; rfl) (by rw [v1 file hat.right.left]; exact C92L.asked_seen ho f)
    (C92L.stable_honest v1 hat.right.left) (fun x hx => ⟨C92L.asked_wf hf hx, (hg x hx).1⟩) (fun x hx => (hg x hx).2)
  have hask : (asked o f).length = i1.length := by
    have h1 := congrArg List.length ((v1 file hat.right.left).trans (C92L.asked_seen ho f))
    simpa using h1.symm
  exact ⟨out', x, ws, _, k1, k2, rfl, C92L.reads_first hf o ws out.seekable (by omega)⟩

/-- **C92**, for a file that was cut, when the data is loaded at once (or the input cannot be seeked) and the grain that the cut falls into is not an
event: nothing raises, and the copy is a whole file with the whole grains and at most one more, the cut one, with as much of its data as there was and
a length that says so. -/
theorem C92_cut (lib : Lib) (hl : lib.Lawful) (now : Int) (o : Opts) (ho : o.defers = false ∧ o.mode ≠ .loadNever) (f : FileSpec) (hf : f.Ok) (n : Nat)
    (hcut : grainsEnd f 0 ≤ n) (hn : (f.head.segments.map SegmIn.localId).Nodup)
    (hg : ∀ x ∈ asked o f, Objective x.1 x.2.2 ∧ x.2.1 ∈ f.head.segments.map SegmIn.localId)
    (hevent : ∀ k x, f.grains[k]? = some x → grainsEnd f k ≤ n → n < grainsEnd f (k + 1) → x.2.body ≠ .event)
    (out : OutFile) (streaming : Bool) :
    ∃ out' k tail, copyLive lib now o out streaming (f.bytes.take n) = (out', none) ∧
      k ≤ f.grains.length ∧ grainsEnd f k ≤ n ∧ (k < f.grains.length → n < grainsEnd f (k + 1)) ∧
      out'.bytes = written out (copyOf f streaming out.seekable (asked o { f with grains := f.grains.take k } ++ tail)) ∧
      (tail = [] ∨ ∃ x m, f.grains[k]? = some x ∧ o.drops x.1 = false ∧
        tail = [(f.major, x.1, { x.2 with data := some ((x.2.data.getD []).take m), length := ((x.2.data.getD []).take m).length })]) := by
  obtain ⟨r, k, tail, h1, hh, hend, h4, h5, h6, h7, h8, h9⟩ := C92L.cut_shows (.inr ho.2) hf hcut hg hevent
  have hhon : ∀ it ∈ r.items, C92L.Honest (f.bytes.take n) it := by
    intro it hit a m he
    have h1' := h1
    unfold decodeFile at h1'
    rw [hh] at h1'
    cases h1'
    exact absurd he (C86.loop_kept ho.1 _ _ _ _ _ it hit a m)
  obtain ⟨out', h10, h11⟩ := C92L.whole hl now (out := out) (streaming := streaming) hf hn hh h1 h7 hhon
    (fun z hz => ⟨(h8 z hz).1, (h8 z hz).2.1⟩) (fun z hz => (h8 z hz).2.2.1)
  rw [hend] at h10
  exact ⟨out', k, tail, h10, h4, h5, h6, h11, h9⟩

/-! ## Counterexamples and examples -/

/-- A file with one picture, whose data is 1, 2, 3, 4, 5. -/
def C92_one : FileSpec := C79_one 9 1 { gVideo with origin := 5 }

/-- A file with a grain of segment 300, then one of segment 1. -/
def C92_two : FileSpec := { C79_file with grains := [(300, gAudio), (1, { gVideo with origin := 5 })] }

/-- The file without its terminator and the last two bytes of data. -/
def C92_short (f : FileSpec) : Bytes := f.bytes.take (f.bytes.length - 10)

/-- The data and the segments of the grains of a file, for a program that reads it. -/
def C92_read (bs : Bytes) : Option (List (Option Bytes × Nat) × End) :=
  (decodeFile {} bs).toOption.map (fun r => ((r.view bs).map (fun v => (v.2.1, v.2.2)), r.ending))

/-- The grains of the copy of a file, and whether something was raised. -/
def C92_copied (o : Opts) (streaming : Bool) (bs : Bytes) : Option (List (Option Bytes × Nat) × End) × Bool :=
  (C92_read (copyLive C64_lib 7 o C79_out streaming bs).1.bytes, (copyLive C64_lib 7 o C79_out streaming bs).2.isSome)

/-- With the default options, which defer loading, the copy of a file that was cut is not the file that was read: the decoder finds the three bytes that
are left, and says nothing; the copy declares a length of five, and its grain has two bytes of the terminator as the rest of its data. -/
theorem C92_cut_counterexample :
    C92_read (C92_short C92_one) = some ([(some [1, 2, 3], 1)], .eof) ∧
      C92_copied {} true (C92_short C92_one) = (some ([(some [1, 2, 3, 103, 114], 1)], .eof), false) ∧
      C92_copied { mode := .loadImmediately } true (C92_short C92_one) = (some ([(some [1, 2, 3], 1)], .eof), false) := by
  refine ⟨by decide +kernel, Prod.ext ?_ ?_, Prod.ext ?_ ?_⟩ <;> decide +kernel

/-- When the encoder writes everything at the end, the whole grains of segments that follow that of the cut grain are lost as well, although they
came first in the input. -/
theorem C92_grouped_counterexample :
    C92_read (C92_short C92_two) = some ([(some [255, 0], 300), (some [1, 2, 3], 1)], .eof) ∧
      C92_copied {} true (C92_short C92_two) = (some ([(some [255, 0], 300), (some [1, 2, 3, 103, 114], 1)], .eof), false) ∧
      C92_copied {} false (C92_short C92_two) = (some ([(some [1, 2, 3, 103, 114], 1)], .eof), false) := by
  refine ⟨by decide +kernel, Prod.ext ?_ ?_, Prod.ext ?_ ?_⟩ <;> decide +kernel

/-- A grain of a joined file whose segment the first file does not have stops an encoder that streams; the copy has what came before. -/
theorem C92_segment_counterexample :
    C92_read (C92_one.bytes ++ C92_two.bytes) = some ([(some [1, 2, 3, 4, 5], 1), (some [255, 0], 300), (some [1, 2, 3, 4, 5], 1)], .eof) ∧
      C92_copied {} true (C92_one.bytes ++ C92_two.bytes) = (some ([(some [1, 2, 3, 4, 5], 1)], .eof), true) := by
  refine ⟨by decide +kernel, Prod.ext ?_ ?_⟩ <;> decide +kernel

/-- A cut event cannot be made into a grain: its constructor raises, the copy ends there, and has what came before. -/
theorem C92_event_counterexample :
    C92_copied {} true (C92_short { C92_one with grains := C92_one.grains ++ [(1, C79_event)] }) = (some ([(some [1, 2, 3, 4, 5], 1)], .eof), true) ∧
      C92_copied { mode := .loadImmediately } false (C92_short { C92_one with grains := C92_one.grains ++ [(1, C79_event)] }) =
        (some ([(some [1, 2, 3, 4, 5], 1)], .eof), true) := by
  refine ⟨Prod.ext ?_ ?_, Prod.ext ?_ ?_⟩ <;> decide +kernel

/-- The hypotheses of `C92_first`, `C92_copy`, `C92_salvaged` and, but for the cut, `C92_cut`. -/
example : C92_two.Ok ∧ (C92_two.head.segments.map SegmIn.localId).Nodup ∧
    ∀ x ∈ asked {} C92_two, Objective x.1 x.2.2 ∧ x.2.1 ∈ C92_two.head.segments.map SegmIn.localId := by
  refine ⟨by decide +kernel, by decide +kernel, ?_⟩
  have e : asked {} C92_two = [(9, 300, gAudio), (9, 1, { gVideo with origin := 5 })] := by decide +kernel
  rw [e]
  intro x hx
  simp only [List.mem_cons, List.mem_nil_iff, or_false] at hx
  rcases hx with rfl | rfl
  · exact ⟨⟨by decide +kernel, by show 10 ∈ Cog.AudioFormat.all; decide, fun h => by cases h⟩, by decide +kernel⟩
  · exact ⟨⟨by decide +kernel, by show 0x2805 ∈ Cog.FrameFormat.all ∧ 0 ∈ Cog.FrameLayout.all; decide, fun h => by cases h⟩, by decide +kernel⟩

/-- Three files of different versions, two of which were not finished. -/
def C92_pieces : List Piece := [⟨C92_two, false⟩, ⟨{ C92_two with major := 8 }, true⟩, ⟨C92_one, false⟩]

/-- The hypotheses of `C92_joined` and `C92_unfinished`. -/
example : (∀ y ∈ C92_pieces, y.spec.Ok) ∧ (C92_pieces.flatMap (fun y => asked {} y.spec)).length = 5 ∧
    ∀ g ∈ C92_pieces.flatMap (fun y => asked {} y.spec), Objective g.1 g.2.2 ∧ g.2.1 ∈ C92_two.head.segments.map SegmIn.localId := by
  refine ⟨by decide +kernel, by decide +kernel, ?_⟩
  have e : C92_pieces.flatMap (fun y => asked {} y.spec) = [(9, 300, gAudio), (9, 1, { gVideo with origin := 5 }), (8, 300, gAudio),
    (8, 1, { gVideo with origin := 5 }), (9, 1, { gVideo with origin := 5 })] := by decide +kernel
  rw [e]
  intro x hx
  simp only [List.mem_cons, List.mem_nil_iff, or_false] at hx
  rcases hx with rfl | rfl | rfl | rfl | rfl
  · exact ⟨⟨by decide +kernel, by show 10 ∈ Cog.AudioFormat.all; decide, fun h => by cases h⟩, by decide +kernel⟩
  · exact ⟨⟨by decide +kernel, by show 0x2805 ∈ Cog.FrameFormat.all ∧ 0 ∈ Cog.FrameLayout.all; decide, fun h => by cases h⟩, by decide +kernel⟩
  · exact ⟨⟨by decide +kernel, by show 10 ∈ Cog.AudioFormat.all; decide, fun h => by cases h⟩, by decide +kernel⟩
  · exact ⟨⟨by decide +kernel, by show 0x2805 ∈ Cog.FrameFormat.all ∧ 0 ∈ Cog.FrameLayout.all; decide, fun h => by cases h⟩, by decide +kernel⟩
  · exact ⟨⟨by decide +kernel, by show 0x2805 ∈ Cog.FrameFormat.all ∧ 0 ∈ Cog.FrameLayout.all; decide, fun h => by cases h⟩, by decide +kernel⟩

/-- The cut of `C92_cut`: two bytes of the data of the last grain are missing. -/
example : grainsEnd C92_two 0 ≤ (C92_short C92_two).length ∧ grainsEnd C92_two 1 ≤ (C92_short C92_two).length ∧
    (C92_short C92_two).length + 2 = grainsEnd C92_two 2 ∧ ({ mode := .loadImmediately } : Opts).defers = false ∧
    ∀ x ∈ C92_two.grains, x.2.body ≠ .event := by
  decide +kernel

/-- A copy to a pipe that already had a byte: it follows that byte, the counts are -1 when the encoder streams and right when it writes at the end, and
the grains are read as before. -/
example : ((copyLive C64_lib 7 {} ⟨false, [77], 0⟩ true C92_two.bytes).1.bytes == 77 :: (uncounted C92_two (C92_two.grains.map (fun x => normalAs (9, x)))).bytes) = true ∧
    ((copyLive C64_lib 7 {} ⟨false, [77], 0⟩ false C92_two.bytes).1.bytes ==
      77 :: (Copy.grouped (counted C92_two (C92_two.grains.map (fun x => normalAs (9, x))))).bytes) = true ∧
    C92_read ((copyLive C64_lib 7 {} ⟨false, [77], 0⟩ true C92_two.bytes).1.bytes.drop 1) = C92_read C92_two.bytes := by
  refine ⟨by decide +kernel, by decide +kernel, by decide +kernel⟩

end Verif.Props

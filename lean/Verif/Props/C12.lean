import Verif.Gsf.EncoderLive
import Verif.Props.C01

/-!
# C12 (segment counts), C13 (streaming and all-at-once dumps agree), C18 (repeated dumps)
-/

namespace Verif.Props

open Verif Verif.Gsf

/-! ## Specification -/

/-- Every segment's count is the number of grains of that segment in the file, and every grain belongs to
a segment of the header. -/
def CountsRight (f : FileSpec) : Prop :=
  (∀ sg ∈ f.head.segments, sg.count = ((f.grains.filter (fun x => x.1 == sg.localId)).length : Nat)) ∧
    ∀ x ∈ f.grains, x.1 ∈ f.head.segments.map SegmIn.localId

/-- A program part that adds tags, segments, flows and grains through the encoder, the handle it opened (the
first one, number 0) and segments, and starts or ends no dump. -/
def Edits (ops : List Op) : Prop := ∀ o ∈ ops, o.isDump = false ∧ ∀ j, o.handle? = some j → j = 0

/-- The same as a test. -/
def editsB (ops : List Op) : Bool := ops.all (fun o => !o.isDump && (o.handle?.all (fun j => j == 0)))

theorem edits_of {ops : List Op} (h : editsB ops = true) : Edits ops := by
  intro o ho
  have := List.all_eq_true.mp h o ho
  simp only [Bool.and_eq_true, Bool.not_eq_true'] at this
  refine ⟨this.1, fun j hj => ?_⟩
  have h2 := this.2
  rw [hj] at h2
  simpa using h2

/-- The ways to start and end a streaming dump: `start_dump()` / `end_dump()`, or a `with` block on an
encoder made with `streaming=True`. -/
def StreamPair (streaming : Bool) (start stop : Op) : Prop :=
  (start = .startDump false ∧ stop = .endDump) ∨ (streaming = true ∧ start = .enter ∧ stop = .exit)

/-! ## Proofs -/

theorem runs_append (e : Enc) (a b : List Op) : e.runs (a ++ b) = (e.runs a).runs b := by
  induction a generalizing e with
  | nil => rfl
  | cons o os ih => exact ih _

theorem taken_append (e : Enc) (a b : List Op) : e.taken (a ++ b) = e.taken a ++ (e.runs a).taken b := by
  induction a generalizing e with
  | nil => rfl
  | cons o os ih =>
    show o.takes e ++ (o.run e).1.taken (os ++ b) = (o.takes e ++ (o.run e).1.taken os) ++ _
    rw [ih, List.append_assoc]; rfl

/-- A new encoder. -/
structure Born (e : Enc) : Prop where
  idle : Idle e
  fresh : Fresh e
  handles : e.handles = []
  noSync : e.syncOpen = none
  parents : ∀ s ∈ e.segs, s.parent = none

theorem born_new (file major minor id created streaming) : Born (Enc.new file major minor id created streaming) :=
  ⟨⟨List.nodup_nil, fun _ h => by cases h⟩, (fun _ h => by cases h), rfl, rfl, (fun _ h => by cases h)⟩

theorem Born.edits {e : Enc} (h : Born e) {ops : List Op} (ho : ∀ o ∈ ops, o.isDump = false) : Born (e.runs ops) := by
  have h1 := edit_steps h.idle ops ho
  refine ⟨h1.idle, h1.fresh h.fresh, ?_, h1.frame.syncOpen.trans h.noSync, h1.parents h.handles h.parents⟩
  have := h1.frame.handles
  rw [h.handles] at this
  exact List.length_eq_zero_iff.mp this

/-- The state in which a dump is started by the first handle. -/
def opened (e : Enc) : Enc := { e with handles := e.handles ++ [⟨false, e.nextLocal, false⟩], syncOpen := some e.handles.length }

theorem startDump_eq (e : Enc) (all : Bool) : e.startDump all = (opened e).start e.handles.length all := rfl

theorem enter_eq (e : Enc) : e.enter = if e.streaming then (opened e).start e.handles.length false else opened e := rfl

theorem opened_handle (e : Enc) : (opened e).handles[e.handles.length]? = some ⟨false, e.nextLocal, false⟩ := by
  simp [opened]

theorem opened_live (e : Enc) (all : Bool) :
    Live ((opened e).start e.handles.length all) e.handles.length [] (fun _ => [])
      ((opened e).start e.handles.length all) :=
  start_live all rfl (opened_handle e)

theorem opened_segs (e : Enc) : (opened e).segs = e.segs := rfl

theorem start_dumped {e : Enc} {k : Nat} {all : Bool} : ∀ s ∈ (e.start k all).segs, s.activeDump = true := by
  rw [start_eq]
  intro s hs
  obtain ⟨t, _, p, rfl, _⟩ := startSegs_mem hs
  rfl

theorem start_parents {e : Enc} {k : Nat} {all : Bool} (h : ∀ s ∈ e.segs, s.parent = none) :
    ∀ s ∈ (e.start k all).segs, ∀ j, s.parent = some j → j = k := by
  rw [start_eq]
  intro s hs j hj
  obtain ⟨t, ht, p, rfl, _⟩ := startSegs_mem hs
  have := h t ht
  simp only [Seg.dumped] at hj
  rw [this] at hj; cases hj

theorem stop_file {e0 k w held e} (h : Live e0 k w held e) {stop : Op}
    (hs : stop = .endDump ∨ (stop = .exit ∧ e.streaming = true)) :
    ((stop.run e).1).file = (e.finish k).file := by
  rcases hs with rfl | ⟨rfl, hst⟩
  · simp only [Op.run, Enc.endDump, h.opened, close_file]
  · simp only [Op.run, Enc.exit, h.opened, hst, if_true, close_file]

theorem pending_of_segs {e e' : Enc} (h : e'.segs = e.segs) : e'.pending = e.pending := by
  unfold Enc.pending; rw [h]

theorem ofSeg_length (l : Nat) (gs : List (Nat × Grain)) :
    (gs.filter (fun x => x.1 == l)).length = (ofSeg l gs).length := by simp [ofSeg]

theorem pending_declared {e : Enc} {x : Nat × Grain} (hx : x ∈ e.pending) : x.1 ∈ e.lids := by
  unfold Enc.pending at hx
  obtain ⟨s, hs, hx⟩ := List.mem_flatMap.mp hx
  obtain ⟨g, _, rfl⟩ := List.mem_map.mp hx
  exact List.mem_map.mpr ⟨s, hs, rfl⟩

/-- A whole streaming session on a new encoder. -/
theorem stream_session {e : Enc} (hb : Born e) {start stop : Op} (hp : StreamPair e.streaming start stop)
    {during : List Op} (hd : Edits during) :
    ∃ held e', Live ((opened e).start 0 false) 0 ((start.run e).1.taken during) held e' ∧
      (e.runs (start :: (during ++ [stop]))).file = (e'.finish 0).file := by
  have hl := opened_live e false
  have hlen : e.handles.length = 0 := by rw [hb.handles]; rfl
  rw [hlen] at hl
  have hrun : (start.run e).1 = (opened e).start 0 false := by
    rcases hp with ⟨rfl, -⟩ | ⟨hst, rfl, -⟩
    · show e.startDump false = _
      rw [startDump_eq, hlen]
    · show e.enter = _
      rw [enter_eq, hlen, hst, if_pos rfl]
  have h2 := hl.steps start_dumped (start_parents hb.parents) during hd
  rw [List.nil_append] at h2
  refine ⟨_, _, by rw [hrun]; exact h2, ?_⟩
  show ((start.run e).1.runs (during ++ [stop])).file = _
  rw [runs_append, hrun]
  show ((stop.run _).1).file = _
  refine stop_file h2 ?_
  rcases hp with ⟨-, rfl⟩ | ⟨hst, -, rfl⟩
  · exact .inl rfl
  · refine .inr ⟨rfl, ?_⟩
    rw [h2.frame.streaming, start_eq]; exact hst

theorem streamSpec_counts {e : Enc} (hn : e.lids.Nodup) (hw : ∀ s ∈ e.segs, s.writeCount = 0)
    {w : List (Nat × Grain)} (hd : ∀ x ∈ w, x.1 ∈ e.lids) : CountsRight (streamSpec e w) := by
  constructor
  · intro sg hsg
    unfold streamSpec at hsg ⊢
    simp only at hsg ⊢
    obtain ⟨s, hs, rfl⟩ := List.mem_map.mp hsg
    rw [ofSeg_length, ofSeg_append]
    simp only
    unfold Enc.pending
    rw [ofSeg_pending, pend_of_mem hn hs, hw s hs, List.length_append]
    congr 1; omega
  · intro x hx
    unfold streamSpec at hx ⊢
    simp only [List.map_map] at hx ⊢
    show x.1 ∈ e.lids
    rcases List.mem_append.mp hx with hx | hx
    · exact pending_declared hx
    · exact hd x hx

/-- C12, streaming to a seekable file: after any program that sets up a new encoder, starts a streaming dump, adds
grains in any way and order (some calls may be refused) and ends the dump, the file is a complete GSF file in
which every segment's count is the number of its grains; and for every segment those are exactly the grains the
program handed over for it, in order. -/
theorem C12_streaming (file : OutFile) (hf : file.seekable = true) (major minor : Nat) (id : Bytes)
    (created : DateTime) (streaming : Bool) (setup during : List Op) (hs : Edits setup) (hd : Edits during)
    {start stop : Op} (hp : StreamPair streaming start stop) :
    let e0 := Enc.new file major minor id created streaming
    let prog := setup ++ start :: (during ++ [stop])
    ∃ f : FileSpec, (e0.runs prog).file.bytes = f.bytes ∧ CountsRight f ∧
      (∀ l, ofSeg l f.grains = ofSeg l (e0.taken prog)) ∧
      f.head.segments.map SegmIn.localId = (e0.runs setup).lids := by
  intro e0 prog
  have hb0 : Born e0 := born_new file major minor id created streaming
  have hed := edit_steps hb0.idle setup (fun o ho => (hs o ho).1)
  have hb := hb0.edits (fun o ho => (hs o ho).1)
  have hst : (e0.runs setup).streaming = streaming := hed.frame.streaming
  obtain ⟨held, e', hl, hfile⟩ := stream_session hb (hst ▸ hp) hd
  generalize hw : (start.run (e0.runs setup)).1.taken during = w at hl
  refine ⟨streamSpec (opened (e0.runs setup)) w, ?_, ?_, ?_, ?_⟩
  · show (e0.runs (setup ++ _)).file.bytes = _
    rw [runs_append, hfile]
    exact stream_file hl (by show (e0.runs setup).file.seekable = true; rw [hed.file]; exact hf)
  · refine streamSpec_counts hb.idle.nodup (fun s hs => (hb.fresh s hs).1) ?_
    intro x hx
    have := hl.declared x hx
    rw [start_eq] at this
    show x.1 ∈ (opened (e0.runs setup)).lids
    rw [← startSegs_lids _ false]; exact this
  · intro l
    show ofSeg l (Enc.pending _ ++ w) = ofSeg l (e0.taken (setup ++ _))
    rw [taken_append, ofSeg_append, ofSeg_append]
    have h1 : ofSeg l (opened (e0.runs setup)).pending = ofSeg l (e0.taken setup) := by
      unfold Enc.pending
      rw [ofSeg_pending]
      show pend (e0.runs setup).segs l = _
      rw [hed.pend]; rfl
    rw [h1]
    congr 1
    have hstart : start.takes (e0.runs setup) = [] := by
      rcases hp with ⟨rfl, -⟩ | ⟨-, rfl, -⟩ <;> rfl
    show ofSeg l w = ofSeg l (start.takes (e0.runs setup) ++ (start.run (e0.runs setup)).1.taken (during ++ [stop]))
    rw [hstart, List.nil_append, taken_append, hw, ofSeg_append]
    have hstop : ∀ e, stop.takes e = [] := by
      rcases hp with ⟨-, rfl⟩ | ⟨-, -, rfl⟩ <;> exact fun _ => rfl
    simp [Enc.taken, hstop, ofSeg]
  · unfold streamSpec
    simp only [List.map_map]
    rfl

/-- C12, streaming to a file that cannot seek: the counts in the header stay at -1. -/
theorem C12_streaming_unseekable (file : OutFile) (hf : file.seekable = false) (major minor : Nat) (id : Bytes)
    (created : DateTime) (streaming : Bool) (setup during : List Op) (hs : Edits setup) (hd : Edits during)
    {start stop : Op} (hp : StreamPair streaming start stop) :
    let e0 := Enc.new file major minor id created streaming
    let prog := setup ++ start :: (during ++ [stop])
    ∃ f : FileSpec, (e0.runs prog).file.bytes = file.bytes ++ f.bytes ∧
      (∀ sg ∈ f.head.segments, sg.count = -1) ∧ (∀ l, ofSeg l f.grains = ofSeg l (e0.taken prog)) := by
  intro e0 prog
  have hb0 : Born e0 := born_new file major minor id created streaming
  have hed := edit_steps hb0.idle setup (fun o ho => (hs o ho).1)
  have hb := hb0.edits (fun o ho => (hs o ho).1)
  have hst : (e0.runs setup).streaming = streaming := hed.frame.streaming
  obtain ⟨held, e', hl, hfile⟩ := stream_session hb (hst ▸ hp) hd
  generalize hw : (start.run (e0.runs setup)).1.taken during = w at hl
  have hsk : (opened (e0.runs setup)).file = file := hed.file
  refine ⟨plainSpec (opened (e0.runs setup)) false w, ?_, ?_, ?_⟩
  · show (e0.runs (setup ++ _)).file.bytes = _
    rw [runs_append, hfile, plain_file hl (.inl (by rw [hsk]; exact hf)), hsk, if_neg (by simp [hf])]
  · intro sg hsg
    unfold plainSpec Enc.headIn at hsg
    simp only at hsg
    obtain ⟨s, _, rfl⟩ := List.mem_map.mp hsg
    rfl
  · intro l
    show ofSeg l (Enc.pending _ ++ w) = ofSeg l (e0.taken (setup ++ _))
    rw [taken_append, ofSeg_append, ofSeg_append]
    have h1 : ofSeg l (opened (e0.runs setup)).pending = ofSeg l (e0.taken setup) := by
      unfold Enc.pending
      rw [ofSeg_pending]
      show pend (e0.runs setup).segs l = _
      rw [hed.pend]; rfl
    rw [h1]
    congr 1
    have hstart : start.takes (e0.runs setup) = [] := by
      rcases hp with ⟨rfl, -⟩ | ⟨-, rfl, -⟩ <;> rfl
    show ofSeg l w = ofSeg l (start.takes (e0.runs setup) ++ (start.run (e0.runs setup)).1.taken (during ++ [stop]))
    rw [hstart, List.nil_append, taken_append, hw, ofSeg_append]
    have hstop : ∀ e, stop.takes e = [] := by
      rcases hp with ⟨-, rfl⟩ | ⟨-, -, rfl⟩ <;> exact fun _ => rfl
    simp [Enc.taken, hstop, ofSeg]

/-! ### All at once -/

theorem plainSpec_counts {e : Enc} (hn : e.lids.Nodup) (hw : ∀ s ∈ e.segs, s.writeCount = 0) :
    CountsRight (plainSpec e true []) := by
  constructor
  · intro sg hsg
    unfold plainSpec Enc.headIn at hsg ⊢
    simp only at hsg ⊢
    obtain ⟨s, hs, rfl⟩ := List.mem_map.mp hsg
    rw [List.append_nil, ofSeg_length]
    unfold Enc.pending
    rw [ofSeg_pending]
    show ((s.count : Nat) : Int) = ((pend e.segs s.localId).length : Nat)
    rw [pend_of_mem hn hs, Seg.count, hw s hs]; rfl
  · intro x hx
    unfold plainSpec Enc.headIn at hx ⊢
    simp only [List.map_map, List.append_nil] at hx ⊢
    exact pending_declared hx

/-- An all-at-once dump of a state in which no streaming dump was ever made. -/
theorem all_file {e : Enc} {k n : Nat} (ho : e.syncOpen = some k) (hk : e.handles[k]? = some ⟨false, n, false⟩)
    (hc : ∀ s ∈ e.segs, s.countPos = none) :
    (((e.start k true).finish k)).file.bytes =
      (if e.file.seekable then [] else e.file.bytes) ++ (plainSpec e true []).bytes := by
  have hl := start_live true ho hk
  refine plain_file hl (.inr ?_)
  rw [start_eq]
  intro s hs
  obtain ⟨t, ht, p, rfl, hp⟩ := startSegs_mem hs
  exact (hp rfl).trans (hc t ht)

theorem exit_all {e : Enc} {k n : Nat} (ho : e.syncOpen = some k) (hk : e.handles[k]? = some ⟨false, n, false⟩)
    (hst : e.streaming = false) (hc : ∀ s ∈ e.segs, s.countPos = none) :
    e.exit.file.bytes = (if e.file.seekable then [] else e.file.bytes) ++ (plainSpec e true []).bytes := by
  simp only [Enc.exit, ho, hst, Bool.false_eq_true, if_false, close_file]
  exact all_file ho hk hc

/-- C12, all at once: a `with` block on an encoder made without `streaming`, any edits before and inside it. -/
theorem C12_all_at_once (file : OutFile) (major minor : Nat) (id : Bytes) (created : DateTime)
    (setup during : List Op) (hs : Edits setup) (hd : Edits during) :
    let e0 := Enc.new file major minor id created false
    let prog := setup ++ .enter :: (during ++ [.exit])
    ∃ f : FileSpec, (e0.runs prog).file.bytes = (if file.seekable then [] else file.bytes) ++ f.bytes ∧
      CountsRight f ∧ ∀ l, ofSeg l f.grains = ofSeg l (e0.taken prog) := by
  intro e0 prog
  have hb0 : Born e0 := born_new file major minor id created false
  have hed := edit_steps hb0.idle setup (fun o ho => (hs o ho).1)
  have hb := hb0.edits (fun o ho => (hs o ho).1)
  have hst : (e0.runs setup).streaming = false := hed.frame.streaming
  have hrun : (Op.enter.run (e0.runs setup)).1 = opened (e0.runs setup) := by
    show (e0.runs setup).enter = _
    rw [enter_eq, hst, if_neg (by simp)]
  have hio : Idle (opened (e0.runs setup)) := by
    refine ⟨hb.idle.nodup, ?_⟩
    intro h hh
    simp only [opened, hb.handles, List.nil_append, List.mem_singleton] at hh
    subst hh; rfl
  have hed2 := edit_steps hio during (fun o ho => (hd o ho).1)
  have hfr : Fresh (opened (e0.runs setup)) := hb.fresh
  generalize he2 : (opened (e0.runs setup)).runs during = e2 at hed2
  have hfr2 := hed2.fresh hfr
  have hop : e2.syncOpen = some 0 := by
    rw [hed2.frame.syncOpen]; simp [opened, hb.handles]
  have hk : ∃ n, e2.handles[0]? = some ⟨false, n, false⟩ := by
    have h1 := hed2.frame.kinds
    simp only [opened, hb.handles, List.nil_append, List.map_cons, List.map_nil] at h1
    match hh : e2.handles with
    | [] => rw [hh] at h1; simp at h1
    | [⟨a, n, b⟩] =>
      have hact := hed2.idle.inactive ⟨a, n, b⟩ (by rw [hh]; simp)
      rw [hh] at h1
      simp only [List.map_cons, List.map_nil, List.cons.injEq, and_true] at h1
      simp only at hact
      subst h1; subst hact
      exact ⟨n, rfl⟩
    | _ :: _ :: _ => rw [hh] at h1; simp at h1
  obtain ⟨n, hk⟩ := hk
  have hst2 : e2.streaming = false := hed2.frame.streaming.trans hst
  have hfile2 : e2.file = file := hed2.file.trans hed.file
  refine ⟨plainSpec e2 true [], ?_, plainSpec_counts hed2.idle.nodup (fun s hs => (hfr2 s hs).1), ?_⟩
  · show (e0.runs (setup ++ _)).file.bytes = _
    rw [runs_append]
    show (((Op.enter.run (e0.runs setup)).1).runs (during ++ [.exit])).file.bytes = _
    rw [hrun, runs_append, he2]
    show e2.exit.file.bytes = _
    rw [exit_all hop hk hst2 (fun s hs => (hfr2 s hs).2.1), hfile2]
  · intro l
    show ofSeg l (e2.pending ++ []) = ofSeg l (e0.taken (setup ++ _))
    rw [List.append_nil, taken_append, ofSeg_append]
    unfold Enc.pending
    rw [ofSeg_pending, hed2.pend]
    show pend (e0.runs setup).segs l ++ _ = _
    rw [hed.pend]
    show ([] ++ ofSeg l (e0.taken setup)) ++ _ = _ ++ ofSeg l (Op.enter.takes _ ++ (Op.enter.run _).1.taken _)
    rw [hrun, List.nil_append, taken_append, ofSeg_append, ofSeg_append, he2]
    simp [Enc.taken, Op.takes, Op.run, ofSeg]

/-- C12, all at once through the deprecated interface: `dump()` on an encoder set up in any way. -/
theorem C12_dump (file : OutFile) (major minor : Nat) (id : Bytes) (created : DateTime) (streaming : Bool)
    (setup : List Op) (hs : Edits setup) :
    let e0 := Enc.new file major minor id created streaming
    ∃ f : FileSpec, ((e0.runs setup).dump).file.bytes = (if file.seekable then [] else file.bytes) ++ f.bytes ∧
      CountsRight f ∧ ∀ l, ofSeg l f.grains = ofSeg l (e0.taken setup) := by
  intro e0
  have hb0 : Born e0 := born_new file major minor id created streaming
  have hed := edit_steps hb0.idle setup (fun o ho => (hs o ho).1)
  have hb := hb0.edits (fun o ho => (hs o ho).1)
  have hsk : (opened (e0.runs setup)).file = file := hed.file
  refine ⟨plainSpec (opened (e0.runs setup)) true [], ?_, plainSpec_counts hb.idle.nodup (fun s hs => (hb.fresh s hs).1), ?_⟩
  · unfold Enc.dump Enc.endDump
    rw [startDump_eq]
    have hop : ((opened (e0.runs setup)).start (e0.runs setup).handles.length true).syncOpen =
        some (e0.runs setup).handles.length := by rw [start_eq]; rfl
    rw [hop]
    show (((opened (e0.runs setup)).start _ true).finish _).file.bytes = _
    rw [all_file rfl (opened_handle _) (fun s hs => (hb.fresh s hs).2.1), hsk]
  · intro l
    show ofSeg l (Enc.pending _ ++ []) = _
    rw [List.append_nil]
    unfold Enc.pending
    rw [ofSeg_pending]
    show pend (e0.runs setup).segs l = _
    rw [hed.pend]; rfl

/-- What a reader of the file sees: if the values fit their fields, the decoder reports, for every segment of
the header, a count equal to the number of grains it yields for that segment. -/
theorem C12_decoded {f : FileSpec} (hf : f.Ok) (hc : CountsRight f) :
    ∃ r, decodeFile {} f.bytes = .ok r ∧ ∀ sg ∈ r.hdr.head.segments,
      sg.count = (((r.view f.bytes).filter (fun x => x.2.2 == sg.localId)).length : Nat) := by
  obtain ⟨r, h1, -, h3, h4⟩ := C01_round_trip_normal_form f hf
  refine ⟨r, h1, ?_⟩
  rw [h3, h4]
  intro sg hsg
  simp only [hdrOf] at hsg
  obtain ⟨s, hs, rfl⟩ := List.mem_map.mp hsg
  rw [List.filter_map, List.length_map]
  exact hc.1 s hs

/-! ## C13 -/

/-- A call that hands grains to a segment that exists in `e`. -/
def Declared (e : Enc) : Op → Prop
  | .addGrains _ sid lid _ => ((e.choose sid lid).filter e.hasSeg).isSome
  | .hAddGrains k _ sid lid _ => k = 0 ∧ ((e.choose sid lid).filter e.hasSeg).isSome
  | .sAddGrains l _ => l ∈ e.lids
  | _ => False

/-- The segment such a call goes to. -/
def target (e : Enc) : Op → Nat
  | .addGrains _ sid lid _ => (e.choose sid lid).getD 0
  | .hAddGrains _ _ sid lid _ => (e.choose sid lid).getD 0
  | .sAddGrains l _ => l
  | _ => 0

/-- The grains of the calls in call order, each with its segment. -/
def routed (e : Enc) (calls : List Op) : List (Nat × Grain) :=
  calls.flatMap (fun o => o.grains.map (fun g => (target e o, g)))

theorem choose_congr {e e' : Enc} (h : e'.segs.map (fun s => (s.localId, s.id)) = e.segs.map (fun s => (s.localId, s.id)))
    (sid lid) : e'.choose sid lid = e.choose sid lid := by
  have key : ∀ segs : List Seg, (segs.filter (fun s => sid.isNone || some s.id == sid)).map Seg.localId =
      ((segs.map (fun s => (s.localId, s.id))).filter (fun p => sid.isNone || some p.2 == sid)).map Prod.fst := by
    intro segs
    rw [List.filter_map, List.map_map]; rfl
  unfold Enc.choose
  cases lid with
  | some l => rfl
  | none => simp only; rw [key, key, h]

theorem lids_congr {e e' : Enc} (h : e'.segs.map (fun s => (s.localId, s.id)) = e.segs.map (fun s => (s.localId, s.id))) :
    e'.lids = e.lids := by
  have := congrArg (List.map Prod.fst) h
  rw [List.map_map, List.map_map] at this
  exact this

theorem hasSeg_congr {e e' : Enc} (h : e'.segs.map (fun s => (s.localId, s.id)) = e.segs.map (fun s => (s.localId, s.id))) :
    e'.hasSeg = e.hasSeg := by
  funext l
  rw [Bool.eq_iff_iff, e'.hasSeg_iff, e.hasSeg_iff, lids_congr h]

theorem sAddGrains_ok {e : Enc} {l : Nat} (hl : l ∈ e.lids) (gs : List Grain) : (e.sAddGrains l gs).2 = .ok l := by
  obtain ⟨s, hs⟩ := Enc.seg_of_mem hl
  unfold Enc.sAddGrains
  rw [hs]
  simp only
  split <;> rfl

theorem hAddGrains_of {e : Enc} {k : Nat} {h : Handle} (hk : e.handles[k]? = some h) {sid lid l}
    (hc : (e.choose sid lid).filter e.hasSeg = some l) (gs fresh) :
    e.hAddGrains k gs sid lid fresh = if h.active then (e.writeGrains l gs, .ok l) else e.sAddGrains l gs := by
  unfold Enc.hAddGrains
  rw [hk]
  simp only [hc]

theorem target_of {e : Enc} {sid lid} (h : ((e.choose sid lid).filter e.hasSeg).isSome) :
    (e.choose sid lid).filter e.hasSeg = some ((e.choose sid lid).getD 0) ∧ (e.choose sid lid).getD 0 ∈ e.lids := by
  obtain ⟨l, hl⟩ := Option.isSome_iff_exists.mp h
  have := hl
  rw [Option.filter_eq_some_iff] at this
  rw [this.1, Option.getD_some, ← e.hasSeg_iff]
  refine ⟨?_, this.2⟩
  rw [Option.filter_some, if_pos this.2]

/-- The call is accepted whatever the mode. -/
theorem declared_takes {e0 e : Enc} {h : Handle} (hk : e.handles[0]? = some h) (ho : e.syncOpen = some 0)
    (hids : e.segs.map (fun s => (s.localId, s.id)) = e0.segs.map (fun s => (s.localId, s.id)))
    {o : Op} (hd : Declared e0 o) : o.takes e = o.grains.map (fun g => (target e0 o, g)) := by
  have hh : ∀ (gs : List Grain) (sid lid fresh), ((e0.choose sid lid).filter e0.hasSeg).isSome →
      tookBy gs (e.hAddGrains 0 gs sid lid fresh).2 = gs.map (fun g => ((e0.choose sid lid).getD 0, g)) := by
    intro gs sid lid fresh hd
    obtain ⟨h1, h2⟩ := target_of hd
    rw [← choose_congr hids, ← hasSeg_congr hids] at h1
    rw [← lids_congr hids] at h2
    rw [hAddGrains_of hk h1]
    rw [choose_congr hids] at *
    split
    · rfl
    · rw [sAddGrains_ok h2]; rfl
  cases o with
  | addGrains gs sid lid fresh =>
    rw [takes_of rfl]
    simp only [Enc.addGrains, ho]
    exact hh gs sid lid fresh hd
  | hAddGrains k gs sid lid fresh =>
    obtain ⟨rfl, hd⟩ := hd
    rw [takes_of rfl]
    exact hh gs sid lid fresh hd
  | sAddGrains l gs =>
    rw [takes_of rfl, sAddGrains_ok (by rw [lids_congr hids]; exact hd)]; rfl
  | _ => exact hd.elim

theorem declared_not_dump {e : Enc} {o : Op} (h : Declared e o) : o.isDump = false ∧ ∀ j, o.handle? = some j → j = 0 := by
  cases o <;> first
    | exact h.elim
    | (refine ⟨rfl, fun j hj => ?_⟩; simp only [Op.handle?, Option.some.injEq, reduceCtorEq] at hj; subst hj; exact h.1)
    | exact ⟨rfl, fun j hj => by simp [Op.handle?] at hj⟩

/-- The calls during a streaming dump. -/
theorem routed_live {e0 s0 : Enc} {w held e} (h : Live s0 0 w held e) (hd : ∀ s ∈ s0.segs, s.activeDump = true)
    (hp : ∀ s ∈ s0.segs, ∀ j, s.parent = some j → j = 0)
    (hids : s0.segs.map (fun s => (s.localId, s.id)) = e0.segs.map (fun s => (s.localId, s.id)))
    (calls : List Op) (hc : ∀ o ∈ calls, Declared e0 o) : e.taken calls = routed e0 calls := by
  induction calls generalizing e w held with
  | nil => rfl
  | cons o os ih =>
    obtain ⟨n, hk⟩ := h.handle
    have hie : e.segs.map (fun s => (s.localId, s.id)) = e0.segs.map (fun s => (s.localId, s.id)) := by
      rw [h.segs, List.map_map, ← hids]; rfl
    have h1 := declared_takes hk h.opened hie (hc o (by simp))
    have hnd := declared_not_dump (hc o (by simp))
    have h2 := h.steps hd hp [o] (by simpa using hnd)
    show o.takes e ++ (o.run e).1.taken os = _
    have h3 : (o.run e).1.taken os = routed e0 os := ih (e := (o.run e).1) h2 (fun x hx => hc x (by simp [hx]))
    rw [h1, h3]
    rfl

/-- The segments after handing over grains without a dump. -/
def withGrains (segs : List Seg) (w : List (Nat × Grain)) : List Seg :=
  segs.map (fun s => { s with grains := s.grains ++ ofSeg s.localId w })

/-- One call while no dump is active. -/
theorem idle_call {e0 e : Enc} (hi : Idle e) {h : Handle} (hk : e.handles[0]? = some h) (ho : e.syncOpen = some 0)
    (hids : e.segs.map (fun s => (s.localId, s.id)) = e0.segs.map (fun s => (s.localId, s.id)))
    {o : Op} (hd : Declared e0 o) :
    (o.run e).1 = e.updSeg (target e0 o) (fun s => { s with grains := s.grains ++ o.grains }) := by
  have hs : ∀ l gs, l ∈ e.lids → (e.sAddGrains l gs).1 = e.updSeg l (fun s => { s with grains := s.grains ++ gs }) := by
    intro l gs hl
    obtain ⟨s, hs⟩ := Enc.seg_of_mem hl
    unfold Enc.sAddGrains
    rw [hs]
    simp only [hi.parent_inactive s, Bool.false_eq_true, if_false]
  have hh : ∀ (gs : List Grain) (sid lid fresh), ((e0.choose sid lid).filter e0.hasSeg).isSome →
      (e.hAddGrains 0 gs sid lid fresh).1 =
        e.updSeg ((e0.choose sid lid).getD 0) (fun s => { s with grains := s.grains ++ gs }) := by
    intro gs sid lid fresh hd
    obtain ⟨h1, h2⟩ := target_of hd
    rw [← choose_congr hids, ← hasSeg_congr hids] at h1
    rw [← lids_congr hids] at h2
    rw [hAddGrains_of hk h1, hi.inactive h (List.mem_of_getElem? hk), choose_congr hids]
    exact hs _ _ h2
  cases o with
  | addGrains gs sid lid fresh =>
    simp only [Op.run, Enc.addGrains, ho]
    exact hh gs sid lid fresh hd
  | hAddGrains k gs sid lid fresh =>
    obtain ⟨rfl, hd⟩ := hd
    exact hh gs sid lid fresh hd
  | sAddGrains l gs => exact hs l gs (by rw [lids_congr hids]; exact hd)
  | _ => exact hd.elim

theorem withGrains_upd (segs : List Seg) (w : List (Nat × Grain)) (l : Nat) (gs : List Grain) :
    (withGrains segs w).map (fun s => if s.localId = l then { s with grains := s.grains ++ gs } else s) =
      withGrains segs (w ++ gs.map (fun g => (l, g))) := by
  unfold withGrains
  rw [List.map_map]
  apply List.map_congr_left
  intro s _
  simp only [Function.comp]
  by_cases h : s.localId = l
  · simp only [h, if_true, ofSeg_append, ofSeg_map_self, List.append_assoc]
  · have h' : l ≠ s.localId := fun e => h e.symm
    simp only [h, if_false, ofSeg_append, ofSeg_map_ne h', List.append_nil]

theorem idle_calls {e0 : Enc} (calls : List Op) (hc : ∀ o ∈ calls, Declared e0 o) {e : Enc} {w} {h : Handle}
    (hi : Idle e) (hk : e.handles[0]? = some h) (ho : e.syncOpen = some 0) (hs : e.segs = withGrains e0.segs w) :
    (e.runs calls) = { e with segs := withGrains e0.segs (w ++ routed e0 calls) } := by
  induction calls generalizing e w with
  | nil => simp only [Enc.runs, routed, List.flatMap_nil, List.append_nil, ← hs]
  | cons o os ih =>
    have hids : e.segs.map (fun s => (s.localId, s.id)) = e0.segs.map (fun s => (s.localId, s.id)) := by
      rw [hs]; unfold withGrains; rw [List.map_map]; rfl
    have h1 := idle_call hi hk ho hids (hc o (by simp))
    have h2 : (o.run e).1.segs = withGrains e0.segs (w ++ o.grains.map (fun g => (target e0 o, g))) := by
      rw [h1]
      show List.map _ e.segs = _
      rw [hs, withGrains_upd]
    have hi2 := (edit_step hi o (declared_not_dump (hc o (by simp))).1).idle
    have := ih (fun x hx => hc x (by simp [hx])) hi2 (by rw [h1]; exact hk) (by rw [h1]; exact ho) h2
    show (o.run e).1.runs os = _
    rw [this, h1]
    simp only [Enc.updSeg, routed, List.flatMap_cons, List.append_assoc]

theorem routed_declared {e : Enc} {calls : List Op} (hc : ∀ o ∈ calls, Declared e o) :
    ∀ x ∈ routed e calls, x.1 ∈ e.lids := by
  intro x hx
  obtain ⟨o, ho, hx⟩ := List.mem_flatMap.mp hx
  obtain ⟨g, _, rfl⟩ := List.mem_map.mp hx
  have := hc o ho
  cases o with
  | addGrains gs sid lid fresh => exact (target_of this).2
  | hAddGrains k gs sid lid fresh => exact (target_of this.2).2
  | sAddGrains l gs => exact this
  | _ => exact this.elim

theorem pend_withGrains {segs : List Seg} (hn : (segs.map Seg.localId).Nodup) {w : List (Nat × Grain)}
    (hw : ∀ x ∈ w, x.1 ∈ segs.map Seg.localId) (l : Nat) : pend (withGrains segs w) l = pend segs l ++ ofSeg l w := by
  have hlids : (withGrains segs w).map Seg.localId = segs.map Seg.localId := by
    unfold withGrains; rw [List.map_map]; rfl
  by_cases hl : l ∈ segs.map Seg.localId
  · obtain ⟨s, hs, rfl⟩ := List.mem_map.mp hl
    rw [pend_of_mem hn hs]
    have : ({ s with grains := s.grains ++ ofSeg s.localId w } : Seg) ∈ withGrains segs w :=
      List.mem_map.mpr ⟨s, hs, rfl⟩
    exact pend_of_mem (hlids ▸ hn) this
  · rw [pend_nil_of_not_mem hl, pend_nil_of_not_mem (hlids ▸ hl)]
    unfold ofSeg
    rw [List.filter_eq_nil_iff.mpr]
    · rfl
    · intro x hx h
      simp only [beq_iff_eq] at h
      exact hl (h ▸ hw x hx)

/-- The same encoder made with the given `streaming` argument (it is only read by `__enter__` and `__exit__`). -/
def _root_.Verif.Gsf.Enc.inMode (e : Enc) (streaming : Bool) : Enc := { e with streaming := streaming }

/-- The grains that are taken by such calls. -/
theorem idle_taken {e0 : Enc} (calls : List Op) (hc : ∀ o ∈ calls, Declared e0 o) {e : Enc} {w} {h : Handle}
    (hi : Idle e) (hk : e.handles[0]? = some h) (ho : e.syncOpen = some 0) (hs : e.segs = withGrains e0.segs w) :
    e.taken calls = routed e0 calls := by
  induction calls generalizing e w with
  | nil => rfl
  | cons o os ih =>
    have hids : e.segs.map (fun s => (s.localId, s.id)) = e0.segs.map (fun s => (s.localId, s.id)) := by
      rw [hs]; unfold withGrains; rw [List.map_map]; rfl
    have h1 := idle_call hi hk ho hids (hc o (by simp))
    have h2 : (o.run e).1.segs = withGrains e0.segs (w ++ o.grains.map (fun g => (target e0 o, g))) := by
      rw [h1]
      show List.map _ e.segs = _
      rw [hs, withGrains_upd]
    have hi2 := (edit_step hi o (declared_not_dump (hc o (by simp))).1).idle
    have h3 := ih (fun x hx => hc x (by simp [hx])) hi2 (by rw [h1]; exact hk) (by rw [h1]; exact ho) h2
    show o.takes e ++ (o.run e).1.taken os = _
    rw [declared_takes hk ho hids (hc o (by simp)), h3]
    rfl

/-- The files of the two modes, if the file can seek or not. -/
theorem session_any (e : Enc) (hb : Born e) (calls : List Op)
    (hc : ∀ o ∈ calls, Declared e o) :
    ((e.inMode true).runs (.enter :: (calls ++ [.exit]))).file.bytes =
      (if e.file.seekable then [] else e.file.bytes) ++ (if e.file.seekable then streamSpec (opened (e.inMode true)) (routed e calls)
        else plainSpec (opened (e.inMode true)) false (routed e calls)).bytes ∧
    ((e.inMode false).runs (.enter :: (calls ++ [.exit]))).file.bytes =
      (if e.file.seekable then [] else e.file.bytes) ++
      (plainSpec { opened (e.inMode false) with segs := withGrains e.segs (routed e calls) } true []).bytes ∧
    (Op.enter.run (e.inMode true)).1.taken calls = routed e calls ∧
    (Op.enter.run (e.inMode false)).1.taken calls = routed e calls := by
  have hb1 : Born (e.inMode true) := ⟨⟨hb.idle.nodup, hb.idle.inactive⟩, hb.fresh, hb.handles, hb.noSync, hb.parents⟩
  obtain ⟨held, e', hl, hfile⟩ := stream_session hb1 (start := .enter) (stop := .exit) (.inr ⟨rfl, rfl, rfl⟩)
    (during := calls) (fun o ho => declared_not_dump (hc o ho))
  have hrun : (Op.enter.run (e.inMode true)).1 = (opened (e.inMode true)).start 0 false := by
    show (e.inMode true).enter = _
    rw [enter_eq, if_pos (show (e.inMode true).streaming = true from rfl)]
    have : (e.inMode true).handles.length = 0 := by show e.handles.length = 0; rw [hb.handles]; rfl
    rw [this]
  have hlive0 := opened_live (e.inMode true) false
  have hlen : (e.inMode true).handles.length = 0 := by show e.handles.length = 0; rw [hb.handles]; rfl
  rw [hlen] at hlive0
  have hids0 : ((opened (e.inMode true)).start 0 false).segs.map (fun s => (s.localId, s.id)) =
      e.segs.map (fun s => (s.localId, s.id)) := by
    rw [start_eq]
    simp only [startSegs]
    have : ∀ segs : List Seg, (segs.map Seg.dumped).map (fun s => (s.localId, s.id)) =
        (segs.map (Seg.header false)).map (fun s => (s.localId, s.id)) := by
      intro segs; rw [List.map_map, List.map_map]; rfl
    rw [this]
    split
    · rw [setPositions_header, List.map_map]; rfl
    · rw [List.map_map]; rfl
  have hroute := routed_live hlive0 start_dumped (start_parents hb.parents) hids0 calls hc
  have htk : (Op.enter.run (e.inMode true)).1.taken calls = routed e calls := by rw [hrun]; exact hroute
  rw [hrun, hroute] at hl
  -- the other mode
  have hlen2 : (e.inMode false).handles.length = 0 := hlen
  have hrun2 : (Op.enter.run (e.inMode false)).1 = opened (e.inMode false) := by
    show (e.inMode false).enter = _
    rw [enter_eq, if_neg (by simp [Enc.inMode])]
  have hio : Idle (opened (e.inMode false)) := by
    refine ⟨hb.idle.nodup, ?_⟩
    intro h hh
    simp only [opened, Enc.inMode, hb.handles, List.nil_append, List.mem_singleton] at hh
    subst hh; rfl
  have hk2 := opened_handle (e.inMode false)
  rw [hlen2] at hk2
  have hcalls := idle_calls (e0 := e) calls hc (w := []) hio hk2 (by simp [opened, Enc.inMode, hb.handles])
    (by unfold withGrains; simp only [opened, Enc.inMode, ofSeg, List.filter_nil, List.map_nil, List.append_nil, List.map_id'])
  rw [List.nil_append] at hcalls
  refine ⟨?_, ?_, htk, ?_⟩
  · rw [hfile]
    by_cases hf : e.file.seekable = true
    · rw [if_pos hf, if_pos hf]; exact stream_file hl hf
    · rw [if_neg hf, if_neg hf, plain_file hl (.inl (by show e.file.seekable = false; simpa using hf))]
      show (if e.file.seekable = true then _ else _) ++ _ = _
      rw [if_neg hf]; rfl
  · show ((Op.enter.run (e.inMode false)).1.runs (calls ++ [.exit])).file.bytes = _
    rw [hrun2, runs_append, hcalls]
    show (Enc.exit _).file.bytes = _
    have hso : (opened (e.inMode false)).syncOpen = some 0 := by simp [opened, Enc.inMode, hb.handles]
    refine (exit_all (e := { opened (e.inMode false) with segs := withGrains e.segs (routed e calls) }) (k := 0) (n := e.nextLocal) hso hk2 rfl ?_).trans ?_
    · intro s hs
      simp only [withGrains] at hs
      obtain ⟨t, ht, rfl⟩ := List.mem_map.mp hs
      exact (hb.fresh t ht).2.1
    · rfl
  · rw [hrun2]
    exact idle_taken (e0 := e) calls hc (w := []) hio hk2 (by simp [opened, Enc.inMode, hb.handles])
      (by unfold withGrains; simp only [opened, Enc.inMode, ofSeg, List.filter_nil, List.map_nil, List.append_nil, List.map_id'])

/-- The files of the two modes. -/
theorem session_files (e : Enc) (hb : Born e) (hf : e.file.seekable = true) (calls : List Op)
    (hc : ∀ o ∈ calls, Declared e o) :
    ((e.inMode true).runs (.enter :: (calls ++ [.exit]))).file.bytes =
      (streamSpec (opened (e.inMode true)) (routed e calls)).bytes ∧
    ((e.inMode false).runs (.enter :: (calls ++ [.exit]))).file.bytes =
      (plainSpec { opened (e.inMode false) with segs := withGrains e.segs (routed e calls) } true []).bytes ∧
    (Op.enter.run (e.inMode true)).1.taken calls = routed e calls ∧
    (Op.enter.run (e.inMode false)).1.taken calls = routed e calls := by
  have := session_any e hb calls hc
  rwa [if_pos hf, if_pos hf, List.nil_append, List.nil_append] at this

/-- C13: take an encoder in any state in which nothing was opened yet (any segments, tags and grains already
added), and any sequence of `add_grain(s)` calls to its segments inside a `with` block.  Made with
`streaming=True` the file holds the grains in call order (after those added before), made with `streaming=False`
grouped by segment; the headers are the same, counts included, and so is the sequence of grains of each
segment. -/
theorem C13_modes_agree (e : Enc) (hb : Born e) (hf : e.file.seekable = true) (calls : List Op)
    (hc : ∀ o ∈ calls, Declared e o) :
    ∃ f₁ f₂ : FileSpec,
      ((e.inMode true).runs (.enter :: (calls ++ [.exit]))).file.bytes = f₁.bytes ∧
      ((e.inMode false).runs (.enter :: (calls ++ [.exit]))).file.bytes = f₂.bytes ∧
      f₁.major = f₂.major ∧ f₁.minor = f₂.minor ∧ f₁.head = f₂.head ∧
      f₁.grains = e.pending ++ routed e calls ∧
      f₂.grains = e.segs.flatMap (fun s =>
        (s.grains ++ ofSeg s.localId (routed e calls)).map (fun g => (s.localId, g))) ∧
      ∀ l, ofSeg l f₁.grains = ofSeg l f₂.grains := by
  obtain ⟨h1, h2, -⟩ := session_files e hb hf calls hc
  refine ⟨streamSpec (opened (e.inMode true)) (routed e calls),
    plainSpec { opened (e.inMode false) with segs := withGrains e.segs (routed e calls) } true [],
    h1, h2, rfl, rfl, ?_, ?_, ?_, ?_⟩
  · unfold streamSpec plainSpec Enc.headIn withGrains
    simp only [opened, Enc.inMode, List.map_map]
    congr 1
    apply List.map_congr_left
    intro s _
    simp only [Function.comp, Seg.header, if_true, Seg.count, List.length_append]
    congr 2
    omega
  · rfl
  · unfold plainSpec Enc.pending withGrains
    simp only [List.append_nil, List.flatMap_map]
  · intro l
    show ofSeg l (e.pending ++ routed e calls) = ofSeg l (Enc.pending _ ++ [])
    rw [List.append_nil, ofSeg_append]
    unfold Enc.pending
    rw [ofSeg_pending, ofSeg_pending]
    exact (pend_withGrains hb.idle.nodup (routed_declared hc) l).symm

/-! ## C18 -/

/-- C18, what holds: dumping (all at once, to a seekable file, in any state no streaming dump led to) leaves a
complete file whose counts are right exactly if no grain of the encoder was written by an earlier dump; the
count of a segment is the number of its grains in all dumps so far. -/
theorem C18_repeated_dump_partial (e : Enc) (hi : Idle e) (hf : e.file.seekable = true)
    (hc : ∀ s ∈ e.segs, s.countPos = none) :
    ∃ f : FileSpec, e.dump.file.bytes = f.bytes ∧ (CountsRight f ↔ ∀ s ∈ e.segs, s.writeCount = 0) ∧
      f.head.segments.map SegmIn.count =
        e.segs.map (fun s => (((f.grains.filter (fun (x : Nat × Grain) => x.1 == s.localId)).length + s.writeCount : Nat) : Int)) := by
  have hcount : ∀ s ∈ e.segs, (((opened e).pending ++ []).filter (fun (x : Nat × Grain) => x.1 == s.localId)).length = s.grains.length := by
    intro s hs
    rw [List.append_nil, ofSeg_length]
    unfold Enc.pending
    rw [ofSeg_pending]
    show (pend e.segs s.localId).length = _
    rw [pend_of_mem hi.nodup hs]
  refine ⟨plainSpec (opened e) true [], ?_, ⟨?_, ?_⟩, ?_⟩
  · unfold Enc.dump Enc.endDump
    rw [startDump_eq]
    have hop : ((opened e).start e.handles.length true).syncOpen = some e.handles.length := by rw [start_eq]; rfl
    rw [hop]
    show (((opened e).start _ true).finish _).file.bytes = _
    rw [all_file rfl (opened_handle _) hc]
    show (if e.file.seekable = true then _ else _) ++ _ = _
    rw [if_pos hf]; rfl
  · intro h s hs
    have h1 := h.1 (Seg.header true s) (List.mem_map.mpr ⟨s, hs, rfl⟩)
    have h2 := hcount s hs
    simp only [Seg.header, if_true, plainSpec] at h1
    rw [h2] at h1
    unfold Seg.count at h1
    omega
  · intro h
    exact plainSpec_counts hi.nodup h
  · unfold plainSpec Enc.headIn
    simp only [List.map_map]
    apply List.map_congr_left
    intro s hs
    rw [hcount s hs]
    simp [Seg.header, Seg.count, Nat.add_comm]

/-- An encoder with one segment and one grain. -/
def oneGrain : Enc :=
  (Enc.new ⟨true, [], 0⟩ 9 0 (u 9) ⟨2024, 2, 29, 23, 59, 59⟩ false).runs [.addGrains [gAudio] none none (u 5)]

/-- What the file holds after a second dump: a header that promises one grain, and none. -/
def secondDump : FileSpec := ⟨9, 0, ⟨u 9, ⟨2024, 2, 29, 23, 59, 59⟩, [⟨1, u 5, 1, none, []⟩], []⟩, []⟩

/-- C18 is violated by the code: dumping the same encoder twice to the same file leaves a valid file whose
header counts a grain that is not in the file. -/
theorem C18_counterexample : oneGrain.dump.dump.file.bytes = secondDump.bytes ∧ secondDump.Ok ∧
    ¬ CountsRight secondDump := by
  refine ⟨by decide +kernel, by decide +kernel, ?_⟩
  intro h
  have := h.1 ⟨1, u 5, 1, none, []⟩ (by decide)
  revert this; decide

/-! ## The hypotheses are met by non-trivial programs -/

def demoSetup : List Op :=
  [.addSegment (some (u 7)) (some 3) [(hello, hello)] (u 0), .addSegment none none [] (u 8), .addTag (hello, []),
   .sAddFlow 3 ⟨u 1, u 2, hello, [123, 125]⟩, .addGrains [gVideo] none none (u 0)]

/-- Grains through the encoder, the handle and a segment, and three refused calls. -/
def demoDuring : List Op :=
  [.hAddGrains 0 [gAudio, gEmpty] none (some 4) (u 0), .addGrains [gCoded] (some (u 7)) none (u 0), .sAddGrains 4 [gEvent],
   .addTag (hello, hello), .hAddSegment 0 none none [] (u 0), .hAddGrains 0 [gEmpty] none (some 9) (u 0)]

example : Edits demoSetup ∧ Edits demoDuring := ⟨edits_of (by decide), edits_of (by decide)⟩

/-- The file of this program. -/
example :
    (((Enc.new ⟨true, [1, 2, 3], 2⟩ 9 0 (u 9) ⟨2024, 2, 29, 23, 59, 59⟩ true).runs
      (demoSetup ++ .enter :: (demoDuring ++ [.exit]))).file.bytes =
    (⟨9, 0, ⟨u 9, ⟨2024, 2, 29, 23, 59, 59⟩,
      [⟨3, u 7, 2, some ⟨u 1, u 2, hello, [123, 125]⟩, [(hello, hello)]⟩, ⟨4, u 8, 3, none, []⟩], [(hello, [])]⟩,
      [(3, gVideo), (4, gAudio), (4, gEmpty), (3, gCoded), (4, gEvent)]⟩ : FileSpec).bytes) := by decide +kernel

/-- Calls for C13. -/
def demoCalls : List Op :=
  [.hAddGrains 0 [gAudio, gEmpty] none (some 4) (u 0), .addGrains [gCoded] (some (u 7)) none (u 0), .sAddGrains 4 [gEvent]]

def demoEnc : Enc := (Enc.new ⟨true, [], 0⟩ 9 0 (u 9) ⟨2024, 2, 29, 23, 59, 59⟩ false).runs demoSetup

example : Born demoEnc ∧ demoEnc.file.seekable = true ∧ (∀ o ∈ demoCalls, Declared demoEnc o) ∧
    demoEnc.lids = [3, 4] := by
  refine ⟨(born_new ..).edits (fun o ho => (edits_of (ops := demoSetup) (by decide) o ho).1), by decide +kernel, ?_, by decide +kernel⟩
  intro o ho
  simp only [demoCalls, List.mem_cons, List.not_mem_nil, or_false] at ho
  rcases ho with rfl | rfl | rfl
  · exact ⟨rfl, by decide +kernel⟩
  · show ((demoEnc.choose _ _).filter _).isSome = true
    decide +kernel
  · show 4 ∈ demoEnc.lids
    decide +kernel

example : Idle oneGrain ∧ oneGrain.file.seekable = true ∧ ∀ s ∈ oneGrain.segs, s.countPos = none :=
  ⟨⟨by decide +kernel, by decide +kernel⟩, by decide +kernel, by decide +kernel⟩

end Verif.Props

import Verif.Numpy.Live
import Verif.Props.C55

/-!
# C89: the arrays of a numpy video grain are those of its data, at any time
-/

namespace Verif.Props

open Verif Verif.Cog Verif.Numpy.Arrays Verif.Numpy.Live

/-- What element `[x, y]` of array `c` should be, going by the format, the components and `bytes(grain)`. -/
def shown (fmt : Nat) (comps : List Component) (data : Bytes) (c x y : Nat) : Option Bytes :=
  match videoArrays fmt data.length comps with
  | .error _ => none
  | .ok views =>
    match views[c]? with
    | none => none
    | some v => if x < v.width ∧ y < v.height then v.get data x y else none

/-- Operations other than those that change the metadata of a grain that is there. -/
def keepsMeta : Numpy.Live.Op → Bool
  | .setFormat _ _ => false
  | .setComponents _ _ => false
  | _ => true

/-- What a program that starts with nothing leaves. -/
def worldOf (ops : List Numpy.Live.Op) : World := (World.run {} ops).2

namespace C89L

/-- The arrays of the grain are those of its data. -/
def Fresh (w : World) (x : Numpy.Live.Grain) : Prop :=
  ∃ fr, w.frames[x.frame]? = some fr ∧
    match x.data with
    | none => x.arrays = []
    | some (b, item) => x.fetcher = none ∧ ∃ buf vs, w.bufs[b]? = some buf ∧ itemsize fr.fmt = some item ∧
        videoArrays fr.fmt buf.bytes.length fr.comps = .ok vs ∧ x.arrays = vs.map (fun v => (b, v))

def Good (fr : Frame) : Prop := fr.comps = [] → itemsize fr.fmt = none

structure Inv (w : World) : Prop where
  frames : ∀ fr ∈ w.frames, Good fr
  fresh : ∀ x ∈ w.grains, Fresh w x

/-- Blocks keep their length, metadata stay as they are. -/
structure Ext (w w' : World) : Prop where
  bufs : ∀ (k : Nat) buf, w.bufs[k]? = some buf → ∃ buf', w'.bufs[k]? = some buf' ∧ buf'.bytes.length = buf.bytes.length
  frames : ∀ (k : Nat) fr, w.frames[k]? = some fr → w'.frames[k]? = some fr

theorem Ext.refl (w : World) : Ext w w := ⟨fun _ b h => ⟨b, h, rfl⟩, fun _ _ h => h⟩

theorem Ext.of {w w' : World} (h1 : w'.bufs = w.bufs) (h2 : w'.frames = w.frames) : Ext w w' :=
  ⟨fun k b h => ⟨b, by rw [h1]; exact h, rfl⟩, fun k f h => by rw [h2]; exact h⟩

theorem Ext.append {w w' : World} {bs : List Buf} {fs : List Frame} (h1 : w'.bufs = w.bufs ++ bs) (h2 : w'.frames = w.frames ++ fs) :
    Ext w w' := by
  constructor
  · intro k b h
    have hk : k < w.bufs.length := (List.getElem?_eq_some_iff.1 h).1
    exact ⟨b, by rw [h1, List.getElem?_append_left hk]; exact h, rfl⟩
  · intro k f h
    have hk : k < w.frames.length := (List.getElem?_eq_some_iff.1 h).1
    rw [h2, List.getElem?_append_left hk]; exact h

theorem Ext.set {w w' : World} {k : Nat} {buf buf' : Buf} (h1 : w'.bufs = w.bufs.set k buf') (h2 : w'.frames = w.frames)
    (hb : w.bufs[k]? = some buf) (hl : buf'.bytes.length = buf.bytes.length) : Ext w w' := by
  refine ⟨fun j b h => ?_, fun j f h => by rw [h2]; exact h⟩
  rw [h1, List.getElem?_set]
  by_cases e : k = j
  · subst e
    rw [hb] at h; cases h
    have : k < w.bufs.length := (List.getElem?_eq_some_iff.1 hb).1
    rw [if_pos rfl, if_pos this]
    exact ⟨buf', rfl, hl⟩
  · rw [if_neg e]
    exact ⟨b, h, rfl⟩

theorem Fresh.ext {w w' : World} (h : Ext w w') {x : Numpy.Live.Grain} (hx : Fresh w x) : Fresh w' x := by
  obtain ⟨fr, h1, h2⟩ := hx
  refine ⟨fr, h.frames _ _ h1, ?_⟩
  cases hd : x.data with
  | none => rw [hd] at h2; exact h2
  | some d =>
    obtain ⟨b, item⟩ := d
    rw [hd] at h2
    obtain ⟨hf, buf, vs, a1, a2, a3, a4⟩ := h2
    obtain ⟨buf', b1, b2⟩ := h.bufs _ _ a1
    exact ⟨hf, buf', vs, b1, a2, by rw [b2]; exact a3, a4⟩

theorem Fresh.of {w w' : World} (h1 : w'.bufs = w.bufs) (h2 : w'.frames = w.frames) {x : Numpy.Live.Grain} (hx : Fresh w x) : Fresh w' x :=
  hx.ext (Ext.of h1 h2)

/-- What `overBlock` gives for sound metadata. -/
theorem overBlock_good {fr : Frame} (hg : Good fr) (b len : Nat) :
    (∃ item vs, overBlock fr b len = (some (b, item), some (vs.map (fun v => (b, v))), .done) ∧ itemsize fr.fmt = some item ∧
      videoArrays fr.fmt len fr.comps = .ok vs) ∨
    (∃ r, overBlock fr b len = (none, none, r) ∧ r ≠ .done ∧ (videoArrays fr.fmt len fr.comps).toOption = none) := by
  unfold overBlock videoArrays
  cases hi : itemsize fr.fmt with
  | none => exact .inr ⟨_, rfl, by simp, rfl⟩
  | some item =>
    simp only
    by_cases hm : len % item ≠ 0
    · rw [if_pos hm, if_pos hm]; exact .inr ⟨_, rfl, by simp, rfl⟩
    · rw [if_neg hm, if_neg hm]
      cases hc : componentViews (len / item) item fr.fmt fr.comps with
      | ok vs => exact .inl ⟨item, vs, rfl, rfl, rfl⟩
      | error e =>
        exfalso
        have hne : fr.comps ≠ [] := fun h => by rw [hg h] at hi; cases hi
        unfold componentViews at hc
        unfold itemsize at hi
        by_cases hp : isPlanar fr.fmt
        · rw [if_pos hp] at hc; cases hc
        · rw [if_neg hp] at hc hi
          cases hcs : fr.comps with
          | nil => exact hne hcs
          | cons c cs =>
            rw [hcs] at hc
            simp only at hc
            revert hi hc
            simp only [byteFormats, List.mem_cons, List.mem_nil_iff, or_false]
            grind

theorem give_fresh {w : World} (hf : ∀ fr ∈ w.frames, Good fr) {x : Numpy.Live.Grain} (hx : Fresh w x) (v : Option Nat) : Fresh w (x.give w v).2 := by
  obtain ⟨fr, h1, h2⟩ := hx
  have keep : Fresh w { x with fetcher := none } := by
    refine ⟨fr, h1, ?_⟩
    cases hd : x.data with
    | none => rw [hd] at h2; exact h2
    | some d =>
      rw [hd] at h2
      exact ⟨rfl, h2.2⟩
  unfold Numpy.Live.Grain.give
  cases v with
  | none => simp only [h1]; exact keep
  | some b =>
    simp only [h1]
    cases hb : w.bufs[b]? with
    | none => exact ⟨fr, h1, h2⟩
    | some buf =>
      simp only
      rcases overBlock_good (hf fr (List.mem_of_getElem? h1)) b buf.bytes.length with ⟨item, vs, e, e1, e2⟩ | ⟨r, e, -, -⟩
      · rw [e]
        exact ⟨fr, h1, rfl, buf, vs, hb, e1, e2, rfl⟩
      · rw [e]
        exact keep

theorem construct_inv {w : World} (hi : Inv w) (frame b : Nat) (hf : ∃ fr, w.frames[frame]? = some fr) :
    Inv (w.construct frame b).2 ∧ Ext w (w.construct frame b).2 := by
  unfold World.construct
  have h0 : Fresh w { frame := frame } := by
    obtain ⟨fr, h⟩ := hf
    exact ⟨fr, h, rfl⟩
  have h1 := give_fresh hi.frames h0 (some b)
  split
  · rename_i g hg
    rw [hg] at h1
    refine ⟨⟨hi.frames, ?_⟩, Ext.of rfl rfl⟩
    intro x hx
    rcases List.mem_append.1 hx with hx | hx
    · exact (hi.fresh x hx).of rfl rfl
    · rw [List.mem_singleton.1 hx]
      exact h1.of rfl rfl
  · exact ⟨hi, Ext.refl w⟩

theorem Ext.trans {a b c : World} (h1 : Ext a b) (h2 : Ext b c) : Ext a c := by
  refine ⟨fun k x h => ?_, fun k f h => h2.frames _ _ (h1.frames _ _ h)⟩
  obtain ⟨y, e1, e2⟩ := h1.bufs _ _ h
  obtain ⟨z, e3, e4⟩ := h2.bufs _ _ e1
  exact ⟨z, e3, by rw [e4, e2]⟩

theorem unknown_comps : componentsForFormat FrameFormat.UNKNOWN 1920 1080 = [] := by decide

theorem unknown_size : sizeForFormat FrameFormat.UNKNOWN 1920 1080 = 0 := by decide

theorem alloc_inv {w : World} (hi : Inv w) (bs : Bytes) (wr : Bool) : Inv (w.alloc bs wr).2 ∧ Ext w (w.alloc bs wr).2 := by
  have he : Ext w (w.alloc bs wr).2 := Ext.append (bs := [⟨bs, wr⟩]) (fs := []) rfl (by simp [World.alloc])
  exact ⟨⟨hi.frames, fun x hx => (hi.fresh x hx).ext he⟩, he⟩

theorem addFrame_inv {w : World} (hi : Inv w) (fr : Frame) (hg : Good fr) :
    Inv { w with frames := w.frames ++ [fr] } ∧ Ext w { w with frames := w.frames ++ [fr] } := by
  have he : Ext w { w with frames := w.frames ++ [fr] } := Ext.append (bs := []) (fs := [fr]) (by simp) rfl
  refine ⟨⟨?_, fun x hx => (hi.fresh x hx).ext he⟩, he⟩
  intro f hf
  rcases List.mem_append.1 hf with hf | hf
  · exact hi.frames f hf
  · rw [List.mem_singleton.1 hf]; exact hg

/-- Filling in absent components changes nothing. -/
theorem fill_same (w : World) (frame : Nat) (fr : Frame) (h : w.frames[frame]? = some fr) :
    w.frames.set frame { fr with comps := if fr.comps.isEmpty then componentsForFormat FrameFormat.UNKNOWN 1920 1080 else fr.comps } =
      w.frames := by
  have : (if fr.comps.isEmpty then componentsForFormat FrameFormat.UNKNOWN 1920 1080 else fr.comps) = fr.comps := by
    rw [unknown_comps]
    split
    · rename_i h; exact (List.isEmpty_iff.1 h).symm
    · rfl
  rw [this]
  apply List.ext_getElem?
  intro j
  rw [List.getElem?_set]
  by_cases e : frame = j
  · subst e
    rw [if_pos rfl, if_pos (List.getElem?_eq_some_iff.1 h).1, h]
  · rw [if_neg e]

theorem fromMeta_eq (w : World) (frame : Nat) (fr : Frame) (h : w.frames[frame]? = some fr) (b : Option Nat) :
    w.fromMeta frame b = match b with
      | some b => w.construct frame b
      | none => (w.alloc [] true).2.construct frame w.bufs.length := by
  unfold World.fromMeta
  rw [h]
  simp only
  rw [fill_same w frame fr h]
  cases b with
  | some b => rfl
  | none => simp only [unknown_size]; rfl

theorem fromMeta_inv {w : World} (hi : Inv w) (frame : Nat) (b : Option Nat) :
    Inv (w.fromMeta frame b).2 ∧ Ext w (w.fromMeta frame b).2 := by
  cases h : w.frames[frame]? with
  | none =>
    unfold World.fromMeta
    rw [h]
    exact ⟨hi, Ext.refl w⟩
  | some fr =>
    rw [fromMeta_eq w frame fr h]
    cases b with
    | some b => exact construct_inv hi frame b ⟨fr, h⟩
    | none =>
      obtain ⟨a1, a2⟩ := alloc_inv hi [] true
      obtain ⟨b1, b2⟩ := construct_inv a1 frame w.bufs.length ⟨fr, a2.frames _ _ h⟩
      exact ⟨b1, a2.trans b2⟩

theorem good_new (fmt width height : Nat) : Good ⟨fmt, componentsForFormat fmt width height⟩ := by
  intro h
  unfold componentsForFormat at h
  unfold itemsize
  by_cases hp : (fmt >>> 8) &&& 0x1 = 0
  · rw [if_pos hp] at h; cases h
  · rw [if_neg hp] at h
    have hq : isPlanar fmt = false := by
      unfold isPlanar
      have e1 : (fmt >>> 8) &&& 0x1 = (fmt >>> 8) % 2 := Nat.and_two_pow_sub_one_eq_mod _ 1
      have e3 : (fmt >>> 8) &&& 0x3 = (fmt >>> 8) % 4 := Nat.and_two_pow_sub_one_eq_mod _ 2
      rw [e1] at hp
      rw [e3]
      simp
      omega
    simp only [hq, Bool.false_eq_true, if_false]
    simp only at h
    split at h
    · cases h
    · rename_i n1
      split at h
      · cases h
      · rename_i n2
        split at h
        · cases h
        · rename_i n3
          split at h
          · cases h
          · rename_i n4
            split at h
            · cases h
            · rename_i n5
              simp only [twoByteFormats, fourByteFormats, List.mem_cons, List.mem_nil_iff, or_false, not_or] at n1 n2
              simp [byteFormats, n1, n2, n3, n4, n5]

theorem set_inv {w w' : World} (hi : Inv w) {g : Nat} {x : Numpy.Live.Grain} (hx : Fresh w x) (h1 : w'.bufs = w.bufs) (h2 : w'.frames = w.frames)
    (h3 : w'.grains = w.grains.set g x) : Inv w' := by
  refine ⟨by rw [h2]; exact hi.frames, ?_⟩
  intro y hy
  rw [h3] at hy
  rcases List.mem_or_eq_of_mem_set hy with hy | rfl
  · exact (hi.fresh y hy).of h1 h2
  · exact hx.of h1 h2

theorem same_inv {w w' : World} (hi : Inv w) (h1 : w'.bufs = w.bufs) (h2 : w'.frames = w.frames) (h3 : w'.grains = w.grains) : Inv w' :=
  ⟨by rw [h2]; exact hi.frames, fun y hy => by rw [h3] at hy; exact (hi.fresh y hy).of h1 h2⟩

theorem view_set_length {v : View} {buf val bs : Bytes} {x y : Nat} (h : v.set buf x y val = some bs) (hv : val.length = v.itemsize) :
    bs.length = buf.length := by
  unfold View.set at h
  split at h
  · cases h
    simp only [List.length_append, List.length_take, List.length_drop]
    omega
  · cases h

theorem blocks_inv {w w' : World} (hi : Inv w) (he : Ext w w') (h2 : w'.frames = w.frames) (h3 : w'.grains = w.grains) : Inv w' :=
  ⟨by rw [h2]; exact hi.frames, fun y hy => by rw [h3] at hy; exact (hi.fresh y hy).ext he⟩

theorem step_inv {w : World} (hi : Inv w) (op : Numpy.Live.Op) (hk : keepsMeta op = true) : Inv (w.step op).2 := by
  cases op with
  | setFormat => cases hk
  | setComponents => cases hk
  | block bs wr => exact (alloc_inv hi bs wr).1
  | awaitable r => exact same_inv hi rfl rfl rfl
  | new fmt width height b =>
    obtain ⟨a1, a2⟩ := addFrame_inv hi ⟨fmt, componentsForFormat fmt width height⟩ (good_new fmt width height)
    simp only [World.step]
    cases b with
    | some b => exact (construct_inv a1 _ b ⟨_, List.getElem?_concat_length⟩).1
    | none =>
      simp only
      obtain ⟨b1, b2⟩ := alloc_inv a1 (List.replicate (sizeForFormat fmt width height) 0) true
      exact (construct_inv b1 _ _ ⟨_, b2.frames _ _ List.getElem?_concat_length⟩).1
  | newLazy fmt width height i =>
    obtain ⟨a1, a2⟩ := addFrame_inv hi ⟨fmt, componentsForFormat fmt width height⟩ (good_new fmt width height)
    simp only [World.step]
    split
    · refine ⟨a1.frames, ?_⟩
      intro y hy
      rcases List.mem_append.1 hy with hy | hy
      · exact (a1.fresh y hy).of rfl rfl
      · rw [List.mem_singleton.1 hy]
        exact ⟨_, List.getElem?_concat_length, rfl⟩
    · exact hi
  | copy g =>
    simp only [World.step]
    split
    · exact hi
    · exact (fromMeta_inv hi _ _).1
  | deepcopy g =>
    simp only [World.step]
    split
    · exact hi
    · split
      · exact hi
      · rename_i x hx fr hfr
        obtain ⟨a1, a2⟩ := addFrame_inv hi fr (hi.frames fr (List.mem_of_getElem? hfr))
        split
        · exact (fromMeta_inv a1 _ _).1
        · exact (fromMeta_inv (alloc_inv a1 _ true).1 _ _).1
  | assign g b =>
    simp only [World.step]
    split
    · exact hi
    · rename_i x hx
      exact set_inv hi (give_fresh hi.frames (hi.fresh x (List.mem_of_getElem? hx)) b) rfl rfl rfl
  | assignLazy g i =>
    simp only [World.step]
    split
    · exact hi
    · rename_i x hx
      split
      · obtain ⟨fr, h1, -⟩ := hi.fresh x (List.mem_of_getElem? hx)
        exact set_inv (x := { x with fetcher := some i, data := none, arrays := [] }) hi ⟨fr, h1, rfl⟩ rfl rfl rfl
      · exact hi
  | start g =>
    simp only [World.step]
    split
    · exact hi
    · split
      · split
        · exact hi
        · split
          · exact hi
          · exact same_inv hi rfl rfl rfl
      · exact hi
  | finish t =>
    simp only [World.step]
    split
    · exact hi
    · split
      · exact hi
      · split
        · rename_i k hk hf x c hx hc
          split
          · exact same_inv hi rfl rfl rfl
          · rename_i v hv
            have h1 := give_fresh hi.frames (hi.fresh x (List.mem_of_getElem? hx)) v
            split
            · rename_i x' hg
              rw [hg] at h1
              exact set_inv hi h1 rfl rfl rfl
            · rename_i r x' hr hg
              rw [hg] at h1
              exact set_inv hi h1 rfl rfl rfl
        · exact hi
  | declare g n =>
    simp only [World.step]
    split
    · exact hi
    · rename_i x hx
      split
      · rename_i hd hf
        obtain ⟨fr, h1, h2⟩ := hi.fresh x (List.mem_of_getElem? hx)
        exact set_inv (x := { x with declared := n }) hi ⟨fr, h1, h2⟩ rfl rfl rfl
      · exact hi
  | write g c x y v =>
    simp only [World.step]
    split
    · exact hi
    · split
      · exact hi
      · split
        · exact hi
        · rename_i hl
          split
          · split
            · exact hi
            · rename_i buf hb
              split
              · split
                · exact hi
                · rename_i bs hs
                  refine blocks_inv hi (Ext.set (k := _) (buf' := { buf with bytes := bs }) rfl rfl hb ?_) rfl rfl
                  exact view_set_length hs (by simpa using hl)
              · exact hi
          · exact hi
  | poke b i v =>
    simp only [World.step]
    split
    · exact hi
    · rename_i buf hb
      split
      · exact blocks_inv hi (Ext.set (k := b) (buf' := { buf with bytes := buf.bytes.set i v }) rfl rfl hb (by simp)) rfl rfl
      · exact hi

theorem run_inv : ∀ (ops : List Numpy.Live.Op) {w : World}, Inv w → (∀ op ∈ ops, keepsMeta op = true) → Inv (w.run ops).2 := by
  intro ops
  induction ops with
  | nil => intro w hi _; exact hi
  | cons op ops ih =>
    intro w hi hk
    exact ih (step_inv hi op (hk op List.mem_cons_self)) (fun o ho => hk o (List.mem_cons_of_mem _ ho))

theorem reached_inv (ops : List Numpy.Live.Op) (hk : ∀ op ∈ ops, keepsMeta op = true) : Inv (worldOf ops) :=
  run_inv ops ⟨by simp, by simp⟩ hk

theorem views_item {fmt len : Nat} {cs : List Component} {vs : List View} {item : Nat} (hi : itemsize fmt = some item)
    (h : videoArrays fmt len cs = .ok vs) : len % item = 0 := by
  unfold videoArrays at h
  rw [hi] at h
  simp only at h
  split at h
  · cases h
  · rename_i hm; simpa using hm

theorem item_pos {fmt item : Nat} (h : itemsize fmt = some item) : 0 < item := by
  unfold itemsize at h
  repeat' split at h
  all_goals cases h
  all_goals decide

/-- Views have the size of the elements. -/
theorem views_itemsize {fmt len : Nat} {cs : List Component} {vs : List View} {item : Nat} (hi : itemsize fmt = some item)
    (h : videoArrays fmt len cs = .ok vs) : ∀ v ∈ vs, v.itemsize = item := by
  unfold videoArrays at h
  rw [hi] at h
  simp only at h
  split at h
  · cases h
  · unfold componentViews at h
    split at h
    · cases h
      intro v hv
      obtain ⟨c, -, rfl⟩ := List.mem_map.1 hv
      rfl
    · split at h
      · split at h
        · cases h; simp
        · cases h
      · repeat' split at h
        all_goals first
          | (cases h; done)
          | (cases h; simp [interleaved422, interleaved444, strided])

theorem read_fresh {w : World} {x : Numpy.Live.Grain} (hx : Fresh w x) {fr : Frame} (hf : w.frames[x.frame]? = some fr) (c i j : Nat) :
    w.read x c i j = shown fr.fmt fr.comps (w.bytesOf x) c i j := by
  obtain ⟨fr', h1, h2⟩ := hx
  rw [hf] at h1; cases h1
  unfold World.read shown World.bytesOf
  cases hd : x.data with
  | none =>
    rw [hd] at h2
    simp only at h2
    rw [h2]
    simp only [List.getElem?_nil, List.length_nil]
    cases hv : videoArrays fr.fmt 0 fr.comps with
    | error e => rfl
    | ok vs =>
      simp only
      cases hc : vs[c]? with
      | none => rfl
      | some v =>
        simp only
        split
        · unfold View.get
          rw [if_neg]
          have : ∃ item, itemsize fr.fmt = some item := by
            unfold videoArrays at hv
            cases hi : itemsize fr.fmt with
            | none => rw [hi] at hv; cases hv
            | some item => exact ⟨item, rfl⟩
          obtain ⟨item, hi⟩ := this
          rw [views_itemsize hi hv v (List.mem_of_getElem? hc)]
          have := item_pos hi
          simp only [List.length_nil]
          omega
        · rfl
  | some d =>
    obtain ⟨b, item⟩ := d
    rw [hd] at h2
    obtain ⟨-, buf, vs, a1, a2, a3, a4⟩ := h2
    simp only [a1, Option.map_some, Option.getD_some, a3, a4, List.getElem?_map, Option.bind_some]
    cases vs[c]? with
    | none => rfl
    | some v => simp only [Option.map_some, a1, Option.bind_some]

/-! ### Starting awaitables -/

/-- Each task is the start of an awaitable of its own, and that has been started. -/
def Starts (w : World) : Prop :=
  (w.tasks.map Task.coro).Nodup ∧ ∀ k ∈ w.tasks, ∃ c, w.coros[k.coro]? = some c ∧ c.started = true

theorem Starts.same {w w' : World} (h : Starts w) (h1 : w'.tasks = w.tasks) (h2 : w'.coros = w.coros) : Starts w' := by
  unfold Starts; rw [h1, h2]; exact h

theorem construct_tasks (w : World) (frame b : Nat) : (w.construct frame b).2.tasks = w.tasks ∧ (w.construct frame b).2.coros = w.coros := by
  unfold World.construct
  split <;> exact ⟨rfl, rfl⟩

theorem fromMeta_tasks (w : World) (frame : Nat) (b : Option Nat) :
    (w.fromMeta frame b).2.tasks = w.tasks ∧ (w.fromMeta frame b).2.coros = w.coros := by
  unfold World.fromMeta
  split
  · exact ⟨rfl, rfl⟩
  · cases b with
    | some b => exact construct_tasks _ _ _
    | none => exact construct_tasks _ _ _

theorem step_starts {w : World} (h : Starts w) (op : Numpy.Live.Op) : Starts (w.step op).2 := by
  cases op with
  | block bs wr => exact h.same rfl rfl
  | awaitable r =>
    refine ⟨h.1, fun k hk => ?_⟩
    obtain ⟨c, e, e'⟩ := h.2 k hk
    exact ⟨c, by simp only [World.step]; rw [List.getElem?_append_left (List.getElem?_eq_some_iff.1 e).1]; exact e, e'⟩
  | new fmt width height b =>
    simp only [World.step]
    cases b with
    | some b => exact h.same (construct_tasks _ _ _).1 (construct_tasks _ _ _).2
    | none => exact h.same (construct_tasks _ _ _).1 (construct_tasks _ _ _).2
  | newLazy fmt width height i =>
    simp only [World.step]
    split <;> exact h.same rfl rfl
  | copy g =>
    simp only [World.step]
    split
    · exact h
    · exact h.same (fromMeta_tasks _ _ _).1 (fromMeta_tasks _ _ _).2
  | deepcopy g =>
    simp only [World.step]
    split
    · exact h
    · split
      · exact h
      · split
        · exact h.same (fromMeta_tasks _ _ _).1 (fromMeta_tasks _ _ _).2
        · exact h.same (fromMeta_tasks _ _ _).1 (fromMeta_tasks _ _ _).2
  | start g =>
    simp only [World.step]
    split
    · exact h
    · split
      · split
        · exact h
        · rename_i i _ c hc
          split
          · exact h
          · rename_i hs
            have hilt := (List.getElem?_eq_some_iff.1 hc).1
            constructor
            · rw [List.map_append, List.nodup_append]
              refine ⟨h.1, by simp, ?_⟩
              intro a ha b hb e
              simp only [List.map_cons, List.map_nil, List.mem_singleton] at hb
              obtain ⟨k, hk, rfl⟩ := List.mem_map.1 ha
              obtain ⟨c', e1, e2⟩ := h.2 k hk
              rw [e, hb, hc] at e1
              cases e1
              exact hs e2
            · intro k hk
              rcases List.mem_append.1 hk with hk | hk
              · obtain ⟨c', e1, e2⟩ := h.2 k hk
                simp only [List.getElem?_set]
                split
                · exact ⟨_, rfl, rfl⟩
                · exact ⟨c', e1, e2⟩
              · rw [List.mem_singleton.1 hk]
                simp only [List.getElem?_set, if_true, hilt]
                exact ⟨_, rfl, rfl⟩
      · exact h
  | finish t =>
    have key : ∀ k, w.tasks[t]? = some k → ∀ w' : World, w'.tasks = w.tasks.set t { k with finished := true } → w'.coros = w.coros →
        Starts w' := by
      intro k hk w' h1 h2
      have e : w'.tasks.map Task.coro = w.tasks.map Task.coro := by
        rw [h1, List.map_set]
        apply List.ext_getElem?
        intro j
        rw [List.getElem?_set]
        split
        · rename_i e; subst e
          split
          · rw [List.getElem?_map, hk]; rfl
          · rename_i hl; rw [List.getElem?_eq_none (by simpa using hl)]
        · rfl
      refine ⟨by rw [e]; exact h.1, ?_⟩
      intro k' hk'
      have : k'.coro ∈ w.tasks.map Task.coro := by rw [← e]; exact List.mem_map_of_mem hk'
      obtain ⟨k'', hk'', e'⟩ := List.mem_map.1 this
      rw [h2, ← e']
      exact h.2 k'' hk''
    simp only [World.step]
    split
    · exact h
    · rename_i k hk
      split
      · exact h
      · split
        · split
          · exact key k hk _ rfl rfl
          · split <;> exact key k hk _ rfl rfl
        · exact h
  | assign g b => simp only [World.step]; split <;> exact h.same rfl rfl
  | assignLazy g i =>
    simp only [World.step]
    split
    · exact h
    · split <;> exact h.same rfl rfl
  | declare g n =>
    simp only [World.step]
    split
    · exact h
    · split <;> exact h.same rfl rfl
  | write g c x y v =>
    simp only [World.step]
    repeat' split
    all_goals exact h.same rfl rfl
  | poke b i v =>
    simp only [World.step]
    repeat' split
    all_goals exact h.same rfl rfl
  | setFormat g f =>
    simp only [World.step]
    repeat' split
    all_goals exact h.same rfl rfl
  | setComponents g cs =>
    simp only [World.step]
    repeat' split
    all_goals exact h.same rfl rfl

theorem run_starts : ∀ (ops : List Numpy.Live.Op) {w : World}, Starts w → Starts (w.run ops).2 := by
  intro ops
  induction ops with
  | nil => intro w h; exact h
  | cons op ops ih => intro w h; exact ih (step_starts h op)

end C89L

/-- **C89**: whatever a program did (without changing the metadata of a grain that is there), the arrays of every grain are what its
format and components make of the data it has now. -/
theorem C89_arrays_partial (ops : List Numpy.Live.Op) (hk : ∀ op ∈ ops, keepsMeta op = true) (x : Numpy.Live.Grain) (hx : x ∈ (worldOf ops).grains) :
    ∃ fr, (worldOf ops).frames[x.frame]? = some fr ∧
      ∀ c i j, (worldOf ops).read x c i j = shown fr.fmt fr.comps ((worldOf ops).bytesOf x) c i j := by
  have h := (C89L.reached_inv ops hk).fresh x hx
  obtain ⟨fr, h1, -⟩ := id h
  exact ⟨fr, h1, C89L.read_fresh h h1⟩

/-- **C89**: `length` is the number of bytes of the data. -/
theorem C89_length_partial (ops : List Numpy.Live.Op) (hk : ∀ op ∈ ops, keepsMeta op = true) (x : Numpy.Live.Grain) (hx : x ∈ (worldOf ops).grains) :
    (worldOf ops).lengthOf x = ((worldOf ops).bytesOf x).length := by
  obtain ⟨fr, h1, h2⟩ := (C89L.reached_inv ops hk).fresh x hx
  unfold World.lengthOf World.bytesOf
  cases hd : x.data with
  | none => rfl
  | some d =>
    obtain ⟨b, item⟩ := d
    rw [hd] at h2
    obtain ⟨-, buf, vs, a1, a2, a3, a4⟩ := h2
    simp only [a1, Option.map_some, Option.getD_some]
    exact Nat.div_mul_cancel (Nat.dvd_of_mod_eq_zero (C89L.views_item a2 a3))

/-- The memory block of the data of a grain. -/
def blockOf (x : Numpy.Live.Grain) : Option Nat := x.data.map Prod.fst

/-- A grain with the components and the amount of data of a format and a size. -/
def Regular (w : World) (x : Numpy.Live.Grain) (fmt width height : Nat) : Prop :=
  w.frames[x.frame]? = some ⟨fmt, componentsForFormat fmt width height⟩ ∧ (w.bytesOf x).length = sizeForFormat fmt width height ∧
    ∃ b buf, blockOf x = some b ∧ w.bufs[b]? = some buf ∧ buf.writable = true

/-- **C89**, writing: an element of an array of a grain with writable data is there after it was assigned, the other elements are as before, a
grain over the same memory has the same data as this one, and a grain over other memory the data it had. -/
theorem C89_write (ops : List Numpy.Live.Op) (hk : ∀ op ∈ ops, keepsMeta op = true) (g : Nat) (x : Numpy.Live.Grain)
    (hx : (worldOf ops).grains[g]? = some x) (fmt width height : Nat) (hne : fmt ≠ FrameFormat.AYUV)
    (hr : Regular (worldOf ops) x fmt width height) (c i j : Nat) (old val : Bytes) (hold : (worldOf ops).read x c i j = some old)
    (hval : val.length = old.length) :
    ∃ w', (worldOf ops).step (.write g c i j val) = (.done, w') ∧ w'.grains = (worldOf ops).grains ∧
      w'.read x c i j = some val ∧
      (∀ c' i' j', (c', i', j') ≠ (c, i, j) → w'.read x c' i' j' = (worldOf ops).read x c' i' j') ∧
      (∀ y, blockOf y = blockOf x → w'.bytesOf y = w'.bytesOf x) ∧
      (∀ y, blockOf y ≠ blockOf x → w'.bytesOf y = (worldOf ops).bytesOf y) := by
  have hinv := C89L.reached_inv ops hk
  generalize hw : worldOf ops = w at *
  have hfx := hinv.fresh x (List.mem_of_getElem? hx)
  obtain ⟨hfr, hlen, b, buf, hb, hbuf, hwr⟩ := hr
  obtain ⟨fr, h1, h2⟩ := id hfx
  rw [hfr] at h1; cases h1
  cases hd : x.data with
  | none => unfold blockOf at hb; rw [hd] at hb; cases hb
  | some d =>
    obtain ⟨b', item⟩ := d
    have : b' = b := by unfold blockOf at hb; rw [hd] at hb; exact Option.some.inj hb
    subst this
    rw [hd] at h2
    obtain ⟨-, buf', vs, a1, a2, a3, a4⟩ := h2
    rw [hbuf] at a1; cases a1
    have hbytes : w.bytesOf x = buf.bytes := by
      unfold World.bytesOf; rw [hd]; simp only [hbuf, Option.map_some, Option.getD_some]
    rw [hbytes] at hlen
    have hv : arraysOf fmt width height = .ok vs := by unfold arraysOf; rw [← hlen]; exact a3
    rw [C89L.read_fresh hfx hfr, hbytes] at hold
    unfold shown at hold
    simp only [a3] at hold
    cases hc : vs[c]? with
    | none => rw [hc] at hold; cases hold
    | some v =>
      rw [hc] at hold
      simp only at hold
      by_cases hij : i < v.width ∧ j < v.height
      · rw [if_pos hij] at hold
        have hitem : v.itemsize = item := C89L.views_itemsize a2 a3 v (List.mem_of_getElem? hc)
        have hval' : val.length = v.itemsize := by
          obtain ⟨bb, e1, e2⟩ := C55_inside fmt width height hne vs hv buf.bytes hlen c v i j hc hij.1 hij.2
          rw [e1] at hold; cases hold
          rw [a2] at e2
          rw [hval, hitem]; exact Option.some.inj e2
        obtain ⟨data', s1, s2, s3, s4⟩ := C55_write fmt width height hne vs hv buf.bytes hlen c i j v hc hij.1 hij.2 val hval'
        have hblt : b' < w.bufs.length := (List.getElem?_eq_some_iff.1 hbuf).1
        have hget : ({ w with bufs := w.bufs.set b' { buf with bytes := data' } } : World).bufs[b']? = some { buf with bytes := data' } := by
          simp [List.getElem?_set, hblt]
        refine ⟨{ w with bufs := w.bufs.set b' { buf with bytes := data' } }, ?_, rfl, ?_, ?_, ?_, ?_⟩
        · simp only [World.step, hx, a4, List.getElem?_map, hc, Option.map_some]
          rw [if_neg (by simp [hval']), if_pos hij]
          simp only [hbuf, hwr, if_true, s1]
        · unfold World.read
          simp only [a4, List.getElem?_map, hc, Option.map_some]
          rw [if_pos hij, hget]
          exact s3
        · intro c' i' j' hn
          unfold World.read
          simp only [a4, List.getElem?_map]
          cases hc' : vs[c']? with
          | none => rfl
          | some v' =>
            simp only [Option.map_some]
            by_cases hij' : i' < v'.width ∧ j' < v'.height
            · rw [if_pos hij', if_pos hij', hget, hbuf]
              exact s4 c' i' j' v' hc' hij'.1 hij'.2 (fun e => hn e.symm)
            · rw [if_neg hij', if_neg hij']
        · intro y hy
          unfold World.bytesOf
          rw [hd]
          have hy' : y.data.map Prod.fst = some b' := by rw [show y.data.map Prod.fst = blockOf y from rfl, hy, hb]
          cases hyd : y.data with
          | none => rw [hyd] at hy'; cases hy'
          | some dy =>
            obtain ⟨by', iy⟩ := dy
            rw [hyd] at hy'
            cases hy'
            rfl
        · intro y hy
          unfold World.bytesOf
          cases hyd : y.data with
          | none => rfl
          | some dy =>
            obtain ⟨by', iy⟩ := dy
            have : b' ≠ by' := by
              intro e
              apply hy
              rw [hb]
              unfold blockOf
              rw [hyd, e]
              rfl
            simp only [List.getElem?_set, if_neg this]
      · rw [if_neg hij] at hold; cases hold

/-- **C89**, what is refused: an element that an array of a grain does not have raises `IndexError`, one over memory that cannot be written to
`ValueError`, and a length for a grain that is not waiting for a load `AttributeError`. Nothing changes. -/
theorem C89_refused (ops : List Numpy.Live.Op) (hk : ∀ op ∈ ops, keepsMeta op = true) (g : Nat) (x : Numpy.Live.Grain)
    (hx : (worldOf ops).grains[g]? = some x) :
    (∀ fmt width height item b buf, fmt ≠ FrameFormat.AYUV → itemsize fmt = some item →
      (worldOf ops).frames[x.frame]? = some ⟨fmt, componentsForFormat fmt width height⟩ →
      ((worldOf ops).bytesOf x).length = sizeForFormat fmt width height → blockOf x = some b → (worldOf ops).bufs[b]? = some buf →
      ∀ (c i j : Nat) (val : Bytes), val.length = item →
        ((worldOf ops).read x c i j = none → (worldOf ops).step (.write g c i j val) = (.index, worldOf ops)) ∧
        ((worldOf ops).read x c i j ≠ none → buf.writable = false → (worldOf ops).step (.write g c i j val) = (.value, worldOf ops))) ∧
    (∀ n, (x.data ≠ none ∨ x.fetcher = none) → (worldOf ops).step (.declare g n) = (.attribute, worldOf ops)) := by
  have hinv := C89L.reached_inv ops hk
  generalize hw : worldOf ops = w at *
  refine ⟨?_, ?_⟩
  · intro fmt width height item0 b buf hne hitem0 hfr hlen hb hbuf c i j val hval
    have hfx := hinv.fresh x (List.mem_of_getElem? hx)
    obtain ⟨fr, h1, h2⟩ := id hfx
    rw [hfr] at h1; cases h1
    cases hd : x.data with
    | none => unfold blockOf at hb; rw [hd] at hb; cases hb
    | some d =>
      obtain ⟨b', item⟩ := d
      have : b' = b := by unfold blockOf at hb; rw [hd] at hb; exact Option.some.inj hb
      subst this
      rw [hd] at h2
      obtain ⟨-, buf', vs, a1, a2, a3, a4⟩ := h2
      rw [hbuf] at a1; cases a1
      simp only at a2
      rw [hitem0] at a2; cases a2
      have hbytes : w.bytesOf x = buf.bytes := by
        unfold World.bytesOf; rw [hd]; simp only [hbuf, Option.map_some, Option.getD_some]
      rw [hbytes] at hlen
      have hv : arraysOf fmt width height = .ok vs := by unfold arraysOf; rw [← hlen]; exact a3
      rw [C89L.read_fresh hfx hfr, hbytes]
      unfold shown
      simp only [a3]
      cases hc : vs[c]? with
      | none =>
        refine ⟨fun _ => ?_, fun h => absurd rfl h⟩
        simp only [World.step, hx, a4, List.getElem?_map, hc, Option.map_none]
      | some v =>
        have hi : v.itemsize = item0 := C89L.views_itemsize hitem0 a3 v (List.mem_of_getElem? hc)
        simp only
        by_cases hij : i < v.width ∧ j < v.height
        · obtain ⟨bb, e1, e2⟩ := C55_inside fmt width height hne vs hv buf.bytes hlen c v i j hc hij.1 hij.2
          rw [if_pos hij]
          refine ⟨fun h => ?_, fun _ hwr => ?_⟩
          · rw [e1] at h; cases h
          · simp only [World.step, hx, a4, List.getElem?_map, hc, Option.map_some]
            rw [if_neg (by simp [hval, hi]), if_pos hij]
            simp only [hbuf, hwr, Bool.false_eq_true, if_false]
        · rw [if_neg hij]
          refine ⟨fun _ => ?_, fun h => absurd rfl h⟩
          simp only [World.step, hx, a4, List.getElem?_map, hc, Option.map_some]
          rw [if_neg (by simp [hval, hi]), if_neg hij]
  · intro n h
    simp only [World.step, hx]
    split
    · rename_i h1 h2
      rcases h with h | h
      · exact absurd h1 h
      · rw [h] at h2; cases h2
    · rfl

/-- **C89**, waiting: if nothing is done meanwhile, awaiting a grain whose load has not been started gives the data of the load (when they are
a whole number of elements of a format that is supported), the grain has them, and every further await gives them again. -/
theorem C89_await (ops : List Numpy.Live.Op) (hk : ∀ op ∈ ops, keepsMeta op = true) (g i b : Nat) (x : Numpy.Live.Grain) (fr : Frame) (buf : Buf)
    (hx : (worldOf ops).grains[g]? = some x) (hd : x.data = none) (hf : x.fetcher = some i)
    (hi : (worldOf ops).coros[i]? = some ⟨some (some b), false⟩) (hfr : (worldOf ops).frames[x.frame]? = some fr)
    (hb : (worldOf ops).bufs[b]? = some buf) (item : Nat) (hit : itemsize fr.fmt = some item) (hm : buf.bytes.length % item = 0) :
    ((worldOf ops).run [.start g, .finish (worldOf ops).tasks.length, .start g]).1 = [.suspended, .data (some b), .data (some b)] ∧
    ∃ x', ((worldOf ops).run [.start g, .finish (worldOf ops).tasks.length]).2.grains[g]? = some x' ∧ blockOf x' = some b ∧
      x'.fetcher = none ∧
      ((worldOf ops).run [.start g, .finish (worldOf ops).tasks.length]).2.bytesOf x' = buf.bytes := by
  have hinv := C89L.reached_inv ops hk
  generalize hw : worldOf ops = w at *
  have hg := hinv.frames fr (List.mem_of_getElem? hfr)
  have hover : ∃ vs : List View, overBlock fr b buf.bytes.length = (some (b, item), some (vs.map (fun v => (b, v))), .done) := by
    rcases C89L.overBlock_good hg b buf.bytes.length with ⟨item', vs, e, e1, e2⟩ | ⟨r, e, e1, -⟩
    · rw [hit] at e1; cases e1
      exact ⟨vs, e⟩
    · exfalso
      rcases C89L.overBlock_good hg b buf.bytes.length with ⟨item', vs, e', -, -⟩ | ⟨r', e', -, e2⟩
      · rw [e] at e'; cases e'
      · unfold overBlock at e
        rw [hit] at e
        simp only [hm, ne_eq, not_true_eq_false, if_false] at e
        split at e <;> cases e
  obtain ⟨vs, ho⟩ := hover
  have hglt : g < w.grains.length := (List.getElem?_eq_some_iff.1 hx).1
  have hs : w.step (.start g) = (.suspended, { w with coros := w.coros.set i ⟨some (some b), true⟩, tasks := w.tasks ++ [⟨g, i, false⟩] }) := by
    simp only [World.step, hx, hd, hf, hi, Bool.false_eq_true, if_false]
  have hilt : i < w.coros.length := (List.getElem?_eq_some_iff.1 hi).1
  have hfin : ({ w with coros := w.coros.set i ⟨some (some b), true⟩, tasks := w.tasks ++ [⟨g, i, false⟩] } : World).step
      (.finish w.tasks.length) = (.data (some b),
        { w with coros := w.coros.set i ⟨some (some b), true⟩, tasks := w.tasks ++ [⟨g, i, true⟩],
                 grains := w.grains.set g { x with fetcher := none, data := some (b, item), arrays := vs.map (fun v => (b, v)) } }) := by
    simp only [World.step, List.getElem?_concat_length, Bool.false_eq_true, if_false, hx, List.getElem?_set, hilt, if_true,
      Numpy.Live.Grain.give, hfr, hb, ho, Option.map_some]
    simp
  refine ⟨?_, { x with fetcher := none, data := some (b, item), arrays := vs.map (fun v => (b, v)) }, ?_, rfl, rfl, ?_⟩
  · simp only [World.run, hs, hfin]
    simp [World.step, List.getElem?_set, hglt]
  · simp only [World.run, hs, hfin]
    simp [List.getElem?_set, hglt]
  · simp only [World.run, hs, hfin]
    simp [World.bytesOf, hb]

/-- **C89**: no awaitable is started twice, whatever a program does. -/
theorem C89_once (ops : List Numpy.Live.Op) : ((worldOf ops).tasks.map Task.coro).Nodup :=
  (C89L.run_starts ops (w := {}) ⟨by simp, by simp⟩).1

/-- **C89**, copies: both kinds of copy of a grain with data succeed and give a grain with the same bytes; that of `copy` is over the same
memory and metadata, that of `deepcopy` over memory and metadata that no other grain has. -/
theorem C89_copies (ops : List Numpy.Live.Op) (hk : ∀ op ∈ ops, keepsMeta op = true) (g b : Nat) (x : Numpy.Live.Grain)
    (hx : (worldOf ops).grains[g]? = some x) (hb : blockOf x = some b) :
    (∃ w' y, (worldOf ops).step (.copy g) = (.done, w') ∧ w'.grains = (worldOf ops).grains ++ [y] ∧ w'.bufs = (worldOf ops).bufs ∧
      blockOf y = some b ∧ y.frame = x.frame ∧ w'.bytesOf y = (worldOf ops).bytesOf x) ∧
    (∃ w' y, (worldOf ops).step (.deepcopy g) = (.done, w') ∧ w'.grains = (worldOf ops).grains ++ [y] ∧
      w'.bytesOf y = (worldOf ops).bytesOf x ∧ w'.frames[y.frame]? = (worldOf ops).frames[x.frame]? ∧
      ∀ z ∈ (worldOf ops).grains, blockOf z ≠ blockOf y ∧ z.frame ≠ y.frame ∧ w'.bytesOf z = (worldOf ops).bytesOf z) := by
  have hinv := C89L.reached_inv ops hk
  generalize hw : worldOf ops = w at *
  obtain ⟨fr, h1, h2⟩ := hinv.fresh x (List.mem_of_getElem? hx)
  cases hd : x.data with
  | none => unfold blockOf at hb; rw [hd] at hb; cases hb
  | some d =>
    obtain ⟨b', item⟩ := d
    have : b' = b := by unfold blockOf at hb; rw [hd] at hb; exact Option.some.inj hb
    subst this
    rw [hd] at h2
    obtain ⟨-, buf, vs, a1, a2, a3, a4⟩ := h2
    have hg := hinv.frames fr (List.mem_of_getElem? h1)
    have ho : ∀ k, overBlock fr k buf.bytes.length = (some (k, item), some (vs.map (fun v => (k, v))), .done) := by
      intro k
      rcases C89L.overBlock_good hg k buf.bytes.length with ⟨item', vs', e, e1, e2⟩ | ⟨r, e, -, e2⟩
      · rw [a2] at e1; cases e1
        rw [a3] at e2; cases e2
        exact e
      · rw [a3] at e2; cases e2
    constructor
    · refine ⟨{ w with grains := w.grains ++ [⟨x.frame, some (b', item), vs.map (fun v => (b', v)), none, 0⟩] }, _, ?_, rfl, rfl, rfl, rfl, ?_⟩
      · simp only [World.step, hx, hd, Option.map_some]
        rw [C89L.fromMeta_eq w x.frame fr h1]
        simp only [World.construct, Numpy.Live.Grain.give, h1, a1, ho]
      · simp [World.bytesOf, hd]
    · refine ⟨{ w with frames := w.frames ++ [fr], bufs := w.bufs ++ [⟨buf.bytes, true⟩],
                       grains := w.grains ++ [⟨w.frames.length, some (w.bufs.length, item), vs.map (fun v => (w.bufs.length, v)), none, 0⟩] },
        _, ?_, rfl, ?_, ?_, ?_⟩
      · simp only [World.step, hx, hd, h1, Option.bind_some, a1]
        rw [C89L.fromMeta_eq _ w.frames.length fr (by simp [World.alloc])]
        simp only [World.construct, World.alloc, Numpy.Live.Grain.give, List.getElem?_concat_length, ho]
      · simp [World.bytesOf, hd, a1]
      · simp [h1]
      · intro z hz
        obtain ⟨frz, z1, z2⟩ := hinv.fresh z hz
        have hzf : z.frame < w.frames.length := (List.getElem?_eq_some_iff.1 z1).1
        refine ⟨?_, by simp only; omega, ?_⟩
        · unfold blockOf
          cases hzd : z.data with
          | none => simp
          | some dz =>
            obtain ⟨bz, iz⟩ := dz
            rw [hzd] at z2
            obtain ⟨-, bufz, vsz, c1, -⟩ := z2
            have := (List.getElem?_eq_some_iff.1 c1).1
            simp only [Option.map_some, ne_eq, Option.some.injEq]
            omega
        · unfold World.bytesOf
          cases hzd : z.data with
          | none => rfl
          | some dz =>
            obtain ⟨bz, iz⟩ := dz
            rw [hzd] at z2
            obtain ⟨-, bufz, vsz, c1, -⟩ := z2
            simp only [List.getElem?_append_left (List.getElem?_eq_some_iff.1 c1).1]

/-! ## What is false -/

/-- **C89 fails** when the format of a grain is changed: the arrays stay those of the old format, until data is assigned. -/
theorem C89_format_counterexample : ∃ ops x, (worldOf ops).grains = [x] ∧
    (worldOf ops).frames.map Frame.fmt = [FrameFormat.S16_444_10BIT] ∧
    ((worldOf ops).read x 0 1 0).map List.length = some 1 ∧
    (shown FrameFormat.S16_444_10BIT (componentsForFormat FrameFormat.U8_444 2 2) ((worldOf ops).bytesOf x) 0 1 0).map List.length =
      some 2 :=
  ⟨[.new FrameFormat.U8_444 2 2 none, .setFormat 0 FrameFormat.S16_444_10BIT], _, rfl, by decide +kernel, by decide +kernel, by decide +kernel⟩

/-- **C89 fails** for the length of a grain that is still to be loaded: it is 0, whatever length was declared. -/
theorem C89_pending_counterexample (w : World) (g : Nat) (x : Numpy.Live.Grain) (i n : Nat) (hx : w.grains[g]? = some x) (hd : x.data = none)
    (hf : x.fetcher = some i) : ∃ w' x', w.step (.declare g n) = (.done, w') ∧ w'.grains[g]? = some x' ∧ w'.lengthOf x' = 0 := by
  refine ⟨{ w with grains := w.grains.set g { x with declared := n } }, { x with declared := n }, ?_, ?_, ?_⟩
  · simp only [World.step, hx, hd, hf]
  · simp [List.getElem?_set, (List.getElem?_eq_some_iff.1 hx).1]
  · simp [World.lengthOf, hd]

/-- **C89 fails** for copies of a grain that is still to be loaded: both kinds of copy have no load pending but data, none of it, and
arrays of full size with all elements outside the data. -/
theorem C89_copy_counterexample : ∀ op ∈ [Numpy.Live.Op.copy 0, Numpy.Live.Op.deepcopy 0],
    ∃ x y, (worldOf [.block [1, 2, 3] false, .awaitable (some (some 0)), .newLazy FrameFormat.U8_444 1 1 0, op]).grains = [x, y] ∧
      x.fetcher = some 0 ∧ y.fetcher = none ∧ blockOf y = some 1 ∧
      y.arrays.map (fun a => (a.2.width, a.2.height)) = [(1, 1), (1, 1), (1, 1)] ∧
      (worldOf [.block [1, 2, 3] false, .awaitable (some (some 0)), .newLazy FrameFormat.U8_444 1 1 0, op]).bytesOf y = [] := by
  intro op hop
  simp only [List.mem_cons, List.mem_nil_iff, or_false] at hop
  rcases hop with rfl | rfl
  · exact ⟨_, _, rfl, rfl, rfl, rfl, by decide +kernel, by decide +kernel⟩
  · exact ⟨_, _, rfl, rfl, rfl, rfl, by decide +kernel, by decide +kernel⟩

/-- **C89 fails** if a load gives no data: the await raises `TypeError`, the load is forgotten, and the next await gives `None`. An
assignment that is refused forgets the load as well. -/
theorem C89_none_counterexample :
    (World.run {} [.awaitable (some none), .newLazy FrameFormat.U8_444 1 1 0, .start 0, .finish 0, .start 0]).1 =
      [.done, .done, .suspended, .type_, .data none] ∧
    (World.run {} [.block [1, 2, 3] false, .awaitable (some (some 0)), .newLazy FrameFormat.U8_444 1 1 0, .assign 0 none, .start 0]).1 =
      [.done, .done, .done, .type_, .data none] := by
  decide +kernel

/-- **C89 fails** when data is assigned while an await is under way: the load overwrites it. -/
theorem C89_overlap_counterexample :
    (World.run {} [.block [1, 2, 3] false, .block [4, 5, 6] false, .awaitable (some (some 0)), .newLazy FrameFormat.U8_444 1 1 0, .start 0,
      .assign 0 (some 1), .finish 0, .start 0]).1 =
      [.done, .done, .done, .done, .suspended, .done, .data (some 0), .data (some 0)] := by
  decide +kernel

/-! ## Examples -/

/-- A program: a grain over a `bytearray`, two copies, a grain that is loaded, a write to the first grain. -/
def C89_ops : List Numpy.Live.Op :=
  [.block [1, 2, 3, 4, 5, 6, 7, 8, 9, 10, 11, 12] true, .new FrameFormat.U8_444 2 2 (some 0), .copy 0, .deepcopy 0, .awaitable (some (some 0)),
    .newLazy FrameFormat.U8_444 2 2 0, .start 3, .finish 0, .write 0 1 1 0 [99]]

example : (∀ op ∈ C89_ops, keepsMeta op = true) ∧
    (World.run {} C89_ops).1 = [.done, .done, .done, .done, .done, .done, .suspended, .data (some 0), .done] ∧
    (worldOf C89_ops).grains.map (fun x => ((worldOf C89_ops).bytesOf x)[5]?) = [some 99, some 99, some 6, some 99] ∧
    (worldOf C89_ops).grains.map (fun x => (worldOf C89_ops).read x 1 1 0) = [some [99], some [99], some [6], some [99]] := by
  decide +kernel

/-- The hypotheses of `C89_write` are met. -/
example : ∃ x, (worldOf C89_ops).grains[0]? = some x ∧ Regular (worldOf C89_ops) x FrameFormat.U8_444 2 2 ∧
    (worldOf C89_ops).read x 2 0 1 = some [11] :=
  ⟨_, rfl, ⟨by decide +kernel, by decide +kernel, 0, _, rfl, rfl, rfl⟩, by decide +kernel⟩

/-- The hypotheses of `C89_refused` are met: a grain over `bytes`, which cannot be written to, with an element and one that there is not. -/
example : ∃ x, (worldOf [.block [1, 2, 3, 4, 5, 6, 7, 8, 9, 10, 11, 12] false, .new FrameFormat.U8_444 2 2 (some 0)]).grains[0]? = some x ∧
    blockOf x = some 0 ∧ itemsize FrameFormat.U8_444 = some 1 ∧
    (worldOf [.block [1, 2, 3, 4, 5, 6, 7, 8, 9, 10, 11, 12] false, .new FrameFormat.U8_444 2 2 (some 0)]).read x 2 0 1 = some [11] ∧
    (worldOf [.block [1, 2, 3, 4, 5, 6, 7, 8, 9, 10, 11, 12] false, .new FrameFormat.U8_444 2 2 (some 0)]).read x 2 0 2 = none :=
  ⟨_, rfl, by decide +kernel, by decide, by decide +kernel, by decide +kernel⟩

end Verif.Props

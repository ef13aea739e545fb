import Verif.Numpy.LiveAudio
import Verif.Props.C54

/-!
# C91: the arrays of a numpy audio grain are those of its data, at any time
-/

namespace Verif.Props

open Verif Verif.Cog Verif.Numpy.Arrays Verif.Numpy.LiveAudio
open Verif.Numpy.Live (Buf Coro Task Obs)

/-- What element `k` of the array of channel `c` should be, going by the format, the numbers of samples and channels and `bytes(grain)`. -/
def heard (au : Audio) (data : Bytes) (c k : Nat) : Option Bytes :=
  match audioChannels au.fmt au.samples au.channels true data with
  | .error _ => none
  | .ok r =>
    match r.views[c]? with
    | none => none
    | some v => if k < v.count then v.get r.mem k else none

/-- Samples of 24 bits, which are not read where they are. -/
def is24 (fmt : Nat) : Prop := audioIsInt fmt = true ∧ audioDepth fmt = 4

instance (fmt : Nat) : Decidable (is24 fmt) := inferInstanceAs (Decidable (_ ∧ _))

/-- Operations other than those that change the metadata of a grain that is there. -/
def keepsInfo : Numpy.LiveAudio.Op → Bool
  | .setInfo _ _ => false
  | _ => true

/-- What a program that starts with nothing leaves. -/
def audioWorld (ops : List Numpy.LiveAudio.Op) : Numpy.LiveAudio.World := (Numpy.LiveAudio.World.run {} ops).2

/-- The memory block of the data of a grain. -/
def soundBlock (x : Numpy.LiveAudio.Grain) : Option Nat := x.data.map Prod.fst

namespace C91L

abbrev World := Numpy.LiveAudio.World
abbrev Grain := Numpy.LiveAudio.Grain

/-- The data is a whole number of elements of a memory block. -/
def Mem (w : World) (x : Grain) : Prop :=
  ∀ b item, x.data = some (b, item) → 0 < item ∧ x.fetcher = none ∧ ∃ buf, w.bufs[b]? = some buf ∧ buf.bytes.length % item = 0

/-- The arrays of the grain are those of its data. -/
def Fresh (w : World) (x : Grain) : Prop :=
  ∃ au, w.infos[x.info]? = some au ∧ (¬ is24 au.fmt →
    match x.data with
    | none => x.arrays = []
    | some (b, item) => ∃ buf, w.bufs[b]? = some buf ∧ audioItemsize au.fmt = some item ∧ buf.bytes.length % item = 0 ∧
        x.arrays = (channelViews (buf.bytes.length / item) item (audioSampleBytes au.fmt) au.fmt au.samples au.channels).map (fun v => (b, v)))

def Inv (keep : Prop) (w : World) : Prop := ∀ x ∈ w.grains, Mem w x ∧ (keep → Fresh w x)

/-- Blocks keep their length. -/
def Bufs (w w' : World) : Prop :=
  ∀ (k : Nat) buf, w.bufs[k]? = some buf → ∃ buf', w'.bufs[k]? = some buf' ∧ buf'.bytes.length = buf.bytes.length

def Infos (w w' : World) : Prop := ∀ (k : Nat) au, w.infos[k]? = some au → w'.infos[k]? = some au

theorem Bufs.of {w w' : World} (h : w'.bufs = w.bufs) : Bufs w w' := fun k b e => ⟨b, by rw [h]; exact e, rfl⟩

theorem Bufs.refl (w : World) : Bufs w w := Bufs.of rfl

theorem Bufs.trans {a b c : World} (h1 : Bufs a b) (h2 : Bufs b c) : Bufs a c := by
  intro k x h
  obtain ⟨y, e1, e2⟩ := h1 _ _ h
  obtain ⟨z, e3, e4⟩ := h2 _ _ e1
  exact ⟨z, e3, by rw [e4, e2]⟩

theorem Bufs.append {w w' : World} {bs : List Buf} (h : w'.bufs = w.bufs ++ bs) : Bufs w w' := fun k b e =>
  ⟨b, by rw [h, List.getElem?_append_left (List.getElem?_eq_some_iff.1 e).1]; exact e, rfl⟩

theorem Bufs.set {w w' : World} {k : Nat} {buf buf' : Buf} (h : w'.bufs = w.bufs.set k buf') (hb : w.bufs[k]? = some buf)
    (hl : buf'.bytes.length = buf.bytes.length) : Bufs w w' := by
  intro j b e
  rw [h, List.getElem?_set]
  by_cases hk : k = j
  · subst hk
    rw [hb] at e; cases e
    rw [if_pos rfl, if_pos (List.getElem?_eq_some_iff.1 hb).1]
    exact ⟨buf', rfl, hl⟩
  · rw [if_neg hk]
    exact ⟨b, e, rfl⟩

theorem Infos.of {w w' : World} (h : w'.infos = w.infos) : Infos w w' := fun k b e => by rw [h]; exact e

theorem Infos.append {w w' : World} {l : List Audio} (h : w'.infos = w.infos ++ l) : Infos w w' := fun k b e => by
  rw [h, List.getElem?_append_left (List.getElem?_eq_some_iff.1 e).1]; exact e

theorem Infos.trans {a b c : World} (h1 : Infos a b) (h2 : Infos b c) : Infos a c := fun k x h => h2 _ _ (h1 _ _ h)

theorem Mem.ext {w w' : World} (h : Bufs w w') {x : Grain} (hx : Mem w x) : Mem w' x := by
  intro b item e
  obtain ⟨h1, h2, buf, h3, h4⟩ := hx b item e
  obtain ⟨buf', e1, e2⟩ := h _ _ h3
  exact ⟨h1, h2, buf', e1, by rw [e2]; exact h4⟩

theorem Fresh.ext {w w' : World} (h : Bufs w w') (hi : Infos w w') {x : Grain} (hx : Fresh w x) : Fresh w' x := by
  obtain ⟨au, h1, h2⟩ := hx
  refine ⟨au, hi _ _ h1, fun hp => ?_⟩
  have h3 := h2 hp
  cases hd : x.data with
  | none => rw [hd] at h3; exact h3
  | some d =>
    obtain ⟨b, item⟩ := d
    rw [hd] at h3
    obtain ⟨buf, a1, a2, a3, a4⟩ := h3
    obtain ⟨buf', b1, b2⟩ := h _ _ a1
    exact ⟨buf', b1, a2, by rw [b2]; exact a3, by rw [b2]; exact a4⟩

theorem Inv.ext {keep : Prop} {w w' : World} (hi : Inv keep w) (h : Bufs w w') (h2 : keep → Infos w w') (h3 : w'.grains = w.grains) :
    Inv keep w' := by
  intro x hx
  rw [h3] at hx
  exact ⟨(hi x hx).1.ext h, fun k => ((hi x hx).2 k).ext h (h2 k)⟩

theorem Inv.add {keep : Prop} {w w' : World} (hi : Inv keep w) (h : Bufs w w') (h2 : keep → Infos w w') {x : Grain}
    (h3 : w'.grains = w.grains ++ [x]) (h4 : Mem w' x) (h5 : keep → Fresh w' x) : Inv keep w' := by
  intro y hy
  rw [h3] at hy
  rcases List.mem_append.1 hy with hy | hy
  · exact ⟨(hi y hy).1.ext h, fun k => ((hi y hy).2 k).ext h (h2 k)⟩
  · rw [List.mem_singleton.1 hy]; exact ⟨h4, h5⟩

theorem Inv.set {keep : Prop} {w w' : World} (hi : Inv keep w) (h : Bufs w w') (h2 : keep → Infos w w') {x : Grain} {g : Nat}
    (h3 : w'.grains = w.grains.set g x) (h4 : Mem w' x) (h5 : keep → Fresh w' x) : Inv keep w' := by
  intro y hy
  rw [h3] at hy
  rcases List.mem_or_eq_of_mem_set hy with hy | rfl
  · exact ⟨(hi y hy).1.ext h, fun k => ((hi y hy).2 k).ext h (h2 k)⟩
  · exact ⟨h4, h5⟩

theorem shift8_length : ∀ (l : Bytes), l.length % 4 = 0 → (shift8 l).length = l.length
  | [], _ => rfl
  | [_], h => by simp at h
  | [_, _], h => by simp at h
  | [_, _, _], h => by simp at h
  | a :: b :: c :: d :: rest, h => by
    have := shift8_length rest (by simp only [List.length_cons] at h; omega)
    simp only [shift8, List.length_cons, this]

theorem item_pos {fmt item : Nat} (h : audioItemsize fmt = some item) : 0 < item := by
  unfold audioItemsize at h
  repeat' split at h
  all_goals cases h
  all_goals decide

/-- What `overBlock` does to memory, and what it makes. -/
theorem overBlock_spec (w : World) (au : Audio) (b : Nat) (buf : Buf) (hb : w.bufs[b]? = some buf) :
    Bufs w (w.overBlock au b buf).world ∧ (w.overBlock au b buf).world.infos = w.infos ∧
    (w.overBlock au b buf).world.grains = w.grains ∧ (w.overBlock au b buf).world.coros = w.coros ∧
    (w.overBlock au b buf).world.tasks = w.tasks ∧
    ((w.overBlock au b buf).data = none ∨
      ∃ item, (w.overBlock au b buf).data = some (b, item) ∧ audioItemsize au.fmt = some item ∧ buf.bytes.length % item = 0) ∧
    (¬ is24 au.fmt →
      ((w.overBlock au b buf).data = none ∧ (w.overBlock au b buf).arrays = none ∧ (w.overBlock au b buf).obs ≠ .done) ∨
      ∃ item, audioItemsize au.fmt = some item ∧ buf.bytes.length % item = 0 ∧ w.overBlock au b buf =
        ⟨some (b, item), some ((channelViews (buf.bytes.length / item) item (audioSampleBytes au.fmt) au.fmt au.samples au.channels).map
          (fun v => (b, v))), .done, w⟩) := by
  unfold World.overBlock
  cases hi : audioItemsize au.fmt with
  | none => exact ⟨Bufs.refl w, rfl, rfl, rfl, rfl, .inl rfl, fun _ => .inl ⟨rfl, rfl, by simp⟩⟩
  | some item =>
    simp only
    by_cases h1 : buf.bytes.length % item ≠ 0
    · rw [if_pos h1]; exact ⟨Bufs.refl w, rfl, rfl, rfl, rfl, .inl rfl, fun _ => .inl ⟨rfl, rfl, by simp⟩⟩
    · rw [if_neg h1]
      have h1' : buf.bytes.length % item = 0 := by simpa using h1
      by_cases h2 : audioIsInt au.fmt = true ∧ audioDepth au.fmt = 4
      · rw [if_pos h2]
        have hd : ∀ (P : Prop), ¬ is24 au.fmt → P := fun _ h => absurd h2 h
        by_cases h3 : audioSampleBytes au.fmt = 3
        · rw [if_pos h3]
          by_cases h4 : buf.bytes.length % 3 ≠ 0
          · rw [if_pos h4]; exact ⟨Bufs.refl w, rfl, rfl, rfl, rfl, .inr ⟨item, rfl, rfl, h1'⟩, hd _⟩
          · rw [if_neg h4]
            exact ⟨Bufs.append rfl, rfl, rfl, rfl, rfl, .inr ⟨item, rfl, rfl, h1'⟩, hd _⟩
        · rw [if_neg h3]
          by_cases h4 : buf.bytes.length % 4 ≠ 0
          · rw [if_pos h4]; exact ⟨Bufs.refl w, rfl, rfl, rfl, rfl, .inr ⟨item, rfl, rfl, h1'⟩, hd _⟩
          · rw [if_neg h4]
            by_cases h5 : buf.writable = false
            · rw [if_pos h5]; exact ⟨Bufs.refl w, rfl, rfl, rfl, rfl, .inr ⟨item, rfl, rfl, h1'⟩, hd _⟩
            · rw [if_neg h5]
              exact ⟨Bufs.set rfl hb (shift8_length _ (by simpa using h4)), rfl, rfl, rfl, rfl, .inr ⟨item, rfl, rfl, h1'⟩, hd _⟩
      · rw [if_neg h2]
        exact ⟨Bufs.refl w, rfl, rfl, rfl, rfl, .inr ⟨item, rfl, rfl, h1'⟩, fun _ => .inr ⟨item, rfl, h1', rfl⟩⟩

theorem give_spec (w : World) (x : Grain) (v : Option Nat) :
    Bufs w (w.give x v).2.2 ∧ (w.give x v).2.2.infos = w.infos ∧ (w.give x v).2.2.grains = w.grains ∧
    (w.give x v).2.2.coros = w.coros ∧ (w.give x v).2.2.tasks = w.tasks ∧
    (Mem w x → Mem (w.give x v).2.2 (w.give x v).2.1) ∧ (Fresh w x → Fresh (w.give x v).2.2 (w.give x v).2.1) := by
  have keepM : Mem w x → Mem w { x with fetcher := none } := by
    intro h b item e
    obtain ⟨h1, h2, h3⟩ := h b item e
    exact ⟨h1, rfl, h3⟩
  have keepF : Fresh w x → Fresh w { x with fetcher := none } := fun h => h
  unfold World.give
  cases v with
  | none =>
    simp only
    cases ha : w.infos[x.info]? with
    | none => exact ⟨Bufs.refl w, rfl, rfl, rfl, rfl, id, id⟩
    | some au => exact ⟨Bufs.refl w, rfl, rfl, rfl, rfl, keepM, keepF⟩
  | some b =>
    simp only
    cases ha : w.infos[x.info]? with
    | none => exact ⟨Bufs.refl w, rfl, rfl, rfl, rfl, id, id⟩
    | some au =>
      cases hb : w.bufs[b]? with
      | none => exact ⟨Bufs.refl w, rfl, rfl, rfl, rfl, id, id⟩
      | some buf =>
        simp only
        obtain ⟨s1, s2, s3, s4, s5, s6, s7⟩ := overBlock_spec w au b buf hb
        refine ⟨s1, s2, s3, s4, s5, ?_, ?_⟩
        · intro hm b' item' e
          rcases s6 with s6 | ⟨item, s6, e1, e2⟩
          · simp only [s6, Option.none_or] at e
            exact ((keepM hm).ext s1) b' item' e
          · simp only [s6, Option.some_or, Option.some.injEq, Prod.mk.injEq] at e
            obtain ⟨rfl, rfl⟩ := e
            obtain ⟨buf', e3, e4⟩ := s1 _ _ hb
            exact ⟨item_pos e1, rfl, buf', e3, by rw [e4]; exact e2⟩
        · intro hf
          obtain ⟨au', f1, f2⟩ := hf.ext s1 (Infos.of s2)
          refine ⟨au', f1, fun hp => ?_⟩
          rw [s2, ha] at f1; cases f1
          rcases s7 hp with ⟨e1, e2, -⟩ | ⟨item, e1, e2, e3⟩
          · simp only [e1, e2, Option.none_or, Option.getD_none]
            exact f2 hp
          · simp only [e3, Option.some_or, Option.getD_some]
            exact ⟨buf, hb, e1, e2, rfl⟩

theorem mem_new (w : World) (info : Nat) (f : Option Nat) : Mem w { info := info, fetcher := f } := by
  intro b item e; cases e

theorem fresh_new (w : World) (info : Nat) (f : Option Nat) (h : ∃ au, w.infos[info]? = some au) : Fresh w { info := info, fetcher := f } := by
  obtain ⟨au, h⟩ := h
  exact ⟨au, h, fun _ => rfl⟩

theorem construct_spec {keep : Prop} {w : World} (hi : Inv keep w) (info b : Nat) (hf : ∃ au, w.infos[info]? = some au) :
    Inv keep (w.construct info b).2 := by
  obtain ⟨s1, s2, s3, s4, s5, s6, s7⟩ := give_spec w { info := info } (some b)
  have hm := s6 (mem_new w info none)
  have hfr := s7 (fresh_new w info none hf)
  unfold World.construct
  split
  · rename_i g w' hg
    rw [hg] at s1 s2 s3 hm hfr
    exact hi.add s1 (fun _ => Infos.of s2) (x := g) (by rw [← s3]) hm (fun _ => hfr)
  · rename_i r g w' hr hg
    rw [hg] at s1 s2 s3
    exact hi.ext s1 (fun _ => Infos.of s2) s3

theorem invalid_size : sizeForAudioFormat AudioFormat.INVALID 0 0 = 0 := by decide

theorem alloc_inv {keep : Prop} {w : World} (hi : Inv keep w) (bs : Bytes) (wr : Bool) : Inv keep (w.alloc bs wr).2 :=
  hi.ext (Bufs.append rfl) (fun _ => Infos.of rfl) rfl

theorem fromMeta_inv {keep : Prop} {w : World} (hi : Inv keep w) (info : Nat) (b : Option Nat) : Inv keep (w.fromMeta info b).2 := by
  unfold World.fromMeta
  split
  · exact hi
  · rename_i au hau
    cases b with
    | some b => exact construct_spec hi info b ⟨au, hau⟩
    | none => exact construct_spec (alloc_inv hi _ true) info _ ⟨au, hau⟩

theorem addInfo_inv {keep : Prop} {w : World} (hi : Inv keep w) (au : Audio) : Inv keep { w with infos := w.infos ++ [au] } :=
  hi.ext (Bufs.of rfl) (fun _ => Infos.append rfl) rfl

theorem view_set_length {v : ChanView} {buf val bs : Bytes} {k : Nat} (h : v.set buf k val = some bs) (hv : val.length = v.itemsize) :
    bs.length = buf.length := by
  unfold ChanView.set at h
  split at h
  · cases h
    simp only [List.length_append, List.length_take, List.length_drop]
    omega
  · cases h

theorem step_inv {keep : Prop} {w : World} (hi : Inv keep w) (op : Numpy.LiveAudio.Op) (hk : keep → keepsInfo op = true) :
    Inv keep (w.step op).2 := by
  cases op with
  | setInfo g au =>
    have hk' : ¬ keep := fun h => by cases hk h
    simp only [World.step]
    split
    · exact hi
    · split
      · exact hi.ext (Bufs.of rfl) (fun h => absurd h hk') rfl
      · exact hi
  | block bs wr => exact alloc_inv hi bs wr
  | awaitable r => exact hi.ext (Bufs.of rfl) (fun _ => Infos.of rfl) rfl
  | new fmt samples channels b =>
    have a1 := addInfo_inv hi ⟨fmt, samples, channels⟩
    simp only [World.step]
    cases b with
    | some b => exact construct_spec a1 _ b ⟨_, List.getElem?_concat_length⟩
    | none => exact construct_spec (alloc_inv a1 _ true) _ _ ⟨_, List.getElem?_concat_length⟩
  | newLazy fmt samples channels i =>
    simp only [World.step]
    split
    · exact hi.add (x := { info := w.infos.length, fetcher := some i }) (Bufs.of rfl) (fun _ => Infos.append rfl) rfl
        (mem_new _ _ _) (fun _ => fresh_new _ _ _ ⟨_, List.getElem?_concat_length⟩)
    · exact hi
  | copy g =>
    simp only [World.step]
    split
    · exact hi
    · exact fromMeta_inv hi _ _
  | deepcopy g =>
    simp only [World.step]
    split
    · exact hi
    · split
      · exact hi
      · rename_i x hx au hau
        have a1 := addInfo_inv hi au
        split
        · exact fromMeta_inv a1 _ _
        · exact fromMeta_inv (alloc_inv a1 _ true) _ _
  | assign g b =>
    simp only [World.step]
    split
    · exact hi
    · rename_i x hx
      obtain ⟨s1, s2, s3, s4, s5, s6, s7⟩ := give_spec w x b
      have hx' := hi x (List.mem_of_getElem? hx)
      exact hi.set (x := (w.give x b).2.1) (g := g) s1 (fun _ => Infos.of s2) rfl ((s6 hx'.1).ext (Bufs.of rfl))
        (fun k => (s7 (hx'.2 k)).ext (Bufs.of rfl) (Infos.of rfl))
  | assignLazy g i =>
    simp only [World.step]
    split
    · exact hi
    · rename_i x hx
      split
      · refine hi.set (x := { x with fetcher := some i, data := none, arrays := [] }) (g := g) (Bufs.of rfl) (fun _ => Infos.of rfl) rfl ?_ ?_
        · intro b item e; cases e
        · intro k
          obtain ⟨au, h1, -⟩ := (hi x (List.mem_of_getElem? hx)).2 k
          exact ⟨au, h1, fun _ => rfl⟩
      · exact hi
  | start g =>
    simp only [World.step]
    split
    · exact hi
    · split
      · split
        · exact hi
        · split
          · exact hi
          · exact hi.ext (Bufs.of rfl) (fun _ => Infos.of rfl) rfl
      · exact hi
  | finish t =>
    simp only [World.step]
    split
    · exact hi
    · rename_i k hk
      split
      · exact hi
      · split
        · rename_i x c hx hc
          split
          · exact hi.ext (Bufs.of rfl) (fun _ => Infos.of rfl) rfl
          · rename_i v hv
            obtain ⟨s1, s2, s3, s4, s5, s6, s7⟩ := give_spec { w with tasks := w.tasks.set t { k with finished := true } } x v
            have hx' := hi x (List.mem_of_getElem? hx)
            exact hi.set (x := (World.give { w with tasks := w.tasks.set t { k with finished := true } } x v).2.1) (g := k.grain)
              s1 (fun _ => Infos.of s2) rfl
              ((s6 (hx'.1.ext (Bufs.of rfl))).ext (Bufs.of rfl))
              (fun k => (s7 ((hx'.2 k).ext (Bufs.of rfl) (Infos.of rfl))).ext (Bufs.of rfl) (Infos.of rfl))
        · exact hi
  | declare g n =>
    simp only [World.step]
    split
    · exact hi
    · rename_i x hx
      split
      · have hx' := hi x (List.mem_of_getElem? hx)
        exact hi.set (x := { x with declared := n }) (g := g) (Bufs.of rfl) (fun _ => Infos.of rfl) rfl hx'.1 (fun k => hx'.2 k)
      · exact hi
  | write g c k v =>
    simp only [World.step]
    split
    · exact hi
    · split
      · exact hi
      · split
        · exact hi
        · rename_i hl
          split
          · split
            · exact hi
            · rename_i buf hb
              split
              · split
                · exact hi
                · rename_i bs hs
                  exact hi.ext (Bufs.set (buf' := { buf with bytes := bs }) rfl hb (view_set_length hs (by simpa using hl)))
                    (fun _ => Infos.of rfl) rfl
              · exact hi
          · exact hi
  | poke b i v =>
    simp only [World.step]
    split
    · exact hi
    · rename_i buf hb
      split
      · exact hi.ext (Bufs.set (buf' := { buf with bytes := buf.bytes.set i v }) rfl hb (by simp)) (fun _ => Infos.of rfl) rfl
      · exact hi

theorem run_inv {keep : Prop} : ∀ (ops : List Numpy.LiveAudio.Op) {w : World}, Inv keep w → (keep → ∀ op ∈ ops, keepsInfo op = true) →
    Inv keep (w.run ops).2 := by
  intro ops
  induction ops with
  | nil => intro w hi _; exact hi
  | cons op ops ih =>
    intro w hi hk
    exact ih (step_inv hi op (fun h => hk h op List.mem_cons_self)) (fun h o ho => hk h o (List.mem_cons_of_mem _ ho))

theorem reached_fresh (ops : List Numpy.LiveAudio.Op) (hk : ∀ op ∈ ops, keepsInfo op = true) (x : Grain) (hx : x ∈ (audioWorld ops).grains) :
    Mem (audioWorld ops) x ∧ Fresh (audioWorld ops) x := by
  have := run_inv (keep := True) ops (w := {}) (by intro x hx; cases hx) (fun _ => hk) x hx
  exact ⟨this.1, this.2 trivial⟩

theorem audioChannels_plain {au : Audio} (hp : ¬ is24 au.fmt) {item : Nat} (hi : audioItemsize au.fmt = some item) {data : Bytes}
    (hm : data.length % item = 0) (wr : Bool) :
    audioChannels au.fmt au.samples au.channels wr data =
      .ok ⟨data, data, true, channelViews (data.length / item) item (audioSampleBytes au.fmt) au.fmt au.samples au.channels⟩ := by
  unfold audioChannels
  rw [hi]
  simp only
  rw [if_neg (by simp [hm]), if_neg (by exact hp)]

theorem views_itemsize {n item sb fmt samples channels : Nat} : ∀ v ∈ channelViews n item sb fmt samples channels, v.itemsize = item := by
  intro v hv
  unfold channelViews at hv
  repeat' split at hv
  · obtain ⟨c, -, rfl⟩ := List.mem_map.1 hv; rfl
  · obtain ⟨c, -, rfl⟩ := List.mem_map.1 hv; rfl
  · obtain ⟨c, -, rfl⟩ := List.mem_map.1 hv; rfl
  · cases hv

theorem read_fresh {w : World} {x : Grain} (hx : Fresh w x) {au : Audio} (ha : w.infos[x.info]? = some au) (hp : ¬ is24 au.fmt) (c k : Nat) :
    w.read x c k = heard au (w.bytesOf x) c k := by
  obtain ⟨au', h1, h2⟩ := hx
  rw [ha] at h1; cases h1
  have h3 := h2 hp
  unfold World.read heard World.bytesOf
  cases hd : x.data with
  | none =>
    rw [hd] at h3
    simp only at h3
    rw [h3]
    simp only [List.getElem?_nil]
    cases hi : audioItemsize au.fmt with
    | none => unfold audioChannels; rw [hi]
    | some item =>
      rw [audioChannels_plain hp hi (by simp)]
      simp only
      split
      · rfl
      · rename_i v hv
        have := views_itemsize v (List.mem_of_getElem? hv)
        have := item_pos hi
        split
        · unfold ChanView.get
          rw [if_neg]
          simp only [List.length_nil]
          omega
        · rfl
  | some d =>
    obtain ⟨b, item⟩ := d
    rw [hd] at h3
    obtain ⟨buf, a1, a2, a3, a4⟩ := h3
    simp only [a1, Option.map_some, Option.getD_some, a4, List.getElem?_map, audioChannels_plain hp a2 a3]
    cases (channelViews (buf.bytes.length / item) item (audioSampleBytes au.fmt) au.fmt au.samples au.channels)[c]? with
    | none => rfl
    | some v => simp only [Option.map_some, a1, Option.bind_some]

end C91L

/-- **C91**: whatever a program did (without changing the metadata of a grain that is there), the arrays of every grain whose samples do not
have 24 bits are what its format makes of the data it has now. -/
theorem C91_arrays_partial (ops : List Numpy.LiveAudio.Op) (hk : ∀ op ∈ ops, keepsInfo op = true) (x : Numpy.LiveAudio.Grain)
    (hx : x ∈ (audioWorld ops).grains) :
    ∃ au, (audioWorld ops).infos[x.info]? = some au ∧
      (¬ is24 au.fmt → ∀ c k, (audioWorld ops).read x c k = heard au ((audioWorld ops).bytesOf x) c k) := by
  have h := (C91L.reached_fresh ops hk x hx).2
  obtain ⟨au, h1, -⟩ := id h
  exact ⟨au, h1, fun hp => C91L.read_fresh h h1 hp⟩

/-- **C91**: `length` is the number of bytes of the data, for all formats and all programs. -/
theorem C91_length (ops : List Numpy.LiveAudio.Op) (x : Numpy.LiveAudio.Grain) (hx : x ∈ (audioWorld ops).grains) :
    (audioWorld ops).lengthOf x = ((audioWorld ops).bytesOf x).length := by
  have h := (C91L.run_inv (keep := False) ops (w := {}) (by intro x hx; cases hx) (fun h => h.elim) x hx).1
  unfold World.lengthOf World.bytesOf
  cases hd : x.data with
  | none => rfl
  | some d =>
    obtain ⟨b, item⟩ := d
    obtain ⟨h1, -, buf, h2, h3⟩ := h b item hd
    change (audioWorld ops).bufs[b]? = some buf at h2
    simp only [h2, Option.map_some, Option.getD_some]
    exact Nat.div_mul_cancel (Nat.dvd_of_mod_eq_zero h3)

namespace C91L

/-- The arrays over data of the right length: inside the data, and no two elements meet. -/
theorem sound {fmt b : Nat} (hf : (fmt, b) ∈ pcmFormats) (samples channels len : Nat) (hl : len = sizeForAudioFormat fmt channels samples) :
    len % b = 0 ∧ ∀ (c : Nat) (v : ChanView), (channelViews (len / b) b (audioSampleBytes fmt) fmt samples channels)[c]? = some v →
      v.count = samples ∧ v.itemsize = b ∧ ∀ k, k < samples → v.addr k + b ≤ len ∧
        ∀ (c' : Nat) (v' : ChanView) (k' : Nat), (channelViews (len / b) b (audioSampleBytes fmt) fmt samples channels)[c']? = some v' →
          k' < samples → (c', k') ≠ (c, k) → v.addr k + b ≤ v'.addr k' ∨ v'.addr k' + b ≤ v.addr k := by
  obtain ⟨hb, hw, hc, hkind⟩ := AudioArrays.kinds _ hf
  have hs : ∀ c k : Nat, ((fun _ _ => List.replicate b 0 : Nat → Nat → Bytes) c k).length = b := by intro c k; simp
  obtain ⟨e1, hvl, hread⟩ := AudioArrays.reads samples channels hs hb hkind
  have e2 := C54_size fmt b hf _ hs samples channels
  have e3 : len = AudioArrays.slots fmt samples channels * b := by rw [hl, ← e2, e1]
  simp only at hw
  rw [hw, e3, Nat.mul_mod_left, Nat.mul_div_cancel _ hb]
  refine ⟨rfl, fun c v hv => ?_⟩
  obtain ⟨h1, h2, h3⟩ := hread c v hv
  refine ⟨h1, h2, fun k hk => ?_⟩
  obtain ⟨h4, h5⟩ := h3 k hk
  constructor
  · unfold ChanView.get at h4
    rw [h2, e1] at h4
    split at h4
    · assumption
    · cases h4
  · intro c' v' k' hv' hk' hne
    obtain ⟨h1', h2', h3'⟩ := hread c' v' hv'
    obtain ⟨h4', h5'⟩ := h3' k' hk'
    have hcl : c < channels := by rw [← hvl]; exact (List.getElem?_eq_some_iff.1 hv).1
    have hcl' : c' < channels := by rw [← hvl]; exact (List.getElem?_eq_some_iff.1 hv').1
    have hidx : AudioArrays.index fmt samples channels c k ≠ AudioArrays.index fmt samples channels c' k' := by
      intro e
      apply hne
      unfold AudioArrays.index at e
      split at e
      · obtain ⟨a, b⟩ := VideoArrays.rows (R := samples) (y := c) (y' := c') hk hk' (by omega)
        rw [a, b]
      · split at e
        · obtain ⟨a, b⟩ := VideoArrays.rows (R := channels) (y := k) (y' := k') hcl hcl' (by omega)
          rw [a, b]
        · obtain ⟨a, b⟩ := VideoArrays.rows (R := 2 * samples) (y := c / 2) (y' := c' / 2) (a := 2 * k + c % 2)
            (a' := 2 * k' + c' % 2) (by omega) (by omega) (by omega)
          have ec : c' = c := by omega
          have ek : k' = k := by omega
          rw [ec, ek]
    simp only at h5 h5'
    rw [h5, h5']
    rcases Nat.lt_or_gt_of_ne hidx with hlt | hlt
    · left
      have := Nat.mul_le_mul_left b (Nat.succ_le_of_lt hlt)
      rwa [Nat.mul_succ] at this
    · right
      have := Nat.mul_le_mul_left b (Nat.succ_le_of_lt hlt)
      rwa [Nat.mul_succ] at this

end C91L

/-- A grain with writable data of the length that its format and its numbers of samples and channels ask for. -/
def RegularSound (w : Numpy.LiveAudio.World) (x : Numpy.LiveAudio.Grain) (fmt samples channels : Nat) : Prop :=
  w.infos[x.info]? = some ⟨fmt, samples, channels⟩ ∧ (w.bytesOf x).length = sizeForAudioFormat fmt channels samples ∧
    ∃ b buf, soundBlock x = some b ∧ w.bufs[b]? = some buf ∧ buf.writable = true

/-- **C91**, writing (formats without samples of 24 bits): every sample can be assigned to and is there afterwards, the other samples are as
before, a grain over the same memory has the same data as this one, and a grain over other memory the data it had. -/
theorem C91_write (ops : List Numpy.LiveAudio.Op) (hk : ∀ op ∈ ops, keepsInfo op = true) (g : Nat) (x : Numpy.LiveAudio.Grain)
    (hx : (audioWorld ops).grains[g]? = some x) (fmt b samples channels : Nat) (hf : (fmt, b) ∈ pcmFormats) (h24 : fmt ∉ s24Formats)
    (hr : RegularSound (audioWorld ops) x fmt samples channels) (c k : Nat) (hc : c < channels) (hks : k < samples) (val : Bytes)
    (hval : val.length = b) :
    ∃ w', (audioWorld ops).step (.write g c k val) = (.done, w') ∧ w'.grains = (audioWorld ops).grains ∧
      w'.read x c k = some val ∧
      (∀ c' k', (c', k') ≠ (c, k) → w'.read x c' k' = (audioWorld ops).read x c' k') ∧
      (∀ y, soundBlock y = soundBlock x → w'.bytesOf y = w'.bytesOf x) ∧
      (∀ y, soundBlock y ≠ soundBlock x → w'.bytesOf y = (audioWorld ops).bytesOf y) := by
  obtain ⟨-, hfx⟩ := C91L.reached_fresh ops hk x (List.mem_of_getElem? hx)
  generalize hw : audioWorld ops = w at *
  obtain ⟨hau, hlen, m, buf, hb, hbuf, hwr⟩ := hr
  obtain ⟨hit, hp⟩ := AudioArrays.plain _ hf h24
  obtain ⟨hbpos, hsb, -, hkind⟩ := AudioArrays.kinds _ hf
  obtain ⟨au, h1, h2⟩ := id hfx
  rw [hau] at h1; cases h1
  have h3 := h2 hp
  cases hd : x.data with
  | none => unfold soundBlock at hb; rw [hd] at hb; cases hb
  | some d =>
    obtain ⟨m', item⟩ := d
    have : m' = m := by unfold soundBlock at hb; rw [hd] at hb; exact Option.some.inj hb
    subst this
    rw [hd] at h3
    obtain ⟨buf', a1, a2, a3, a4⟩ := h3
    rw [hbuf] at a1; cases a1
    simp only at hit hsb a2 a3 a4
    rw [hit] at a2; cases a2
    have hbytes : w.bytesOf x = buf.bytes := by
      unfold World.bytesOf; rw [hd]; simp only [hbuf, Option.map_some, Option.getD_some]
    rw [hbytes] at hlen
    obtain ⟨-, hs⟩ := C91L.sound hf samples channels buf.bytes.length hlen
    generalize hvs : channelViews (buf.bytes.length / b) b (audioSampleBytes fmt) fmt samples channels = vs at a4 hs
    have hvl : vs.length = channels := by
      rw [← hvs]
      unfold channelViews
      rcases hkind with ⟨q1, q2⟩ | ⟨q1, q2, q3⟩ | ⟨q1, q2, q3⟩ <;> simp_all
    have hcv : ∃ v, vs[c]? = some v := ⟨vs[c]'(by omega), List.getElem?_eq_getElem (by omega)⟩
    obtain ⟨v, hv⟩ := hcv
    obtain ⟨v1, v2, v3⟩ := hs c v hv
    obtain ⟨hin, hdis⟩ := v3 k hks
    have hset : v.set buf.bytes k val = some (buf.bytes.take (v.addr k) ++ val ++ buf.bytes.drop (v.addr k + b)) := by
      unfold ChanView.set
      rw [v2, if_pos hin, List.take_of_length_le (l := val) (by omega)]
    have hlen2 : (buf.bytes.take (v.addr k) ++ val ++ buf.bytes.drop (v.addr k + b)).length = buf.bytes.length := by
      simp only [List.length_append, List.length_take, List.length_drop, hval]
      omega
    generalize hdata : buf.bytes.take (v.addr k) ++ val ++ buf.bytes.drop (v.addr k + b) = data' at hset hlen2
    have hblt : m' < w.bufs.length := (List.getElem?_eq_some_iff.1 hbuf).1
    have hget : ({ w with bufs := w.bufs.set m' { buf with bytes := data' } } : Numpy.LiveAudio.World).bufs[m']? =
        some { buf with bytes := data' } := by
      simp [List.getElem?_set, hblt]
    refine ⟨{ w with bufs := w.bufs.set m' { buf with bytes := data' } }, ?_, rfl, ?_, ?_, ?_, ?_⟩
    · simp only [World.step, hx, a4, List.getElem?_map, hv, Option.map_some]
      rw [if_neg (by simp [hval, v2]), if_pos (by omega)]
      simp only [hbuf, hwr, if_true, hset]
    · unfold World.read
      simp only [a4, List.getElem?_map, hv, Option.map_some]
      rw [if_pos (by omega), hget]
      simp only [Option.bind_some]
      unfold ChanView.get
      rw [hlen2, v2, if_pos hin, ← hdata, VideoArrays.splice_same hin hval]
    · intro c' k' hn
      unfold World.read
      simp only [a4, List.getElem?_map]
      cases hv' : vs[c']? with
      | none => rfl
      | some v' =>
        simp only [Option.map_some]
        obtain ⟨w1, w2, -⟩ := hs c' v' hv'
        by_cases hk' : k' < v'.count
        · rw [if_pos hk', if_pos hk', hget, hbuf]
          simp only [Option.bind_some]
          unfold ChanView.get
          rw [hlen2, w2, ← hdata, VideoArrays.splice_get hin hval (hdis c' v' k' hv' (by omega) hn)]
        · rw [if_neg hk', if_neg hk']
    · intro y hy
      unfold World.bytesOf
      rw [hd]
      have hy' : y.data.map Prod.fst = some m' := by rw [show y.data.map Prod.fst = soundBlock y from rfl, hy, hb]
      cases hyd : y.data with
      | none => rw [hyd] at hy'; cases hy'
      | some dy =>
        obtain ⟨by', iy⟩ := dy
        rw [hyd] at hy'
        cases hy'
        rfl
    · intro y hy
      unfold World.bytesOf
      cases hyd : y.data with
      | none => rfl
      | some dy =>
        obtain ⟨by', iy⟩ := dy
        have : m' ≠ by' := by
          intro e
          apply hy
          rw [hb]
          unfold soundBlock
          rw [hyd, e]
          rfl
        simp only [List.getElem?_set, if_neg this]

/-- **C91**, what is refused (formats without samples of 24 bits): an element that there is not raises `IndexError`, an element over memory that cannot be
written to `ValueError`, and a length for a grain that is not waiting for a load `AttributeError`. Nothing changes. -/
theorem C91_refused (ops : List Numpy.LiveAudio.Op) (hk : ∀ op ∈ ops, keepsInfo op = true) (g : Nat) (x : Numpy.LiveAudio.Grain)
    (hx : (audioWorld ops).grains[g]? = some x) :
    (∀ fmt b samples channels m buf, (fmt, b) ∈ pcmFormats → fmt ∉ s24Formats → (audioWorld ops).infos[x.info]? = some ⟨fmt, samples, channels⟩ →
      ((audioWorld ops).bytesOf x).length = sizeForAudioFormat fmt channels samples → soundBlock x = some m → (audioWorld ops).bufs[m]? = some buf →
      ∀ (c k : Nat) (val : Bytes), val.length = b →
        (¬ (c < channels ∧ k < samples) → (audioWorld ops).step (.write g c k val) = (.index, audioWorld ops)) ∧
        (c < channels → k < samples → buf.writable = false → (audioWorld ops).step (.write g c k val) = (.value, audioWorld ops))) ∧
    (∀ n, (x.data ≠ none ∨ x.fetcher = none) → (audioWorld ops).step (.declare g n) = (.attribute, audioWorld ops)) := by
  obtain ⟨-, hfx⟩ := C91L.reached_fresh ops hk x (List.mem_of_getElem? hx)
  generalize hw : audioWorld ops = w at *
  refine ⟨?_, ?_⟩
  · intro fmt b samples channels m buf hf h24 hau hlen hb hbuf c k val hval
    obtain ⟨hit, hp⟩ := AudioArrays.plain _ hf h24
    obtain ⟨hbpos, hsb, -, hkind⟩ := AudioArrays.kinds _ hf
    obtain ⟨au, h1, h2⟩ := id hfx
    rw [hau] at h1; cases h1
    have h3 := h2 hp
    cases hd : x.data with
    | none => unfold soundBlock at hb; rw [hd] at hb; cases hb
    | some d =>
      obtain ⟨m', item⟩ := d
      have : m' = m := by unfold soundBlock at hb; rw [hd] at hb; exact Option.some.inj hb
      subst this
      rw [hd] at h3
      obtain ⟨buf', a1, a2, a3, a4⟩ := h3
      rw [hbuf] at a1; cases a1
      simp only at hit hsb a2 a3 a4
      rw [hit] at a2; cases a2
      have hbytes : w.bytesOf x = buf.bytes := by
        unfold World.bytesOf; rw [hd]; simp only [hbuf, Option.map_some, Option.getD_some]
      rw [hbytes] at hlen
      obtain ⟨-, hs⟩ := C91L.sound hf samples channels buf.bytes.length hlen
      generalize hvs : channelViews (buf.bytes.length / b) b (audioSampleBytes fmt) fmt samples channels = vs at a4 hs
      have hvl : vs.length = channels := by
        rw [← hvs]
        unfold channelViews
        rcases hkind with ⟨q1, q2⟩ | ⟨q1, q2, q3⟩ | ⟨q1, q2, q3⟩ <;> simp_all
      cases hv : vs[c]? with
      | none =>
        have hge : channels ≤ c := by rw [← hvl]; exact List.getElem?_eq_none_iff.1 hv
        refine ⟨fun _ => ?_, fun h => absurd h (by omega)⟩
        simp only [World.step, hx, a4, List.getElem?_map, hv, Option.map_none]
      | some v =>
        have hlt : c < channels := by rw [← hvl]; exact (List.getElem?_eq_some_iff.1 hv).1
        obtain ⟨v1, v2, -⟩ := hs c v hv
        refine ⟨fun h => ?_, fun _ h hwr => ?_⟩
        · simp only [World.step, hx, a4, List.getElem?_map, hv, Option.map_some]
          rw [if_neg (by simp [hval, v2]), if_neg (by omega)]
        · simp only [World.step, hx, a4, List.getElem?_map, hv, Option.map_some]
          rw [if_neg (by simp [hval, v2]), if_pos (by omega)]
          simp only [hbuf, hwr, Bool.false_eq_true, if_false]
  · intro n h
    simp only [World.step, hx]
    split
    · rename_i h1 h2
      rcases h with h | h
      · exact absurd h1 h
      · rw [h] at h2; cases h2
    · rfl

/-- **C91**, waiting (formats without samples of 24 bits): if nothing is done meanwhile, awaiting a grain whose load has not been started
gives the data of the load (when they are a whole number of elements), the grain has them, and every further await gives them again. -/
theorem C91_await (ops : List Numpy.LiveAudio.Op) (g i b : Nat) (x : Numpy.LiveAudio.Grain) (au : Audio) (buf : Buf)
    (hx : (audioWorld ops).grains[g]? = some x) (hd : x.data = none) (hf : x.fetcher = some i)
    (hi : (audioWorld ops).coros[i]? = some ⟨some (some b), false⟩) (hau : (audioWorld ops).infos[x.info]? = some au)
    (hb : (audioWorld ops).bufs[b]? = some buf) (h24 : ¬ is24 au.fmt) (item : Nat) (hit : audioItemsize au.fmt = some item)
    (hm : buf.bytes.length % item = 0) :
    ((audioWorld ops).run [.start g, .finish (audioWorld ops).tasks.length, .start g]).1 = [.suspended, .data (some b), .data (some b)] ∧
    ∃ x', ((audioWorld ops).run [.start g, .finish (audioWorld ops).tasks.length]).2.grains[g]? = some x' ∧ soundBlock x' = some b ∧
      x'.fetcher = none ∧
      ((audioWorld ops).run [.start g, .finish (audioWorld ops).tasks.length]).2.bytesOf x' = buf.bytes := by
  generalize hw : audioWorld ops = w at *
  have hover : ∀ w' : Numpy.LiveAudio.World, w'.overBlock au b buf = ⟨some (b, item), some ((channelViews (buf.bytes.length / item) item
      (audioSampleBytes au.fmt) au.fmt au.samples au.channels).map (fun v => (b, v))), .done, w'⟩ := by
    intro w'
    unfold World.overBlock
    simp only [hit]
    rw [if_neg (by simp [hm]), if_neg (by exact h24)]
  generalize (channelViews (buf.bytes.length / item) item (audioSampleBytes au.fmt) au.fmt au.samples au.channels).map
    (fun v => (b, v)) = as at hover
  have hglt : g < w.grains.length := (List.getElem?_eq_some_iff.1 hx).1
  have hs : w.step (.start g) = (.suspended, { w with coros := w.coros.set i ⟨some (some b), true⟩, tasks := w.tasks ++ [⟨g, i, false⟩] }) := by
    simp only [World.step, hx, hd, hf, hi, Bool.false_eq_true, if_false]
  have hilt : i < w.coros.length := (List.getElem?_eq_some_iff.1 hi).1
  have hfin : ({ w with coros := w.coros.set i ⟨some (some b), true⟩, tasks := w.tasks ++ [⟨g, i, false⟩] } : Numpy.LiveAudio.World).step
      (.finish w.tasks.length) = (.data (some b),
        { w with coros := w.coros.set i ⟨some (some b), true⟩, tasks := w.tasks ++ [⟨g, i, true⟩],
                 grains := w.grains.set g { x with fetcher := none, data := some (b, item), arrays := as } }) := by
    simp only [World.step, List.getElem?_concat_length, Bool.false_eq_true, if_false, hx, List.getElem?_set, hilt, if_true,
      World.give, hau, hb, hover, Option.map_some, Option.some_or, Option.getD_some]
    simp
  refine ⟨?_, { x with fetcher := none, data := some (b, item), arrays := as }, ?_, rfl, rfl, ?_⟩
  · simp only [World.run, hs, hfin]
    simp [World.step, List.getElem?_set, hglt]
  · simp only [World.run, hs, hfin]
    simp [List.getElem?_set, hglt]
  · simp only [World.run, hs, hfin]
    simp [World.bytesOf, hb]

/-- **C91**, copies (formats without samples of 24 bits): both kinds of copy of a grain with data succeed and give a grain with the same
bytes; that of `copy` is over the same memory and metadata, that of `deepcopy` over memory and metadata that no other grain has. -/
theorem C91_copies (ops : List Numpy.LiveAudio.Op) (hk : ∀ op ∈ ops, keepsInfo op = true) (g b : Nat) (x : Numpy.LiveAudio.Grain)
    (hx : (audioWorld ops).grains[g]? = some x) (hb : soundBlock x = some b) (au : Audio) (hau : (audioWorld ops).infos[x.info]? = some au)
    (h24 : ¬ is24 au.fmt) :
    (∃ w' y, (audioWorld ops).step (.copy g) = (.done, w') ∧ w'.grains = (audioWorld ops).grains ++ [y] ∧
      w'.bufs = (audioWorld ops).bufs ∧ soundBlock y = some b ∧ y.info = x.info ∧ w'.bytesOf y = (audioWorld ops).bytesOf x) ∧
    (∃ w' y, (audioWorld ops).step (.deepcopy g) = (.done, w') ∧ w'.grains = (audioWorld ops).grains ++ [y] ∧
      w'.bytesOf y = (audioWorld ops).bytesOf x ∧ w'.infos[y.info]? = some au ∧
      ∀ z ∈ (audioWorld ops).grains, soundBlock z ≠ soundBlock y ∧ z.info ≠ y.info ∧ w'.bytesOf z = (audioWorld ops).bytesOf z) := by
  have hinv := C91L.reached_fresh ops hk
  generalize hw : audioWorld ops = w at *
  obtain ⟨-, au', h1, h2⟩ := hinv x (List.mem_of_getElem? hx)
  rw [hau] at h1; cases h1
  have h3 := h2 h24
  cases hd : x.data with
  | none => unfold soundBlock at hb; rw [hd] at hb; cases hb
  | some d =>
    obtain ⟨b', item⟩ := d
    have : b' = b := by unfold soundBlock at hb; rw [hd] at hb; exact Option.some.inj hb
    subst this
    rw [hd] at h3
    obtain ⟨buf, a1, a2, a3, a4⟩ := h3
    have ho : ∀ (w' : Numpy.LiveAudio.World) k (bf : Buf), bf.bytes = buf.bytes → w'.overBlock au k bf =
        ⟨some (k, item), some ((channelViews (buf.bytes.length / item) item (audioSampleBytes au.fmt) au.fmt au.samples au.channels).map
          (fun v => (k, v))), .done, w'⟩ := by
      intro w' k bf e
      unfold World.overBlock
      simp only [a2, e]
      rw [if_neg (by simp [a3]), if_neg (by exact h24)]
    generalize channelViews (buf.bytes.length / item) item (audioSampleBytes au.fmt) au.fmt au.samples au.channels = vs at ho
    constructor
    · refine ⟨{ w with grains := w.grains ++ [⟨x.info, some (b', item), vs.map (fun v => (b', v)), none, 0⟩] }, _, ?_, rfl, rfl, rfl, rfl, ?_⟩
      · simp only [World.step, hx, hd, Option.map_some, World.fromMeta, hau, World.construct, World.give, a1, ho w b' buf rfl,
          Option.some_or, Option.getD_some]
      · simp [World.bytesOf, hd]
    · refine ⟨{ w with infos := w.infos ++ [au], bufs := w.bufs ++ [⟨buf.bytes, true⟩],
                       grains := w.grains ++ [⟨w.infos.length, some (w.bufs.length, item), vs.map (fun v => (w.bufs.length, v)), none, 0⟩] },
        _, ?_, rfl, ?_, ?_, ?_⟩
      · simp only [World.step, hx, hd, hau, Option.bind_some, a1, World.fromMeta, World.construct, World.alloc, World.give,
          List.getElem?_concat_length, ho _ w.bufs.length ⟨buf.bytes, true⟩ rfl, Option.some_or, Option.getD_some]
      · simp [World.bytesOf, hd, a1]
      · simp
      · intro z hz
        obtain ⟨zm, auz, z1, -⟩ := hinv z hz
        have hzf : z.info < w.infos.length := (List.getElem?_eq_some_iff.1 z1).1
        refine ⟨?_, by simp only; omega, ?_⟩
        · unfold soundBlock
          cases hzd : z.data with
          | none => simp
          | some dz =>
            obtain ⟨bz, iz⟩ := dz
            obtain ⟨-, -, bufz, c1, -⟩ := zm bz iz hzd
            have := (List.getElem?_eq_some_iff.1 c1).1
            simp only [Option.map_some, ne_eq, Option.some.injEq]
            omega
        · unfold World.bytesOf
          cases hzd : z.data with
          | none => rfl
          | some dz =>
            obtain ⟨bz, iz⟩ := dz
            obtain ⟨-, -, bufz, c1, -⟩ := zm bz iz hzd
            simp only [List.getElem?_append_left (List.getElem?_eq_some_iff.1 c1).1]

namespace C91L

/-- Each task is the start of an awaitable of its own, and that has been started. -/
def Starts (w : World) : Prop :=
  (w.tasks.map Task.coro).Nodup ∧ ∀ k ∈ w.tasks, ∃ c, w.coros[k.coro]? = some c ∧ c.started = true

theorem Starts.same {w w' : World} (h : Starts w) (h1 : w'.tasks = w.tasks) (h2 : w'.coros = w.coros) : Starts w' := by
  unfold Starts; rw [h1, h2]; exact h

theorem construct_tasks (w : World) (info b : Nat) : (w.construct info b).2.tasks = w.tasks ∧ (w.construct info b).2.coros = w.coros := by
  obtain ⟨-, -, -, s4, s5, -, -⟩ := give_spec w { info := info } (some b)
  unfold World.construct
  split
  · rename_i g w' hg; rw [hg] at s4 s5; exact ⟨s5, s4⟩
  · rename_i r g w' hr hg; rw [hg] at s4 s5; exact ⟨s5, s4⟩

theorem fromMeta_tasks (w : World) (info : Nat) (b : Option Nat) :
    (w.fromMeta info b).2.tasks = w.tasks ∧ (w.fromMeta info b).2.coros = w.coros := by
  unfold World.fromMeta
  split
  · exact ⟨rfl, rfl⟩
  · cases b with
    | some b => exact construct_tasks _ _ _
    | none => exact construct_tasks _ _ _

theorem step_starts {w : World} (h : Starts w) (op : Numpy.LiveAudio.Op) : Starts (w.step op).2 := by
  cases op with
  | block bs wr => exact h.same rfl rfl
  | awaitable r =>
    refine ⟨h.1, fun k hk => ?_⟩
    obtain ⟨c, e, e'⟩ := h.2 k hk
    exact ⟨c, by simp only [World.step]; rw [List.getElem?_append_left (List.getElem?_eq_some_iff.1 e).1]; exact e, e'⟩
  | new fmt samples channels b =>
    simp only [World.step]
    cases b with
    | some b => exact h.same (construct_tasks _ _ _).1 (construct_tasks _ _ _).2
    | none => exact h.same (construct_tasks _ _ _).1 (construct_tasks _ _ _).2
  | newLazy fmt samples channels i =>
    simp only [World.step]
    split <;> exact h.same rfl rfl
  | copy g =>
    simp only [World.step]
    split
    · exact h
    · exact h.same (fromMeta_tasks _ _ _).1 (fromMeta_tasks _ _ _).2
  | deepcopy g =>
    simp only [World.step]
    split
    · exact h
    · split
      · exact h
      · split
        · exact h.same (fromMeta_tasks _ _ _).1 (fromMeta_tasks _ _ _).2
        · exact h.same (fromMeta_tasks _ _ _).1 (fromMeta_tasks _ _ _).2
  | start g =>
    simp only [World.step]
    split
    · exact h
    · split
      · split
        · exact h
        · rename_i i _ c hc
          split
          · exact h
          · rename_i hs
            have hilt := (List.getElem?_eq_some_iff.1 hc).1
            constructor
            · rw [List.map_append, List.nodup_append]
              refine ⟨h.1, by simp, ?_⟩
              intro a ha b hb e
              simp only [List.map_cons, List.map_nil, List.mem_singleton] at hb
              obtain ⟨k, hk, rfl⟩ := List.mem_map.1 ha
              obtain ⟨c', e1, e2⟩ := h.2 k hk
              rw [e, hb, hc] at e1
              cases e1
              exact hs e2
            · intro k hk
              rcases List.mem_append.1 hk with hk | hk
              · obtain ⟨c', e1, e2⟩ := h.2 k hk
                simp only [List.getElem?_set]
                split
                · exact ⟨_, rfl, rfl⟩
                · exact ⟨c', e1, e2⟩
              · rw [List.mem_singleton.1 hk]
                simp only [List.getElem?_set, if_true, hilt]
                exact ⟨_, rfl, rfl⟩
      · exact h
  | finish t =>
    have key : ∀ k, w.tasks[t]? = some k → ∀ w' : World, w'.tasks = w.tasks.set t { k with finished := true } → w'.coros = w.coros →
        Starts w' := by
      intro k hk w' h1 h2
      have e : w'.tasks.map Task.coro = w.tasks.map Task.coro := by
        rw [h1, List.map_set]
        apply List.ext_getElem?
        intro j
        rw [List.getElem?_set]
        split
        · rename_i e; subst e
          split
          · rw [List.getElem?_map, hk]; rfl
          · rename_i hl; rw [List.getElem?_eq_none (by simpa using hl)]
        · rfl
      refine ⟨by rw [e]; exact h.1, ?_⟩
      intro k' hk'
      have : k'.coro ∈ w.tasks.map Task.coro := by rw [← e]; exact List.mem_map_of_mem hk'
      obtain ⟨k'', hk'', e'⟩ := List.mem_map.1 this
      rw [h2, ← e']
      exact h.2 k'' hk''
    simp only [World.step]
    split
    · exact h
    · rename_i k hk
      split
      · exact h
      · split
        · rename_i x c hx hc
          split
          · exact key k hk _ rfl rfl
          · rename_i v hv
            obtain ⟨-, -, -, s4, s5, -, -⟩ := give_spec { w with tasks := w.tasks.set t { k with finished := true } } x v
            exact key k hk _ s5 s4
        · exact h
  | assign g b =>
    simp only [World.step]
    split
    · exact h
    · rename_i x hx
      obtain ⟨-, -, -, s4, s5, -, -⟩ := give_spec w x b
      exact h.same s5 s4
  | assignLazy g i =>
    simp only [World.step]
    split
    · exact h
    · split <;> exact h.same rfl rfl
  | declare g n =>
    simp only [World.step]
    split
    · exact h
    · split <;> exact h.same rfl rfl
  | write g c k v =>
    simp only [World.step]
    repeat' split
    all_goals exact h.same rfl rfl
  | poke b i v =>
    simp only [World.step]
    repeat' split
    all_goals exact h.same rfl rfl
  | setInfo g au =>
    simp only [World.step]
    repeat' split
    all_goals exact h.same rfl rfl

theorem run_starts : ∀ (ops : List Numpy.LiveAudio.Op) {w : World}, Starts w → Starts (w.run ops).2 := by
  intro ops
  induction ops with
  | nil => intro w h; exact h
  | cons op ops ih => intro w h; exact ih (step_starts h op)

end C91L

/-- **C91**: no awaitable is started twice, whatever a program does. -/
theorem C91_once (ops : List Numpy.LiveAudio.Op) : ((audioWorld ops).tasks.map Task.coro).Nodup :=
  (C91L.run_starts ops (w := {}) ⟨by simp, by simp⟩).1

/-- **C91**, 24 bits in three bytes: data of the right length can be given to a grain, whatever was done before; the arrays then read the
samples with a zero byte below, from memory that no grain had data in, and the data is as it was. -/
theorem C91_s24_partial (ops : List Numpy.LiveAudio.Op) (g b : Nat) (x : Numpy.LiveAudio.Grain) (fmt samples channels : Nat) (buf : Buf)
    (s : Nat → Nat → Bytes) (hx : (audioWorld ops).grains[g]? = some x) (hf : fmt ∈ [AudioFormat.S24_PAIRS, AudioFormat.S24_INTERLEAVED])
    (hau : (audioWorld ops).infos[x.info]? = some ⟨fmt, samples, channels⟩) (hs : ∀ c k, (s c k).length = 3)
    (hb : (audioWorld ops).bufs[b]? = some buf) (hd : buf.bytes = audioData fmt s samples channels) :
    ∃ w' y, (audioWorld ops).step (.assign g (some b)) = (.done, w') ∧ w'.grains = (audioWorld ops).grains.set g y ∧
      soundBlock y = some b ∧ w'.bytesOf y = buf.bytes ∧
      (∀ c k, c < channels → k < samples → w'.read y c k = some (0 :: s c k)) ∧
      (∀ a ∈ y.arrays, ∀ z ∈ w'.grains, soundBlock z ≠ some a.1) ∧
      ∀ z ∈ (audioWorld ops).grains, w'.bytesOf z = (audioWorld ops).bytesOf z := by
  have hm := fun z hz => (C91L.run_inv (keep := False) ops (w := {}) (by intro x hx; cases hx) (fun h => h.elim) z hz).1
  change ∀ z ∈ (audioWorld ops).grains, C91L.Mem (audioWorld ops) z at hm
  generalize hw : audioWorld ops = w at *
  obtain ⟨r, r1, r2, r3, r4, r5⟩ := C54_s24 fmt hf s hs samples channels true
  have hp : audioItemsize fmt = some 1 ∧ audioIsInt fmt = true ∧ audioDepth fmt = 4 ∧ audioSampleBytes fmt = 3 := by
    simp only [List.mem_cons, List.mem_nil_iff, or_false] at hf
    rcases hf with rfl | rfl <;> decide
  obtain ⟨p1, p2, p3, p4⟩ := hp
  have hlt := (List.getElem?_eq_some_iff.1 hb).1
  have hl3 : buf.bytes.length % 3 = 0 := by
    rw [hd]
    unfold audioChannels at r1
    rw [p1] at r1
    simp only [p2, p3, p4, and_self, if_true] at r1
    by_cases h1 : (audioData fmt s samples channels).length % 1 ≠ 0
    · rw [if_pos h1] at r1; cases r1
    · rw [if_neg h1] at r1
      by_cases h3 : (audioData fmt s samples channels).length % 3 ≠ 0
      · rw [if_pos h3] at r1; cases r1
      · simpa using h3
  have hr : r = ⟨buf.bytes, widen buf.bytes, false, channelViews (buf.bytes.length / 3) 4 4 fmt samples channels⟩ := by
    unfold audioChannels at r1
    rw [p1, ← hd] at r1
    simp only [p2, p3, p4, and_self, if_true] at r1
    rw [if_neg (by omega), if_neg (by simp [hl3])] at r1
    cases r1; rfl
  have ho : w.overBlock ⟨fmt, samples, channels⟩ b buf = ⟨some (b, 1),
      some ((channelViews (buf.bytes.length / 3) 4 4 fmt samples channels).map (fun v => (w.bufs.length, v))), .done,
      { w with bufs := w.bufs ++ [⟨widen buf.bytes, true⟩] }⟩ := by
    unfold World.overBlock
    simp only [p1, p2, p3, p4, and_self, if_true]
    rw [if_neg (by omega), if_neg (by simp [hl3])]
    rfl
  have hold : ∀ z ∈ w.grains, ∀ m i, z.data = some (m, i) → m < w.bufs.length := by
    intro z hz m i e
    obtain ⟨-, -, bz, e1, -⟩ := hm z hz m i e
    exact (List.getElem?_eq_some_iff.1 e1).1
  let y : Numpy.LiveAudio.Grain := ⟨x.info, some (b, 1),
    (channelViews (buf.bytes.length / 3) 4 4 fmt samples channels).map (fun v => (w.bufs.length, v)), none, x.declared⟩
  refine ⟨{ w with bufs := w.bufs ++ [⟨widen buf.bytes, true⟩], grains := w.grains.set g y }, y, ?_, rfl, rfl, ?_, ?_, ?_, ?_⟩
  · simp only [World.step, hx, World.give, hau, hb, ho, Option.some_or, Option.getD_some, y]
  · simp [World.bytesOf, y, List.getElem?_append_left hlt, hb]
  · intro c k hc hk
    rw [hr] at r4 r5
    simp only at r4 r5
    have hv : ∃ v, (channelViews (buf.bytes.length / 3) 4 4 fmt samples channels)[c]? = some v :=
      ⟨_, List.getElem?_eq_getElem (by omega)⟩
    obtain ⟨v, hv⟩ := hv
    obtain ⟨v1, v2⟩ := r5 c v hv
    unfold World.read
    simp only [y, List.getElem?_map, hv, Option.map_some, List.getElem?_concat_length, Option.bind_some]
    rw [if_pos (by omega)]
    exact v2 k hk
  · intro a ha z hz e
    obtain ⟨v, -, rfl⟩ := List.mem_map.1 ha
    simp only at e
    rcases List.mem_or_eq_of_mem_set hz with hz | rfl
    · unfold soundBlock at e
      cases hzd : z.data with
      | none => rw [hzd] at e; cases e
      | some dz =>
        obtain ⟨bz, iz⟩ := dz
        rw [hzd] at e
        cases e
        exact absurd (hold z hz _ _ hzd) (by omega)
    · have : b = w.bufs.length := Option.some.inj e
      omega
  · intro z hz
    unfold World.bytesOf
    cases hzd : z.data with
    | none => rfl
    | some dz =>
      obtain ⟨bz, iz⟩ := dz
      simp only [List.getElem?_append_left (hold z hz _ _ hzd)]

/-! ## What is false -/

/-- **C91 fails** when the format of a grain is changed: the arrays stay those of the old format, until data is assigned. -/
theorem C91_format_counterexample : ∃ ops x, (audioWorld ops).grains = [x] ∧
    (audioWorld ops).infos = [⟨AudioFormat.S16_INTERLEAVED, 2, 2⟩] ∧
    (audioWorld ops).read x 0 1 = some [3, 4] ∧
    heard ⟨AudioFormat.S16_INTERLEAVED, 2, 2⟩ ((audioWorld ops).bytesOf x) 0 1 = some [5, 6] :=
  ⟨[.block [1, 2, 3, 4, 5, 6, 7, 8] true, .new AudioFormat.S16_PLANES 2 2 (some 0), .setInfo 0 ⟨AudioFormat.S16_INTERLEAVED, 2, 2⟩], _, rfl,
    by decide +kernel, by decide +kernel, by decide +kernel⟩

/-- **C91 fails** for samples of 24 bits in three bytes: assigning to an element of an array changes the array and not the data, changing the
data does not change the array. -/
theorem C91_s24_detached_counterexample :
    ∃ x, (audioWorld [.block [1, 2, 3] true, .new AudioFormat.S24_INTERLEAVED 1 1 (some 0), .write 0 0 0 [0, 7, 8, 9], .poke 0 0 5]).grains = [x] ∧
      (audioWorld [.block [1, 2, 3] true, .new AudioFormat.S24_INTERLEAVED 1 1 (some 0), .write 0 0 0 [0, 7, 8, 9], .poke 0 0 5]).read x 0 0 =
        some [0, 7, 8, 9] ∧
      (audioWorld [.block [1, 2, 3] true, .new AudioFormat.S24_INTERLEAVED 1 1 (some 0), .write 0 0 0 [0, 7, 8, 9], .poke 0 0 5]).bytesOf x =
        [5, 2, 3] :=
  ⟨_, rfl, by decide +kernel, by decide +kernel⟩

/-- **C91 fails** for 24 bits in planes: `copy` of a grain changes the samples of the original (by a factor of 256), `deepcopy` gives a grain
with other samples. -/
theorem C91_s24_copy_counterexample :
    (∃ x y, (audioWorld [.block [0x56, 0x34, 0x12, 0] true, .new AudioFormat.S24_PLANES 1 1 (some 0), .copy 0]).grains = [x, y] ∧
      (audioWorld [.block [0x56, 0x34, 0x12, 0] true, .new AudioFormat.S24_PLANES 1 1 (some 0)]).bytesOf x = [0, 0x56, 0x34, 0x12] ∧
      (audioWorld [.block [0x56, 0x34, 0x12, 0] true, .new AudioFormat.S24_PLANES 1 1 (some 0), .copy 0]).bytesOf x = [0, 0, 0x56, 0x34] ∧
      (audioWorld [.block [0x56, 0x34, 0x12, 0] true, .new AudioFormat.S24_PLANES 1 1 (some 0), .copy 0]).bytesOf y = [0, 0, 0x56, 0x34]) ∧
    (∃ x y, (audioWorld [.block [0x56, 0x34, 0x12, 0] true, .new AudioFormat.S24_PLANES 1 1 (some 0), .deepcopy 0]).grains = [x, y] ∧
      (audioWorld [.block [0x56, 0x34, 0x12, 0] true, .new AudioFormat.S24_PLANES 1 1 (some 0), .deepcopy 0]).bytesOf x = [0, 0x56, 0x34, 0x12] ∧
      (audioWorld [.block [0x56, 0x34, 0x12, 0] true, .new AudioFormat.S24_PLANES 1 1 (some 0), .deepcopy 0]).bytesOf y = [0, 0, 0x56, 0x34]) :=
  ⟨⟨_, _, rfl, by decide +kernel, by decide +kernel, by decide +kernel⟩, ⟨_, _, rfl, by decide +kernel, by decide +kernel⟩⟩

/-- **C91 fails** for 24 bits in planes when `bytes` are loaded (which is what a GSF file gives): the await raises `ValueError`, but the grain
then has the data and no arrays, and the next await gives the data. An assignment that is refused leaves the arrays of the data before. -/
theorem C91_s24_refused_counterexample :
    ((Numpy.LiveAudio.World.run {} [.block [1, 2, 3, 0] false, .awaitable (some (some 0)), .newLazy AudioFormat.S24_PLANES 1 1 0, .start 0,
      .finish 0, .start 0]).1 = [.done, .done, .done, .suspended, .value, .data (some 0)]) ∧
    (∃ x, (audioWorld [.block [1, 2, 3, 0] false, .awaitable (some (some 0)), .newLazy AudioFormat.S24_PLANES 1 1 0, .start 0,
      .finish 0]).grains = [x] ∧ soundBlock x = some 0 ∧ x.arrays = []) ∧
    (Numpy.LiveAudio.World.run {} [.block [1, 2, 3, 0] false, .block [4, 5, 6, 0] true, .new AudioFormat.S24_PLANES 1 1 (some 1),
      .assign 0 (some 0)]).1 = [.done, .done, .done, .value] ∧
    (∃ x, (audioWorld [.block [1, 2, 3, 0] false, .block [4, 5, 6, 0] true, .new AudioFormat.S24_PLANES 1 1 (some 1),
      .assign 0 (some 0)]).grains = [x] ∧ soundBlock x = some 0 ∧
      (audioWorld [.block [1, 2, 3, 0] false, .block [4, 5, 6, 0] true, .new AudioFormat.S24_PLANES 1 1 (some 1),
        .assign 0 (some 0)]).read x 0 0 = some [0, 4, 5, 6]) :=
  ⟨by decide +kernel, ⟨_, rfl, rfl, rfl⟩, by decide +kernel, ⟨_, rfl, rfl, by decide +kernel⟩⟩

/-- **C91 fails** for the length of a grain that is still to be loaded: it is 0, whatever length was declared. -/
theorem C91_pending_counterexample (w : Numpy.LiveAudio.World) (g : Nat) (x : Numpy.LiveAudio.Grain) (i n : Nat) (hx : w.grains[g]? = some x)
    (hd : x.data = none) (hf : x.fetcher = some i) :
    ∃ w' x', w.step (.declare g n) = (.done, w') ∧ w'.grains[g]? = some x' ∧ w'.lengthOf x' = 0 := by
  refine ⟨{ w with grains := w.grains.set g { x with declared := n } }, { x with declared := n }, ?_, ?_, ?_⟩
  · simp only [World.step, hx, hd, hf]
  · simp [List.getElem?_set, (List.getElem?_eq_some_iff.1 hx).1]
  · simp [World.lengthOf, hd]

/-- **C91 fails** for copies of a grain that is still to be loaded: both kinds of copy have no load pending but data, none of it, and
interleaved arrays of full length with all elements outside the data. -/
theorem C91_copy_counterexample : ∀ op ∈ [Numpy.LiveAudio.Op.copy 0, Numpy.LiveAudio.Op.deepcopy 0],
    ∃ x y, (audioWorld [.block [1, 2, 3, 4] false, .awaitable (some (some 0)), .newLazy AudioFormat.S16_INTERLEAVED 1 2 0, op]).grains = [x, y] ∧
      x.fetcher = some 0 ∧ y.fetcher = none ∧ soundBlock y = some 1 ∧ y.arrays.map (fun a => a.2.count) = [1, 1] ∧
      (audioWorld [.block [1, 2, 3, 4] false, .awaitable (some (some 0)), .newLazy AudioFormat.S16_INTERLEAVED 1 2 0, op]).bytesOf y = [] := by
  intro op hop
  simp only [List.mem_cons, List.mem_nil_iff, or_false] at hop
  rcases hop with rfl | rfl
  · exact ⟨_, _, rfl, rfl, rfl, rfl, by decide +kernel, by decide +kernel⟩
  · exact ⟨_, _, rfl, rfl, rfl, rfl, by decide +kernel, by decide +kernel⟩

/-- **C91 fails** if a load gives no data: the await raises `TypeError`, the load is forgotten, and the next await gives `None`. When data is
assigned while an await is under way, the load overwrites it. -/
theorem C91_await_counterexample :
    (Numpy.LiveAudio.World.run {} [.awaitable (some none), .newLazy AudioFormat.S16_PLANES 1 1 0, .start 0, .finish 0, .start 0]).1 =
      [.done, .done, .suspended, .type_, .data none] ∧
    (Numpy.LiveAudio.World.run {} [.block [1, 2] false, .block [3, 4] false, .awaitable (some (some 0)), .newLazy AudioFormat.S16_PLANES 1 1 0,
      .start 0, .assign 0 (some 1), .finish 0, .start 0]).1 =
      [.done, .done, .done, .done, .suspended, .done, .data (some 0), .data (some 0)] := by
  decide +kernel

/-- **C91 fails** for compressed audio: a numpy grain is made of it as if it were planes of 16-bit samples, if it has an even number of bytes. -/
theorem C91_compressed_counterexample :
    (Numpy.LiveAudio.World.run {} [.block [1, 2, 3, 4] false, .new AudioFormat.MP1 1 2 (some 0), .block [1, 2, 3] false,
      .new AudioFormat.MP1 1 2 (some 1)]).1 = [.done, .done, .done, .value] ∧
    ∃ x, (audioWorld [.block [1, 2, 3, 4] false, .new AudioFormat.MP1 1 2 (some 0)]).grains = [x] ∧
      (audioWorld [.block [1, 2, 3, 4] false, .new AudioFormat.MP1 1 2 (some 0)]).read x 1 0 = some [3, 4] :=
  ⟨by decide +kernel, _, rfl, by decide +kernel⟩

/-! ## Examples -/

/-- A program: a grain over a `bytearray`, two copies, a grain that is loaded, a write to the first grain. -/
def C91_ops : List Numpy.LiveAudio.Op :=
  [.block [1, 2, 3, 4, 5, 6, 7, 8] true, .new AudioFormat.S16_INTERLEAVED 2 2 (some 0), .copy 0, .deepcopy 0, .awaitable (some (some 0)),
    .newLazy AudioFormat.S16_PAIRS 2 2 0, .start 3, .finish 0, .write 0 1 0 [98, 99]]

example : (∀ op ∈ C91_ops, keepsInfo op = true) ∧
    (Numpy.LiveAudio.World.run {} C91_ops).1 = [.done, .done, .done, .done, .done, .done, .suspended, .data (some 0), .done] ∧
    (audioWorld C91_ops).grains.map (fun x => ((audioWorld C91_ops).bytesOf x)[3]?) = [some 99, some 99, some 4, some 99] ∧
    (audioWorld C91_ops).grains.map (fun x => (audioWorld C91_ops).read x 1 0) = [some [98, 99], some [98, 99], some [3, 4], some [98, 99]] := by
  decide +kernel

/-- The hypotheses of `C91_write` are met. -/
example : ∃ x, (audioWorld C91_ops).grains[0]? = some x ∧ RegularSound (audioWorld C91_ops) x AudioFormat.S16_INTERLEAVED 2 2 ∧
    (AudioFormat.S16_INTERLEAVED, 2) ∈ pcmFormats ∧ AudioFormat.S16_INTERLEAVED ∉ s24Formats :=
  ⟨_, rfl, ⟨by decide +kernel, by decide +kernel, 0, _, rfl, rfl, rfl⟩, by decide, by decide⟩

/-- The hypotheses of `C91_await` are met. -/
example : ∃ x, (audioWorld (C91_ops.take 6)).grains[3]? = some x ∧ x.data = none ∧ x.fetcher = some 0 ∧
    (audioWorld (C91_ops.take 6)).coros[0]? = some ⟨some (some 0), false⟩ ∧
    (audioWorld (C91_ops.take 6)).infos[x.info]? = some ⟨AudioFormat.S16_PAIRS, 2, 2⟩ ∧ ¬ is24 AudioFormat.S16_PAIRS ∧
    audioItemsize AudioFormat.S16_PAIRS = some 2 ∧ ((audioWorld (C91_ops.take 6)).bufs[0]?).map (fun b => b.bytes.length % 2) = some 0 :=
  ⟨_, rfl, rfl, rfl, by decide +kernel, by decide +kernel, by decide, by decide, by decide +kernel⟩

/-- The hypotheses of `C91_s24_partial` are met: two channels of two samples. -/
example : ∃ x, (audioWorld [.block [1, 2, 3, 4, 5, 6, 7, 8, 9, 10, 11, 12] false, .new AudioFormat.S24_INTERLEAVED 2 2 none]).grains[0]? = some x ∧
    (audioWorld [.block [1, 2, 3, 4, 5, 6, 7, 8, 9, 10, 11, 12] false, .new AudioFormat.S24_INTERLEAVED 2 2 none]).infos[x.info]? =
      some ⟨AudioFormat.S24_INTERLEAVED, 2, 2⟩ ∧
    [1, 2, 3, 4, 5, 6, 7, 8, 9, 10, 11, 12] = audioData AudioFormat.S24_INTERLEAVED (fun c k => (List.range 3).map (fun i =>
      UInt8.ofNat (6 * k + 3 * c + i + 1))) 2 2 :=
  ⟨_, rfl, by decide +kernel, by decide +kernel⟩

/-- The hypotheses of `C91_refused` are met: a grain over `bytes`, which cannot be written to. -/
example : ∃ x, (audioWorld [.block [1, 2, 3, 4, 5, 6, 7, 8] false, .new AudioFormat.S16_INTERLEAVED 2 2 (some 0)]).grains[0]? = some x ∧
    (audioWorld [.block [1, 2, 3, 4, 5, 6, 7, 8] false, .new AudioFormat.S16_INTERLEAVED 2 2 (some 0)]).infos[x.info]? =
      some ⟨AudioFormat.S16_INTERLEAVED, 2, 2⟩ ∧ soundBlock x = some 0 ∧ x.data ≠ none :=
  ⟨_, rfl, by decide +kernel, by decide +kernel, by decide +kernel⟩

end Verif.Props

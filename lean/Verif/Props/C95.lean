import Verif.Wrap.H264Grains
import Verif.Props.C52
import Verif.Props.C38
import Verif.Props.C63
import Mathlib.Algebra.Order.Field.Rat
import Mathlib.Tactic.Linarith
import Mathlib.Tactic.FieldSimp
import Mathlib.Tactic.Ring
import Mathlib.Tactic.Positivity

/-!
# C95: the grains of H.264 video
-/

namespace Verif.Props.H264Out

open Verif Verif.Gsf Verif.Wrap Verif.Wrap.H264 Verif.Props.H264Stream Verif.Props.H264Syntax

/-! ## Specification -/

/-- The frames a second that the stream has: as its first picture says (E.2.1), or else those of the template. -/
def rateOf (template : Rat) (p : Picture) : Rat :=
  match p.sps.vui.bind Vui.timing with
  | none => template
  | some t => if p.first.field.isSome then (t.timeScale : Rat) / t.unitsInTick else (t.timeScale : Rat) / (2 * t.unitsInTick)

/-- The start of frame number `n`, in nanoseconds: the last one not after it. -/
def frameStart (rate : Rat) (n : Int) : Int := ((n * 1000000000 : Rat) / rate).floor

/-- The start of frame `n` is nowhere further from `t` than half a frame. -/
def Nearest (rate : Rat) (t : Int) (n : Int) : Prop :=
  (n * 1000000000 : Rat) / rate - 500000000 / rate ≤ t ∧ (t : Rat) < (n * 1000000000 : Rat) / rate + 500000000 / rate

/-- What the standard says of a picture (`infoOf` is that of C62): size, coded size and whether it is a key frame. -/
def infoOfPicture (p : Picture) : Info := infoOf p.sps p.first p.others

/-- The cropping rectangle lies in the picture (7.4.2.1.1). -/
def Cropped (p : Picture) : Prop := 0 ≤ (infoOfPicture p).width ∧ 0 ≤ (infoOfPicture p).height

instance (p : Picture) : Decidable (Cropped p) := by unfold Cropped; infer_instance

instance (rate : Rat) (t n : Int) : Decidable (Nearest rate t n) := by unfold Nearest; infer_instance

/-- Pictures of one size. -/
def SameSize (p q : Picture) : Prop :=
  (infoOfPicture p).width = (infoOfPicture q).width ∧ (infoOfPicture p).height = (infoOfPicture q).height ∧
    (infoOfPicture p).codedWidth = (infoOfPicture q).codedWidth ∧ (infoOfPicture p).codedHeight = (infoOfPicture q).codedHeight

/-- What the grain of a picture is, `x.2` pictures after the first one, which is frame `n`: all that is not said here is as in the template
`t`. -/
def pictureGrain (t : Grain) (v : CodedVideoHdr) (rate : Rat) (n : Int) (x : Picture × Nat) : Grain :=
  { t with
    origin := frameStart rate (n + x.2)
    rate := rate
    body := .codedVideo { v with
      originWidth := (infoOfPicture x.1).width.toNat, originHeight := (infoOfPicture x.1).height.toNat
      codedWidth := (infoOfPicture x.1).codedWidth, codedHeight := (infoOfPicture x.1).codedHeight
      isKeyFrame := some (infoOfPicture x.1).keyFrame, temporalOffset := none, unitOffsets := some (positions 0 x.1.units) }
    length := x.1.bytes.length
    data := some x.1.bytes }

/-! ## Time -/

theorem count_start {num den : Nat} (h0 : 0 < num) (h : num ≤ 500000000 * den) (c : Int) :
    Adts.toCount num den (fromCount num den c) = c := by
  have hb := RawWrap.fromCount_bounds (den := den) h0 c
  have hd : 0 < den := by omega
  unfold Adts.toCount
  generalize fromCount num den c = t at hb
  obtain ⟨h1, h2⟩ := hb
  rw [Int.add_mul, Int.one_mul] at h2
  rw [Int.mul_assoc 2 t]
  generalize t * (num : Int) = x at h1 h2
  rw [Int.mul_assoc c] at h1 h2
  have hp : (0 : Int) < 2 * 1000000000 * den := by omega
  have e : (2 : Int) * 1000000000 * den = 2 * (1000000000 * den) := by ring
  have hn : (num : Int) ≤ 500000000 * den := by exact_mod_cast h
  refine Int.le_antisymm ?_ ?_
  · refine Int.lt_add_one_iff.1 (Int.ediv_lt_of_lt_mul hp ?_)
    nlinarith
  · refine (Int.le_ediv_iff_mul_le hp).2 ?_
    nlinarith

theorem first_start {num den : Nat} (h0 : 0 < num) (h : num ≤ 500000000 * den) (c : Int) :
    firstCount num den (fromCount num den c) = c := by
  have hd : 0 < den := by omega
  have hb := RawWrap.fromCount_bounds (den := den) h0 c
  have hn : (num : Int) ≤ 500000000 * den := by exact_mod_cast h
  have hd' : (0 : Int) < den := by exact_mod_cast hd
  refine Int.le_antisymm ((RawWrap.first_le hd c _).2 hb.1) ?_
  by_contra hlt
  have h2 := (RawWrap.first_le (num := num) hd (c - 1) (fromCount num den c)).1 (by omega)
  nlinarith [hb.2]

theorem stamp_eq {q : Rat} (h0 : 0 < q) (h : q ≤ 500000000) (o : Int) (k : Nat) :
    stamp q o k = fromCount q.num.toNat q.den (Adts.toCount q.num.toNat q.den o + k) := by
  have hn : 0 < q.num := Rat.num_pos.2 h0
  have h1 : 0 < q.num.toNat := by omega
  have h2 : q.num.toNat ≤ 500000000 * q.den := by
    have := (Rat.le_iff _ _).1 h
    have e : ((500000000 : Rat)).num = 500000000 := rfl
    have e' : ((500000000 : Rat)).den = 1 := rfl
    rw [e, e'] at this
    omega
  unfold stamp atRate
  rw [show Adts.normalise q.num.toNat q.den o = fromCount q.num.toNat q.den (Adts.toCount q.num.toNat q.den o) from rfl, first_start h1 h2]
  show fromCount _ _ (Adts.toCount _ _ _) = _
  rw [count_start h1 h2]

theorem start_eq {q : Rat} (h0 : 0 < q) (c : Int) : fromCount q.num.toNat q.den c = frameStart q c := by
  have hn : 0 < q.num := Rat.num_pos.2 h0
  have hq : (q : Rat) = (q.num.toNat : Rat) / q.den := by
    have : ((q.num.toNat : Int) : Rat) = q.num := by rw [Int.toNat_of_nonneg hn.le]
    rw [← Int.cast_natCast, this, Rat.num_div_den]
  have h1 : 0 < q.num.toNat := by omega
  have hb := RawWrap.fromCount_bounds (den := q.den) h1 c
  have hd : 0 < q.den := q.pos
  unfold frameStart
  generalize fromCount q.num.toNat q.den c = t at hb ⊢
  have e : (c * 1000000000 : Rat) / q = (c * 1000000000 * q.den : Rat) / q.num.toNat := by
    have h2 : (q.num.toNat : Rat) ≠ 0 := by positivity
    have h3 : (q.den : Rat) ≠ 0 := by positivity
    generalize q.num.toNat = N, q.den = D at hq h2 h3
    rw [hq]
    field_simp
  rw [e]
  have hpos : (0 : Rat) < q.num.toNat := by positivity
  generalize q.num.toNat = N at *
  have b1 : (t : Rat) * N ≤ c * 1000000000 * q.den := by exact_mod_cast hb.1
  have b2 : (c : Rat) * 1000000000 * q.den < (t + 1) * N := by exact_mod_cast hb.2
  refine Int.le_antisymm (Rat.le_floor_iff.2 ((le_div_iff₀ hpos).2 b1)) ?_
  refine Int.lt_add_one_iff.1 (Rat.floor_lt_iff.2 ?_)
  rw [div_lt_iff₀ hpos]
  push_cast
  exact b2

theorem nearest {q : Rat} (h0 : 0 < q) (o : Int) : Nearest q o (Adts.toCount q.num.toNat q.den o) := by
  have hn : 0 < q.num := Rat.num_pos.2 h0
  have hq : (q : Rat) = (q.num.toNat : Rat) / q.den := by
    have : ((q.num.toNat : Int) : Rat) = q.num := by rw [Int.toNat_of_nonneg hn.le]
    rw [← Int.cast_natCast, this, Rat.num_div_den]
  have hd : 0 < q.den := q.pos
  have hp : (0 : Int) < 2 * 1000000000 * q.den := by omega
  have b1 := Int.ediv_mul_le (2 * o * q.num.toNat + 1000000000 * q.den) (b := 2 * 1000000000 * (q.den : Int)) (by omega)
  have b2 := Int.lt_ediv_add_one_mul_self (2 * o * q.num.toNat + 1000000000 * q.den) hp
  change Adts.toCount q.num.toNat q.den o * _ ≤ _ at b1
  change _ < (Adts.toCount q.num.toNat q.den o + 1) * _ at b2
  generalize Adts.toCount q.num.toNat q.den o = c at *
  have b1' : (c : Rat) * (2 * 1000000000 * q.den) ≤ 2 * o * q.num.toNat + 1000000000 * q.den := by exact_mod_cast b1
  have b2' : (2 : Rat) * o * q.num.toNat + 1000000000 * q.den < (c + 1) * (2 * 1000000000 * q.den) := by exact_mod_cast b2
  have e : (o : Rat) * q.num.toNat = o * q * q.den := by
    have hdne : (q.den : Rat) ≠ 0 := by positivity
    have : (q.num.toNat : Rat) = q * q.den := by
      generalize q.num.toNat = N, q.den = D at hq hdne
      rw [hq]
      field_simp
    rw [this]
    ring
  rw [mul_assoc 2 (o : Rat), e] at b1' b2'
  have hdq : (0 : Rat) < q.den := by positivity
  have c1 : (c : Rat) * 1000000000 - 500000000 ≤ o * q := by nlinarith
  have c2 : (o : Rat) * q < c * 1000000000 + 500000000 := by nlinarith
  unfold Nearest
  rw [← sub_div, ← add_div, div_le_iff₀ h0, lt_div_iff₀ h0]
  exact ⟨c1, c2⟩

theorem start_lt {q : Rat} (h0 : 0 < q) (h : q ≤ 500000000) {m n : Int} (hmn : m < n) : frameStart q m < frameStart q n := by
  unfold frameStart
  have h1 := Rat.floor_le ((m * 1000000000 : Rat) / q)
  have h2 : ((m * 1000000000 : Rat) / q) + 1 ≤ (n * 1000000000 : Rat) / q := by
    rw [div_add_one h0.ne', div_le_div_iff_of_pos_right h0]
    have : (m : Rat) + 1 ≤ n := by exact_mod_cast hmn
    linarith
  refine Int.lt_of_add_one_le (Rat.le_floor_iff.2 ?_)
  push_cast
  linarith

/-! ## Grains -/

theorem rate_eq (t : Rat) (p : Picture) :
    (match (infoOfPicture p).frameRate with | some (n, d) => mkRat n d | none => t) = rateOf t p := by
  unfold infoOfPicture infoOf rateOf
  simp only
  cases p.sps.vui.bind Vui.timing with
  | none => rfl
  | some c =>
    simp only [Option.map_some]
    split
    · rw [Rat.mkRat_eq_div]; push_cast; rfl
    · rw [Rat.mkRat_eq_div]; push_cast; rfl

/-- The grain of a picture with the size of another. -/
def sized (t : Grain) (v : CodedVideoHdr) (rate : Rat) (n : Int) (p : Picture) (x : Picture × Nat) : Grain :=
  { pictureGrain t v rate n x with
    body := .codedVideo { v with
      originWidth := (infoOfPicture p).width.toNat, originHeight := (infoOfPicture p).height.toNat
      codedWidth := (infoOfPicture p).codedWidth, codedHeight := (infoOfPicture p).codedHeight
      isKeyFrame := some (infoOfPicture x.1).keyFrame, temporalOffset := none, unitOffsets := some (positions 0 x.1.units) } }

theorem sized_same (t : Grain) (v : CodedVideoHdr) (rate : Rat) (n : Int) {p : Picture} {x : Picture × Nat} (h : SameSize p x.1) :
    sized t v rate n p x = pictureGrain t v rate n x := by
  obtain ⟨h1, h2, h3, h4⟩ := h
  unfold sized pictureGrain
  rw [h1, h2, h3, h4]

theorem codedGrains_map {α : Type} (t : Grain) (f : α → Made) (g : α → Grain) (b : Bool) (l : List α)
    (h : ∀ x ∈ l, Tools.codedGrain t (f x) = some (g x)) : Tools.codedGrains t (l.map f) b = (l.map g, b) := by
  induction l with
  | nil => rfl
  | cons a l ih =>
    rw [List.map_cons, Tools.codedGrains, h a (List.mem_cons_self ..), ih (fun x hx => h x (List.mem_cons_of_mem _ hx))]
    rfl

theorem positions_ne (p : Picture) : positions 0 p.units ≠ [] := by
  unfold Picture.units
  cases p.before with
  | nil => simp [positions]
  | cons a l => simp [positions]

/-- What the wrapper does with the frames of pictures. -/
theorem grains_eq (t : Grain) (v : CodedVideoHdr) (ht : t.body = .codedVideo v) (p : Picture) (ps : List Picture) (hc : Cropped p)
    (h0 : 0 < rateOf t.rate p) (h1 : rateOf t.rate p ≤ 500000000) (e : Ending) :
    Tools.h264Grains t ((p :: ps).map Picture.frame, e) =
      ((p :: ps).zipIdx.map (sized t v (rateOf t.rate p)
        (Adts.toCount (rateOf t.rate p).num.toNat (rateOf t.rate p).den t.origin) p), e == .done) := by
  obtain ⟨c1, c2⟩ := hc
  have hl : Tools.lookOf t = some ⟨t.rate, v.originWidth, v.originHeight, v.codedWidth, v.codedHeight⟩ := by
    unfold Tools.lookOf; rw [ht]
  unfold Tools.h264Grains
  rw [hl]
  simp only
  have hlook : (Look.learn ⟨t.rate, v.originWidth, v.originHeight, v.codedWidth, v.codedHeight⟩ p.frame.info) =
      ⟨rateOf t.rate p, (infoOfPicture p).width, (infoOfPicture p).height, (infoOfPicture p).codedWidth, (infoOfPicture p).codedHeight⟩ := by
    rw [← rate_eq]
    rfl
  have hg : H264.grains t.origin ⟨t.rate, v.originWidth, v.originHeight, v.codedWidth, v.codedHeight⟩ ((p :: ps).map Picture.frame, e) =
      ((p :: ps).zipIdx.map (fun x => grainOf t.origin ⟨rateOf t.rate p, (infoOfPicture p).width, (infoOfPicture p).height,
        (infoOfPicture p).codedWidth, (infoOfPicture p).codedHeight⟩ (x.1.frame, x.2)), e == .done) := by
    rw [List.map_cons, H264.grains, hlook]
    simp only
    rw [if_neg (by rw [not_le]; exact h0), ← List.map_cons, List.zipIdx_map, List.map_map]
    rfl
  rw [hg]
  simp only
  refine codedGrains_map t _ _ _ _ ?_
  intro x _
  unfold Tools.codedGrain grainOf
  rw [ht]
  simp only
  rw [if_neg (by omega), stamp_eq h0 h1, start_eq h0]
  rw [if_neg (show ¬x.1.frame.offs = [] from positions_ne x.1)]
  rfl

theorem bytes_ne (p : Picture) : p.bytes ≠ [] := by
  unfold Picture.bytes Picture.units
  rw [List.flatMap_append, List.flatMap_cons]
  unfold NalUnit.bytes
  simp

/-- Frames of any input. -/
theorem any_eq (t : Grain) (v : CodedVideoHdr) (ht : t.body = .codedVideo v) (htr : 0 < t.rate) (fr : List Frame × Ending)
    (hi : ∀ f i, fr.1.head? = some f → f.info = some i →
      0 ≤ i.width ∧ 0 ≤ i.height ∧ ∀ a b, i.frameRate = some (a, b) → 0 < a ∧ 0 < b) :
    ∃ gs, Tools.h264Grains t fr = (gs, fr.2 == .done) ∧ gs.map (fun g => g.data) = fr.1.map (fun f => some f.data) ∧
      ∀ g ∈ gs, ∃ f ∈ fr.1, g.data = some f.data ∧ g.timelabels = t.timelabels ∧
        ∃ v', g.body = .codedVideo v' ∧ v'.temporalOffset = none ∧ v'.unitOffsets ≠ some [] := by
  obtain ⟨l, e⟩ := fr
  have hl : Tools.lookOf t = some ⟨t.rate, v.originWidth, v.originHeight, v.codedWidth, v.codedHeight⟩ := by
    unfold Tools.lookOf; rw [ht]
  unfold Tools.h264Grains
  rw [hl]
  simp only
  cases l with
  | nil => exact ⟨[], rfl, rfl, by intro g hg; cases hg⟩
  | cons f fs =>
    generalize hk : (Look.learn ⟨t.rate, v.originWidth, v.originHeight, v.codedWidth, v.codedHeight⟩ f.info) = k
    have hok : 0 < k.rate ∧ 0 ≤ k.originWidth ∧ 0 ≤ k.originHeight := by
      subst hk
      cases hinf : f.info with
      | none => exact ⟨htr, Int.natCast_nonneg _, Int.natCast_nonneg _⟩
      | some i =>
        obtain ⟨h1, h2, h3⟩ := hi f i rfl hinf
        refine ⟨?_, h1, h2⟩
        show 0 < (match i.frameRate with | some (n, d) => mkRat n d | none => t.rate)
        cases hr : i.frameRate with
        | none => exact htr
        | some c =>
          obtain ⟨a, b⟩ := c
          obtain ⟨ha, hb⟩ := h3 a b hr
          show 0 < mkRat a b
          rw [Rat.mkRat_eq_div]
          have ha' : (0 : Rat) < (a : Rat) := by exact_mod_cast ha
          have hb' : (0 : Rat) < (b : Rat) := by exact_mod_cast hb
          rw [Int.cast_natCast]
          exact div_pos ha' hb'
    obtain ⟨k1, k2, k3⟩ := hok
    rw [H264.grains]
    simp only [hk]
    rw [if_neg (by rw [not_le]; exact k1)]
    rw [codedGrains_map t (grainOf t.origin k) (fun x : Frame × Nat => { t with
        origin := stamp k.rate t.origin x.2, rate := k.rate, length := x.1.data.length, data := some x.1.data
        body := .codedVideo { v with
          originWidth := k.originWidth.toNat, originHeight := k.originHeight.toNat
          codedWidth := k.codedWidth, codedHeight := k.codedHeight
          isKeyFrame := x.1.info.map Info.keyFrame, temporalOffset := none, unitOffsets := if x.1.offs = [] then none else some x.1.offs } })]
    · refine ⟨_, rfl, ?_, ?_⟩
      · rw [List.map_map]
        conv => rhs; rw [← List.zipIdx_map_fst 0 (f :: fs), List.map_map]
        rfl
      · intro g hg
        obtain ⟨x, hx, rfl⟩ := List.mem_map.1 hg
        refine ⟨x.1, List.fst_mem_of_mem_zipIdx hx, rfl, rfl, _, rfl, rfl, ?_⟩
        show (if x.1.offs = [] then none else some x.1.offs) ≠ some []
        split
        · intro h; cases h
        · rename_i h
          intro h'
          injection h' with h'
          exact h h'
    · intro x _
      unfold Tools.codedGrain grainOf
      rw [ht]
      simp only
      rw [if_neg (by omega)]

end Verif.Props.H264Out

namespace Verif.Props

open Verif Verif.Gsf Verif.Wrap Verif.Wrap.H264 Verif.Tools Verif.Props.H264Stream Verif.Props.H264Out

/-- **C95**, the grains: one for each picture, however the input is read. The first picture is the frame nearest to the timestamp of the
template, the others follow one frame apart; rate, size, key frame flag, the places of the units and the bytes are those of the stream.
Missing: pictures whose size changes, the duration and the sync timestamp, see the counterexamples. -/
theorem C95_grains_partial (t : Grain) (v : CodedVideoHdr) (ht : t.body = .codedVideo v) (p : Picture) (ps : List Picture)
    (h : Stream Active.none (p :: ps)) (hc : Cropped p) (hs : ∀ q ∈ ps, SameSize p q) (h0 : 0 < rateOf t.rate p)
    (h1 : rateOf t.rate p ≤ 500000000) (limits : List Nat) :
    ∃ n, Nearest (rateOf t.rate p) t.origin n ∧
      h264Grains t (frames ((p :: ps).flatMap Picture.bytes) limits) =
        ((p :: ps).zipIdx.map (pictureGrain t v (rateOf t.rate p) n), true) := by
  refine ⟨_, nearest h0 t.origin, ?_⟩
  rw [C63_frames_partial _ h, grains_eq t v ht p ps hc h0 h1]
  refine Prod.ext (List.map_congr_left ?_) rfl
  intro x hx
  refine sized_same t v _ _ ?_
  have : x.1 ∈ p :: ps := List.fst_mem_of_mem_zipIdx hx
  rcases List.mem_cons.1 this with e | e
  · rw [e]; exact ⟨rfl, rfl, rfl, rfl⟩
  · exact hs _ e

/-- The grains are one after the other in time. -/
theorem C95_in_order (q : Rat) (h0 : 0 < q) (h1 : q ≤ 500000000) (t : Grain) (v : CodedVideoHdr) (n : Int) (ps : List Picture) :
    (ps.zipIdx.map (pictureGrain t v q n)).Pairwise (fun a b => a.origin < b.origin) := by
  rw [List.pairwise_map, List.pairwise_iff_getElem]
  intro i j hi hj hij
  simp only [List.getElem_zipIdx, pictureGrain]
  exact start_lt h0 h1 (by omega)

/-- **C95**, the file: the grains are read back from it, each with what the stream says of the picture. -/
theorem C95_file_partial (file : OutFile) (hsk : file.seekable = true) (encId : Bytes) (created : DateTime) (flowId : Bytes)
    (t : Grain) (v : CodedVideoHdr) (ht : t.body = .codedVideo v) (htl : t.timelabels = []) (p : Picture) (ps : List Picture)
    (h : Stream Active.none (p :: ps)) (hc : Cropped p) (hs : ∀ q ∈ ps, SameSize p q) (h0 : 0 < rateOf t.rate p)
    (h1 : rateOf t.rate p ≤ 500000000) (limits : List Nat)
    (hf : ∀ n, Nearest (rateOf t.rate p) t.origin n → (wrapped encId created flowId (ps.length + 1)
      ((p :: ps).zipIdx.map (pictureGrain t v (rateOf t.rate p) n))).Ok) :
    let made := h264Grains t (frames ((p :: ps).flatMap Picture.bytes) limits)
    let bytes := (wrapToGsf file encId created flowId made.1 made.2).file.bytes
    ∃ n r, Nearest (rateOf t.rate p) t.origin n ∧ decodeFile {} bytes = .ok r ∧ r.ending = .eof ∧
      r.view bytes = (p :: ps).zipIdx.map (fun x =>
        ({ metaOf t with
            origin := frameStart (rateOf t.rate p) (n + x.2), rate := rateOf t.rate p
            cogCodedFrame := some { v with
              originWidth := (infoOfPicture x.1).width.toNat, originHeight := (infoOfPicture x.1).height.toNat
              codedWidth := (infoOfPicture x.1).codedWidth, codedHeight := (infoOfPicture x.1).codedHeight
              isKeyFrame := some (infoOfPicture x.1).keyFrame, temporalOffset := none
              unitOffsets := some (positions 0 x.1.units) } },
          some x.1.bytes, 1)) := by
  obtain ⟨n, hn, hg⟩ := C95_grains_partial t v ht p ps h hc hs h0 h1 limits
  simp only [hg]
  have hlen : ((p :: ps).zipIdx.map (pictureGrain t v (rateOf t.rate p) n)).length = ps.length + 1 := by simp
  obtain ⟨r, e1, e2, -, e4⟩ := C52_read_back file hsk encId created flowId ((p :: ps).zipIdx.map (pictureGrain t v (rateOf t.rate p) n))
    (by rw [hlen]; exact_mod_cast hf n hn) (by
      intro g hg
      obtain ⟨x, -, rfl⟩ := List.mem_map.1 hg
      refine ⟨(by intro h; cases h), (by intro l hl; rw [show (pictureGrain t v (rateOf t.rate p) n x).timelabels = t.timelabels from rfl, htl] at hl; cases hl), ?_, ?_⟩
      · exact ⟨.inl rfl, (by intro _ h; cases h), (by intro h; injection h with h; exact positions_ne _ h)⟩
      · intro h
        injection h with h
        exact bytes_ne _ h)
  refine ⟨n, r, hn, e1, e2, ?_⟩
  rw [e4, List.map_map]
  refine List.map_congr_left ?_
  intro x _
  simp only [Function.comp, metaOf, pictureGrain, ht]
  rfl

/-- **C95**, any input at all, damaged or not, read in pieces of any size: if what the first frame says can be written, every frame found
becomes a grain; the file can be read, and the data of its grains is the input from its beginning on. If there is no exception nothing is
left of the input, unless there is no start code in it. -/
theorem C95_damaged (file : OutFile) (hsk : file.seekable = true) (encId : Bytes) (created : DateTime) (flowId : Bytes)
    (t : Grain) (v : CodedVideoHdr) (ht : t.body = .codedVideo v) (htl : t.timelabels = []) (htr : 0 < t.rate) (input : Bytes)
    (limits : List Nat)
    (hi : ∀ f i, (frames input limits).1.head? = some f → f.info = some i →
      0 ≤ i.width ∧ 0 ≤ i.height ∧ ∀ a b, i.frameRate = some (a, b) → 0 < a ∧ 0 < b)
    (hf : ∀ c : Int, c = -1 ∨ c = (frames input limits).1.length →
      (wrapped encId created flowId c (h264Grains t (frames input limits)).1).Ok) :
    let made := h264Grains t (frames input limits)
    let bytes := (wrapToGsf file encId created flowId made.1 made.2).file.bytes
    ∃ r rest, decodeFile {} bytes = .ok r ∧ r.ending = .eof ∧
      (r.view bytes).map (fun x => x.2.1) = (frames input limits).1.map (fun f => some f.data) ∧
      (r.view bytes).flatMap (fun x => x.2.1.getD []) ++ rest = input ∧
      (made.2 = true → rest = [] ∨ ∀ i, (input.drop i).take 3 ≠ [0, 0, 1]) := by
  obtain ⟨⟨rest, p1, p2⟩, p3, -, -⟩ := C40_partition input limits
  have hm := any_eq t v ht htr (frames input limits) hi
  generalize hfr : frames input limits = fr at *
  simp only
  obtain ⟨gs, hg1, hg2, hg3⟩ := hm
  have hpl : ∀ g ∈ gs, Plain 9 g := by
    intro g hg
    obtain ⟨f, hff, e1, e2, v', e3, e4, e5⟩ := hg3 g hg
    refine ⟨(by intro h; cases h), (by intro l hl; rw [e2, htl] at hl; cases hl), ?_, ?_⟩
    · rw [e3]
      exact ⟨.inl rfl, (by rw [e4]; intro _ h; cases h), e5⟩
    · rw [e1]
      intro h
      injection h with h
      obtain ⟨⟨i, hi1⟩, hi2⟩ := p3 f hff
      have := (hi2 i).1 hi1
      rw [h] at this
      simp at this
  have hlen : gs.length = fr.1.length := by
    have := congrArg List.length hg2
    simpa using this
  have key : ∃ r, decodeFile {} (wrapToGsf file encId created flowId gs (fr.2 == .done)).file.bytes = .ok r ∧ r.ending = .eof ∧
      r.view (wrapToGsf file encId created flowId gs (fr.2 == .done)).file.bytes = gs.map (fun g => (metaOf g, g.data, 1)) := by
    rw [hg1] at hf
    cases hd : (fr.2 == Ending.done) with
    | true =>
      obtain ⟨r, a, b, -, d⟩ := C52_read_back file hsk encId created flowId gs (hf _ (.inr (by rw [hlen]))) hpl
      exact ⟨r, a, b, d⟩
    | false => exact C52_stopped_read_back file hsk encId created flowId gs (hf _ (.inl rfl)) hpl
  rw [hg1]
  simp only
  obtain ⟨r, a, b, d⟩ := key
  have hdata : (r.view (wrapToGsf file encId created flowId gs (fr.2 == .done)).file.bytes).map (fun x => x.2.1) =
      fr.1.map (fun f => some f.data) := by
    rw [d, List.map_map, ← hg2]
    rfl
  refine ⟨r, rest, a, b, hdata, ?_, ?_⟩
  · rw [← p1]
    congr 1
    have e1 : ∀ (l : List (Meta × Option Bytes × Nat)), l.flatMap (fun x => x.2.1.getD []) = (l.map (fun x => x.2.1)).flatMap (fun o => o.getD []) := by
      intro l; rw [List.flatMap_map]
    rw [e1, hdata, List.flatMap_map]
    rfl
  · intro hd
    rcases p2 (by simpa using hd) with h | h
    · exact .inl h
    · exact .inr h.2

/-! ## What is missing -/

/-- **C95**: if the sequence parameters of the first picture cut off more than there is, so that a size is negative, nothing is written and the tool ends with
an exception, whatever follows. -/
theorem C95_refused (t : Grain) (input : Bytes) (limits : List Nat) (f : Wrap.H264.Frame) (i : Wrap.H264.Info)
    (hf : (frames input limits).1.head? = some f) (hi : f.info = some i) (hn : i.width < 0 ∨ i.height < 0) :
    h264Grains t (frames input limits) = ([], false) := by
  generalize frames input limits = x at hf ⊢
  obtain ⟨fs, e⟩ := x
  cases fs with
  | nil => cases hf
  | cons g fs =>
    cases hf
    unfold h264Grains
    cases hl : lookOf t with
    | none => rfl
    | some l =>
      simp only [Wrap.H264.grains, hi]
      split
      · rfl
      · rw [List.zipIdx_cons, List.map_cons]
        unfold codedGrains codedGrain
        cases t.body with
        | codedVideo v =>
          simp only
          rw [if_pos (show (grainOf t.origin (l.learn (some i)) (f, 0)).look.originWidth < 0 ∨
            (grainOf t.origin (l.learn (some i)) (f, 0)).look.originHeight < 0 from hn)]
        | _ => rfl

/-- The duration is that of the template, though the rate is that of the stream: if they fit in the template and the stream has another
rate, no grain lasts one frame. -/
theorem C95_duration_counterexample (t : Grain) (v : CodedVideoHdr) (ht : t.body = .codedVideo v) (hd : t.rate * t.duration = 1)
    (p : Picture) (ps : List Picture) (h : Stream Active.none (p :: ps)) (hc : Cropped p) (h0 : 0 < rateOf t.rate p)
    (h1 : rateOf t.rate p ≤ 500000000) (hr : rateOf t.rate p ≠ t.rate) (limits : List Nat) :
    ∀ g ∈ (h264Grains t (frames ((p :: ps).flatMap Picture.bytes) limits)).1, g.rate * g.duration ≠ 1 := by
  rw [C63_frames_partial _ h, grains_eq t v ht p ps hc h0 h1]
  intro g hg
  obtain ⟨x, -, rfl⟩ := List.mem_map.1 hg
  show rateOf t.rate p * t.duration ≠ 1
  intro e
  apply hr
  have hne : t.duration ≠ 0 := by intro h; rw [h, mul_zero] at hd; exact absurd hd (by decide)
  exact mul_right_cancel₀ hne (e.trans hd.symm)

/-- The sync timestamp is that of the template in every grain, so from the second one on it is not the origin timestamp. -/
theorem C95_sync_counterexample (t : Grain) (v : CodedVideoHdr) (ht : t.body = .codedVideo v)
    (p : Picture) (ps : List Picture) (h : Stream Active.none (p :: ps)) (hc : Cropped p) (h0 : 0 < rateOf t.rate p)
    (h1 : rateOf t.rate p ≤ 500000000) (limits : List Nat) :
    (∀ g ∈ (h264Grains t (frames ((p :: ps).flatMap Picture.bytes) limits)).1, g.sync = t.sync) ∧
    (h264Grains t (frames ((p :: ps).flatMap Picture.bytes) limits)).1.Pairwise (fun a b => a.origin < b.origin) := by
  rw [C63_frames_partial _ h, grains_eq t v ht p ps hc h0 h1]
  constructor
  · intro g hg
    obtain ⟨x, -, rfl⟩ := List.mem_map.1 hg
    rfl
  · have := C95_in_order (rateOf t.rate p) h0 h1 t v
      (Adts.toCount (rateOf t.rate p).num.toNat (rateOf t.rate p).den t.origin) (p :: ps)
    rw [List.pairwise_map] at this ⊢
    exact this

/-- The sizes of all grains are those of the first picture: the ones of a later picture with another size are wrong. -/
theorem C95_size_counterexample (t : Grain) (v : CodedVideoHdr) (ht : t.body = .codedVideo v)
    (p : Picture) (ps : List Picture) (h : Stream Active.none (p :: ps)) (hc : Cropped p) (h0 : 0 < rateOf t.rate p)
    (h1 : rateOf t.rate p ≤ 500000000) (limits : List Nat) :
    ∀ g ∈ (h264Grains t (frames ((p :: ps).flatMap Picture.bytes) limits)).1, ∃ w, g.body = .codedVideo w ∧
      (w.originWidth : Int) = (infoOfPicture p).width ∧ (w.originHeight : Int) = (infoOfPicture p).height ∧
      w.codedWidth = (infoOfPicture p).codedWidth ∧ w.codedHeight = (infoOfPicture p).codedHeight := by
  rw [C63_frames_partial _ h, grains_eq t v ht p ps hc h0 h1]
  intro g hg
  obtain ⟨x, -, rfl⟩ := List.mem_map.1 hg
  exact ⟨_, rfl, Int.toNat_of_nonneg hc.1, Int.toNat_of_nonneg hc.2, rfl, rfl⟩

/-! ## Examples -/

/-- A template for 50 frames a second. -/
def h264Template : Grain :=
  ⟨u 3, u 4, 1020000001, 1020000001, 50, (1 / 50 : Rat), [], .codedVideo ⟨0x0200, 1, 16, 16, 0, 0, none, none, none⟩, 0, none⟩

theorem h264Template_rate : rateOf h264Template.rate (h264Pictures.head (by decide)) = 50 := by decide +kernel

/-- Non-vacuity of the theorems for streams: the three pictures of C63. -/
example (limits : List Nat) : ∃ n, Nearest 50 1020000001 n ∧
    h264Grains h264Template (frames (h264Pictures.flatMap Picture.bytes) limits) =
      (h264Pictures.zipIdx.map (pictureGrain h264Template ⟨0x0200, 1, 16, 16, 0, 0, none, none, none⟩ 50 n), true) := by
  have h := C95_grains_partial h264Template _ rfl _ _ h264Pictures_stream (by decide +kernel)
    (by
      intro q hq
      simp only [List.mem_cons, List.not_mem_nil, or_false] at hq
      rcases hq with rfl | rfl <;> exact ⟨rfl, rfl, rfl, rfl⟩)
    (by decide +kernel) (by decide +kernel) limits
  rw [← show _ = (50 : Rat) from h264Template_rate]
  exact h

/-- The origin timestamps are those of frames 51, 52 and 53; the first picture is a key frame. -/
example : (h264Pictures.zipIdx.map (pictureGrain h264Template ⟨0x0200, 1, 16, 16, 0, 0, none, none, none⟩ 50 51)).map (fun g => g.origin) =
    [1020000000, 1040000000, 1060000000] ∧ Nearest 50 1020000001 51 := by decide +kernel

/-- All fields of these grains can be written. -/
example : ∀ n, Nearest 50 1020000001 n → (wrapped (u 9) ⟨2024, 2, 29, 23, 59, 59⟩ (u 5) 3
    (h264Pictures.zipIdx.map (pictureGrain h264Template ⟨0x0200, 1, 16, 16, 0, 0, none, none, none⟩ 50 n))).Ok := by
  intro n hn
  obtain ⟨h1, h2⟩ := hn
  have a1 : (n : Rat) < 52 := by push_cast at h1 h2; linarith
  have a2 : (50 : Rat) < n := by push_cast at h1 h2; linarith
  have b1 : n < 52 := by exact_mod_cast a1
  have b2 : 50 < n := by exact_mod_cast a2
  obtain rfl : n = 51 := by omega
  decide +kernel

/-- Non-vacuity of `C95_damaged`: a stream cut off in its third frame, of which the first frame is kept (`C40_truncated_counterexample`). -/
example (file : OutFile) (hsk : file.seekable = true) :
    let made := h264Grains h264Template (frames (h264Stream.take 44 ++ [65, 154]) [])
    let bytes := (wrapToGsf file (u 9) ⟨2024, 2, 29, 23, 59, 59⟩ (u 5) made.1 made.2).file.bytes
    ∃ r rest, decodeFile {} bytes = .ok r ∧ r.ending = .eof ∧
      (r.view bytes).map (fun x => x.2.1) = (frames (h264Stream.take 44 ++ [65, 154]) []).1.map (fun f => some f.data) ∧
      (r.view bytes).flatMap (fun x => x.2.1.getD []) ++ rest = h264Stream.take 44 ++ [65, 154] ∧
      (made.2 = true → rest = [] ∨ ∀ i, ((h264Stream.take 44 ++ [65, 154]).drop i).take 3 ≠ [0, 0, 1]) := by
  refine C95_damaged file hsk _ _ _ h264Template _ rfl rfl (by decide +kernel) _ _ ?_ ?_
  · rw [C40_truncated_counterexample]
    intro f i hf hi
    have hf' : h264Frames.head? = some f := hf
    injection hf' with hf'
    subst hf'
    injection hi with hi
    subst hi
    exact ⟨by decide, by decide, by intro a b h; cases h⟩
  · rw [C40_truncated_counterexample]
    intro c hc
    rcases hc with rfl | rfl <;> decide +kernel

/-- A template for 30 frames a second, from a stream that has 50. -/
example (limits : List Nat) : ∀ g ∈ (h264Grains { h264Template with rate := 30, duration := 1 / 30 } (frames (h264Pictures.flatMap Picture.bytes) limits)).1,
    g.rate * g.duration ≠ 1 :=
  C95_duration_counterexample _ _ rfl (by decide +kernel) _ _ h264Pictures_stream (by decide +kernel) (by decide +kernel) (by decide +kernel)
    (by decide +kernel) limits

/-- Smaller pictures. -/
def h264Small : H264Syntax.Sps := { h264Sps with widthMbsMinus1 := 59 }

/-- A picture and a smaller one. -/
def h264Resized : List Picture :=
  [h264Picture [h264Unit (.sps h264Sps) true [], h264Unit (.pps h264Plain) true []] h264Slice false [],
   ⟨h264Plain, h264Small, [h264Unit (.sps h264Small) true [], h264Unit (.pps h264Plain) true []], h264Slice, false,
    h264Pack (h264Slice.bits h264Plain h264Small) ++ [0, 0, 0, 0, 1], []⟩]

theorem h264Small_valid : h264Small.Valid :=
  ⟨h264Sps_valid.1, h264Sps_valid.2, h264Sps_valid.3, h264Sps_valid.4, h264Sps_valid.5, h264Sps_valid.6, h264Sps_valid.7,
    h264Sps_valid.8, h264Sps_valid.9⟩

theorem h264Resized_stream : Stream Active.none h264Resized := by
  have hs : h264Slice.Valid h264Plain h264Small :=
    ⟨h264Slice_plain.1, h264Slice_plain.2, h264Slice_plain.3, h264Slice_plain.4, h264Slice_plain.5, h264Slice_plain.6, h264Slice_plain.7,
      h264Slice_plain.8, h264Slice_plain.9, h264Slice_plain.10, h264Slice_plain.11⟩
  refine .cons ?_ trivial (.one ?_)
  · refine ⟨?_, ?_, rfl, rfl, ⟨h264Sps_valid, h264Sps_sound, rfl⟩, ⟨h264Slice_plain, .inr (.inr rfl)⟩, by intro u hu; cases hu⟩
    · intro u hu
      simp only [Picture.units, h264Picture, List.cons_append, List.nil_append, List.mem_cons, List.not_mem_nil, or_false] at hu
      rcases hu with rfl | rfl | rfl <;> exact h264Holds _ (by decide +kernel) (by decide +kernel)
    · intro u hu
      simp only [h264Picture, List.mem_cons, List.not_mem_nil, or_false] at hu
      rcases hu with rfl | rfl
      · exact h264Sps_valid
      · exact ⟨h264Plain_valid.1, h264Plain_valid.2, rfl⟩
  · refine ⟨?_, ?_, rfl, rfl, ⟨h264Small_valid, ⟨h264Sps_sound.1, h264Sps_sound.2⟩, rfl⟩, ⟨hs, .inr (.inr rfl)⟩, by intro u hu; cases hu⟩
    · intro u hu
      simp only [Picture.units, List.cons_append, List.nil_append, List.mem_cons, List.not_mem_nil, or_false] at hu
      rcases hu with rfl | rfl | rfl <;> exact h264Holds _ (by decide +kernel) (by decide +kernel)
    · intro u hu
      simp only [List.mem_cons, List.not_mem_nil, or_false] at hu
      rcases hu with rfl | rfl
      · exact h264Small_valid
      · exact ⟨h264Plain_valid.1, h264Plain_valid.2, rfl⟩

/-- The second picture is 960 wide, but its grain says 1920. -/
theorem C95_resized_counterexample (limits : List Nat) :
    h264Resized.map (fun p => (infoOfPicture p).width) = [1920, 960] ∧
    ∀ g ∈ (h264Grains h264Template (frames (h264Resized.flatMap Picture.bytes) limits)).1, ∃ w, g.body = .codedVideo w ∧
      (w.originWidth : Int) = 1920 := by
  refine ⟨by decide +kernel, ?_⟩
  intro g hg
  obtain ⟨w, h1, h2, -⟩ := C95_size_counterexample h264Template _ rfl _ _ h264Resized_stream (by decide +kernel) (by decide +kernel)
    (by decide +kernel) limits g hg
  exact ⟨w, h1, h2⟩

/-- Sequence parameters that cut off more than there is. -/
def h264Cut : H264Syntax.Sps := { h264Sps with crop := some ⟨0, 2000, 0, 2⟩ }

def h264CutPicture : Picture :=
  ⟨h264Plain, h264Cut, [h264Unit (.sps h264Cut) true [], h264Unit (.pps h264Plain) true []], h264Slice, false,
    h264Pack (h264Slice.bits h264Plain h264Cut) ++ [0, 0, 0, 0, 1], []⟩

theorem h264Cut_valid : h264Cut.Valid :=
  ⟨h264Sps_valid.1, h264Sps_valid.2, h264Sps_valid.3, h264Sps_valid.4, h264Sps_valid.5, h264Sps_valid.6, h264Sps_valid.7,
    h264Sps_valid.8, h264Sps_valid.9⟩

/-- The hypotheses of `C95_refused` are met: nothing is written. -/
example (limits : List Nat) : (infoOfPicture h264CutPicture).width = -2080 ∧
    h264Grains h264Template (frames h264CutPicture.bytes limits) = ([], false) := by
  have hs : h264Slice.Valid h264Plain h264Cut :=
    ⟨h264Slice_plain.1, h264Slice_plain.2, h264Slice_plain.3, h264Slice_plain.4, h264Slice_plain.5, h264Slice_plain.6, h264Slice_plain.7,
      h264Slice_plain.8, h264Slice_plain.9, h264Slice_plain.10, h264Slice_plain.11⟩
  have hst : Stream Active.none [h264CutPicture] := by
    refine .one ⟨?_, ?_, rfl, rfl, ⟨h264Cut_valid, ⟨h264Sps_sound.1, h264Sps_sound.2⟩, rfl⟩, ⟨hs, .inr (.inr rfl)⟩, by intro u hu; cases hu⟩
    · intro u hu
      simp only [Picture.units, h264CutPicture, List.cons_append, List.nil_append, List.mem_cons, List.not_mem_nil, or_false] at hu
      rcases hu with rfl | rfl | rfl <;> exact h264Holds _ (by decide +kernel) (by decide +kernel)
    · intro u hu
      simp only [h264CutPicture, List.mem_cons, List.not_mem_nil, or_false] at hu
      rcases hu with rfl | rfl
      · exact h264Cut_valid
      · exact ⟨h264Plain_valid.1, h264Plain_valid.2, rfl⟩
  have hw : (infoOfPicture h264CutPicture).width = -2080 := by decide +kernel
  have hfr := C63_frames_partial _ hst limits
  rw [List.flatMap_singleton] at hfr
  refine ⟨hw, C95_refused _ _ _ h264CutPicture.frame (infoOfPicture h264CutPicture) (by rw [hfr]; rfl) rfl (.inl ?_)⟩
  rw [hw]
  decide

end Verif.Props

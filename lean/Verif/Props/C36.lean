import Verif.IO.AsyncBytes

/-!
# C36: the in-memory asynchronous file behaves like a file
-/

namespace Verif.Props.MemFile

open Verif Verif.IO.Mem

/-! ## Specification: a file is an array of bytes and a position -/

structure RefFile where
  content : Bytes
  pos : Nat
deriving DecidableEq, Repr

/-- What is at a position. -/
def RefFile.peek (f : RefFile) (n : Nat) : Bytes := (f.content.drop f.pos).take n

/-- Writing at a position; a gap is filled with zeros, and writing nothing changes nothing. -/
def writeAt (c : Bytes) (p : Nat) (b : Bytes) : Bytes :=
  if b = [] then c else c.take p ++ zeros (p - c.length) ++ b ++ c.drop (p + b.length)

/-- The target of a seek. -/
def RefFile.target (f : RefFile) (o : Int) : Whence → Int
  | .set => o
  | .cur => f.pos + o
  | .fromEnd => f.content.length + o

/-- A file under the operations. A seek to a negative position is left out (see `Allowed`), as is the result of `seek`. -/
def RefFile.step (f : RefFile) : Op → RefFile × Obs
  | .read n =>
    if (f.peek n).length < n then ({ f with pos := f.pos + (f.peek n).length }, .eof)
    else ({ f with pos := f.pos + n }, .bytes (f.peek n))
  | .readall => ({ f with pos := max f.pos f.content.length }, .bytes (f.content.drop f.pos))
  | .readinto n =>
    ({ f with pos := f.pos + (f.peek n).length }, .into (f.peek n).length (f.peek n ++ zeros (n - (f.peek n).length)))
  | .write b => (⟨writeAt f.content f.pos b, f.pos + b.length⟩, .num b.length)
  | .truncate size =>
    let n := (size.getD f.pos).toNat
    ({ f with content := f.content.take n ++ zeros (n - f.content.length) }, .num n)
  | .tell => (f, .num f.pos)
  | .seek o w => ({ f with pos := (f.target o w).toNat }, .none)
  | .getvalue => (f, .bytes f.content)

def RefFile.run (f : RefFile) : List Op → List Obs
  | [] => []
  | o :: os => (f.step o).2 :: RefFile.run (f.step o).1 os

/-- The operations for which the property holds. `cut`: the file has been made shorter; `lost`: the position is
unknown since `readall`. Excluded are negative positions, truncation to more than the length, writing past the end of
a file that was made shorter, writing nothing past the end, and relying on the position after `readall`. -/
def OkOp (cut lost : Bool) (f : RefFile) : Op → Prop
  | .seek k w => 0 ≤ f.target k w ∧ (lost = true → w ≠ .cur)
  | .getvalue => True
  | .truncate size => (lost = true → size ≠ none) ∧ 0 ≤ size.getD f.pos ∧ (size.getD f.pos).toNat ≤ f.content.length
  | .write b => lost = false ∧ (f.pos ≤ f.content.length ∨ (cut = false ∧ b ≠ []))
  | _ => lost = false

def cutAfter (cut : Bool) (f : RefFile) : Op → Bool
  | .truncate size => cut || decide ((size.getD f.pos).toNat < f.content.length)
  | _ => cut

def lostAfter (lost : Bool) : Op → Bool
  | .readall => true
  | .seek _ _ => false
  | _ => lost

def Allowed (cut lost : Bool) (f : RefFile) : List Op → Prop
  | [] => True
  | o :: os => OkOp cut lost f o ∧ Allowed (cutAfter cut f o) (lostAfter lost o) (f.step o).1 os

/-! ## Simulation -/

/-- The code's fields represent the file. -/
structure Rel (cut lost : Bool) (s : BIO) (f : RefFile) : Prop where
  pos : lost = false → s.pos = f.pos
  len : s.len = f.content.length
  room : f.content.length ≤ s.buffer.length
  same : s.buffer.take f.content.length = f.content
  clean : cut = false → s.buffer.drop f.content.length = zeros (s.buffer.length - f.content.length)

theorem bound_nat (n k : Nat) : bound n (k : Int) = min k n := by
  unfold bound; rw [if_neg (by omega)]; rfl

theorem slice_nat (l : Bytes) (a b : Nat) (hb : b ≤ l.length) : slice l a b = (l.take b).drop (min a l.length) := by
  unfold slice
  rw [bound_nat, bound_nat, Nat.min_eq_left hb]

theorem setSlice_nat (l v : Bytes) (a b : Nat) (hab : a ≤ b) (hb : b ≤ l.length) :
    setSlice l a b v = l.take a ++ v ++ l.drop b := by
  unfold setSlice
  rw [bound_nat, bound_nat, Nat.min_eq_left hb, Nat.min_eq_left (by omega), Nat.max_eq_right hab]

theorem zeros_length (n : Nat) : (zeros n).length = n := by simp [zeros]

theorem peek_eq {cut lost s f} (h : Rel cut lost s f) (k : Nat) (hk : f.pos + k ≤ f.content.length) :
    slice s.buffer f.pos (f.pos + k : Int) = f.peek k := by
  have hroom := h.room
  have hc : ((f.pos : Int) + k) = ((f.pos + k : Nat) : Int) := by omega
  rw [hc, slice_nat _ _ _ (by omega), Nat.min_eq_left (by omega)]
  unfold RefFile.peek
  conv => rhs; rw [← h.same]
  rw [List.drop_take, List.drop_take, List.take_take]
  congr 1
  omega

/-- `readinto` gives what is at the position. -/
theorem readinto_eq {cut s f} (h : Rel cut false s f) (n : Nat) :
    s.readinto n = ({ s with pos := s.pos + (f.peek n).length }, ((f.peek n).length : Int), f.peek n ++ zeros (n - (f.peek n).length)) := by
  have hpos := h.pos rfl
  have hlen := h.len
  have hpl : (f.peek n).length = min n (f.content.length - f.pos) := by
    unfold RefFile.peek; rw [List.length_take, List.length_drop]
  unfold BIO.readinto
  simp only
  by_cases hg : min (s.len - s.pos) n > 0
  · rw [if_pos hg]
    have hk : min (s.len - s.pos) n = ((f.peek n).length : Int) := by rw [hpl, hpos, hlen]; omega
    rw [hk]
    have hpk : f.peek (f.peek n).length = f.peek n := by
      unfold RefFile.peek
      rw [List.length_take, ← List.take_take, List.take_of_length_le (l := List.drop _ _) (by omega)]
    have hsl : slice s.buffer s.pos (s.pos + ((f.peek n).length : Int)) = f.peek n := by
      rw [hpos]
      rw [peek_eq h _ (by rw [hpl]; omega), hpk]
    rw [hsl]
    have hle : (f.peek n).length ≤ n := by rw [hpl]; omega
    have := setSlice_nat (zeros n) (f.peek n) 0 (f.peek n).length (by omega) (by rw [zeros_length]; exact hle)
    simp only [Int.ofNat_eq_natCast, Int.natCast_zero] at this
    rw [this, List.take_zero, List.nil_append]
    congr 2
    simp [zeros]
  · rw [if_neg hg]
    have h0 : (f.peek n).length = 0 := by rw [hpl]; omega
    have hnil : f.peek n = [] := List.length_eq_zero_iff.1 h0
    rw [hnil]
    simp

/-- Writing gives the bytes of the file, at the right place. -/
theorem write_rel {cut s f} (h : Rel cut false s f) (b : Bytes)
    (hb : f.pos ≤ f.content.length ∨ (cut = false ∧ b ≠ [])) :
    (s.write b).2 = b.length ∧ Rel cut false (s.write b).1 ⟨writeAt f.content f.pos b, f.pos + b.length⟩ := by
  have hpos := h.pos rfl
  have hlen := h.len
  have hroom := h.room
  -- the buffer after it was made long enough
  obtain ⟨buf, hbuf, h1, h2, h3⟩ : ∃ buf : Bytes, (if s.pos + b.length > s.buffer.length then
        setSlice (zeros (max (s.pos + b.length) (2 * s.buffer.length)).toNat) 0 s.len (slice s.buffer 0 s.len)
      else s.buffer) = buf ∧ f.pos + b.length ≤ buf.length ∧ f.content.length ≤ buf.length ∧
      buf.take f.content.length = f.content ∧
      (cut = false → buf.drop f.content.length = zeros (buf.length - f.content.length)) := by
    refine ⟨_, rfl, ?_⟩
    by_cases hg : s.pos + b.length > s.buffer.length
    · rw [if_pos hg]
      have hN : f.content.length ≤ (max (s.pos + b.length) (2 * s.buffer.length)).toNat := by omega
      have e1 : slice s.buffer 0 s.len = f.content := by
        have := slice_nat s.buffer 0 f.content.length hroom
        rw [hlen]
        refine (this.trans ?_)
        rw [Nat.zero_min, List.drop_zero, h.same]
      have e2 := setSlice_nat (zeros (max (s.pos + b.length) (2 * s.buffer.length)).toNat) f.content 0 f.content.length (by omega)
        (by rw [zeros_length]; exact hN)
      have e3 : setSlice (zeros (max (s.pos + b.length) (2 * s.buffer.length)).toNat) 0 s.len (slice s.buffer 0 s.len) =
          f.content ++ zeros ((max (s.pos + b.length) (2 * s.buffer.length)).toNat - f.content.length) := by
        rw [e1, hlen]
        refine e2.trans ?_
        rw [List.take_zero, List.nil_append]
        congr 1
        simp [zeros]
      rw [e3]
      refine ⟨?_, ?_, ?_, fun _ => ?_⟩
      · rw [List.length_append, zeros_length]; omega
      · rw [List.length_append, zeros_length]; omega
      · rw [List.take_left]
      · rw [List.drop_left, List.length_append, zeros_length]
        congr 1
        omega
    · rw [if_neg hg]
      exact ⟨by omega, hroom, h.same, h.clean⟩
  obtain ⟨h2, h3, h4⟩ : f.content.length ≤ buf.length ∧ buf.take f.content.length = f.content ∧
      (cut = false → buf.drop f.content.length = zeros (buf.length - f.content.length)) := ⟨h2, h3.1, h3.2⟩
  have hw : s.write b = (⟨buf.take f.pos ++ b ++ buf.drop (f.pos + b.length), (f.pos + b.length : Nat),
      (max (f.pos + b.length) f.content.length : Nat)⟩, (b.length : Int)) := by
    unfold BIO.write
    rw [if_neg (by omega)]
    simp only
    rw [hbuf, hpos, hlen]
    have hc : ((f.pos : Int) + b.length) = ((f.pos + b.length : Nat) : Int) := by omega
    rw [hc, setSlice_nat _ _ _ _ (by omega) h1]
    congr 2
    omega
  rw [hw]
  refine ⟨rfl, ?_⟩
  -- the file afterwards
  have hcontent : writeAt f.content f.pos b = (buf.take f.pos ++ b ++ buf.drop (f.pos + b.length)).take
      (max (f.pos + b.length) f.content.length) := by
    have hfl : (buf.take f.pos ++ b ++ buf.drop (f.pos + b.length)).length = buf.length := by
      simp only [List.length_append, List.length_take, List.length_drop]; omega
    have hget : ∀ (i : Nat), i < f.content.length → buf[i]? = f.content[i]? := by
      intro i hi
      rw [← h3, List.getElem?_take, if_pos hi]
    have hzero : cut = false → ∀ (i : Nat), f.content.length ≤ i → i < buf.length → buf[i]? = some 0 := by
      intro hc i h5 h6
      have e := h4 hc
      have e' : (buf.drop f.content.length)[i - f.content.length]? = some 0 := by
        rw [e, zeros, List.getElem?_replicate, if_pos (by omega)]
      rw [List.getElem?_drop] at e'
      rw [← e']
      congr 1
      omega
    unfold writeAt
    by_cases hbn : b = []
    · rw [if_pos hbn]
      subst hbn
      rcases hb with hb | hb
      · simp only [List.append_nil, List.length_nil, Nat.add_zero, List.take_append_drop]
        rw [Nat.max_eq_right hb, h3]
      · exact absurd rfl hb.2
    · rw [if_neg hbn]
      have hbl : 0 < b.length := List.length_pos_iff.2 hbn
      refine List.ext_getElem? (fun i => ?_)
      simp only [List.getElem?_take, List.getElem?_append, List.length_append, List.length_take, zeros_length,
        List.getElem?_drop, zeros, List.getElem?_replicate, List.length_replicate]
      by_cases hp : f.pos ≤ f.content.length
      · have e1 : min f.pos f.content.length = f.pos := by omega
        have e2 : min f.pos buf.length = f.pos := by omega
        have e3 : f.pos - f.content.length = 0 := by omega
        rw [e1, e2, e3, Nat.add_zero]
        by_cases i1 : i < f.pos
        · simp only [i1, if_true, show i < f.pos + b.length by omega, show i < max (f.pos + b.length) f.content.length by omega]
          exact (hget i (by omega)).symm
        · by_cases i2 : i < f.pos + b.length
          · simp only [i1, i2, if_true, if_false, show i < max (f.pos + b.length) f.content.length by omega]
          · simp only [i1, i2, if_false]
            by_cases i3 : i < f.content.length
            · rw [if_pos (by omega)]
              have : f.pos + b.length + (i - (f.pos + b.length)) = i := by omega
              rw [this, hget i i3]
            · rw [if_neg (by omega)]
              exact List.getElem?_eq_none (by omega)
      · have hcut : cut = false := by rcases hb with hb | hb; exact absurd hb hp; exact hb.1
        have e1 : min f.pos f.content.length = f.content.length := by omega
        have e2 : min f.pos buf.length = f.pos := by omega
        have e3 : f.content.length + (f.pos - f.content.length) = f.pos := by omega
        rw [e1, e2, e3]
        by_cases i0 : i < f.content.length
        · simp only [i0, if_true, show i < f.pos by omega, show i < f.pos + b.length by omega,
            show i < max (f.pos + b.length) f.content.length by omega]
          exact (hget i i0).symm
        · by_cases i1 : i < f.pos
          · simp only [i0, i1, if_true, if_false, show i < f.pos + b.length by omega,
              show i < max (f.pos + b.length) f.content.length by omega,
              show i - f.content.length < f.pos - f.content.length by omega]
            exact (hzero hcut i (by omega) (by omega)).symm
          · by_cases i2 : i < f.pos + b.length
            · simp only [i1, i2, if_true, if_false, show i < max (f.pos + b.length) f.content.length by omega]
            · simp only [i1, i2, if_false]
              rw [if_neg (by omega)]
              exact List.getElem?_eq_none (by omega)
  have hlen' : (writeAt f.content f.pos b).length = max (f.pos + b.length) f.content.length := by
    rw [hcontent]
    simp only [List.length_append, List.length_take, List.length_drop]
    omega
  refine ⟨fun _ => rfl, ?_, ?_, ?_, fun hc => ?_⟩
  · simp only; rw [hlen']
  · simp only
    rw [hlen']
    simp only [List.length_append, List.length_take, List.length_drop]
    omega
  · simp only
    rw [hlen', ← hcontent]
  · simp only
    rw [hlen']
    refine List.ext_getElem? (fun i => ?_)
    have e := h4 hc
    have hz : ∀ (j : Nat), f.content.length ≤ j → j < buf.length → buf[j]? = some 0 := by
      intro j h5 h6
      have e' : (buf.drop f.content.length)[j - f.content.length]? = some 0 := by
        rw [e, zeros, List.getElem?_replicate, if_pos (by omega)]
      rw [List.getElem?_drop] at e'
      rw [← e']
      congr 1
      omega
    simp only [List.getElem?_drop, zeros, List.getElem?_replicate, List.length_append, List.length_take, List.length_drop,
      List.getElem?_append]
    have e2 : min f.pos buf.length = f.pos := by omega
    rw [e2]
    rw [if_neg (by omega)]
    by_cases hi : i < f.pos + b.length + (buf.length - (f.pos + b.length)) - max (f.pos + b.length) f.content.length
    · rw [if_pos hi]
      exact hz _ (by omega) (by omega)
    · rw [if_neg hi]
      exact List.getElem?_eq_none (by omega)

/-- One allowed operation: the same observation, and the code's fields still represent the file. -/
theorem step_rel {cut lost s f} (h : Rel cut lost s f) (o : Op) (os : List Op) (ha : Allowed cut lost f (o :: os)) :
    (s.step o).2 = (f.step o).2 ∧ ∃ cut' lost', Rel cut' lost' (s.step o).1 (f.step o).1 ∧ Allowed cut' lost' (f.step o).1 os := by
  rw [Allowed] at ha
  obtain ⟨ha, hrest⟩ := ha
  cases o with
  | read n =>
    simp only [OkOp] at ha
    simp only [cutAfter, lostAfter] at hrest
    subst ha
    have e := readinto_eq h n
    have hpl : (f.peek n).length = min n (f.content.length - f.pos) := by
      unfold RefFile.peek; rw [List.length_take, List.length_drop]
    have hpos := h.pos rfl
    unfold BIO.step RefFile.step at *
    simp only [e] at *
    by_cases hs : (f.peek n).length < n
    · rw [if_pos (by omega), if_pos hs] at *
      refine ⟨rfl, cut, false, ⟨fun _ => ?_, h.len, h.room, h.same, h.clean⟩, hrest⟩
      simp only; omega
    · rw [if_neg (by omega), if_neg hs] at *
      have hn : n - (f.peek n).length = 0 := by omega
      have hn' : (f.peek n).length = n := by omega
      refine ⟨?_, cut, false, ⟨fun _ => ?_, h.len, h.room, h.same, h.clean⟩, hrest⟩
      · simp only [hn, zeros, List.replicate_zero, List.append_nil]
      · simp only; omega
  | readall =>
    simp only [OkOp] at ha
    simp only [cutAfter, lostAfter] at hrest
    subst ha
    have hpos := h.pos rfl
    refine ⟨?_, cut, true, ⟨fun hl => (by cases hl), h.len, h.room, h.same, h.clean⟩, hrest⟩
    unfold BIO.step RefFile.step BIO.readall
    simp only
    congr 1
    by_cases hg : s.pos ≥ 0 ∧ s.pos < s.len
    · rw [if_pos hg, hpos, h.len]
      have hlen := h.len
      rw [slice_nat _ _ _ h.room, h.same, Nat.min_eq_left]
      have := h.room
      omega
    · rw [if_neg hg]
      have hlen := h.len
      rw [List.drop_of_length_le (by omega)]
  | readinto n =>
    simp only [OkOp] at ha
    simp only [cutAfter, lostAfter] at hrest
    subst ha
    have e := readinto_eq h n
    have hpos := h.pos rfl
    unfold BIO.step RefFile.step at *
    simp only [e] at *
    refine ⟨trivial, cut, false, ⟨fun _ => ?_, h.len, h.room, h.same, h.clean⟩, hrest⟩
    simp only; omega
  | write b =>
    simp only [OkOp] at ha
    simp only [cutAfter, lostAfter] at hrest
    obtain ⟨hl, hb⟩ := ha
    subst hl
    have e := write_rel h b hb
    refine ⟨?_, cut, false, e.2, hrest⟩
    unfold BIO.step RefFile.step
    simp only [e.1]
  | truncate size =>
    simp only [OkOp] at ha
    simp only [cutAfter, lostAfter] at hrest
    obtain ⟨h1, h2, h3⟩ := ha
    have hn : (s.truncate size).len = size.getD f.pos := by
      cases size with
      | some n => rfl
      | none =>
        cases lost with
        | true => exact absurd rfl (h1 rfl)
        | false =>
          have hpos := h.pos rfl
          show max s.pos 0 = (f.pos : Int)
          omega
    have hb : (s.truncate size).buffer = s.buffer ∧ (s.truncate size).pos = s.pos := by cases size <;> exact ⟨rfl, rfl⟩
    have hz : f.content.take (size.getD f.pos).toNat ++ zeros ((size.getD f.pos).toNat - f.content.length) =
        f.content.take (size.getD f.pos).toNat := by
      have : (size.getD f.pos).toNat - f.content.length = 0 := by omega
      rw [this]; simp [zeros]
    have hr := h.room
    have hl' : (f.content.take (size.getD f.pos).toNat).length = (size.getD f.pos).toNat := by
      rw [List.length_take]; omega
    refine ⟨?_, _, lost, ⟨?_, ?_, ?_, ?_, ?_⟩, hrest⟩
    · unfold BIO.step RefFile.step
      simp only
      rw [hn]
      congr 1
      omega
    · intro hl
      show (s.truncate size).pos = _
      rw [hb.2]; exact h.pos hl
    · show (s.truncate size).len = ((f.content.take (size.getD f.pos).toNat ++ zeros _).length : Int)
      rw [hz, hl', hn]
      omega
    · show (f.content.take (size.getD f.pos).toNat ++ zeros _).length ≤ (s.truncate size).buffer.length
      rw [hz, hl', hb.1]
      omega
    · show (s.truncate size).buffer.take (f.content.take (size.getD f.pos).toNat ++ zeros _).length =
        f.content.take (size.getD f.pos).toNat ++ zeros _
      rw [hz, hl', hb.1]
      conv => rhs; rw [← h.same, List.take_take]
      congr 1
      omega
    · intro hc
      simp only [Bool.or_eq_false_iff, decide_eq_false_iff_not] at hc
      show (s.truncate size).buffer.drop (f.content.take (size.getD f.pos).toNat ++ zeros _).length =
        zeros ((s.truncate size).buffer.length - (f.content.take (size.getD f.pos).toNat ++ zeros _).length)
      rw [hz, hl', hb.1]
      have : (size.getD f.pos).toNat = f.content.length := by omega
      rw [this]
      exact h.clean hc.1
  | tell =>
    simp only [OkOp] at ha
    simp only [cutAfter, lostAfter] at hrest
    subst ha
    refine ⟨?_, cut, false, h, hrest⟩
    unfold BIO.step RefFile.step
    simp only [h.pos rfl]
  | seek k w =>
    simp only [OkOp] at ha
    simp only [cutAfter, lostAfter] at hrest
    obtain ⟨h1, h2⟩ := ha
    refine ⟨rfl, cut, false, ?_, hrest⟩
    have hp : (s.seek k w).pos = f.target k w := by
      cases w with
      | set => rfl
      | cur =>
        cases lost with
        | true => exact absurd rfl (h2 rfl)
        | false => show s.pos + k = f.pos + k; rw [h.pos rfl]
      | fromEnd => show s.len + k = f.content.length + k; rw [h.len]
    have hb : (s.seek k w).buffer = s.buffer ∧ (s.seek k w).len = s.len := by cases w <;> exact ⟨rfl, rfl⟩
    refine ⟨fun _ => ?_, ?_, ?_, ?_, ?_⟩
    · show (s.seek k w).pos = ((f.target k w).toNat : Int)
      rw [hp]; omega
    · show (s.seek k w).len = _
      rw [hb.2]; exact h.len
    · show f.content.length ≤ (s.seek k w).buffer.length
      rw [hb.1]; exact h.room
    · show (s.seek k w).buffer.take f.content.length = f.content
      rw [hb.1]; exact h.same
    · show cut = false → (s.seek k w).buffer.drop f.content.length = zeros ((s.seek k w).buffer.length - f.content.length)
      rw [hb.1]; exact h.clean
  | getvalue =>
    refine ⟨?_, cut, lost, h, hrest⟩
    unfold BIO.step RefFile.step BIO.getvalue
    simp only
    congr 1
    rw [h.len]
    refine (slice_nat s.buffer 0 f.content.length h.room).trans ?_
    rw [Nat.zero_min, List.drop_zero, h.same]

theorem run_rel {cut lost s f} (h : Rel cut lost s f) (os : List Op) (ha : Allowed cut lost f os) : s.run os = f.run os := by
  induction os generalizing cut lost s f with
  | nil => rfl
  | cons o os ih =>
    obtain ⟨h1, cut', lost', h2, h3⟩ := step_rel h o os ha
    rw [BIO.run, RefFile.run, h1, ih h2 h3]

end Verif.Props.MemFile

namespace Verif.Props

open Verif Verif.IO.Mem MemFile

/-- **C36**, for all sequences in `Allowed`: whatever the initial bytes, every operation gives what it gives on a file.
Missing: the sequences that `Allowed` leaves out, on which the counterexamples below show a difference. -/
theorem C36_partial (b : Bytes) (os : List Op) (ha : Allowed false false ⟨b, 0⟩ os) :
    (BIO.new b).run os = (RefFile.mk b 0).run os := by
  refine run_rel (cut := false) (lost := false) ⟨fun _ => rfl, rfl, Nat.le_refl _, List.take_length, fun _ => ?_⟩ os ha
  simp [BIO.new, zeros]

/-- In particular any sequence of reads, writes of something, absolute seeks and position queries. -/
theorem C36_basic (b : Bytes) (os : List Op) (h : ∀ o ∈ os, (∃ n, o = .read n) ∨ (∃ n, o = .readinto n) ∨
      (∃ w, w ≠ [] ∧ o = .write w) ∨ (∃ n : Nat, o = .seek n .set) ∨ (∃ n : Nat, o = .seek n .cur) ∨
      (∃ n : Nat, o = .seek n .fromEnd) ∨ o = .tell ∨ o = .getvalue) :
    (BIO.new b).run os = (RefFile.mk b 0).run os := by
  refine C36_partial b os ?_
  have key : ∀ f : RefFile, Allowed false false f os := by
    induction os with
    | nil => intro f; trivial
    | cons o os ih =>
      intro f
      have ih := ih (fun o ho => h o (List.mem_cons_of_mem _ ho))
      rw [Allowed]
      rcases h o (List.mem_cons_self ..) with ⟨n, rfl⟩ | ⟨n, rfl⟩ | ⟨w, hw, rfl⟩ | ⟨n, rfl⟩ | ⟨n, rfl⟩ | ⟨n, rfl⟩ | rfl | rfl
      · exact ⟨rfl, ih _⟩
      · exact ⟨rfl, ih _⟩
      · exact ⟨⟨rfl, .inr ⟨rfl, hw⟩⟩, ih _⟩
      · refine ⟨⟨?_, fun hf => by cases hf⟩, ih _⟩
        show (0 : Int) ≤ n
        omega
      · refine ⟨⟨?_, fun hf => by cases hf⟩, ih _⟩
        show (0 : Int) ≤ f.pos + n
        omega
      · refine ⟨⟨?_, fun hf => by cases hf⟩, ih _⟩
        show (0 : Int) ≤ f.content.length + n
        omega
      · exact ⟨rfl, ih _⟩
      · exact ⟨trivial, ih _⟩
  exact key _

/-! ## Examples and counterexamples -/

/-- A history with a gap, an overwrite, a truncation and reads to the end, and what it shows. -/
def sampleOps : List Op :=
  [.seek 5 .set, .write [7, 8], .seek 1 .set, .write [1], .getvalue, .seek (-2) .fromEnd, .read 1, .read 3, .truncate (some 4),
    .getvalue, .seek 0 .set, .readall, .seek 0 .fromEnd, .write [9], .getvalue, .tell]

example : Allowed false false ⟨[3, 4], 0⟩ sampleOps := by
  simp [sampleOps, Allowed, OkOp, cutAfter, lostAfter, RefFile.step, RefFile.target, RefFile.peek, writeAt, zeros]

example : (BIO.new [3, 4]).run sampleOps =
    [.none, .num 2, .none, .num 1, .bytes [3, 1, 0, 0, 0, 7, 8], .none, .bytes [7], .eof, .num 4, .bytes [3, 1, 0, 0], .none,
      .bytes [3, 1, 0, 0], .none, .num 1, .bytes [3, 1, 0, 0, 9], .num 5] := by decide +kernel

/-- `readall` and `read(-1)` leave the position where it was. -/
theorem C36_readall_counterexample :
    (BIO.new [1, 2]).run [.readall, .readall] = [.bytes [1, 2], .bytes [1, 2]] ∧
      (RefFile.mk [1, 2] 0).run [.readall, .readall] = [.bytes [1, 2], .bytes []] := by decide +kernel

/-- Bytes that were cut off come back in a gap. -/
theorem C36_stale_counterexample :
    (BIO.new [1, 2, 3, 4]).run [.truncate (some 1), .seek 3 .set, .write [9], .getvalue] =
        [.num 1, .none, .num 1, .bytes [1, 2, 3, 9]] ∧
      (RefFile.mk [1, 2, 3, 4] 0).run [.truncate (some 1), .seek 3 .set, .write [9], .getvalue] =
        [.num 1, .none, .num 1, .bytes [1, 0, 0, 9]] := by decide +kernel

/-- Truncating to more than the length gives a length that the value does not have, and a read that is too short
without `EOFError`. -/
theorem C36_extend_counterexample :
    (BIO.new [1, 2]).run [.truncate (some 4), .getvalue, .read 4] = [.num 4, .bytes [1, 2], .bytes [1, 2]] ∧
      (RefFile.mk [1, 2] 0).run [.truncate (some 4), .getvalue, .read 4] =
        [.num 4, .bytes [1, 2, 0, 0], .bytes [1, 2, 0, 0]] := by decide +kernel

/-- A negative position is accepted, and a read there returns without the bytes that were asked for. -/
theorem C36_negative_counterexample :
    (BIO.new [1, 2, 3, 4]).run [.seek (-1) .set, .tell, .read 2, .write [5]] = [.none, .num (-1), .bytes [], .num 1] := by
  decide +kernel

/-- Writing nothing past the end makes the file longer. -/
theorem C36_empty_write_counterexample :
    (BIO.new []).run [.seek 2 .set, .write [], .getvalue] = [.none, .num 0, .bytes [0, 0]] ∧
      (RefFile.mk [] 0).run [.seek 2 .set, .write [], .getvalue] = [.none, .num 0, .bytes []] := by decide +kernel

end Verif.Props

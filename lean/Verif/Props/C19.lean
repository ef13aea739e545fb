import Verif.Grain.Lazy
import Verif.Gsf.Layout
import Verif.Props.C35
import Verif.Props.C30
import Verif.Props.Sample

/-!
# C19: the size of the data block
-/

namespace Verif.Props

open Verif Verif.Gsf Verif.Grain Verif.IO

/-- The data block of an encoded grain, found the way any reader of the format finds it: after the grain
header (ten bytes) and the metadata block, whose size is in its own header.  Gives the size the data block
declares and what follows its header. -/
def dataBlock (encoded : Bytes) : Option (Nat × Bytes) :=
  let off := 10 + uintOf ((encoded.drop 14).take 4)
  if (encoded.drop off).take 4 = tagBytes tGrdt then
    some (uintOf ((encoded.drop (off + 4)).take 4), encoded.drop (off + 8))
  else none

/-- The size of the whole grain block. -/
def declaredGrain (encoded : Bytes) : Nat := uintOf ((encoded.drop 4).take 4)

theorem gbhd_length (major : Nat) (g : Gsf.Grain) (h1 : g.sourceId.length = 16) (h2 : g.flowId.length = 16) :
    (encodeGbhd major g).length = gbhdSize major g := by
  have := encodeGbhd_length major { g with length := 0, data := none } ⟨h1, h2, rfl⟩
  exact this

/-- The data block declares `8 + grain.length` and contains `bytes(grain.data)`. -/
theorem encoded_data_block (major localId : Nat) (g : Gsf.Grain) (h1 : g.sourceId.length = 16)
    (h2 : g.flowId.length = 16) (h : graiSize major g < 2 ^ 32) :
    dataBlock (encodeGrain major localId g) = some (8 + g.length, g.data.getD []) := by
  unfold graiSize at h
  have e3 : (tagBytes tGrai).length = 4 := by decide
  have e4 : (tagBytes tGrdt).length = 4 := by decide
  have e5 : (tagBytes tGbhd).length = 4 := by decide
  have hgl := gbhd_length major g h1 h2
  have hg : ∃ rest, encodeGbhd major g = tagBytes tGbhd ++ (encodeUint (gbhdSize major g : Nat) 4 ++ rest) :=
    ⟨encodeGbhdFixed major g ++ (encodeTils g.timelabels ++ encodeBody g.body), by
      unfold encodeGbhd; simp only [List.append_assoc]⟩
  obtain ⟨rest, hg⟩ := hg
  have hoff : uintOf (((encodeGrain major localId g).drop 14).take 4) = gbhdSize major g := by
    have e : encodeGrain major localId g = (tagBytes tGrai ++ encodeUint (graiSize major g) 4 ++ encodeUint localId 2 ++
        tagBytes tGbhd) ++ (encodeUint (gbhdSize major g : Nat) 4 ++ (rest ++ encodeGrdt g)) := by
      unfold encodeGrain
      rw [hg]
      simp only [List.append_assoc]
    have hl : (tagBytes tGrai ++ encodeUint (graiSize major g) 4 ++ encodeUint localId 2 ++
        tagBytes tGbhd).length = 14 := by simp [e3, e5]
    rw [e, List.drop_left' hl, List.take_left' (encodeUint_length _ _), uintOf_encodeUint_nat _ _ (by omega)]
  have e : encodeGrain major localId g = (tagBytes tGrai ++ encodeUint (graiSize major g) 4 ++ encodeUint localId 2 ++
      encodeGbhd major g) ++ (tagBytes tGrdt ++ (encodeUint (8 + g.length : Nat) 4 ++ g.data.getD [])) := by
    unfold encodeGrain encodeGrdt
    simp only [List.append_assoc]
  have hl : (tagBytes tGrai ++ encodeUint (graiSize major g) 4 ++ encodeUint localId 2 ++
      encodeGbhd major g).length = 10 + gbhdSize major g := by simp [e3, hgl]; omega
  have hd0 : (encodeGrain major localId g).drop (10 + gbhdSize major g) =
      tagBytes tGrdt ++ (encodeUint (8 + g.length : Nat) 4 ++ g.data.getD []) := by
    rw [e, List.drop_left' hl]
  have hd4 : (encodeGrain major localId g).drop (10 + gbhdSize major g + 4) =
      encodeUint (8 + g.length : Nat) 4 ++ g.data.getD [] := by
    rw [← List.drop_drop, hd0, List.drop_left' e4]
  have hd8 : (encodeGrain major localId g).drop (10 + gbhdSize major g + 8) = g.data.getD [] := by
    rw [show 10 + gbhdSize major g + 8 = (10 + gbhdSize major g + 4) + 4 from rfl, ← List.drop_drop, hd4,
      List.drop_left' (encodeUint_length _ _)]
  simp only [dataBlock, hoff, hd0, hd4, hd8]
  rw [List.take_left' e4, if_pos rfl, List.take_left' (encodeUint_length _ _), uintOf_encodeUint_nat _ _ (by omega)]

/-- Data whose `len` is its number of bytes: all bytes, all objects with only `__bytes__`, an `IOBytes` with
its range inside its file (loaded or not), and other sized objects only if they count bytes. -/
def HonestLen (f : File) : DataVal → Prop
  | .bytes _ => True
  | .plain _ => True
  | .iob b => ObjOk f.content b ∧ (b.object = none → b.start + b.length ≤ f.content.length)
  | .sized n c => c.length = n

/-- The grain has nothing left to load: there is data, or there is no pending coroutine. -/
def Settled (l : Lazy) : Prop := l.data.isSome = true ∨ l.fetcher = none

theorem honest_len {f : File} {v : DataVal} (h : HonestLen f v) : (v.toBytes f).length = v.len := by
  cases v with
  | bytes bs => rfl
  | plain c => rfl
  | sized n c => exact h
  | iob b =>
    obtain ⟨h1, h2⟩ := h
    have hf := force_ok rfl h1
    rcases h1 with ⟨hn, _⟩ | ⟨hn, _⟩
    · rw [DataVal.toBytes, hf.1, DataVal.len, len_ok (content := f.content) (.inl ⟨hn, by assumption⟩) (h2 hn)]
    · rw [DataVal.toBytes, hf.1, DataVal.len, IOB.len, hn]

/-- **C19**, for grains that are settled and whose data has an honest `len` (and less than 4 GiB): the data
block contains exactly as many bytes as it declares, and the grain block too. -/
theorem C19_partial (major localId : Nat) (l : Lazy) (f : File) (meta_ : Gsf.Grain)
    (hid : meta_.sourceId.length = 16 ∧ meta_.flowId.length = 16) (hs : Settled l)
    (hv : ∀ v, l.data = some v → HonestLen f v)
    (hsize : graiSize major (l.forEncoder f meta_) < 2 ^ 32) :
    let out := encodeGrain major localId (l.forEncoder f meta_)
    (∃ payload, dataBlock out = some (8 + payload.length, payload) ∧
        payload = (l.data.map (DataVal.toBytes f)).getD []) ∧
      declaredGrain out = out.length := by
  intro out
  have hlen : ((l.forEncoder f meta_).data.getD []).length = (l.forEncoder f meta_).length := by
    simp only [Lazy.forEncoder, Lazy.length]
    cases hd : l.data with
    | some v => exact honest_len (hv v hd)
    | none =>
      rcases hs with hs | hs
      · rw [hd] at hs; cases hs
      · rw [hs]; rfl
  have hwf : (l.forEncoder f meta_).Wf := ⟨hid.1, hid.2, hlen⟩
  refine ⟨⟨(l.forEncoder f meta_).data.getD [], ?_, rfl⟩, ?_⟩
  · rw [hlen]
    exact encoded_data_block major localId _ hid.1 hid.2 hsize
  · have e : out = tagBytes tGrai ++ (encodeUint (graiSize major (l.forEncoder f meta_)) 4 ++ (encodeUint localId 2 ++
        (encodeGbhd major (l.forEncoder f meta_) ++ encodeGrdt (l.forEncoder f meta_)))) := by
      simp only [out, encodeGrain, List.append_assoc]
    have e2 : out.length = graiSize major (l.forEncoder f meta_) := encodeGrain_length major localId _ hwf
    rw [e2, declaredGrain, e]
    have e3 : (tagBytes tGrai).length = 4 := by decide
    rw [show (4 : Nat) = (tagBytes tGrai).length from e3.symm, List.drop_left, e3]
    have e4 := encodeUint_length (graiSize major (l.forEncoder f meta_) : Nat) 4
    rw [List.take_left' e4, uintOf_encodeUint_nat _ _ (by omega)]

/-- After any history that ends in an await that returned data, or in an assignment of data, a grain is
settled: the first hypothesis above is what every synchronous use of the library meets. -/
theorem settled_of_loaded (l : Lazy) (v : DataVal) (h : l.data = some v) : Settled l := .inl (by rw [h]; rfl)

theorem settled_after_assign (l : Lazy) (v : Option DataVal) : Settled (l.step (.assign v)).2 := .inr rfl

/-- A grain with an `IOBytes` in the middle of a file meets the hypotheses. -/
example : let f : File := ⟨[9, 9, 1, 2, 3], 0⟩
    let l : Lazy := { data := some (.iob ⟨2, 3, none, 0⟩), fetcher := none, coros := [] }
    Settled l ∧ (∀ v, l.data = some v → HonestLen f v) ∧ graiSize 8 (l.forEncoder f gVideo) < 2 ^ 32 ∧
      gVideo.sourceId.length = 16 ∧ gVideo.flowId.length = 16 ∧
      (encodeGrain 8 1 (l.forEncoder f gVideo)).drop ((encodeGrain 8 1 (l.forEncoder f gVideo)).length - 11) =
        [103, 114, 100, 116, 11, 0, 0, 0, 1, 2, 3] := by
  refine ⟨.inr rfl, ?_, by decide +kernel, by decide +kernel, by decide +kernel, by decide +kernel⟩
  intro v hv
  injection hv with hv
  subst hv
  exact ⟨.inl ⟨rfl, rfl⟩, fun _ => by decide⟩

/-- **C19 fails** for a grain with a pending load: it declares the declared length (5 here) and writes
nothing. -/
theorem C19_pending_counterexample :
    let l := (lazySample.run [.assignAwaitable 0, .setLength 5]).2
    dataBlock (encodeGrain 8 1 (l.forEncoder ⟨[], 0⟩ gEmpty)) = some (8 + 5, []) := by decide +kernel

/-- **C19 fails** for a grain read lazily from a truncated file: six bytes declared, two written. -/
theorem C19_truncated_counterexample :
    let f : File := ⟨[1, 2, 3], 0⟩
    let l := (lazySample.run [.assign (some (.iob ⟨1, 6, none, 0⟩))]).2
    dataBlock (encodeGrain 8 1 (l.forEncoder f gEmpty)) = some (8 + 6, [2, 3]) := by decide +kernel

/-- **C19 fails** for data that counts items wider than a byte, such as an array of two 16-bit samples: two
declared, four written. -/
theorem C19_items_counterexample :
    let l := (lazySample.run [.assign (some (.sized 2 [1, 0, 2, 0]))]).2
    dataBlock (encodeGrain 8 1 (l.forEncoder ⟨[], 0⟩ gEmpty)) = some (8 + 2, [1, 0, 2, 0]) := by decide +kernel

end Verif.Props

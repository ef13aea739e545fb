import Verif.Props.C86
import Verif.Props.C82Tail

/-!
# C86, damage of any kind
-/

namespace Verif.Props

open Verif Verif.Gsf Verif.Session

/-- **C86**: whatever has become of a file after its first `k` grains, an asynchronous loop that awaits each grain gets these grains, as they were,
before anything else. -/
theorem C86_tail (o : Opts) {f : FileSpec} (hf : f.Ok) (k : Nat) {file : Bytes} (h : f.bytes.take (grainsEnd f k) <+: file)
    (hev : ∀ y ∈ f.grains.take k, Awaitable o (y.2.toMeta f.major)) (n : Nat)
    (hn : n ≤ ((f.grains.take k).filter (fun y => !o.drops y.1)).length) :
    awaitFile false o file n = .ok ((((f.grains.take k).filter (fun y => !o.drops y.1)).map (o.viewOf f.major)).take n, .running) := by
  obtain ⟨r, h1, t, ht⟩ := C82_tail o hf k h
  generalize hl : ((f.grains.take k).filter (fun y => !o.drops y.1)).map (o.viewOf f.major) = l at ht ⊢
  have hlen : n ≤ l.length := by rw [← hl, List.length_map]; exact hn
  -- the items that give them
  have hsplit : (r.items.take l.length).map (Item.view file) = l := by
    rw [List.map_take]
    change (r.view file).take l.length = l
    rw [← ht, List.take_left' rfl]
  have hgood : ∀ it ∈ r.items.take l.length, it.refused = false := by
    intro it hit
    cases hd : o.defers with
    | false => exact C86.not_refused h1 (fun _ _ => .inr hd) it (List.mem_of_mem_take hit)
    | true =>
      have hv : it.view file ∈ l := by rw [← hsplit]; exact List.mem_map_of_mem hit
      rw [← hl] at hv
      obtain ⟨y, hy, e⟩ := List.mem_map.1 hv
      have ha := hev y (List.mem_filter.1 hy).1
      have hi : it.info = y.2.toMeta f.major := (congrArg Prod.fst e).symm
      rw [← hi] at ha
      rcases ha with ha | ha
      · unfold Item.refused
        split
        · simp [ha]
        · rfl
      · rw [hd] at ha; cases ha
  have hpre : l <+: (cutRun r).1.map (Item.view file) := by
    have : r.items.take l.length <+: (cutRun r).1 := by
      unfold cutRun
      conv => rhs; rw [← List.take_append_drop l.length r.items]
      dsimp only
      rw [List.takeWhile_append_of_pos (fun it hit => by rw [hgood it hit]; rfl)]
      exact List.prefix_append _ _
    rw [← hsplit]
    exact this.map _
  rw [C86_awaited, h1]
  simp only [Except.map, turns, Except.ok.injEq, Prod.mk.injEq]
  obtain ⟨u, hu⟩ := hpre
  rw [← hu]
  refine ⟨by rw [List.take_append_of_le_length hlen], ?_⟩
  rw [if_pos (by rw [List.length_append]; omega)]

/-- **C86**: a tag that is not text any more is reported: the loop gets the grains before it, and ends with `GSFDecodeError`. -/
theorem C86_tag (o : Opts) {f : FileSpec} (hf : f.Ok) (k : Nat) {tag rest : Bytes} (hl : tag.length = 4) (ht : decodeUtf8 tag = none)
    (hev : ∀ y ∈ f.grains.take k, Awaitable o (y.2.toMeta f.major)) (n : Nat) :
    awaitFile false o (f.bytes.take (grainsEnd f k) ++ (tag ++ rest)) n =
      .ok (turns n (((f.grains.take k).filter (fun y => !o.drops y.1)).map (o.viewOf f.major)) (.err .decode)) := by
  obtain ⟨r, h1, h2, h3⟩ := C82_tag o hf k (rest := rest) hl ht
  rw [C86_same o _ r h1 (by
    intro v hv
    rw [h3] at hv
    obtain ⟨y, hy, rfl⟩ := List.mem_map.1 hv
    exact hev y (List.mem_filter.1 hy).1), h2, h3]
  rfl

/-- **C86**: a head with another tag is refused. -/
theorem C86_head_tag (o : Opts) {f : FileSpec} (hf : f.Ok) {tag : Bytes} (hl : tag.length = 4)
    (hh : (decodeUtf8 tag).map cleanString ≠ some tHead) (hs : (decodeUtf8 tag).map cleanString ≠ some tSSBB) (n : Nat) :
    awaitFile false o (f.bytes.take 12 ++ (tag ++ f.bytes.drop 16)) n = .error .decode := by
  rw [C86_awaited, C82_head_tag o hf hl hh hs]
  rfl

/-- Two grains without an event before a tag that is no text, and what a loop sees of them; a head with another tag. -/
example : asyncSample.Ok ∧ (∀ y ∈ asyncSample.grains.take 2, Awaitable {} (y.2.toMeta asyncSample.major)) ∧
    decodeUtf8 [255, 0, 0, 0] = none ∧ (decodeUtf8 [104, 101, 97, 101]).map cleanString ≠ some tHead ∧
    (awaitFile false {} (asyncSample.bytes.take (grainsEnd asyncSample 2) ++ [255, 0, 0, 0, 9]) 5).toOption.map
      (fun r => (r.1.map (fun v => (v.2.1, v.2.2)), r.2)) =
      some ((asyncSample.grains.take 2).map (fun y => (y.2.payload, y.1)), .generator (.err .decode)) := by
  have : ∀ y ∈ asyncSample.grains.take 2, (y.2.toMeta asyncSample.major).grainType ≠ some .event := by decide +kernel
  exact ⟨by decide +kernel, fun y hy => .inl (this y hy), by decide +kernel, by decide +kernel, by decide +kernel⟩

end Verif.Props

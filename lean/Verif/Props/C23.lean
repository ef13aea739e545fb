import Verif.Gsf.Group
import Verif.Props.C09
import Mathlib.Data.List.Induction

/-!
# C23: `decode()` groups without loss or reordering
-/

namespace Verif.Props

open Verif Verif.Gsf

/-- Invariant of the grouping loop. -/
theorem groupItems_spec (items : List Item) :
    ((groupItems items).map Prod.fst).Nodup ∧
      ∀ key l, (key, l) ∈ groupItems items ↔ l = items.filter (fun it => it.localId == key) ∧ l ≠ [] := by
  unfold groupItems
  induction items using List.reverseRecOn with
  | nil => simp
  | append_singleton items it ih =>
    rw [List.foldl_append, List.foldl_cons, List.foldl_nil]
    generalize items.foldl groupStep [] = m at ih ⊢
    obtain ⟨hn, hm⟩ := ih
    have hkey : it.localId ∈ m.map Prod.fst ↔ items.filter (fun x => x.localId == it.localId) ≠ [] := by
      constructor
      · intro h
        obtain ⟨⟨k, l⟩, he, hk⟩ := List.mem_map.1 h
        simp only at hk
        subst hk
        have h2 := (hm _ l).1 he
        intro h3
        exact h2.2 (h2.1.trans h3)
      · intro h
        exact List.mem_map.2 ⟨(it.localId, _), (hm _ _).2 ⟨rfl, h⟩, rfl⟩
    have hfst : ∀ l : List (Nat × List Item),
        (l.map (fun e => if e.1 = it.localId then (e.1, e.2 ++ [it]) else e)).map Prod.fst = l.map Prod.fst := by
      intro l
      rw [List.map_map]
      apply List.map_congr_left
      intro e _
      simp only [Function.comp]
      split <;> rfl
    constructor
    · unfold groupStep
      simp only
      rw [hfst]
      split
      · exact hn
      · rename_i h
        rw [List.map_append]
        refine List.nodup_append.2 ⟨hn, by simp, ?_⟩
        intro a ha b hb
        simp only [List.map_cons, List.map_nil, List.mem_singleton] at hb
        subst hb
        exact fun e => h (e ▸ ha)
    · intro key l
      rw [List.filter_append]
      unfold groupStep
      simp only
      rw [List.mem_map]
      by_cases hk : key = it.localId
      · subst hk
        have e1 : [it].filter (fun x => x.localId == it.localId) = [it] := by simp
        rw [e1]
        constructor
        · rintro ⟨⟨k, l0⟩, h1, h2⟩
          split at h2
          · rename_i hk'
            simp only [Prod.mk.injEq] at h2 hk'
            obtain ⟨rfl, rfl⟩ := h2
            refine ⟨?_, by simp⟩
            split at h1
            · rw [← ((hm _ _).1 h1).1]
            · rename_i hno
              rcases List.mem_append.1 h1 with h1 | h1
              · exact absurd (List.mem_map.2 ⟨_, h1, rfl⟩) hno
              · simp only [List.mem_singleton, Prod.mk.injEq] at h1
                rw [hkey] at hno
                simp only [ne_eq, Decidable.not_not] at hno
                rw [hno, h1.2]
          · rename_i hk'
            simp only [Prod.mk.injEq] at h2
            exact absurd h2.1 hk'
        · rintro ⟨rfl, -⟩
          refine ⟨(it.localId, items.filter (fun x => x.localId == it.localId)), ?_, by simp⟩
          split
          · rename_i h
            exact (hm _ _).2 ⟨rfl, hkey.1 h⟩
          · rename_i h
            rw [hkey] at h
            simp only [ne_eq, Decidable.not_not] at h
            rw [h]; simp
      · have e1 : [it].filter (fun x => x.localId == key) = [] := by
          simp; exact fun e => hk e.symm
        rw [e1, List.append_nil]
        constructor
        · rintro ⟨⟨k, l0⟩, h1, h2⟩
          split at h2
          · rename_i hk'
            simp only [Prod.mk.injEq] at h2 hk'
            exact absurd (h2.1.symm.trans hk') hk
          · simp only [Prod.mk.injEq] at h2
            obtain ⟨rfl, rfl⟩ := h2
            split at h1
            · exact (hm _ _).1 h1
            · rcases List.mem_append.1 h1 with h1 | h1
              · exact (hm _ _).1 h1
              · simp only [List.mem_singleton, Prod.mk.injEq] at h1
                exact absurd h1.1 hk
        · intro h
          have h1 := (hm key l).2 h
          refine ⟨(key, l), ?_, by simp [hk]⟩
          split
          · exact h1
          · exact List.mem_append_left _ h1

/-- The concatenation of all groups contains every grain as often as the stream does. -/
theorem groupItems_perm (items : List Item) : (((groupItems items).map Prod.snd).flatten).Perm items := by
  unfold groupItems
  induction items using List.reverseRecOn with
  | nil => simp
  | append_singleton items it ih =>
    have hn := (groupItems_spec items).1
    unfold groupItems at hn
    rw [List.foldl_append, List.foldl_cons, List.foldl_nil]
    generalize items.foldl groupStep [] = m at ih hn ⊢
    have key : ∀ l : List (Nat × List Item), (l.map Prod.fst).Nodup → it.localId ∈ l.map Prod.fst →
        (((l.map (fun e => if e.1 = it.localId then (e.1, e.2 ++ [it]) else e)).map Prod.snd).flatten).Perm
          ((l.map Prod.snd).flatten ++ [it]) := by
      intro l
      induction l with
      | nil => intro _ h; simp at h
      | cons e l ihl =>
        intro hnd hmem
        rw [List.map_cons, List.nodup_cons] at hnd
        simp only [List.map_cons, List.flatten_cons]
        by_cases he : e.1 = it.localId
        · rw [if_pos he]
          have : l.map (fun e => if e.1 = it.localId then (e.1, e.2 ++ [it]) else e) = l := by
            conv => rhs; rw [← List.map_id l]
            apply List.map_congr_left
            intro x hx
            rw [if_neg]
            · rfl
            · intro hxe
              exact hnd.1 (he ▸ hxe ▸ List.mem_map.2 ⟨x, hx, rfl⟩)
          rw [this]
          simp only [List.append_assoc]
          exact List.Perm.append_left _ List.perm_append_comm
        · rw [if_neg he]
          have hmem' : it.localId ∈ l.map Prod.fst := by
            rw [List.map_cons, List.mem_cons] at hmem
            rcases hmem with h | h
            · exact absurd h.symm he
            · exact h
          rw [List.append_assoc]
          exact List.Perm.append_left _ (ihl hnd.2 hmem')
    unfold groupStep
    simp only
    by_cases h : it.localId ∈ m.map Prod.fst
    · rw [if_pos h]
      exact (key m hn h).trans (ih.append_right _)
    · rw [if_neg h]
      have h2 := key (m ++ [(it.localId, [])]) (by
        rw [List.map_append]
        refine List.nodup_append.2 ⟨hn, by simp, ?_⟩
        intro a ha b hb
        simp only [List.map_cons, List.map_nil, List.mem_singleton] at hb
        subst hb
        exact fun e => h (e ▸ ha)) (by simp)
      refine h2.trans ?_
      simp only [List.map_append, List.flatten_append, List.map_cons, List.map_nil, List.flatten_cons,
        List.flatten_nil, List.append_nil]
      exact ih.append_right _

theorem get_of_mem {m : Groups} {key : Nat} {l : List Item} (hn : (m.map Prod.fst).Nodup) (h : (key, l) ∈ m) :
    m.get key = some l := by
  unfold Groups.get
  induction m with
  | nil => simp at h
  | cons e m ih =>
    rw [List.map_cons, List.nodup_cons] at hn
    rcases List.mem_cons.1 h with rfl | h
    · simp
    · have : ¬ e.1 = key := fun he => hn.1 (he ▸ List.mem_map.2 ⟨_, h, rfl⟩)
      rw [List.find?_cons_of_neg (by simpa using this)]
      exact ih hn.2 h

/-- **C23.** `decode()` succeeds exactly if reading all grains of the file ends without an exception;
the dictionary then has one entry per local id that occurs, holding the subsequence of grains with that id
in file order; nothing else is in it, and altogether it holds every grain exactly once. -/
theorem C23_decode_groups (concat : Bool) (file : Bytes) :
    match decodeFile { mode := .loadImmediately, concat := concat } file with
    | .error e => decodeAll concat file = .error e
    | .ok r =>
      match r.ending with
      | .err e => decodeAll concat file = .error e
      | _ => ∃ m, decodeAll concat file = .ok (r.hdr, m) ∧
        (∀ key, m.get key = if r.items.filter (fun it => it.localId == key) = [] then none
            else some (r.items.filter (fun it => it.localId == key))) ∧
        (m.map Prod.fst).Nodup ∧ (∀ e ∈ m, e.2 ≠ []) ∧ ((m.map Prod.snd).flatten).Perm r.items := by
  unfold decodeAll
  cases hd : decodeFile { mode := .loadImmediately, concat := concat } file with
  | error e => rfl
  | ok r =>
    obtain ⟨hn, hm⟩ := groupItems_spec r.items
    have key : (∀ key, (groupItems r.items).get key = if r.items.filter (fun it => it.localId == key) = [] then none
            else some (r.items.filter (fun it => it.localId == key))) := by
      intro key
      split
      · rename_i h
        unfold Groups.get
        cases hf : (groupItems r.items).find? (fun e => e.1 == key) with
        | none => rfl
        | some e =>
          have h1 := List.mem_of_find?_eq_some hf
          have h2 := List.find?_some hf
          have : e.1 = key := by simpa using h2
          subst this
          have := (hm e.1 e.2).1 h1
          exact absurd (this.1.trans h) this.2
      · rename_i h
        exact get_of_mem hn ((hm _ _).2 ⟨rfl, h⟩)
    simp only
    cases hr : r.ending with
    | err e => rfl
    | eof => exact ⟨_, rfl, key, hn, fun e he => ((hm e.1 e.2).1 he).2, groupItems_perm _⟩
    | break_ => exact ⟨_, rfl, key, hn, fun e he => ((hm e.1 e.2).1 he).2, groupItems_perm _⟩

/-- For a written file: the grains added for each id, with their metadata and data, in order. -/
theorem C23_written (concat : Bool) (f : FileSpec) (hf : f.Ok) :
    ∃ m, decodeAll concat f.bytes = .ok (hdrOf f, m) ∧ ∀ key,
      ((m.get key).getD []).map (fun it => (it.info, it.data.load f.bytes)) =
        (f.grains.filter (fun x => x.1 == key)).map (fun x => (x.2.toMeta f.major, x.2.payload)) := by
  have h := C23_decode_groups concat f.bytes
  obtain ⟨r, h1, h2, h3, h4⟩ : ∃ r, decodeFile { mode := .loadImmediately, concat := concat } f.bytes = .ok r ∧
      r.hdr = hdrOf f ∧ (∀ e, r.ending ≠ .err e) ∧
      r.view f.bytes = f.grains.map (fun x => (x.2.toMeta f.major, x.2.payload, x.1)) := by
    cases concat with
    | true =>
      obtain ⟨r, h1, h2, h3, h4⟩ := decodeFile_concat (o := { mode := .loadImmediately }) rfl hf (decoFile_self hf)
        (fs := []) (by simp)
      simp only [List.flatMap_nil, List.append_nil, List.foldl_nil, List.flatMap_cons] at h1 h2 h3
      refine ⟨r, h1, h3, by simp [h4], ?_⟩
      rw [h2, List.filter_eq_self.2 (show ∀ a ∈ f.grains, (!Opts.drops { mode := .loadImmediately } a.1) = true from
        fun _ _ => rfl)]
      rfl
    | false =>
      obtain ⟨r, h1, h2, h3, h4⟩ := decodeFile_single (o := { mode := .loadImmediately, concat := false }) rfl hf
        (decoFile_self hf) []
      rw [List.append_nil] at h1 h2
      refine ⟨r, h1, h3, by simp [h4], ?_⟩
      rw [h2, List.filter_eq_self.2 (show ∀ a ∈ f.grains,
        (!Opts.drops { mode := .loadImmediately, concat := false } a.1) = true from fun _ _ => rfl)]
      rfl
  rw [h1] at h
  simp only at h
  have hm : ∃ m, decodeAll concat f.bytes = .ok (r.hdr, m) ∧
        (∀ key, m.get key = if r.items.filter (fun it => it.localId == key) = [] then none
            else some (r.items.filter (fun it => it.localId == key))) := by
    cases hr : r.ending with
    | err e => exact absurd hr (h3 e)
    | eof => obtain ⟨m, a, b, -⟩ := h; exact ⟨m, a, b⟩
    | break_ => obtain ⟨m, a, b, -⟩ := h; exact ⟨m, a, b⟩
  obtain ⟨m, hm1, hm2⟩ := hm
  refine ⟨m, by rw [hm1, h2], ?_⟩
  intro key
  have e : (m.get key).getD [] = r.items.filter (fun it => it.localId == key) := by
    rw [hm2]; split
    · rename_i h; rw [h]; rfl
    · rfl
  rw [e]
  have h5 := congrArg (fun l => (l.filter (fun y : Meta × Option Bytes × Nat => y.2.2 == key)).map
    (fun y => (y.1, y.2.1))) h4
  simp only [Run.view, List.filter_map, List.map_map] at h5
  exact h5

example : sample.Ok := sample_ok

end Verif.Props

import Verif.Grain.EventLive
import Verif.Props.C33

/-!
# C90: copies of event grains and the items they show

`copy.copy` of an event grain gives a grain that shows the same payload for ever, `copy.deepcopy` gives one whose payload nothing done to the
other grains changes. Both write the payload to JSON and read it again, in the original too if the copy is shallow, so they are
equal to the original only if all items have a path and no keys of their own.
-/

namespace Verif.Props

open Verif Verif.Json Verif.Event Verif.EventLive

/-! ## Specification -/

/-- What a reader of the program knows: which grains are copies of each other by `copy.copy` (they belong to one family), and of which family's
items the `DATA` objects are. -/
structure Kin where
  grains : List Nat
  views : List Nat

/-- A step adds a grain or a `DATA` object, or none. Grains made by `EventGrain` or `copy.deepcopy` begin a new family. -/
def Kin.next (k : Kin) (w w' : World) : Op → Kin
  | .make _ => { k with grains := k.grains ++ [k.grains.length] }
  | .copy g => if w.grains.length < w'.grains.length then { k with grains := k.grains ++ [(k.grains[g]?).getD 0] } else k
  | .deepcopy _ => if w.grains.length < w'.grains.length then { k with grains := k.grains ++ [k.grains.length] } else k
  | .view g _ => if w.views.length < w'.views.length then { k with views := k.views ++ [(k.grains[g]?).getD 0] } else k
  | _ => k

/-- The family whose payload a step writes to: that of the grain it is done to, or that of the item. `copy.deepcopy` and reading `event_data`
write to none. -/
def Kin.written (k : Kin) : Op → Option Nat
  | .make _ => none
  | .deepcopy _ => none
  | .view _ _ => none
  | .copy g => k.grains[g]?
  | .setType g _ => k.grains[g]?
  | .setTopic g _ => k.grains[g]?
  | .setData g _ => k.grains[g]?
  | .setItems g _ => k.grains[g]?
  | .append g _ _ _ => k.grains[g]?
  | .setItem v _ _ => k.views[v]?
  | .delItem v _ => k.views[v]?
  | .setPre v _ => k.views[v]?
  | .setPost v _ => k.views[v]?

/-- A program goes on. -/
def goOn : World × Kin → List Op → World × Kin
  | s, [] => s
  | (w, k), o :: os => goOn ((step w o).1, k.next w (step w o).1 o) os

/-- After a program that begins with nothing. -/
def eventsAfter (os : List Op) : World × Kin := goOn (empty, ⟨[], []⟩) os

/-- No step of the program is one of these. -/
def Never (P : Kin → Op → Prop) : World × Kin → List Op → Prop
  | _, [] => True
  | (w, k), o :: os => ¬ P k o ∧ Never P ((step w o).1, k.next w (step w o).1 o) os

/-- The steps that give the payload of a family a new list of items. -/
def Replaces (f : Nat) (k : Kin) : Op → Prop
  | .copy g => k.grains[g]? = some f
  | .setData g _ => k.grains[g]? = some f
  | .setItems g _ => k.grains[g]? = some f
  | _ => False

namespace C90L

/-! ## Addresses -/

/-- The numbers of the items of a payload dictionary. -/
def itemsOf (w : World) (a : Nat) : List Nat := ((w.dicts[a]?).map (fun d => (w.lists[d.items]?).getD [])).getD []

/-- What is in the payload dictionary number `a`. -/
def payloadAt (w : World) (a : Nat) : Option Payload := (w.dicts[a]?).map w.payload

theorem show_eq {w : World} {g a : Nat} (h : w.grains[g]? = some a) : w.show g = payloadAt w a := by
  simp [World.show, World.dictOf, payloadAt, h]

theorem show_none {w : World} {g : Nat} (h : w.grains[g]? = none) : w.show g = none := by
  simp [World.show, World.dictOf, h]

theorem itemsOf_some {w : World} {a : Nat} {d : Dict} (h : w.dicts[a]? = some d) : itemsOf w a = (w.lists[d.items]?).getD [] := by
  simp [itemsOf, h]

theorem itemsOf_none {w : World} {a : Nat} (h : w.dicts[a]? = none) : itemsOf w a = [] := by
  simp [itemsOf, h]

theorem payloadAt_some {w : World} {a : Nat} {d : Dict} (h : w.dicts[a]? = some d) :
    payloadAt w a = some ⟨d.type, d.topic, (itemsOf w a).map w.item⟩ := by
  rw [itemsOf_some h]
  simp [payloadAt, h, World.payload]

structure Ok (w : World) : Prop where
  grain : ∀ g a : Nat, w.grains[g]? = some a → a < w.dicts.length
  list : ∀ (a : Nat) (d : Dict), w.dicts[a]? = some d → d.items < w.lists.length
  item : ∀ (l : Nat) (xs : List Nat), w.lists[l]? = some xs → ∀ x ∈ xs, x < w.items.length
  view : ∀ v x : Nat, w.views[v]? = some x → x < w.items.length
  own : ∀ (a b : Nat) (d e : Dict), w.dicts[a]? = some d → w.dicts[b]? = some e → d.items = e.items → a = b
  apart : ∀ (l m : Nat) (xs ys : List Nat) (x : Nat), w.lists[l]? = some xs → w.lists[m]? = some ys → x ∈ xs → x ∈ ys → l = m
  once : ∀ (l : Nat) (xs : List Nat), w.lists[l]? = some xs → xs.Nodup

theorem Ok.bound {w : World} (h : Ok w) {a x : Nat} (hx : x ∈ itemsOf w a) : x < w.items.length := by
  cases hd : w.dicts[a]? with
  | none => rw [itemsOf_none hd] at hx; cases hx
  | some d =>
    rw [itemsOf_some hd] at hx
    cases hl : w.lists[d.items]? with
    | none => rw [hl] at hx; cases hx
    | some xs => rw [hl] at hx; exact h.item _ _ hl x hx

theorem Ok.sole {w : World} (h : Ok w) {a b x : Nat} (hx : x ∈ itemsOf w a) (hy : x ∈ itemsOf w b) : a = b := by
  cases hd : w.dicts[a]? with
  | none => rw [itemsOf_none hd] at hx; cases hx
  | some d =>
    cases he : w.dicts[b]? with
    | none => rw [itemsOf_none he] at hy; cases hy
    | some e =>
      rw [itemsOf_some hd] at hx
      rw [itemsOf_some he] at hy
      cases hl : w.lists[d.items]? with
      | none => rw [hl] at hx; cases hx
      | some xs =>
        cases hm : w.lists[e.items]? with
        | none => rw [hm] at hy; cases hy
        | some ys =>
          rw [hl] at hx
          rw [hm] at hy
          exact h.own a b d e hd he (h.apart _ _ _ _ x hl hm hx hy)

/-! ## Changes to one payload dictionary -/

/-- Only the payload dictionary number `a` is changed; new objects may have been made. -/
structure Chg (a : Nat) (w w' : World) : Prop where
  grains : w'.grains = w.grains
  views : w'.views = w.views
  size : w.dicts.length ≤ w'.dicts.length
  other : ∀ b, b ≠ a → b < w.dicts.length → w'.dicts[b]? = w.dicts[b]? ∧ itemsOf w' b = itemsOf w b
  more : w.items.length ≤ w'.items.length
  old : ∀ x, x < w.items.length → w'.item x = w.item x
  here : ∀ b x, x ∈ itemsOf w' b → x < w.items.length → x ∈ itemsOf w b

theorem Chg.refl (a : Nat) (w : World) : Chg a w w :=
  ⟨rfl, rfl, Nat.le_refl _, fun _ _ _ => ⟨rfl, rfl⟩, Nat.le_refl _, fun _ _ => rfl, fun _ _ h _ => h⟩

theorem Chg.trans {a : Nat} {w w1 w2 : World} (h : Chg a w w1) (k : Chg a w1 w2) : Chg a w w2 where
  grains := k.grains.trans h.grains
  views := k.views.trans h.views
  size := Nat.le_trans h.size k.size
  other b hb hl :=
    ⟨(k.other b hb (Nat.lt_of_lt_of_le hl h.size)).1.trans (h.other b hb hl).1,
      (k.other b hb (Nat.lt_of_lt_of_le hl h.size)).2.trans (h.other b hb hl).2⟩
  more := Nat.le_trans h.more k.more
  old x hx := (k.old x (Nat.lt_of_lt_of_le hx h.more)).trans (h.old x hx)
  here b x hx hl := h.here b x (k.here b x hx (Nat.lt_of_lt_of_le hl h.more)) hl

theorem Chg.payload {a : Nat} {w w' : World} (h : Chg a w w') (hok : Ok w) {b : Nat} (hb : b ≠ a) (hl : b < w.dicts.length) :
    payloadAt w' b = payloadAt w b := by
  obtain ⟨h1, h2⟩ := h.other b hb hl
  have hd : w.dicts[b]? = some w.dicts[b] := List.getElem?_eq_getElem hl
  rw [payloadAt_some hd, payloadAt_some (h1.trans hd), h2]
  congr 2
  exact List.map_congr_left (fun x hx => h.old x (hok.bound hx))

/-! ## The elementary changes -/

theorem lists_push {w : World} {l : Nat} {xs : List Nat} (h : (w.lists ++ [[]])[l]? = some xs) :
    w.lists[l]? = some xs ∨ (l = w.lists.length ∧ xs = []) := by
  by_cases hl : l < w.lists.length
  · rw [List.getElem?_append_left hl] at h; exact .inl h
  · have hlt := (List.getElem?_eq_some_iff.mp h).1
    have : l = w.lists.length := by simp at hlt; omega
    subst this
    rw [List.getElem?_concat_length] at h
    cases h
    exact .inr ⟨rfl, rfl⟩

theorem relist_ok {w : World} (h : Ok w) (a : Nat) (t o : J) : Ok (w.relist a t o) where
  grain g b hb := by
    have := h.grain g b hb
    simpa [World.relist] using this
  list b d hd := by
    simp only [World.relist, List.length_append, List.length_singleton] at hd ⊢
    rw [List.getElem?_set] at hd
    split at hd
    · split at hd
      · cases hd; simp
      · cases hd
    · have := h.list b d hd; omega
  item l xs hl x hx := by
    rcases lists_push hl with hl | ⟨_, rfl⟩
    · exact h.item l xs hl x hx
    · cases hx
  view := h.view
  own b c d e hd he hde := by
    simp only [World.relist] at hd he
    rw [List.getElem?_set] at hd he
    split at hd <;> split at he
    · omega
    · split at hd
      · cases hd
        have := h.list c e he
        simp at hde; omega
      · cases hd
    · split at he
      · cases he
        have := h.list b d hd
        simp at hde; omega
      · cases he
    · exact h.own b c d e hd he hde
  apart l m xs ys x hl hm hx hy := by
    rcases lists_push hl with hl | ⟨_, rfl⟩
    · rcases lists_push hm with hm | ⟨_, rfl⟩
      · exact h.apart l m xs ys x hl hm hx hy
      · cases hy
    · cases hx
  once l xs hl := by
    rcases lists_push hl with hl | ⟨_, rfl⟩
    · exact h.once l xs hl
    · exact List.nodup_nil

theorem addDict_ok {w : World} (h : Ok w) (t o : J) : Ok (w.addDict t o) where
  grain g b hb := by
    have := h.grain g b hb
    simp [World.addDict]; omega
  list b d hd := by
    simp only [World.addDict, List.length_append, List.length_singleton] at hd ⊢
    by_cases hl : b < w.dicts.length
    · rw [List.getElem?_append_left hl] at hd
      have := h.list b d hd; omega
    · have hlt := (List.getElem?_eq_some_iff.mp hd).1
      have : b = w.dicts.length := by simp at hlt; omega
      subst this
      rw [List.getElem?_concat_length] at hd
      cases hd; simp
  item l xs hl x hx := by
    rcases lists_push hl with hl | ⟨_, rfl⟩
    · exact h.item l xs hl x hx
    · cases hx
  view := h.view
  own b c d e hd he hde := by
    have key : ∀ (b : Nat) (d : Dict), (w.addDict t o).dicts[b]? = some d →
        w.dicts[b]? = some d ∨ (b = w.dicts.length ∧ d.items = w.lists.length) := by
      intro b d hd
      by_cases hl : b < w.dicts.length
      · simp only [World.addDict] at hd
        rw [List.getElem?_append_left hl] at hd
        exact .inl hd
      · have hlt := (List.getElem?_eq_some_iff.mp hd).1
        have : b = w.dicts.length := by simp [World.addDict] at hlt; omega
        subst this
        simp only [World.addDict] at hd
        rw [List.getElem?_concat_length] at hd
        cases hd
        exact .inr ⟨rfl, rfl⟩
    rcases key b d hd with hd | ⟨rfl, hd⟩ <;> rcases key c e he with he | ⟨rfl, he⟩
    · exact h.own b c d e hd he hde
    · have := h.list b d hd; omega
    · have := h.list c e he; omega
    · rfl
  apart l m xs ys x hl hm hx hy := by
    rcases lists_push hl with hl | ⟨_, rfl⟩
    · rcases lists_push hm with hm | ⟨_, rfl⟩
      · exact h.apart l m xs ys x hl hm hx hy
      · cases hy
    · cases hx
  once l xs hl := by
    rcases lists_push hl with hl | ⟨_, rfl⟩
    · exact h.once l xs hl
    · exact List.nodup_nil

theorem modify_some {w : World} {k l : Nat} {d : Datum} {xs : List Nat} (h : (w.appendItem k d).lists[l]? = some xs) :
    ∃ ys, w.lists[l]? = some ys ∧ xs = if k = l then ys ++ [w.items.length] else ys := by
  simp only [World.appendItem, List.getElem?_modify, Option.map_eq_map, Option.map_eq_some_iff] at h
  obtain ⟨ys, h1, h2⟩ := h
  exact ⟨ys, h1, h2.symm⟩

theorem appendItem_ok {w : World} (h : Ok w) (k : Nat) (d : Datum) : Ok (w.appendItem k d) where
  grain := h.grain
  list b e he := by
    have := h.list b e he
    simpa [World.appendItem] using this
  item l xs hl x hx := by
    obtain ⟨ys, h1, rfl⟩ := modify_some hl
    simp only [World.appendItem, List.length_append, List.length_singleton]
    split at hx
    · rcases List.mem_append.mp hx with hx | hx
      · have := h.item l ys h1 x hx; omega
      · simp at hx; omega
    · have := h.item l ys h1 x hx; omega
  view v x hv := by
    have := h.view v x hv
    simp [World.appendItem]; omega
  own := h.own
  apart l m xs ys x hl hm hx hy := by
    obtain ⟨xs', h1, rfl⟩ := modify_some hl
    obtain ⟨ys', h2, rfl⟩ := modify_some hm
    have b1 := h.item l xs' h1
    have b2 := h.item m ys' h2
    split at hx <;> split at hy
    · omega
    · rcases List.mem_append.mp hx with hx | hx
      · exact h.apart l m _ _ x h1 h2 hx hy
      · have := b2 x hy; simp at hx; omega
    · rcases List.mem_append.mp hy with hy | hy
      · exact h.apart l m _ _ x h1 h2 hx hy
      · have := b1 x hx; simp at hy; omega
    · exact h.apart l m _ _ x h1 h2 hx hy
  once l xs hl := by
    obtain ⟨ys, h1, rfl⟩ := modify_some hl
    split
    · refine List.nodup_append.mpr ⟨h.once l ys h1, by simp, ?_⟩
      intro x hx y hy
      have := h.item l ys h1 x hx
      simp at hy
      omega
    · exact h.once l ys h1

theorem relist_chg {w : World} (h : Ok w) (a : Nat) (t o : J) : Chg a w (w.relist a t o) where
  grains := rfl
  views := rfl
  size := by simp [World.relist]
  other b hb hl := by
    have hd : (w.relist a t o).dicts[b]? = w.dicts[b]? := by
      simp only [World.relist]
      exact List.getElem?_set_ne (fun h => hb h.symm)
    have he : w.dicts[b]? = some w.dicts[b] := List.getElem?_eq_getElem hl
    refine ⟨hd, ?_⟩
    rw [itemsOf_some he, itemsOf_some (hd.trans he)]
    simp only [World.relist]
    rw [List.getElem?_append_left (h.list b _ he)]
  more := Nat.le_refl _
  old _ _ := rfl
  here b x hx _ := by
    by_cases hb : b = a
    · subst hb
      cases he : (w.relist b t o).dicts[b]? with
      | none => rw [itemsOf_none he] at hx; cases hx
      | some e =>
        rw [itemsOf_some he] at hx
        simp only [World.relist, List.getElem?_set, if_true] at he
        split at he
        · cases he
          simp [World.relist] at hx
        · cases he
    · cases he : w.dicts[b]? with
      | none =>
        have : (w.relist a t o).dicts[b]? = none := by
          simp only [World.relist]
          rw [List.getElem?_set_ne (fun h => hb h.symm)]; exact he
        rw [itemsOf_none this] at hx; cases hx
      | some e =>
        have hd : (w.relist a t o).dicts[b]? = some e := by
          simp only [World.relist]
          rw [List.getElem?_set_ne (fun h => hb h.symm)]; exact he
        rw [itemsOf_some hd] at hx
        rw [itemsOf_some he]
        simp only [World.relist] at hx
        rwa [List.getElem?_append_left (h.list b _ he)] at hx

theorem relist_self {w : World} {a : Nat} (hl : a < w.dicts.length) (t o : J) :
    (w.relist a t o).dicts[a]? = some ⟨t, o, w.lists.length⟩ ∧ itemsOf (w.relist a t o) a = [] := by
  have : (w.relist a t o).dicts[a]? = some ⟨t, o, w.lists.length⟩ := by
    simp [World.relist, hl]
  refine ⟨this, ?_⟩
  rw [itemsOf_some this]
  simp [World.relist]

theorem addDict_chg {w : World} (h : Ok w) (t o : J) : Chg w.dicts.length w (w.addDict t o) where
  grains := rfl
  views := rfl
  size := by simp [World.addDict]
  other b hb hl := by
    have hd : (w.addDict t o).dicts[b]? = w.dicts[b]? := List.getElem?_append_left hl
    have he : w.dicts[b]? = some w.dicts[b] := List.getElem?_eq_getElem hl
    refine ⟨hd, ?_⟩
    rw [itemsOf_some he, itemsOf_some (hd.trans he)]
    simp only [World.addDict]
    rw [List.getElem?_append_left (h.list b _ he)]
  more := Nat.le_refl _
  old _ _ := rfl
  here b x hx _ := by
    by_cases hl : b < w.dicts.length
    · have hd : (w.addDict t o).dicts[b]? = w.dicts[b]? := List.getElem?_append_left hl
      have he : w.dicts[b]? = some w.dicts[b] := List.getElem?_eq_getElem hl
      rw [itemsOf_some (hd.trans he)] at hx
      rw [itemsOf_some he]
      simp only [World.addDict] at hx
      rwa [List.getElem?_append_left (h.list b _ he)] at hx
    · cases he : (w.addDict t o).dicts[b]? with
      | none => rw [itemsOf_none he] at hx; cases hx
      | some e =>
        have hlt := (List.getElem?_eq_some_iff.mp he).1
        have : b = w.dicts.length := by simp [World.addDict] at hlt; omega
        subst this
        rw [itemsOf_some he] at hx
        simp only [World.addDict, List.getElem?_concat_length] at he
        cases he
        simp [World.addDict] at hx

theorem addDict_self (w : World) (t o : J) :
    (w.addDict t o).dicts[w.dicts.length]? = some ⟨t, o, w.lists.length⟩ ∧ itemsOf (w.addDict t o) w.dicts.length = [] := by
  have : (w.addDict t o).dicts[w.dicts.length]? = some ⟨t, o, w.lists.length⟩ := by
    simp [World.addDict]
  refine ⟨this, ?_⟩
  rw [itemsOf_some this]
  simp [World.addDict]

theorem item_append {w : World} {k x : Nat} {d : Datum} (hx : x < w.items.length) : (w.appendItem k d).item x = w.item x := by
  simp only [World.item, World.appendItem]
  rw [List.getElem?_append_left hx]

theorem appendItem_itemsOf {w : World} (h : Ok w) {a : Nat} {e : Dict} (he : w.dicts[a]? = some e) (d : Datum) (b : Nat) :
    itemsOf (w.appendItem e.items d) b = if b = a then itemsOf w a ++ [w.items.length] else itemsOf w b := by
  have hl : w.lists[e.items]? = some (w.lists[e.items]'(h.list a e he)) := List.getElem?_eq_getElem (h.list a e he)
  by_cases hb : b = a
  · subst hb
    rw [if_pos rfl]
    have : (w.appendItem e.items d).dicts[b]? = some e := he
    rw [itemsOf_some this, itemsOf_some he]
    simp only [World.appendItem, List.getElem?_modify]
    rw [hl]
    simp
  · rw [if_neg hb]
    cases hf : w.dicts[b]? with
    | none =>
      have : (w.appendItem e.items d).dicts[b]? = none := hf
      rw [itemsOf_none this, itemsOf_none hf]
    | some f =>
      have : (w.appendItem e.items d).dicts[b]? = some f := hf
      rw [itemsOf_some this, itemsOf_some hf]
      simp only [World.appendItem, List.getElem?_modify]
      have hne : e.items ≠ f.items := fun hef => hb (h.own a b e f he hf hef).symm
      simp [hne]

theorem appendItem_chg {w : World} (h : Ok w) {a : Nat} {e : Dict} (he : w.dicts[a]? = some e) (d : Datum) :
    Chg a w (w.appendItem e.items d) where
  grains := rfl
  views := rfl
  size := Nat.le_refl _
  other b hb hl := ⟨rfl, by rw [appendItem_itemsOf h he, if_neg hb]⟩
  more := by simp [World.appendItem]
  old x hx := item_append hx
  here b x hx hl := by
    rw [appendItem_itemsOf h he] at hx
    split at hx
    · rename_i hb
      subst hb
      rcases List.mem_append.mp hx with hx | hx
      · exact hx
      · simp at hx; omega
    · exact hx

/-- Appending an item is seen as that. -/
theorem appendItem_payload {w : World} (h : Ok w) {a : Nat} {e : Dict} (he : w.dicts[a]? = some e) (d : Datum) :
    payloadAt (w.appendItem e.items d) a = some ⟨e.type, e.topic, (itemsOf w a).map w.item ++ [d]⟩ := by
  have hd : (w.appendItem e.items d).dicts[a]? = some e := he
  rw [payloadAt_some hd, appendItem_itemsOf h he, if_pos rfl, List.map_append]
  congr 2
  congr 1
  · exact List.map_congr_left (fun x hx => item_append (h.bound hx))
  · simp [World.item, World.appendItem]

/-- What several items appended to the list of a payload dictionary come to. -/
theorem addItems_facts (a : Nat) (e : Dict) : ∀ (ds : List Datum) (w : World), Ok w → w.dicts[a]? = some e →
    Ok (w.addItems e.items ds) ∧ Chg a w (w.addItems e.items ds) ∧ (w.addItems e.items ds).dicts[a]? = some e ∧
      payloadAt (w.addItems e.items ds) a = some ⟨e.type, e.topic, (itemsOf w a).map w.item ++ ds⟩ := by
  intro ds
  induction ds with
  | nil =>
    intro w h he
    refine ⟨h, Chg.refl a w, he, ?_⟩
    rw [List.append_nil]
    exact payloadAt_some he
  | cons d ds ih =>
    intro w h he
    obtain ⟨i1, i2, i3, i4⟩ := ih (w.appendItem e.items d) (appendItem_ok h e.items d) he
    refine ⟨i1, (appendItem_chg h he d).trans i2, i3, ?_⟩
    have hp := appendItem_payload h he d
    rw [payloadAt_some (show (w.appendItem e.items d).dicts[a]? = some e from he)] at hp
    simp only [Option.some.injEq, Payload.mk.injEq] at hp
    show payloadAt ((w.appendItem e.items d).addItems e.items ds) a = _
    rw [i4, hp.2.2]
    simp

/-- The loop of the setter does to objects what it does to values. -/
theorem fillItems_facts (a : Nat) (e : Dict) : ∀ (xs : List J) (w : World) (p : Payload), Ok w → w.dicts[a]? = some e →
    payloadAt w a = some p →
    Ok (fillItems w e.items xs).1 ∧ Chg a w (fillItems w e.items xs).1 ∧ (fillItems w e.items xs).1.dicts[a]? = some e ∧
      payloadAt (fillItems w e.items xs).1 a = some (readData p xs).1 ∧ (fillItems w e.items xs).2 = (readData p xs).2 := by
  intro xs
  induction xs with
  | nil => intro w p h he hp; exact ⟨h, Chg.refl a w, he, hp, rfl⟩
  | cons x xs ih =>
    intro w p h he hp
    unfold fillItems readData
    cases hx : readDatum x with
    | error er => exact ⟨h, Chg.refl a w, he, hp, rfl⟩
    | ok d =>
      have h2 := appendItem_payload h he d
      rw [payloadAt_some he] at hp
      simp only [Option.some.injEq] at hp
      subst hp
      obtain ⟨i1, i2, i3, i4, i5⟩ := ih (w.appendItem e.items d) _ (appendItem_ok h e.items d) he h2
      exact ⟨i1, (appendItem_chg h he d).trans i2, i3, i4, i5⟩

/-- The checks of the setter, apart from what it then does. -/
theorem setPayload_header (p : Payload) (v : J) : setPayload p v =
    match header v with
    | .error e => (p, .error e)
    | .ok (t, o, d) =>
      match iterate d with
      | .error e => (⟨t, o, []⟩, .error e)
      | .ok xs => readData ⟨t, o, []⟩ xs := by
  unfold setPayload header
  cases contains (lit "type") v with
  | error e => rfl
  | ok b =>
    cases b with
    | false => rfl
    | true =>
      simp only []
      cases contains (lit "topic") v with
      | error e => rfl
      | ok b =>
        cases b with
        | false => rfl
        | true =>
          simp only []
          cases contains (lit "data") v with
          | error e => rfl
          | ok b =>
            cases b with
            | false => rfl
            | true =>
              simp only []
              cases v with
              | obj l =>
                simp only []
                cases lookup l (lit "type") <;> cases lookup l (lit "topic") <;> cases lookup l (lit "data") <;> rfl
              | _ => rfl

/-- The setter of `data` does to objects what it does to values. -/
theorem assign_str {w : World} (h : Ok w) {a : Nat} {e : Dict} (he : w.dicts[a]? = some e) (s : Str) :
    Ok (assign w a (.str s)).1 ∧ Chg a w (assign w a (.str s)).1 ∧
      payloadAt (assign w a (.str s)).1 a = some (Event.setData (w.payload e) (.str s)).1 ∧
      (assign w a (.str s)).2 = (Event.setData (w.payload e) (.str s)).2 := by
  have hp : payloadAt w a = some (w.payload e) := by simp [payloadAt, he]
  have hl : a < w.dicts.length := (List.getElem?_eq_some_iff.mp he).1
  unfold assign Event.setData
  simp only []
  cases loads s with
  | none => exact ⟨h, Chg.refl a w, hp, rfl⟩
  | some v =>
    simp only []
    rw [setPayload_header]
    cases header v with
    | error er => exact ⟨h, Chg.refl a w, hp, rfl⟩
    | ok x =>
      obtain ⟨t, o, d⟩ := x
      simp only []
      have hr := relist_ok h a t o
      have hc := relist_chg h a t o
      obtain ⟨s1, s2⟩ := relist_self hl t o
      have hq : payloadAt (w.relist a t o) a = some ⟨t, o, []⟩ := by
        rw [payloadAt_some s1, s2]; rfl
      cases iterate d with
      | error er => exact ⟨hr, hc, hq, rfl⟩
      | ok xs =>
        obtain ⟨i1, i2, _, i4, i5⟩ := fillItems_facts a ⟨t, o, w.lists.length⟩ xs (w.relist a t o) ⟨t, o, []⟩ hr s1 hq
        exact ⟨i1, hc.trans i2, i4, i5⟩

theorem assign_facts {w : World} (h : Ok w) {a : Nat} {e : Dict} (he : w.dicts[a]? = some e) (arg : Arg) :
    Ok (assign w a arg).1 ∧ Chg a w (assign w a arg).1 ∧
      payloadAt (assign w a arg).1 a = some (Event.setData (w.payload e) arg).1 ∧
      (assign w a arg).2 = (Event.setData (w.payload e) arg).2 := by
  cases arg with
  | str s => exact assign_str h he s
  | bytes b =>
    cases hb : decodeText b with
    | none =>
      have e1 : assign w a (.bytes b) = (w, .error .value) := by unfold assign; simp only [hb]
      have e2 : Event.setData (w.payload e) (.bytes b) = (w.payload e, .error .value) := by unfold Event.setData; simp only [hb]
      rw [e1, e2]
      exact ⟨h, Chg.refl a w, by simp [payloadAt, he], rfl⟩
    | some s =>
      have e1 : assign w a (.bytes b) = assign w a (.str s) := by unfold assign; simp only [hb]
      have e2 : Event.setData (w.payload e) (.bytes b) = Event.setData (w.payload e) (.str s) := by
        unfold Event.setData; simp only [hb]
      rw [e1, e2]
      exact assign_str h he s

/-- A new payload dictionary. -/
theorem newDict_facts {w : World} (h : Ok w) (p : Payload) :
    Ok (w.newDict p) ∧ Chg w.dicts.length w (w.newDict p) ∧ payloadAt (w.newDict p) w.dicts.length = some p ∧
      ∃ e, (w.newDict p).dicts[w.dicts.length]? = some e := by
  obtain ⟨s1, s2⟩ := addDict_self w p.type p.topic
  obtain ⟨i1, i2, i3, i4⟩ := addItems_facts w.dicts.length ⟨p.type, p.topic, w.lists.length⟩ p.data (w.addDict p.type p.topic)
    (addDict_ok h p.type p.topic) s1
  refine ⟨i1, (addDict_chg h p.type p.topic).trans i2, ?_, ⟨_, i3⟩⟩
  show payloadAt ((w.addDict p.type p.topic).addItems w.lists.length p.data) _ = _
  rw [i4, s2]
  simp

/-- The values `type` and `topic` are replaced. -/
theorem head_facts {w : World} (h : Ok w) {a : Nat} {e e' : Dict} (he : w.dicts[a]? = some e) (hi : e'.items = e.items) :
    Ok { w with dicts := w.dicts.set a e' } ∧ Chg a w { w with dicts := w.dicts.set a e' } ∧
      payloadAt { w with dicts := w.dicts.set a e' } a = some ⟨e'.type, e'.topic, (itemsOf w a).map w.item⟩ ∧
      itemsOf { w with dicts := w.dicts.set a e' } a = itemsOf w a := by
  have hl : a < w.dicts.length := (List.getElem?_eq_some_iff.mp he).1
  have key : ∀ (b : Nat) (d : Dict), (w.dicts.set a e')[b]? = some d → ∃ d0, w.dicts[b]? = some d0 ∧ d0.items = d.items := by
    intro b d hd
    rw [List.getElem?_set] at hd
    split at hd
    · rename_i hab
      subst hab
      cases hd
      exact ⟨e, he, hi.symm⟩
    · exact ⟨d, hd, rfl⟩
  have same : ∀ b, itemsOf { w with dicts := w.dicts.set a e' } b = itemsOf w b := by
    intro b
    cases hd : (w.dicts.set a e')[b]? with
    | none =>
      have hb : w.dicts[b]? = none := by simpa using hd
      rw [itemsOf_none hb, itemsOf_none (w := { w with dicts := w.dicts.set a e' }) hd]
    | some d =>
      obtain ⟨d0, h0, h1⟩ := key b d hd
      rw [itemsOf_some h0, itemsOf_some (w := { w with dicts := w.dicts.set a e' }) hd, h1]
  refine ⟨⟨?_, ?_, h.item, h.view, ?_, h.apart, h.once⟩, ⟨rfl, rfl, by simp, ?_, Nat.le_refl _, fun _ _ => rfl, ?_⟩, ?_, same a⟩
  · intro g b hb
    have := h.grain g b hb
    simpa using this
  · intro b d hd
    obtain ⟨d0, h0, h1⟩ := key b d hd
    rw [← h1]
    exact h.list b d0 h0
  · intro b c d d' hd hd' hdd
    obtain ⟨d0, h0, h1⟩ := key b d hd
    obtain ⟨d0', h0', h1'⟩ := key c d' hd'
    exact h.own b c d0 d0' h0 h0' (by rw [h1, h1', hdd])
  · intro b hb _
    exact ⟨List.getElem?_set_ne (fun h => hb h.symm), same b⟩
  · intro b x hx _
    rwa [same b] at hx
  · have hd : ({ w with dicts := w.dicts.set a e' } : World).dicts[a]? = some e' := by simp [hl]
    rw [payloadAt_some hd, same a]
    rfl

/-- An item is changed. -/
theorem change_facts {w : World} (h : Ok w) (x : Nat) (d : Datum) :
    Ok { w with items := w.items.set x d } ∧ (∀ b, itemsOf { w with items := w.items.set x d } b = itemsOf w b) ∧
      ∀ b, x ∉ itemsOf w b → payloadAt { w with items := w.items.set x d } b = payloadAt w b := by
  refine ⟨⟨h.grain, h.list, ?_, ?_, h.own, h.apart, h.once⟩, fun b => rfl, ?_⟩
  · intro l xs hl y hy
    have := h.item l xs hl y hy
    simpa using this
  · intro v y hv
    have := h.view v y hv
    simpa using this
  · intro b hb
    cases hd : w.dicts[b]? with
    | none => simp [payloadAt, hd]
    | some e =>
      rw [payloadAt_some hd, payloadAt_some (w := { w with items := w.items.set x d }) hd]
      congr 2
      refine List.map_congr_left (fun y hy => ?_)
      have hxy : x ≠ y := by rintro rfl; exact hb hy
      simp [World.item, List.getElem?_set_ne hxy]

/-! ## Families -/

structure Fam (w : World) (k : Kin) : Prop where
  grains : k.grains.length = w.grains.length
  views : k.views.length = w.views.length
  fresh : ∀ g f : Nat, k.grains[g]? = some f → f < k.grains.length
  same : ∀ g h a b f f' : Nat, w.grains[g]? = some a → w.grains[h]? = some b → k.grains[g]? = some f → k.grains[h]? = some f' →
    (f = f' ↔ a = b)
  seen : ∀ v x f g a : Nat, w.views[v]? = some x → k.views[v]? = some f → w.grains[g]? = some a → x ∈ itemsOf w a →
    k.grains[g]? = some f

theorem Fam.chg {w w' : World} {k : Kin} {a : Nat} (h : Fam w k) (hok : Ok w) (hc : Chg a w w') : Fam w' k where
  grains := by rw [hc.grains]; exact h.grains
  views := by rw [hc.views]; exact h.views
  fresh := h.fresh
  same := by rw [hc.grains]; exact h.same
  seen v x f g b hv hf hg hx := by
    rw [hc.views] at hv
    rw [hc.grains] at hg
    exact h.seen v x f g b hv hf hg (hc.here b x hx (hok.view v x hv))

/-- The last element of a longer list. -/
theorem push_some {l : List Nat} {y i x : Nat} (h : (l ++ [y])[i]? = some x) : l[i]? = some x ∨ (i = l.length ∧ x = y) := by
  by_cases hl : i < l.length
  · rw [List.getElem?_append_left hl] at h; exact .inl h
  · have hlt := (List.getElem?_eq_some_iff.mp h).1
    have : i = l.length := by simp at hlt; omega
    subst this
    rw [List.getElem?_concat_length] at h
    cases h
    exact .inr ⟨rfl, rfl⟩

theorem lt_of_some {l : List Nat} {i x : Nat} (h : l[i]? = some x) : i < l.length := (List.getElem?_eq_some_iff.mp h).1

/-- Another grain with the payload dictionary of a grain. -/
theorem Fam.pushOld {w : World} {k : Kin} (h : Fam w k) {g a f : Nat} (hg : w.grains[g]? = some a) (hf : k.grains[g]? = some f) :
    Fam { w with grains := w.grains ++ [a] } { k with grains := k.grains ++ [f] } where
  grains := by simp [h.grains]
  views := h.views
  fresh i f' hi := by
    simp only [List.length_append, List.length_singleton]
    rcases push_some hi with hi | ⟨_, rfl⟩
    · have := h.fresh i f' hi; omega
    · have := h.fresh g f' hf; omega
  same i j b c f1 f2 hi hj ki kj := by
    have pick : ∀ i b f1 : Nat, (w.grains ++ [a])[i]? = some b → (k.grains ++ [f])[i]? = some f1 →
        ∃ i' : Nat, w.grains[i']? = some b ∧ k.grains[i']? = some f1 := by
      intro i b f1 hi ki
      rcases push_some hi with hi | ⟨e, rfl⟩
      · rcases push_some ki with ki | ⟨e', rfl⟩
        · exact ⟨i, hi, ki⟩
        · have := lt_of_some hi; have := h.grains; omega
      · rcases push_some ki with ki | ⟨e', rfl⟩
        · have := lt_of_some ki; have := h.grains; omega
        · exact ⟨g, hg, hf⟩
    obtain ⟨i', a1, a2⟩ := pick i b f1 hi ki
    obtain ⟨j', b1, b2⟩ := pick j c f2 hj kj
    exact h.same i' j' b c f1 f2 a1 b1 a2 b2
  seen v x f' i b hv hf' hi hx := by
    rcases push_some hi with hi | ⟨rfl, rfl⟩
    · have := h.seen v x f' i b hv hf' hi hx
      rw [← this]
      exact List.getElem?_append_left (lt_of_some this)
    · have := h.seen v x f' g b hv hf' hg hx
      rw [hf] at this
      cases this
      rw [← h.grains]
      exact List.getElem?_concat_length ..

/-- A grain with a payload dictionary of its own. -/
theorem Fam.pushNew {w : World} {k : Kin} (h : Fam w k) {a : Nat} (hn : ∀ g : Nat, w.grains[g]? ≠ some a)
    (hv : ∀ v x : Nat, w.views[v]? = some x → x ∉ itemsOf w a) :
    Fam { w with grains := w.grains ++ [a] } { k with grains := k.grains ++ [k.grains.length] } where
  grains := by simp [h.grains]
  views := h.views
  fresh i f' hi := by
    simp only [List.length_append, List.length_singleton]
    rcases push_some hi with hi | ⟨_, rfl⟩
    · have := h.fresh i f' hi; omega
    · omega
  same i j b c f1 f2 hi hj ki kj := by
    have hl := h.grains
    have pick : ∀ i b f1 : Nat, (w.grains ++ [a])[i]? = some b → (k.grains ++ [k.grains.length])[i]? = some f1 →
        (w.grains[i]? = some b ∧ k.grains[i]? = some f1) ∨ (b = a ∧ f1 = k.grains.length) := by
      intro i b f1 hi ki
      rcases push_some hi with hi | ⟨e, eb⟩
      · rcases push_some ki with ki | ⟨e', ef⟩
        · exact .inl ⟨hi, ki⟩
        · have := lt_of_some hi; omega
      · rcases push_some ki with ki | ⟨e', ef⟩
        · have := lt_of_some ki; omega
        · exact .inr ⟨eb, ef⟩
    rcases pick i b f1 hi ki with ⟨a1, a2⟩ | ⟨a1, a2⟩ <;> rcases pick j c f2 hj kj with ⟨b1, b2⟩ | ⟨b1, b2⟩
    · exact h.same i j b c f1 f2 a1 b1 a2 b2
    · have := h.fresh i f1 a2
      exact ⟨fun e => by omega, fun e => absurd (by rw [a1, e, b1]) (hn i)⟩
    · have := h.fresh j f2 b2
      exact ⟨fun e => by omega, fun e => absurd (by rw [b1, ← e, a1]) (hn j)⟩
    · exact ⟨fun _ => by rw [a1, b1], fun _ => by rw [a2, b2]⟩
  seen v x f' i b hv' hf' hi hx := by
    rcases push_some hi with hi | ⟨rfl, rfl⟩
    · have := h.seen v x f' i b hv' hf' hi hx
      rw [← this]
      exact List.getElem?_append_left (lt_of_some this)
    · exact absurd hx (hv v x hv')

/-- Another `DATA` object. -/
theorem Fam.pushView {w : World} {k : Kin} (h : Fam w k) (hok : Ok w) {g a f x : Nat} (hg : w.grains[g]? = some a)
    (hf : k.grains[g]? = some f) (hx : x ∈ itemsOf w a) :
    Fam { w with views := w.views ++ [x] } { k with views := k.views ++ [f] } where
  grains := h.grains
  views := by simp [h.views]
  fresh := h.fresh
  same := h.same
  seen v y f' i b hv hf' hi hy := by
    have hl := h.views
    rcases push_some hv with hv | ⟨e, rfl⟩ <;> rcases push_some hf' with hf' | ⟨e', rfl⟩
    · exact h.seen v y f' i b hv hf' hi hy
    · have := lt_of_some hv; omega
    · have := lt_of_some hf'; omega
    · have hab := hok.sole hx hy
      subst hab
      have hlt : i < k.grains.length := by rw [h.grains]; exact lt_of_some hi
      have hk : k.grains[i]? = some k.grains[i] := List.getElem?_eq_getElem hlt
      have := (h.same g i a a f' _ hg hi hf hk).mpr rfl
      rw [hk, ← this]

theorem pushGrain_ok {w : World} (h : Ok w) {a : Nat} (ha : a < w.dicts.length) : Ok { w with grains := w.grains ++ [a] } where
  grain g b hb := by
    rcases push_some hb with hb | ⟨_, rfl⟩
    · exact h.grain g b hb
    · exact ha
  list := h.list
  item := h.item
  view := h.view
  own := h.own
  apart := h.apart
  once := h.once

theorem pushView_ok {w : World} (h : Ok w) {x : Nat} (hx : x < w.items.length) : Ok { w with views := w.views ++ [x] } where
  grain := h.grain
  list := h.list
  item := h.item
  view v y hy := by
    rcases push_some hy with hy | ⟨_, rfl⟩
    · exact h.view v y hy
    · exact hx
  own := h.own
  apart := h.apart
  once := h.once

/-! ## Steps -/

/-- Grains of other families do not change. -/
theorem Chg.others {w w' : World} {k : Kin} {a g0 f0 : Nat} (hc : Chg a w w') (hok : Ok w) (hf : Fam w k)
    (hg0 : w.grains[g0]? = some a) (hk0 : k.grains[g0]? = some f0) {g f : Nat} (hk : k.grains[g]? = some f) (hne : f0 ≠ f) :
    w'.show g = w.show g := by
  have hlt : g < w.grains.length := by rw [← hf.grains]; exact lt_of_some hk
  have hg : w.grains[g]? = some w.grains[g] := List.getElem?_eq_getElem hlt
  rw [show_eq hg, show_eq (w := w') (by rw [hc.grains]; exact hg)]
  refine hc.payload hok (fun e => hne ?_) (hok.grain g _ hg)
  exact (hf.same g0 g a _ f0 f hg0 hg hk0 hk).mpr e.symm

/-- No grain changes if a new payload dictionary is made. -/
theorem Chg.all {w w' : World} {a : Nat} (hc : Chg a w w') (hok : Ok w) (ha : w.dicts.length ≤ a) (g : Nat) : w'.show g = w.show g := by
  cases hg : w.grains[g]? with
  | none => rw [show_none hg, show_none (w := w') (by rw [hc.grains]; exact hg)]
  | some b =>
    rw [show_eq hg, show_eq (w := w') (by rw [hc.grains]; exact hg)]
    have := hok.grain g b hg
    exact hc.payload hok (by omega) this

theorem show_push {w : World} {a g : Nat} (hg : g < w.grains.length) : ({ w with grains := w.grains ++ [a] } : World).show g = w.show g := by
  simp [World.show, World.dictOf, List.getElem?_append_left hg]
  cases w.grains[g]? <;> rfl

/-- What a step comes to. -/
structure Good (w : World) (k : Kin) (w' : World) (k' : Kin) (o : Op) : Prop where
  ok : Ok w'
  fam : Fam w' k'
  frame : ∀ g f : Nat, k.grains[g]? = some f → k.written o ≠ some f → w'.show g = w.show g
  grains : ∀ g a : Nat, w.grains[g]? = some a → w'.grains[g]? = some a
  kin : ∀ g f : Nat, k.grains[g]? = some f → k'.grains[g]? = some f
  views : ∀ v x : Nat, w.views[v]? = some x → w'.views[v]? = some x
  kinv : ∀ v f : Nat, k.views[v]? = some f → k'.views[v]? = some f

theorem Good.refl {w : World} {k : Kin} (h : Ok w) (hf : Fam w k) (o : Op) : Good w k w k o :=
  ⟨h, hf, fun _ _ _ _ => rfl, fun _ _ h => h, fun _ _ h => h, fun _ _ h => h, fun _ _ h => h⟩

theorem Good.ofChg {w w' : World} {k : Kin} {o : Op} (h : Ok w) (hf : Fam w k) {g a : Nat} (hg : w.grains[g]? = some a)
    (hw : k.written o = k.grains[g]?) (h' : Ok w') (hc : Chg a w w') : Good w k w' k o where
  ok := h'
  fam := hf.chg h hc
  frame i f hi hne := by
    have hlt : g < k.grains.length := by rw [hf.grains]; exact lt_of_some hg
    have hk : k.grains[g]? = some k.grains[g] := List.getElem?_eq_getElem hlt
    rw [hw, hk] at hne
    exact hc.others h hf hg hk hi (fun e => hne (congrArg some e))
  grains i b hb := by rw [hc.grains]; exact hb
  kin _ _ h := h
  views i b hb := by rw [hc.views]; exact hb
  kinv _ _ h := h

theorem push_keep {l : List Nat} {i x : Nat} (y : Nat) (h : l[i]? = some x) : (l ++ [y])[i]? = some x := by
  rw [List.getElem?_append_left (lt_of_some h)]; exact h

theorem good_view {w : World} {k : Kin} {o : Op} (h : Ok w) (hf : Fam w k) (v : Nat) (f : Datum → Except EErr Datum)
    (hw : k.written o = k.views[v]?) : Good w k (w.withView v f).1 k o := by
  unfold World.withView
  cases hv : w.views[v]? with
  | none => exact Good.refl h hf o
  | some x =>
    simp only [World.change]
    cases f (w.item x) with
    | error e => exact Good.refl h hf o
    | ok d =>
      obtain ⟨c1, c2, c3⟩ := change_facts h x d
      refine ⟨c1, ⟨hf.grains, hf.views, hf.fresh, hf.same, hf.seen⟩, ?_, fun _ _ h => h, fun _ _ h => h, fun _ _ h => h, fun _ _ h => h⟩
      intro g f' hg hne
      have hlt : g < w.grains.length := by rw [← hf.grains]; exact lt_of_some hg
      have hgr : w.grains[g]? = some w.grains[g] := List.getElem?_eq_getElem hlt
      rw [show_eq hgr, show_eq (w := { w with items := w.items.set x d }) hgr]
      refine c3 _ (fun hx => hne ?_)
      have hvl : v < k.views.length := by rw [hf.views]; exact lt_of_some hv
      have hvk : k.views[v]? = some k.views[v] := List.getElem?_eq_getElem hvl
      have := hf.seen v x _ g _ hv hvk hgr hx
      rw [hw, hvk, ← this, hg]

theorem good_step {w : World} {k : Kin} (h : Ok w) (hf : Fam w k) (o : Op) :
    Good w k (step w o).1 (k.next w (step w o).1 o) o := by
  have fresh : ∀ (w1 : World), Ok w1 → Chg w.dicts.length w w1 → (∃ e, w1.dicts[w.dicts.length]? = some e) → ∀ (o : Op),
      k.written o = none →
      Good w k { w1 with grains := w1.grains ++ [w.dicts.length] } { k with grains := k.grains ++ [k.grains.length] } o := by
    rintro w1 h1 c1 ⟨e, he⟩ o _
    have f1 := hf.chg h c1
    refine ⟨pushGrain_ok h1 (List.getElem?_eq_some_iff.mp he).1, f1.pushNew ?_ ?_, ?_, ?_, fun g f hg => push_keep _ hg, ?_,
      fun _ _ h => h⟩
    · intro g hg
      rw [c1.grains] at hg
      have := h.grain g _ hg
      omega
    · intro v x hv hx
      rw [c1.views] at hv
      have := c1.here _ x hx (h.view v x hv)
      rw [itemsOf_none (List.getElem?_eq_none (Nat.le_refl _))] at this
      cases this
    · intro g f hg _
      have hlt : g < w1.grains.length := by rw [c1.grains, ← hf.grains]; exact lt_of_some hg
      rw [show_push hlt]
      exact c1.all h (Nat.le_refl _) g
    · intro g a hg
      exact push_keep _ (by rw [c1.grains]; exact hg)
    · intro v x hv
      show w1.views[v]? = _
      rw [c1.views]; exact hv
  cases o with
  | make p =>
    obtain ⟨n1, n2, n3, n4⟩ := newDict_facts h p
    have := fresh (w.newDict p) n1 n2 n4 (.make p) rfl
    simp only [step, Kin.next]
    rw [n2.grains] at this
    exact this
  | copy g =>
    simp only [step, World.withGrain]
    cases hg : w.grains[g]? with
    | none => simpa only [Kin.next, Nat.lt_irrefl, if_false] using Good.refl h hf (.copy g)
    | some a =>
      simp only []
      cases hd : w.dicts[a]? with
      | none => simpa only [Kin.next, Nat.lt_irrefl, if_false] using Good.refl h hf (.copy g)
      | some d =>
        simp only []
        obtain ⟨a1, a2, _, _⟩ := assign_facts h hd (.bytes (getData (w.payload d)))
        have hkl : g < k.grains.length := by rw [hf.grains]; exact lt_of_some hg
        have hk : k.grains[g]? = some k.grains[g] := List.getElem?_eq_getElem hkl
        have gd := Good.ofChg (o := .copy g) h hf hg rfl a1 a2
        revert a1 a2 gd
        generalize assign w a (.bytes (getData (w.payload d))) = r
        obtain ⟨w1, r⟩ := r
        intro a1 a2 gd
        cases r with
        | error e =>
          simp only [Kin.next]
          rw [if_neg (by rw [a2.grains]; exact Nat.lt_irrefl _)]
          exact gd
        | ok u =>
          simp only [Kin.next]
          rw [if_pos (by rw [show w1.grains = w.grains from a2.grains]; simp), hk]
          simp only [Option.getD_some]
          have hg1 : w1.grains[g]? = some a := by rw [a2.grains]; exact hg
          refine ⟨pushGrain_ok a1 (a1.grain g a hg1), gd.fam.pushOld hg1 hk, ?_, fun i b hb => push_keep _ (gd.grains i b hb),
            fun i f hi => push_keep _ hi, gd.views, fun _ _ h => h⟩
          intro i f hi hne
          have hlt : i < w1.grains.length := by rw [a2.grains, ← hf.grains]; exact lt_of_some hi
          rw [show_push hlt]
          exact gd.frame i f hi hne
  | deepcopy g =>
    simp only [step, World.withGrain]
    cases hg : w.grains[g]? with
    | none => simpa only [Kin.next, Nat.lt_irrefl, if_false] using Good.refl h hf (.deepcopy g)
    | some a =>
      simp only []
      cases hd : w.dicts[a]? with
      | none => simpa only [Kin.next, Nat.lt_irrefl, if_false] using Good.refl h hf (.deepcopy g)
      | some d =>
        simp only []
        obtain ⟨n1, n2, n3, e, he⟩ := newDict_facts h (w.payload d)
        obtain ⟨a1, a2, a3, _⟩ := assign_facts n1 he (.bytes (getData (w.payload d)))
        have ae : ∃ e', (assign (w.newDict (w.payload d)) w.dicts.length (.bytes (getData (w.payload d)))).1.dicts[w.dicts.length]? = some e' := by
          unfold payloadAt at a3
          rw [Option.map_eq_some_iff] at a3
          obtain ⟨e', h1, _⟩ := a3
          exact ⟨e', h1⟩
        have a4 := n2.trans a2
        revert a1 a4 ae
        generalize assign (w.newDict (w.payload d)) w.dicts.length (.bytes (getData (w.payload d))) = r
        obtain ⟨w1, r⟩ := r
        intro a1 ae a4
        cases r with
        | error e =>
          simp only [Kin.next]
          rw [if_neg (by rw [a4.grains]; exact Nat.lt_irrefl _)]
          exact ⟨a1, hf.chg h a4, fun i f _ _ => a4.all h (Nat.le_refl _) i, fun i b hb => by rw [a4.grains]; exact hb,
            fun _ _ h => h, fun i b hb => by rw [a4.views]; exact hb, fun _ _ h => h⟩
        | ok u =>
          simp only [Kin.next]
          rw [if_pos (by rw [show w1.grains = w.grains from a4.grains]; simp)]
          exact fresh w1 a1 a4 ae (.deepcopy g) rfl
  | setType g v =>
    simp only [step, World.withGrain, Kin.next]
    cases hg : w.grains[g]? with
    | none => exact Good.refl h hf _
    | some a =>
      simp only []
      cases hd : w.dicts[a]? with
      | none => exact Good.refl h hf _
      | some d =>
        obtain ⟨c1, c2, _⟩ := head_facts (e' := { d with type := v }) h hd rfl
        exact Good.ofChg h hf hg rfl c1 c2
  | setTopic g v =>
    simp only [step, World.withGrain, Kin.next]
    cases hg : w.grains[g]? with
    | none => exact Good.refl h hf _
    | some a =>
      simp only []
      cases hd : w.dicts[a]? with
      | none => exact Good.refl h hf _
      | some d =>
        obtain ⟨c1, c2, _⟩ := head_facts (e' := { d with topic := v }) h hd rfl
        exact Good.ofChg h hf hg rfl c1 c2
  | setData g v =>
    simp only [step, World.withGrain, Kin.next]
    cases hg : w.grains[g]? with
    | none => exact Good.refl h hf _
    | some a =>
      simp only []
      cases hd : w.dicts[a]? with
      | none => exact Good.refl h hf _
      | some d =>
        obtain ⟨c1, c2, _⟩ := assign_facts h hd v
        exact Good.ofChg h hf hg rfl c1 c2
  | setItems g ds =>
    simp only [step, World.withGrain, Kin.next]
    cases hg : w.grains[g]? with
    | none => exact Good.refl h hf _
    | some a =>
      simp only []
      cases hd : w.dicts[a]? with
      | none => exact Good.refl h hf _
      | some d =>
        obtain ⟨s1, _⟩ := relist_self (List.getElem?_eq_some_iff.mp hd).1 d.type d.topic
        obtain ⟨c1, c2, _⟩ := addItems_facts a ⟨d.type, d.topic, w.lists.length⟩ ds _ (relist_ok h a d.type d.topic) s1
        exact Good.ofChg h hf hg rfl c1 ((relist_chg h a d.type d.topic).trans c2)
  | append g path pre post =>
    simp only [step, World.withGrain, Kin.next]
    cases hg : w.grains[g]? with
    | none => exact Good.refl h hf _
    | some a =>
      simp only []
      cases hd : w.dicts[a]? with
      | none => exact Good.refl h hf _
      | some d => exact Good.ofChg h hf hg rfl (appendItem_ok h _ _) (appendItem_chg h hd _)
  | view g i =>
    simp only [step, World.withGrain]
    cases hg : w.grains[g]? with
    | none => simpa only [Kin.next, Nat.lt_irrefl, if_false] using Good.refl h hf (.view g i)
    | some a =>
      simp only []
      cases hd : w.dicts[a]? with
      | none => simpa only [Kin.next, Nat.lt_irrefl, if_false] using Good.refl h hf (.view g i)
      | some d =>
        simp only []
        cases hx : ((w.lists[d.items]?).getD [])[i]? with
        | none => simpa only [Kin.next, Nat.lt_irrefl, if_false] using Good.refl h hf (.view g i)
        | some x =>
          have hm : x ∈ itemsOf w a := by
            rw [itemsOf_some hd]
            exact List.mem_of_getElem? hx
          have hkl : g < k.grains.length := by rw [hf.grains]; exact lt_of_some hg
          have hk : k.grains[g]? = some k.grains[g] := List.getElem?_eq_getElem hkl
          simp only [Kin.next]
          rw [if_pos (by simp), hk]
          exact ⟨pushView_ok h (h.bound hm), hf.pushView h hg hk hm, fun _ _ _ _ => rfl, fun _ _ h => h, fun _ _ h => h,
            fun _ _ h => push_keep _ h, fun _ _ h => push_keep _ h⟩
  | setItem v c x => exact good_view h hf v _ rfl
  | delItem v c => exact good_view h hf v _ rfl
  | setPre v x => exact good_view h hf v _ rfl
  | setPost v x => exact good_view h hf v _ rfl

theorem empty_ok : Ok EventLive.empty :=
  ⟨by simp [EventLive.empty], by simp [EventLive.empty], by simp [EventLive.empty], by simp [EventLive.empty], by simp [EventLive.empty],
    by simp [EventLive.empty], by simp [EventLive.empty]⟩

theorem empty_fam : Fam EventLive.empty ⟨[], []⟩ :=
  ⟨rfl, rfl, by simp, by simp, by simp [EventLive.empty]⟩

theorem goOn_good : ∀ (os : List Op) (s : World × Kin), Ok s.1 → Fam s.1 s.2 → Ok (goOn s os).1 ∧ Fam (goOn s os).1 (goOn s os).2 := by
  intro os
  induction os with
  | nil => intro s h hf; exact ⟨h, hf⟩
  | cons o os ih =>
    rintro ⟨w, k⟩ h hf
    have := good_step h hf o
    exact ih _ this.ok this.fam

theorem after_good (os : List Op) : Ok (eventsAfter os).1 ∧ Fam (eventsAfter os).1 (eventsAfter os).2 :=
  goOn_good os _ empty_ok empty_fam

/-! ## Positions -/

/-- Grains that are not given a new list keep their items in place. -/
theorem keep_prefix {w : World} {k : Kin} (h : Ok w) (hf : Fam w k) (o : Op) {g a f : Nat} (hg : w.grains[g]? = some a)
    (hk : k.grains[g]? = some f) (hr : ¬ Replaces f k o) : ∃ t, itemsOf (step w o).1 a = itemsOf w a ++ t := by
  have hal := h.grain g a hg
  have none' : ∀ w' : World, itemsOf w' a = itemsOf w a → ∃ t, itemsOf w' a = itemsOf w a ++ t := fun w' e => ⟨[], by rw [e, List.append_nil]⟩
  have apart : ∀ (g0 a0 : Nat), w.grains[g0]? = some a0 → k.grains[g0]? ≠ some f → a ≠ a0 := by
    rintro g0 a0 h0 hne rfl
    have hlt : g0 < k.grains.length := by rw [hf.grains]; exact lt_of_some h0
    have hk0 : k.grains[g0]? = some k.grains[g0] := List.getElem?_eq_getElem hlt
    have := (hf.same g0 g a a _ f h0 hg hk0 hk).mpr rfl
    exact hne (by rw [hk0, this])
  have view : ∀ (v : Nat) (u : Datum → Except EErr Datum), itemsOf (w.withView v u).1 a = itemsOf w a := by
    intro v u
    unfold World.withView World.change
    cases w.views[v]? with
    | none => rfl
    | some x =>
      simp only []
      cases u (w.item x) <;> rfl
  cases o with
  | make p =>
    obtain ⟨_, n2, _⟩ := newDict_facts h p
    exact none' _ (n2.other a (by omega) hal).2
  | copy g0 =>
    apply none'
    simp only [step, World.withGrain]
    cases hg0 : w.grains[g0]? with
    | none => rfl
    | some a0 =>
      simp only []
      cases hd : w.dicts[a0]? with
      | none => rfl
      | some d =>
        simp only []
        obtain ⟨_, a2, _⟩ := assign_facts h hd (.bytes (getData (w.payload d)))
        have := (a2.other a (apart g0 a0 hg0 hr) hal).2
        revert this
        generalize assign w a0 (.bytes (getData (w.payload d))) = r
        obtain ⟨w1, r⟩ := r
        cases r <;> exact fun e => e
  | deepcopy g0 =>
    apply none'
    simp only [step, World.withGrain]
    cases hg0 : w.grains[g0]? with
    | none => rfl
    | some a0 =>
      simp only []
      cases hd : w.dicts[a0]? with
      | none => rfl
      | some d =>
        simp only []
        obtain ⟨n1, n2, _, e, he⟩ := newDict_facts h (w.payload d)
        obtain ⟨_, a2, _⟩ := assign_facts n1 he (.bytes (getData (w.payload d)))
        have := ((n2.trans a2).other a (by omega) hal).2
        revert this
        generalize assign (w.newDict (w.payload d)) w.dicts.length (.bytes (getData (w.payload d))) = r
        obtain ⟨w1, r⟩ := r
        cases r <;> exact fun e => e
  | setType g0 v =>
    apply none'
    simp only [step, World.withGrain]
    cases hg0 : w.grains[g0]? with
    | none => rfl
    | some a0 =>
      simp only []
      cases hd : w.dicts[a0]? with
      | none => rfl
      | some d =>
        obtain ⟨_, c2, _, c4⟩ := head_facts (e' := { d with type := v }) h hd rfl
        by_cases e : a = a0
        · subst e; exact c4
        · exact (c2.other a e hal).2
  | setTopic g0 v =>
    apply none'
    simp only [step, World.withGrain]
    cases hg0 : w.grains[g0]? with
    | none => rfl
    | some a0 =>
      simp only []
      cases hd : w.dicts[a0]? with
      | none => rfl
      | some d =>
        obtain ⟨_, c2, _, c4⟩ := head_facts (e' := { d with topic := v }) h hd rfl
        by_cases e : a = a0
        · subst e; exact c4
        · exact (c2.other a e hal).2
  | setData g0 v =>
    apply none'
    simp only [step, World.withGrain]
    cases hg0 : w.grains[g0]? with
    | none => rfl
    | some a0 =>
      simp only []
      cases hd : w.dicts[a0]? with
      | none => rfl
      | some d =>
        obtain ⟨_, c2, _⟩ := assign_facts h hd v
        exact (c2.other a (apart g0 a0 hg0 hr) hal).2
  | setItems g0 ds =>
    apply none'
    simp only [step, World.withGrain]
    cases hg0 : w.grains[g0]? with
    | none => rfl
    | some a0 =>
      simp only []
      cases hd : w.dicts[a0]? with
      | none => rfl
      | some d =>
        obtain ⟨s1, _⟩ := relist_self (List.getElem?_eq_some_iff.mp hd).1 d.type d.topic
        obtain ⟨c1, c2, _⟩ := addItems_facts a0 ⟨d.type, d.topic, w.lists.length⟩ ds _ (relist_ok h a0 d.type d.topic) s1
        exact (((relist_chg h a0 d.type d.topic).trans c2).other a (apart g0 a0 hg0 hr) hal).2
  | append g0 path pre post =>
    simp only [step, World.withGrain]
    cases hg0 : w.grains[g0]? with
    | none => exact none' _ rfl
    | some a0 =>
      simp only []
      cases hd : w.dicts[a0]? with
      | none => exact none' _ rfl
      | some d =>
        simp only []
        rw [appendItem_itemsOf h hd]
        by_cases e : a = a0
        · subst e; exact ⟨[w.items.length], by rw [if_pos rfl]⟩
        · exact ⟨[], by rw [if_neg e, List.append_nil]⟩
  | view g0 i =>
    apply none'
    simp only [step, World.withGrain]
    cases hg0 : w.grains[g0]? with
    | none => rfl
    | some a0 =>
      simp only []
      cases hd : w.dicts[a0]? with
      | none => rfl
      | some d =>
        simp only []
        cases ((w.lists[d.items]?).getD [])[i]? <;> rfl
  | setItem v c x => exact none' _ (view v _)
  | delItem v c => exact none' _ (view v _)
  | setPre v x => exact none' _ (view v _)
  | setPost v x => exact none' _ (view v _)

/-- The `DATA` object number `v` is that of item `i` of the payload dictionary of all grains of the family `f`. -/
structure Live (w : World) (k : Kin) (v f i x : Nat) : Prop where
  view : w.views[v]? = some x
  used : f < k.grains.length
  at' : ∀ g a : Nat, w.grains[g]? = some a → k.grains[g]? = some f → (itemsOf w a)[i]? = some x

theorem Live.step {w : World} {k : Kin} {v f i x : Nat} (hl : Live w k v f i x) (h : Ok w) (hf : Fam w k) (o : Op) (hr : ¬ Replaces f k o) :
    Live (step w o).1 (k.next w (step w o).1 o) v f i x := by
  have gd := good_step h hf o
  have hlen : k.grains.length ≤ (k.next w (EventLive.step w o).1 o).grains.length := by
    rw [gd.fam.grains, hf.grains]
    by_cases hz : w.grains.length = 0
    · omega
    · have hlt : w.grains.length - 1 < w.grains.length := by omega
      have := lt_of_some (gd.grains _ _ (List.getElem?_eq_getElem hlt))
      omega
  refine ⟨gd.views v x hl.view, Nat.lt_of_lt_of_le hl.used hlen, ?_⟩
  intro g a hg hk
  by_cases hlt : g < w.grains.length
  · have h0 : w.grains[g]? = some w.grains[g] := List.getElem?_eq_getElem hlt
    have h1 := gd.grains _ _ h0
    rw [hg] at h1
    cases h1
    have hkl : g < k.grains.length := by rw [hf.grains]; exact hlt
    have k0 : k.grains[g]? = some k.grains[g] := List.getElem?_eq_getElem hkl
    have k1 := gd.kin _ _ k0
    rw [hk] at k1
    cases k1
    obtain ⟨t, ht⟩ := keep_prefix h hf o h0 k0 hr
    rw [ht]
    have hx := hl.at' g _ h0 k0
    rw [List.getElem?_append_left (List.getElem?_eq_some_iff.mp hx).1]
    exact hx
  · -- a new grain of the family would come from `copy.copy`
    exfalso
    have hglt := lt_of_some hk
    have hnew : ∀ y : Nat, (k.grains ++ [y])[g]? = some f → y = f := by
      intro y hy
      rcases push_some hy with hy | ⟨_, rfl⟩
      · have := lt_of_some hy; rw [hf.grains] at this; omega
      · rfl
    have hu := hl.used
    have old : ¬ k.grains[g]? = some f := fun hy => by have := lt_of_some hy; rw [hf.grains] at this; omega
    cases o with
    | make p =>
      have := hnew _ hk
      omega
    | copy g0 =>
      simp only [Kin.next] at hk
      split at hk
      · have := hnew _ hk
        cases hg0 : k.grains[g0]? with
        | none =>
          rename_i hlt'
          simp only [EventLive.step, World.withGrain] at hlt'
          have : w.grains[g0]? = none := by
            rw [List.getElem?_eq_none_iff] at hg0 ⊢
            rw [← hf.grains]; exact hg0
          rw [this] at hlt'
          simp at hlt'
        | some y =>
          rw [hg0] at this
          simp only [Option.getD_some] at this
          subst this
          exact hr hg0
      · exact old hk
    | deepcopy g0 =>
      simp only [Kin.next] at hk
      split at hk
      · have := hnew _ hk
        omega
      · exact old hk
    | view g0 j =>
      simp only [Kin.next] at hk
      split at hk <;> exact old hk
    | _ => exact old hk

theorem Live.goOn {v f i x : Nat} : ∀ (os : List Op) (s : World × Kin), Ok s.1 → Fam s.1 s.2 → Live s.1 s.2 v f i x →
    Never (fun k o => Replaces f k o) s os → Live (goOn s os).1 (goOn s os).2 v f i x := by
  intro os
  induction os with
  | nil => intro s _ _ h _; exact h
  | cons o os ih =>
    rintro ⟨w, k⟩ h hf hl ⟨hn, hrest⟩
    have gd := good_step h hf o
    exact ih _ gd.ok gd.fam (hl.step h hf o hn) hrest

theorem goOn_frame {f : Nat} : ∀ (os : List Op) (s : World × Kin) (g : Nat), Ok s.1 → Fam s.1 s.2 → s.2.grains[g]? = some f →
    Never (fun k o => k.written o = some f) s os → (goOn s os).1.show g = s.1.show g ∧ (goOn s os).2.grains[g]? = some f := by
  intro os
  induction os with
  | nil => intro s g _ _ h _; exact ⟨rfl, h⟩
  | cons o os ih =>
    rintro ⟨w, k⟩ g h hf hg ⟨hn, hrest⟩
    have gd := good_step h hf o
    have := ih _ g gd.ok gd.fam (gd.kin g f hg) hrest
    exact ⟨this.1.trans (gd.frame g f hg hn), this.2⟩

/-- What is shown, and where it is. -/
theorem shown_at {w : World} (h : Ok w) {g : Nat} {p : Payload} (hs : w.show g = some p) :
    ∃ a d, w.grains[g]? = some a ∧ w.dicts[a]? = some d ∧ w.payload d = p ∧ p.type = d.type ∧ p.topic = d.topic ∧
      p.data = (itemsOf w a).map w.item := by
  unfold World.show World.dictOf at hs
  rw [Option.map_eq_some_iff] at hs
  obtain ⟨d, hd, rfl⟩ := hs
  rw [Option.bind_eq_some_iff] at hd
  obtain ⟨a, ha, hd⟩ := hd
  refine ⟨a, d, ha, hd, rfl, rfl, rfl, ?_⟩
  rw [itemsOf_some hd]
  rfl

end C90L

open C90L

/-! ## Theorems -/

/-- **C90.** Grains that are shallow copies of each other show the same payload, after any program; a grain shows some payload. -/
theorem C90_shared (os : List Op) (g h f : Nat) (hg : (eventsAfter os).2.grains[g]? = some f) (hh : (eventsAfter os).2.grains[h]? = some f) :
    (eventsAfter os).1.show g = (eventsAfter os).1.show h ∧ ((eventsAfter os).1.show g).isSome = true := by
  obtain ⟨ok, fam⟩ := after_good os
  have lg : g < (eventsAfter os).1.grains.length := by rw [← fam.grains]; exact lt_of_some hg
  have lh : h < (eventsAfter os).1.grains.length := by rw [← fam.grains]; exact lt_of_some hh
  have e1 : (eventsAfter os).1.grains[g]? = some _ := List.getElem?_eq_getElem lg
  have e2 : (eventsAfter os).1.grains[h]? = some _ := List.getElem?_eq_getElem lh
  have := (fam.same g h _ _ f f e1 e2 hg hh).mp rfl
  refine ⟨by rw [show_eq e1, show_eq e2, this], ?_⟩
  rw [show_eq e1]
  have hd := List.getElem?_eq_getElem (ok.grain g _ e1)
  rw [payloadAt_some hd]
  rfl

/-- **C90.** What a grain shows does not change as long as nothing is written to its family: not by anything done to grains that are not
shallow copies of it, or to their items, by making deep copies or by reading. -/
theorem C90_separate (os more : List Op) (g f : Nat) (hg : (eventsAfter os).2.grains[g]? = some f)
    (hq : Never (fun k o => k.written o = some f) (eventsAfter os) more) :
    (goOn (eventsAfter os) more).1.show g = (eventsAfter os).1.show g := by
  obtain ⟨ok, fam⟩ := after_good os
  exact (goOn_frame more _ g ok fam hg hq).1

/-- **C90.** Assignments and `append` on a grain do to the payload it shows what they do to the payload as a value. -/
theorem C90_values (os : List Op) (g : Nat) (p : Payload) (hp : (eventsAfter os).1.show g = some p) :
    (∀ v, (step (eventsAfter os).1 (.setType g v)).1.show g = some { p with type := v }) ∧
      (∀ v, (step (eventsAfter os).1 (.setTopic g v)).1.show g = some { p with topic := v }) ∧
      (∀ v, (step (eventsAfter os).1 (.setData g v)).1.show g = some (Event.setData p v).1 ∧
        (step (eventsAfter os).1 (.setData g v)).2 = (Event.setData p v).2) ∧
      (∀ ds, (step (eventsAfter os).1 (.setItems g ds)).1.show g = some { p with data := ds }) ∧
      (∀ path pre post, (step (eventsAfter os).1 (.append g path pre post)).1.show g = some (Event.append p path pre post)) ∧
      ∀ i, (step (eventsAfter os).1 (.view g i)).1.viewed (eventsAfter os).1.views.length = p.data[i]? := by
  obtain ⟨ok, -⟩ := after_good os
  generalize (eventsAfter os).1 = w at *
  obtain ⟨a, d, hg, hd, hw, ht, ho, hi⟩ := shown_at ok hp
  have hl := (List.getElem?_eq_some_iff.mp hd).1
  have keep : ∀ {w' : World}, Chg a w w' → w'.grains[g]? = some a := fun c => by rw [c.grains]; exact hg
  refine ⟨fun v => ?_, fun v => ?_, fun v => ?_, fun ds => ?_, fun path pre post => ?_, fun i => ?_⟩
  · simp only [step, World.withGrain, hg, hd]
    obtain ⟨_, c2, c3, _⟩ := head_facts (e' := { d with type := v }) ok hd rfl
    rw [show_eq (keep c2), c3, ← hi, ho]
  · simp only [step, World.withGrain, hg, hd]
    obtain ⟨_, c2, c3, _⟩ := head_facts (e' := { d with topic := v }) ok hd rfl
    rw [show_eq (keep c2), c3, ← hi, ht]
  · simp only [step, World.withGrain, hg, hd]
    obtain ⟨_, c2, c3, c4⟩ := assign_facts ok hd v
    rw [show_eq (keep c2), c3, c4, hw]
    exact ⟨rfl, rfl⟩
  · simp only [step, World.withGrain, hg, hd]
    obtain ⟨s1, s2⟩ := relist_self hl d.type d.topic
    obtain ⟨_, c2, _, c4⟩ := addItems_facts a ⟨d.type, d.topic, w.lists.length⟩ ds _ (relist_ok ok a d.type d.topic) s1
    rw [show_eq (keep ((relist_chg ok a d.type d.topic).trans c2)), c4, s2, ht, ho]
    simp
  · simp only [step, World.withGrain, hg, hd]
    rw [show_eq (keep (appendItem_chg ok hd _)), appendItem_payload ok hd, ← hi, ← ht, ← ho]
    rfl
  · simp only [step, World.withGrain, hg, hd]
    rw [hi, itemsOf_some hd, List.getElem?_map]
    cases hx : ((w.lists[d.items]?).getD [])[i]? with
    | none => simp [World.viewed]
    | some x => simp [World.viewed]; rfl

/-- The same type and topic, and items with the same path, `pre` and `post`, without other keys. -/
def SameEvent (r p : Payload) : Prop :=
  r.type = p.type ∧ r.topic = p.topic ∧ r.data.length = p.data.length ∧
    ∀ (i : Nat) (d e : Datum), p.data[i]? = some d → r.data[i]? = some e → SameEventItem e d ∧ PlainItem e

/-- **C90.** Copies of a grain whose items all have a path, with values that JSON can hold, can be made, and show the same: a shallow copy
belongs to the family of the grain, a deep copy to none that there was. A shallow copy may change what the grain shows: keys
of items other than `path`, `pre` and `post` are lost, in the grain and in the copy. Without such keys nothing changes. -/
theorem C90_copy_partial (os : List Op) (g : Nat) (p : Payload) (hp : (eventsAfter os).1.show g = some p) (hok : PayloadOk p) :
    let s := eventsAfter os
    let c := goOn s [.copy g]
    let d := goOn s [.deepcopy g]
    ∃ r, SameEvent r p ∧ ((∀ x ∈ p.data, PlainItem x) → r = p) ∧
      ((step s.1 (.copy g)).2 = .ok () ∧ c.1.show s.1.grains.length = some r ∧ c.1.show g = some r ∧
        c.2.grains[s.1.grains.length]? = s.2.grains[g]?) ∧
      ((step s.1 (.deepcopy g)).2 = .ok () ∧ d.1.show s.1.grains.length = some r ∧ d.1.show g = some p ∧
        ∀ h : Nat, h < s.1.grains.length → d.2.grains[h]? ≠ d.2.grains[s.1.grains.length]?) := by
  obtain ⟨ok, fam⟩ := after_good os
  generalize eventsAfter os = s at *
  obtain ⟨w, k⟩ := s
  simp only at hp ok fam ⊢
  obtain ⟨a, d, hg, hd, hw, _, _, _⟩ := shown_at ok hp
  obtain ⟨r, hr, r1, r2, r3, r4⟩ := C33_round_trip p p hok
  have hgl := lt_of_some hg
  refine ⟨r, ⟨r1, r2, r3, r4⟩, ?_, ?_, ?_⟩
  · intro hpl
    have := C33_round_trip_eq p p hok hpl
    rw [hr] at this
    injection this
  · obtain ⟨_, a2, a3, a4⟩ := assign_facts ok hd (.bytes (getData (w.payload d)))
    rw [hw, hr] at a3 a4
    have hkl : g < k.grains.length := by rw [fam.grains]; exact hgl
    have hk : k.grains[g]? = some k.grains[g] := List.getElem?_eq_getElem hkl
    simp only [goOn, step, World.withGrain, hg, hd, hw, Kin.next, hk]
    revert a2 a3 a4
    rw [hw]
    generalize assign w a (.bytes (getData p)) = q
    obtain ⟨w1, q⟩ := q
    intro a2 a3 a4
    simp only at a3 a4
    subst a4
    have g1 : w1.grains = w.grains := a2.grains
    simp only []
    refine ⟨trivial, ?_, ?_, ?_⟩
    · rw [show_eq (a := a) (by rw [← g1]; exact List.getElem?_concat_length ..)]
      exact a3
    · rw [show_push (by rw [g1]; exact hgl), show_eq (by rw [g1]; exact hg)]
      exact a3
    · rw [if_pos (by rw [g1]; simp), ← fam.grains]
      exact List.getElem?_concat_length ..
  · obtain ⟨n1, n2, n3, e, he⟩ := newDict_facts ok (w.payload d)
    obtain ⟨_, a2, a3, a4⟩ := assign_facts n1 he (.bytes (getData (w.payload d)))
    have hpe : (w.newDict (w.payload d)).payload e = p := by
      rw [payloadAt, he] at n3
      simp only [Option.map_some, Option.some.injEq] at n3
      rw [n3, hw]
    have ac := n2.trans a2
    rw [hpe] at a3 a4
    rw [hw] at a3 a4 ac
    rw [hr] at a3 a4
    simp only [goOn, step, World.withGrain, hg, hd, Kin.next]
    rw [hw]
    revert ac a3 a4
    generalize assign (w.newDict p) w.dicts.length (.bytes (getData p)) = q
    obtain ⟨w1, q⟩ := q
    intro a3 a4 ac
    simp only at a3 a4
    subst a4
    have g1 : w1.grains = w.grains := ac.grains
    simp only []
    refine ⟨trivial, ?_, ?_, ?_⟩
    · rw [show_eq (a := w.dicts.length) (by rw [← g1]; exact List.getElem?_concat_length ..)]
      exact a3
    · rw [show_push (by rw [g1]; exact hgl), ac.all ok (Nat.le_refl _), hp]
    · intro h hh
      rw [if_pos (by rw [g1]; simp), ← fam.grains, List.getElem?_concat_length]
      rw [← fam.grains] at hh
      rw [List.getElem?_append_left hh]
      intro e
      have := fam.fresh h _ e
      omega

/-- **C90.** What is read and written through an object that `event_data` gave is item `i` of the grain and of its shallow copies, until
the grain or one of these gets its items replaced: by assigning `data` or `event_data`, or by `copy.copy`. -/
theorem C90_view (os more : List Op) (g i f : Nat) (p : Payload) (hp : (eventsAfter os).1.show g = some p) (hi : i < p.data.length)
    (hf : (eventsAfter os).2.grains[g]? = some f)
    (hn : Never (fun k o => Replaces f k o) (goOn (eventsAfter os) [.view g i]) more) :
    let v := (eventsAfter os).1.views.length
    let s := goOn (eventsAfter os) (.view g i :: more)
    ∃ d, s.1.viewed v = some d ∧ ∀ (h : Nat) (q : Payload), s.2.grains[h]? = some f → s.1.show h = some q →
      q.data[i]? = some d ∧
        ∀ (c : Str) (x : J), (step s.1 (.setItem v c x)).1.show h = some { q with data := q.data.set i (dictSet d c x) } := by
  obtain ⟨ok, fam⟩ := after_good os
  generalize eventsAfter os = s0 at *
  obtain ⟨w, k⟩ := s0
  simp only at hp ok fam hf ⊢
  obtain ⟨a, d, hg, hd, hw, _, _, hdata⟩ := shown_at ok hp
  have hil : i < (itemsOf w a).length := by rw [hdata] at hi; simpa using hi
  have hx : (itemsOf w a)[i]? = some (itemsOf w a)[i] := List.getElem?_eq_getElem hil
  have hx' : ((w.lists[d.items]?).getD [])[i]? = some (itemsOf w a)[i] := by rw [← itemsOf_some hd]; exact hx
  have gd := good_step ok fam (.view g i)
  have hlive : Live (step w (.view g i)).1 (k.next w (step w (.view g i)).1 (.view g i)) w.views.length f i (itemsOf w a)[i] := by
    have e : (step w (.view g i)).1 = { w with views := w.views ++ [(itemsOf w a)[i]] } := by
      simp only [step, World.withGrain, hg, hd, hx']
    rw [e]
    have hkg : (k.next w { w with views := w.views ++ [(itemsOf w a)[i]] } (.view g i)).grains = k.grains := by
      simp only [Kin.next]
      split <;> rfl
    refine ⟨List.getElem?_concat_length .., ?_, ?_⟩
    · rw [hkg]
      exact fam.fresh g f hf
    · intro h b hb hkb
      rw [hkg] at hkb
      have := (fam.same g h a b f f hg hb hf hkb).mp rfl
      subst this
      exact hx
  have hl := Live.goOn more ((step w (.view g i)).1, k.next w (step w (.view g i)).1 (.view g i)) gd.ok gd.fam hlive hn
  obtain ⟨ok', fam'⟩ := goOn_good more ((step w (.view g i)).1, k.next w (step w (.view g i)).1 (.view g i)) gd.ok gd.fam
  have hs : goOn (w, k) (.view g i :: more) = goOn ((step w (.view g i)).1, k.next w (step w (.view g i)).1 (.view g i)) more := rfl
  rw [hs]
  generalize goOn ((step w (.view g i)).1, k.next w (step w (.view g i)).1 (.view g i)) more = s at *
  obtain ⟨w', k'⟩ := s
  simp only at hl ok' fam' ⊢
  generalize (itemsOf w a)[i] = x at *
  refine ⟨w'.item x, by rw [World.viewed, hl.view]; rfl, ?_⟩
  intro h q hh hq
  obtain ⟨b, e, hb, he, _, qt, qo, qd⟩ := shown_at ok' hq
  have hxb := hl.at' h b hb hh
  refine ⟨by rw [qd, List.getElem?_map, hxb]; rfl, ?_⟩
  intro c y
  simp only [step, World.withView, hl.view, World.change]
  rw [show_eq (w := { w' with items := w'.items.set x (dictSet (w'.item x) c y) }) hb,
    payloadAt_some (w := { w' with items := w'.items.set x (dictSet (w'.item x) c y) }) he]
  congr 2
  · exact qt.symm
  · exact qo.symm
  · rw [qd]
    have hnd : (itemsOf w' b).Nodup := by
      rw [itemsOf_some he]
      rw [List.getElem?_eq_getElem (ok'.list b e he)]
      exact ok'.once _ _ (List.getElem?_eq_getElem (ok'.list b e he))
    have hxl : x < w'.items.length := ok'.view _ _ hl.view
    refine List.ext_getElem? (fun j => ?_)
    rw [List.getElem?_map, List.getElem?_set, List.getElem?_map, List.length_map]
    show Option.map _ ((itemsOf w' b)[j]?) = _
    by_cases hij : i = j
    · subst hij
      rw [if_pos rfl, if_pos (List.getElem?_eq_some_iff.mp hxb).1, hxb]
      simp [World.item, hxl]
    · rw [if_neg hij]
      cases hy : (itemsOf w' b)[j]? with
      | none => rfl
      | some y' =>
        have hne : x ≠ y' := by
          rintro rfl
          have h1 := List.getElem?_eq_some_iff.mp hxb
          have h2 := List.getElem?_eq_some_iff.mp hy
          rcases Nat.lt_or_gt_of_ne hij with hlt | hlt
          · exact (List.pairwise_iff_getElem.mp hnd) i j h1.1 h2.1 hlt (h1.2.trans h2.2.symm)
          · exact (List.pairwise_iff_getElem.mp hnd) j i h2.1 h1.1 hlt (h2.2.trans h1.2.symm)
        simp [World.item, List.getElem?_set_ne hne]


/-! ## Examples and counterexamples -/

namespace C90

/-- The paths of the items that are shown, for values that are text. -/
def paths (p : Option Payload) : Option (List (Option Str)) :=
  p.map (fun p => p.data.map (fun d => match lookup d (lit "path") with | some (.str s) => some s | _ => none))

/-- The keys of the items that are shown. -/
def keys (p : Option Payload) : Option (List (List Str)) := p.map (fun p => p.data.map (fun d => d.map Prod.fst))

/-- The exception, if there is one. -/
def raised (r : Except EErr Unit) : Option EErr := match r with | .error e => some e | .ok _ => none

/-- A grain with two items, one of them with a value before. -/
def two : Payload := ⟨.str (lit "t"), .str (lit "o"), [[(lit "path", .str (lit "/a"))], [(lit "path", .str (lit "/b")), (lit "pre", .int 1)]]⟩

/-- A grain, a shallow copy, a deep copy, and a `DATA` object of the second item of the copy. -/
def some4 : List Op := [.make two, .copy 0, .deepcopy 1, .view 1 1]

end C90

open C90

/-- A case for all theorems: three grains of two families, and changes to the first family that the third grain does not show. -/
example : (eventsAfter some4).2.grains = [0, 0, 2] ∧ (eventsAfter some4).2.views = [0] ∧
    (let more : List Op := [.setItem 0 (lit "path") (.str (lit "/c")), .append 0 (.str (lit "/d")) .null (.int 2)];
      Never (fun k o => k.written o = some 2) (eventsAfter some4) more ∧ Never (fun k o => Replaces 0 k o) (eventsAfter some4) more ∧
        paths ((goOn (eventsAfter some4) more).1.show 0) = some [some (lit "/a"), some (lit "/c"), some (lit "/d")] ∧
        paths ((goOn (eventsAfter some4) more).1.show 1) = some [some (lit "/a"), some (lit "/c"), some (lit "/d")] ∧
        paths ((goOn (eventsAfter some4) more).1.show 2) = some [some (lit "/a"), some (lit "/b")]) := by
  refine ⟨by decide +kernel, by decide +kernel, ⟨by decide +kernel, by decide +kernel, trivial⟩, ⟨fun h => h, fun h => h, trivial⟩,
    by decide +kernel, by decide +kernel, by decide +kernel⟩

/-- The step raises nothing; afterwards the item of `DATA` object `v`, which was `d`, has the value `x` for the key `c` (or no such key), and for all other keys
what it had. -/
def ItemGets (w : World) (o : Op) (v : Nat) (d : Datum) (c : Str) (x : Option J) : Prop :=
  (step w o).2 = .ok () ∧ ∃ e, (step w o).1.viewed v = some e ∧ ∀ c' : Str, Event.lookup e c' = if c' = c then x else Event.lookup d c'

/-- The step raises `KeyError`, and nothing changes. -/
def ItemRefuses (w : World) (o : Op) : Prop := (step w o).2 = .error .key ∧ (step w o).1 = w

theorem C90L.lookup_set (d : Datum) (c : Str) (x : J) (c' : Str) : Event.lookup (dictSet d c x) c' = if c' = c then some x else Event.lookup d c' := by
  unfold Event.lookup
  induction d with
  | nil =>
    by_cases h : c' = c
    · simp [dictSet, h]
    · have h' : ¬ c = c' := fun e => h e.symm
      simp [dictSet, h, h']
  | cons q r ih =>
    obtain ⟨a, b⟩ := q
    rw [dictSet]
    by_cases h : a = c
    · rw [if_pos h]
      by_cases h2 : c' = c
      · simp [h2]
      · have h' : ¬ c = c' := fun e => h2 e.symm
        simp [h2, h, h', List.find?_cons]
    · rw [if_neg h]
      by_cases h3 : a = c'
      · have h4 : c' ≠ c := fun e => h (h3.trans e)
        simp [h3, h4]
      · simp only [List.find?_cons, h3, decide_false]
        exact ih

theorem C90L.lookup_erase (d : Datum) (c c' : Str) : Event.lookup (Event.erase d c) c' = if c' = c then none else Event.lookup d c' := by
  unfold Event.lookup Event.erase
  induction d with
  | nil => simp
  | cons q r ih =>
    obtain ⟨a, b⟩ := q
    rw [List.filter_cons]
    by_cases h : a = c
    · simp only [h, ne_eq, not_true_eq_false, decide_false, Bool.false_eq_true, if_false, ih]
      by_cases h2 : c' = c
      · simp [h2]
      · have h' : ¬ c = c' := fun e => h2 e.symm
        simp [h2, h', List.find?_cons]
    · simp only [ne_eq, h, not_false_eq_true, decide_true, if_true]
      by_cases h3 : a = c'
      · have h4 : c' ≠ c := fun e => h (h3.trans e)
        simp [h3, h4]
      · simp only [List.find?_cons, h3, decide_false]
        exact ih

/-- **C90.** What is done through a `DATA` object: assigning to a key, deleting one, and the setters of `pre` and `post`. Deleting a key that is not there raises
`KeyError`; so does assigning `None` to `pre` when there is none, but not to `post`. -/
theorem C90_items (os : List Op) (v : Nat) (d : Datum) (hd : (eventsAfter os).1.viewed v = some d) :
    let w := (eventsAfter os).1
    (∀ c x, ItemGets w (.setItem v c x) v d c (some x)) ∧
      (∀ c, if Event.lookup d c = none then ItemRefuses w (.delItem v c) else ItemGets w (.delItem v c) v d c none) ∧
      (∀ x, x ≠ .null → ItemGets w (.setPre v x) v d (Event.lit "pre") (some x) ∧ ItemGets w (.setPost v x) v d (Event.lit "post") (some x)) ∧
      (if Event.lookup d (Event.lit "pre") = none then ItemRefuses w (.setPre v .null) else ItemGets w (.setPre v .null) v d (Event.lit "pre") none) ∧
      ItemGets w (.setPost v .null) v d (Event.lit "post") none := by
  obtain ⟨ok, -⟩ := after_good os
  intro w
  change w.viewed v = some d at hd
  change Ok w at ok
  generalize w = w at *
  unfold World.viewed at hd
  cases hv : w.views[v]? with
  | none => rw [hv] at hd; cases hd
  | some x =>
    rw [hv] at hd
    have hx : w.item x = d := by simpa using hd
    have hl := ok.view v x hv
    have good : ∀ (o : Op) (f : Datum → Except EErr Datum), step w o = w.withView v f → ∀ e, f d = .ok e →
        (step w o).2 = .ok () ∧ (step w o).1.viewed v = some e := by
      intro o f h e he
      rw [h]
      simp only [World.withView, hv, World.change, hx, he, World.viewed, Option.map_some, true_and]
      simp [World.item, hl]
    have bad : ∀ (o : Op) (f : Datum → Except EErr Datum), step w o = w.withView v f → f d = .error .key → ItemRefuses w o := by
      intro o f h he
      unfold ItemRefuses
      rw [h]
      simp only [World.withView, hv, World.change, hx, he, and_self]
    have set : ∀ (o : Op) (f : Datum → Except EErr Datum) (c : Str) (y : J), step w o = w.withView v f → f d = .ok (dictSet d c y) →
        ItemGets w o v d c (some y) := fun o f c y h he =>
      ⟨(good o f h _ he).1, _, (good o f h _ he).2, fun c' => lookup_set d c y c'⟩
    have del : ∀ (o : Op) (f : Datum → Except EErr Datum) (c : Str), step w o = w.withView v f → f d = .ok (Event.erase d c) →
        ItemGets w o v d c none := fun o f c h he =>
      ⟨(good o f h _ he).1, _, (good o f h _ he).2, fun c' => lookup_erase d c c'⟩
    refine ⟨fun c y => set _ _ c y rfl rfl, fun c => ?_, fun y hy => ⟨set _ _ _ y rfl ?_, set _ _ _ y rfl ?_⟩, ?_, ?_⟩
    · split
      · rename_i h
        exact bad _ _ rfl (by simp [h])
      · rename_i h
        exact del _ _ c rfl (by rw [if_pos (Option.isSome_iff_ne_none.2 h)])
    · unfold Event.setPre
      cases y <;> first | exact absurd rfl hy | rfl
    · unfold Event.setPost
      cases y <;> first | exact absurd rfl hy | rfl
    · split
      · rename_i h
        exact bad _ _ rfl (by simp [Event.setPre, h])
      · rename_i h
        exact del _ _ _ rfl (by simp only [Event.setPre]; rw [if_pos (Option.isSome_iff_ne_none.2 h)])
    · by_cases h : Event.lookup d (Event.lit "post") = none
      · have he : Event.setPost d .null = .ok d := by simp [Event.setPost, h]
        obtain ⟨h1, h2⟩ := good (.setPost v .null) _ rfl d he
        refine ⟨h1, d, h2, fun c' => ?_⟩
        by_cases h3 : c' = Event.lit "post"
        · rw [if_pos h3, h3, h]
        · rw [if_neg h3]
      · exact del _ _ _ rfl (by simp only [Event.setPost]; rw [if_pos (Option.isSome_iff_ne_none.2 h)])

/-- The hypotheses of `C90_items`: the first item of a grain. -/
example : ((eventsAfter [.make two, .view 0 0]).1.viewed 0).map (fun d => d.map Prod.fst) = some [lit "path"] := by decide +kernel

/-- **C90 does not hold of `DATA` objects across `copy.copy`**: copying a grain gives the grain itself new items, so what is written through
an object that `event_data` gave before is lost. -/
theorem C90_detached_counterexample :
    let s := eventsAfter [.make two, .view 0 0, .copy 0, .setItem 0 (lit "path") (.str (lit "/c"))]
    paths (s.1.show 0) = some [some (lit "/a"), some (lit "/b")] ∧
      (s.1.viewed 0).map (fun d => d.map (fun q => match q.2 with | .str t => t | _ => [])) = some [lit "/c"] := by
  decide +kernel

/-- **C90 does not hold of items with other keys**: `copy.copy` removes them from the grain that is copied. -/
theorem C90_keys_counterexample :
    let os : List Op := [.make ⟨.null, .null, [[(lit "path", .null), (lit "note", .null)]]⟩]
    keys ((eventsAfter os).1.show 0) = some [[lit "path", lit "note"]] ∧
      keys ((eventsAfter (os ++ [.copy 0])).1.show 0) = some [[lit "path"]] := by
  decide +kernel

/-- **C90 does not hold of items without a path**: neither kind of copy can be made, both raise `KeyError`, and `copy.copy` has removed the items from
that one on from the grain by then. -/
theorem C90_path_counterexample :
    let os : List Op := [.make two, .view 0 0, .delItem 0 (lit "path")]
    keys ((eventsAfter os).1.show 0) = some [[], [lit "path", lit "pre"]] ∧
      raised (step (eventsAfter os).1 (.deepcopy 0)).2 = some .key ∧
      keys ((step (eventsAfter os).1 (.deepcopy 0)).1.show 0) = some [[], [lit "path", lit "pre"]] ∧
      raised (step (eventsAfter os).1 (.copy 0)).2 = some .key ∧
      keys ((step (eventsAfter os).1 (.copy 0)).1.show 0) = some [] := by
  decide +kernel

end Verif.Props

import Verif.Grain.Meta

/-!
# C27, C28: constructing grains from metadata
-/

namespace Verif.Props

open Verif Verif.Meta

/-! ## Specification: a value is kept, perhaps in another representation -/

inductive WMeans : W → W → Prop where
  | refl (w : W) : WMeans w w
  | enum (n : Int) : WMeans (.enum n) (.int n)

/-- Every entry of `d` is still there in `d'`. -/
def SubKept (d d' : Dict W) : Prop := ∀ k w, d k = some w → ∃ w', d' k = some w' ∧ WMeans w w'

inductive Means (lib : Lib) : V → V → Prop where
  | refl (v : V) : Means lib v v
  | uuid (u : Bytes) : Means lib (.uuid u) (.str (lib.uuidStr u))
  | ts (n : Int) : Means lib (.ts n) (.str (lib.tsStr n))
  | offset (n : Int) : Means lib (.offset n) (.str (lib.offsetStr n))
  | frac (q : Rat) (d : Dict W) (h1 : d "numerator" = some (.int q.num)) (h2 : d "denominator" = some (.int q.den)) :
      Means lib (.frac q) (.sub d)
  | sub (d d' : Dict W) (h : SubKept d d') : Means lib (.sub d) (.sub d')

/-- The `grain` dictionary, empty if there is none. -/
def grainOf (m : Meta) : Dict V := m.grain.getD (fun _ => none)

/-! ## Lemmas on dictionaries -/

section
variable {β : Type}

theorem put_same (d : Dict β) (k : String) (v : β) : put d k v k = some v := by simp [put]
theorem put_ne (d : Dict β) {k x : String} (v : β) (h : x ≠ k) : put d k v x = d x := by simp [put, h]

theorem put_id (d : Dict β) {k : String} {v : β} (h : d k = some v) : put d k v = d := by
  funext x
  by_cases hx : x = k
  · subst hx; rw [put_same, h]
  · rw [put_ne _ _ hx]

theorem dflt_of_some {d : Dict β} {k : String} {v w : β} (h : d k = some w) : dflt d k v = d := by
  unfold dflt; rw [h]

theorem dflt_of_isSome {d : Dict β} {k : String} {v : β} (h : (d k).isSome = true) : dflt d k v = d := by
  cases hk : d k with
  | none => rw [hk] at h; cases h
  | some w => exact dflt_of_some hk

theorem dflt_apply (d : Dict β) (k : String) (v : β) (x : String) :
    dflt d k v x = if x = k then some ((d k).getD v) else d x := by
  unfold dflt
  cases h : d k with
  | none => rfl
  | some w =>
    by_cases hx : x = k
    · subst hx; rw [if_pos rfl]; exact h
    · rw [if_neg hx]

theorem dflt_keeps (d : Dict β) (k : String) (v : β) {x : String} {w : β} (h : d x = some w) :
    dflt d k v x = some w := by
  rw [dflt_apply]
  by_cases hx : x = k
  · subst hx; rw [if_pos rfl, h]; rfl
  · rw [if_neg hx, h]

theorem conv_spec {k : String} {f : β → Except MErr β} {d d' : Dict β} (h : conv k f d = .ok d') :
    ∃ v v', d k = some v ∧ f v = .ok v' ∧ d' = put d k v' := by
  unfold conv at h
  cases hk : d k with
  | none => rw [hk] at h; cases h
  | some v =>
    rw [hk] at h
    simp only at h
    cases hf : f v with
    | error e => rw [hf] at h; cases h
    | ok v' =>
      rw [hf] at h
      injection h with h
      exact ⟨v, v', rfl, hf, h.symm⟩

/-- What several conversions of different entries do. -/
theorem convs_spec {l : List (String × (β → Except MErr β))} {d d' : Dict β} (hn : (l.map Prod.fst).Nodup)
    (h : convs l d = .ok d') :
    (∀ p ∈ l, ∃ v v', d p.1 = some v ∧ p.2 v = .ok v' ∧ d' p.1 = some v') ∧
      (∀ k, k ∉ l.map Prod.fst → d' k = d k) := by
  induction l generalizing d with
  | nil =>
    injection h with h
    subst h
    exact ⟨fun _ hp => (nomatch hp), fun _ _ => rfl⟩
  | cons p l ih =>
    obtain ⟨k, f⟩ := p
    rw [List.map_cons, List.nodup_cons] at hn
    rw [convs] at h
    cases hc : conv k f d with
    | error e => rw [hc] at h; cases h
    | ok d1 =>
      rw [hc] at h
      obtain ⟨v, v', h1, h2, h3⟩ := conv_spec hc
      have := ih hn.2 h
      refine ⟨fun p hp => ?_, fun x hx => ?_⟩
      · rcases List.mem_cons.1 hp with rfl | hp
        · refine ⟨v, v', h1, h2, ?_⟩
          rw [this.2 k hn.1, h3, put_same]
        · obtain ⟨a, b, ha, hb, hc⟩ := this.1 p hp
          refine ⟨a, b, ?_, hb, hc⟩
          rw [h3, put_ne] at ha
          · exact ha
          · intro he
            exact hn.1 (List.mem_map.2 ⟨p, hp, he⟩)
      · rw [List.map_cons, List.mem_cons, not_or] at hx
        rw [this.2 x hx.2, h3, put_ne _ _ hx.1]

/-- Conversions leave a dictionary alone that has nothing to convert. -/
theorem convs_id {l : List (String × (β → Except MErr β))} {d : Dict β}
    (h : ∀ p ∈ l, ∃ v, d p.1 = some v ∧ p.2 v = .ok v) : convs l d = .ok d := by
  induction l with
  | nil => rfl
  | cons p l ih =>
    obtain ⟨k, f⟩ := p
    obtain ⟨v, h1, h2⟩ := h (k, f) (List.mem_cons_self ..)
    simp only at h1 h2
    rw [convs]
    have : conv k f d = .ok d := by
      unfold conv
      rw [h1]
      simp only [h2]
      rw [put_id d h1]
    rw [this]
    exact ih (fun p hp => h p (List.mem_cons_of_mem _ hp))

end

/-! ## Lemmas on the conversions -/

theorem convUuid_idem {lib v v'} (h : convUuid lib v = .ok v') : convUuid lib v' = .ok v' := by
  cases v <;> simp only [convUuid, Except.ok.injEq] at h <;> subst h <;> rfl

theorem convTs_idem {lib v v'} (h : convTs lib v = .ok v') : convTs lib v' = .ok v' := by
  cases v <;> simp only [convTs, Except.ok.injEq, reduceCtorEq] at h <;> subst h <;> rfl

theorem convFrac_idem {v v'} (h : convFrac v = .ok v') : convFrac v' = .ok v' := by
  cases v <;> simp only [convFrac, Except.ok.injEq] at h <;> subst h <;> rfl

theorem convInt_idem {v v'} (h : convInt v = .ok v') : convInt v' = .ok v' := by
  cases v <;> simp only [convInt, Except.ok.injEq, reduceCtorEq] at h <;> subst h <;> rfl

theorem convUuid_means {lib v v'} (h : convUuid lib v = .ok v') : Means lib v v' := by
  cases v <;> simp only [convUuid, Except.ok.injEq] at h <;> subst h <;>
    first | exact .refl _ | exact .uuid _

theorem convTs_means {lib v v'} (h : convTs lib v = .ok v') : Means lib v v' := by
  cases v <;> simp only [convTs, Except.ok.injEq, reduceCtorEq] at h <;> subst h <;>
    first | exact .refl _ | exact .ts _ | exact .offset _

theorem convFrac_means {lib v v'} (h : convFrac v = .ok v') : Means lib v v' := by
  cases v <;> simp only [convFrac, Except.ok.injEq] at h <;> subst h <;>
    first | exact .refl _ | exact .frac _ _ rfl rfl

theorem convInt_means {v v'} (h : convInt v = .ok v') : WMeans v v' := by
  cases v <;> simp only [convInt, Except.ok.injEq, reduceCtorEq] at h <;> subst h <;>
    first | exact .refl _ | exact .enum _

theorem grainConvs_cases {lib p} (h : p ∈ grainConvs lib) (P : String → (V → Except MErr V) → Prop)
    (h1 : ∀ k, k ∈ ["source_id", "flow_id"] → P k (convUuid lib))
    (h2 : ∀ k, k ∈ ["origin_timestamp", "sync_timestamp", "creation_timestamp"] → P k (convTs lib))
    (h3 : ∀ k, k ∈ ["rate", "duration"] → P k convFrac) : P p.1 p.2 := by
  simp only [grainConvs, List.mem_cons, List.mem_nil_iff, or_false] at h
  rcases h with rfl | rfl | rfl | rfl | rfl | rfl | rfl
  · exact h1 _ (by simp)
  · exact h1 _ (by simp)
  · exact h2 _ (by simp)
  · exact h2 _ (by simp)
  · exact h2 _ (by simp)
  · exact h3 _ (by simp)
  · exact h3 _ (by simp)

def convKeys : List String :=
  ["source_id", "flow_id", "origin_timestamp", "sync_timestamp", "creation_timestamp", "rate", "duration"]

theorem grainConvs_keys (lib : Lib) : (grainConvs lib).map Prod.fst = convKeys := rfl
theorem convKeys_nodup : convKeys.Nodup := by decide

theorem conv_means {lib p v v'} (hp : p ∈ grainConvs lib) (h : p.2 v = .ok v') : Means lib v v' :=
  grainConvs_cases hp (fun _ f => f v = .ok v' → Means lib v v') (fun _ _ => convUuid_means) (fun _ _ => convTs_means)
    (fun _ _ => convFrac_means) h

theorem conv_idem {lib p v v'} (hp : p ∈ grainConvs lib) (h : p.2 v = .ok v') : p.2 v' = .ok v' :=
  grainConvs_cases hp (fun _ f => f v = .ok v' → f v' = .ok v') (fun _ _ => convUuid_idem) (fun _ _ => convTs_idem)
    (fun _ _ => convFrac_idem) h

/-! ## The filled dictionary -/

theorem fill_keeps (now : String) (d : Dict V) {k : String} {v : V} (h : d k = some v) : fillGrain now d k = some v := by
  unfold fillGrain
  exact dflt_keeps _ _ _ (dflt_keeps _ _ _ (dflt_keeps _ _ _ (dflt_keeps _ _ _ (dflt_keeps _ _ _
    (dflt_keeps _ _ _ (dflt_keeps _ _ _ (dflt_keeps _ _ _ h)))))))

theorem fill_other (now : String) (d : Dict V) {k : String} (h : k ∉ "grain_type" :: convKeys) :
    fillGrain now d k = d k := by
  simp only [convKeys, List.mem_cons, List.mem_nil_iff, or_false, not_or] at h
  simp only [fillGrain, dflt_apply, h, if_false]

theorem fill_creation (now : String) (d : Dict V) :
    fillGrain now d "creation_timestamp" = some ((d "creation_timestamp").getD (.str now)) := by
  simp [fillGrain, dflt_apply]

theorem fill_origin (now : String) (d : Dict V) :
    fillGrain now d "origin_timestamp" =
      some ((d "origin_timestamp").getD ((d "creation_timestamp").getD (.str now))) := by
  simp [fillGrain, dflt_apply, getD]

theorem fill_sync (now : String) (d : Dict V) :
    fillGrain now d "sync_timestamp" = some ((d "sync_timestamp").getD
      ((d "origin_timestamp").getD ((d "creation_timestamp").getD (.str now)))) := by
  simp [fillGrain, dflt_apply, getD]

theorem fill_type (now : String) (d : Dict V) :
    fillGrain now d "grain_type" = some ((d "grain_type").getD (.str "empty")) := by
  simp [fillGrain, dflt_apply]

theorem fill_id (now : String) (d : Dict V) (h : ∀ k ∈ "grain_type" :: convKeys, (d k).isSome = true) :
    fillGrain now d = d := by
  have hk := fun k hk => h k hk
  unfold fillGrain
  simp only [dflt_of_isSome (hk "grain_type" (by decide)), dflt_of_isSome (hk "creation_timestamp" (by decide)),
    dflt_of_isSome (hk "origin_timestamp" (by decide)), dflt_of_isSome (hk "sync_timestamp" (by decide)),
    dflt_of_isSome (hk "rate" (by decide)), dflt_of_isSome (hk "duration" (by decide)),
    dflt_of_isSome (hk "source_id" (by decide)), dflt_of_isSome (hk "flow_id" (by decide))]

/-! ## `Grain.__init__` -/

theorem grainInit_spec {lib now m m'} (h : grainInit lib now m = .ok m') :
    m' = ⟨dflt m.top "@_ns" (.str ns), some (grainOf m')⟩ ∧
      (∀ p ∈ grainConvs lib, ∃ v v', fillGrain now (grainOf m) p.1 = some v ∧ p.2 v = .ok v' ∧ grainOf m' p.1 = some v') ∧
      (∀ k, k ∉ convKeys → grainOf m' k = fillGrain now (grainOf m) k) := by
  unfold grainInit at h
  cases hc : convs (grainConvs lib) (fillGrain now (m.grain.getD (fun _ => none))) with
  | error e => rw [hc] at h; cases h
  | ok d =>
    rw [hc] at h
    injection h with h
    subst h
    have := convs_spec (by rw [grainConvs_keys]; exact convKeys_nodup) hc
    rw [grainConvs_keys] at this
    exact ⟨rfl, this.1, this.2⟩

/-- A dictionary with nothing left to do for `Grain.__init__`. -/
def GStable (lib : Lib) (d : Dict V) : Prop :=
  (∀ p ∈ grainConvs lib, ∃ v, d p.1 = some v ∧ p.2 v = .ok v) ∧ (d "grain_type").isSome = true

theorem grainInit_stable {lib now m m'} (h : grainInit lib now m = .ok m') : GStable lib (grainOf m') := by
  obtain ⟨_, h2, h3⟩ := grainInit_spec h
  refine ⟨fun p hp => ?_, ?_⟩
  · obtain ⟨v, v', _, h5, h6⟩ := h2 p hp
    exact ⟨v', h6, conv_idem hp h5⟩
  · rw [h3 "grain_type" (by decide), fill_type]; rfl

theorem stable_isSome {lib d} (h : GStable lib d) : ∀ k ∈ "grain_type" :: convKeys, (d k).isSome = true := by
  intro k hk
  rcases List.mem_cons.1 hk with rfl | hk
  · exact h.2
  · rw [← grainConvs_keys lib] at hk
    obtain ⟨p, hp, rfl⟩ := List.mem_map.1 hk
    obtain ⟨v, hv, _⟩ := h.1 p hp
    rw [hv]; rfl

theorem grainInit_id {lib now m} {d : Dict V} (hg : m.grain = some d) (ht : (m.top "@_ns").isSome = true)
    (hs : GStable lib d) : grainInit lib now m = .ok m := by
  unfold grainInit
  rw [hg]
  simp only [Option.getD_some]
  rw [fill_id now d (stable_isSome hs), convs_id hs.1]
  simp only
  rw [dflt_of_isSome ht, ← hg]

theorem grainInit_keeps {lib now m m'} (h : grainInit lib now m = .ok m') {k v} (hk : grainOf m k = some v) :
    ∃ v', grainOf m' k = some v' ∧ Means lib v v' := by
  obtain ⟨_, h2, h3⟩ := grainInit_spec h
  have hf := fill_keeps now (grainOf m) hk
  by_cases hc : k ∈ convKeys
  · rw [← grainConvs_keys lib] at hc
    obtain ⟨p, hp, rfl⟩ := List.mem_map.1 hc
    obtain ⟨a, b, h4, h5, h6⟩ := h2 p hp
    rw [hf] at h4
    injection h4 with h4
    subst h4
    exact ⟨b, h6, conv_means hp h5⟩
  · exact ⟨v, by rw [h3 k hc, hf], .refl v⟩

/-! ## Subclasses -/

theorem dflts_keeps (l : List (String × W)) (d : Dict W) {k w} (h : d k = some w) : dflts l d k = some w := by
  unfold dflts
  induction l generalizing d with
  | nil => exact h
  | cons p l ih => exact ih _ (dflt_keeps d p.1 p.2 h)

theorem dflts_some (l : List (String × W)) (d : Dict W) {k} (h : k ∈ l.map Prod.fst) : (dflts l d k).isSome = true := by
  unfold dflts
  induction l generalizing d with
  | nil => cases h
  | cons p l ih =>
    rw [List.foldl_cons]
    rw [List.map_cons, List.mem_cons] at h
    rcases h with rfl | h
    · have : (dflt d p.1 p.2) p.1 = some ((d p.1).getD p.2) := by rw [dflt_apply, if_pos rfl]
      have := dflts_keeps l _ this
      unfold dflts at this
      rw [this]; rfl
    · exact ih _ h

theorem dflts_id (l : List (String × W)) (d : Dict W) (h : ∀ k ∈ l.map Prod.fst, (d k).isSome = true) : dflts l d = d := by
  unfold dflts
  induction l with
  | nil => rfl
  | cons p l ih =>
    rw [List.foldl_cons, dflt_of_isSome (h p.1 (by simp))]
    exact ih (fun k hk => h k (by rw [List.map_cons]; exact List.mem_cons_of_mem _ hk))

theorem ints_keys (l : List String) : (l.map (fun k => (k, convInt))).map Prod.fst = l := by
  rw [List.map_map]
  conv => rhs; rw [← List.map_id l]
  rfl

/-- The sanity conditions met by the five tables. -/
structure SubSpec.Ok (s : SubSpec) : Prop where
  nodup : s.ints.Nodup
  key : s.key ∉ "grain_type" :: convKeys

theorem specOf_ok {c s} (h : specOf c = some s) : SubSpec.Ok s := by
  cases c <;> simp only [specOf, Option.some.injEq, reduceCtorEq] at h <;> subst h <;> constructor <;> decide

theorem subInit_spec {s : SubSpec} {d d' : Dict V} (hs : SubSpec.Ok s) (h : subInit s d = .ok d') :
    (∀ k, k ≠ "grain_type" → k ≠ s.key → d' k = d k) ∧ d' "grain_type" = some (.str s.name) ∧
      ∃ w w', ((d s.key).getD (.sub (dflts s.fresh (fun _ => none))) = .sub w) ∧ d' s.key = some (.sub w') ∧
        (∀ k ∈ s.ints, ∃ v v', dflts s.missing w k = some v ∧ convInt v = .ok v' ∧ w' k = some v') ∧
        (∀ k, k ∉ s.ints → w' k = dflts s.missing w k) := by
  have hkne : s.key ≠ "grain_type" := fun he => hs.key (by rw [he]; simp)
  unfold subInit at h
  simp only at h
  rw [dflt_apply, if_pos rfl, put_ne _ _ hkne] at h
  cases hv : (d s.key).getD (.sub (dflts s.fresh (fun _ => none))) with
  | sub w =>
    rw [hv] at h
    simp only at h
    cases hc : convs (s.ints.map (fun k => (k, convInt))) (dflts s.missing w) with
    | error e => rw [hc] at h; cases h
    | ok w' =>
      rw [hc] at h
      injection h with h
      subst h
      have hcs := convs_spec (by rw [ints_keys]; exact hs.nodup) hc
      rw [ints_keys] at hcs
      refine ⟨fun k h1 h2 => ?_, ?_, w, w', rfl, put_same _ _ _, fun k hk => ?_, hcs.2⟩
      · rw [put_ne _ _ h2, dflt_apply, if_neg h2, put_ne _ _ h1]
      · rw [put_ne _ _ (Ne.symm hkne), dflt_apply, if_neg (Ne.symm hkne), put_same]
      · exact hcs.1 (k, convInt) (List.mem_map.2 ⟨k, hk, rfl⟩)
  | str _ => rw [hv] at h; cases h
  | uuid _ => rw [hv] at h; cases h
  | ts _ => rw [hv] at h; cases h
  | offset _ => rw [hv] at h; cases h
  | frac _ => rw [hv] at h; cases h
  | other _ => rw [hv] at h; cases h

/-- A dictionary with nothing left to do for a subclass constructor. -/
def SStable (s : SubSpec) (d : Dict V) : Prop :=
  d "grain_type" = some (.str s.name) ∧ ∃ w, d s.key = some (.sub w) ∧ (∀ k ∈ s.missing.map Prod.fst, (w k).isSome = true) ∧
    ∀ k ∈ s.ints, ∃ v, w k = some v ∧ convInt v = .ok v

theorem subInit_stable {s : SubSpec} {d d' : Dict V} (hs : SubSpec.Ok s) (h : subInit s d = .ok d') : SStable s d' := by
  obtain ⟨_, h2, w, w', _, h4, h5, h6⟩ := subInit_spec hs h
  refine ⟨h2, w', h4, fun k hk => ?_, fun k hk => ?_⟩
  · by_cases hi : k ∈ s.ints
    · obtain ⟨v, v', _, _, h7⟩ := h5 k hi
      rw [h7]; rfl
    · rw [h6 k hi]; exact dflts_some _ _ hk
  · obtain ⟨v, v', _, h7, h8⟩ := h5 k hk
    exact ⟨v', h8, convInt_idem h7⟩

theorem subInit_id {s : SubSpec} {d : Dict V} (h : SStable s d) : subInit s d = .ok d := by
  obtain ⟨h1, w, h2, h3, h4⟩ := h
  unfold subInit
  simp only
  rw [put_id d h1, dflt_of_some h2, h2]
  simp only
  rw [dflts_id _ _ h3, convs_id (d := w)]
  · simp only
    rw [put_id d h2]
  · intro p hp
    obtain ⟨k, hk, rfl⟩ := List.mem_map.1 hp
    exact h4 k hk

theorem subInit_gstable {lib} {s : SubSpec} {d d' : Dict V} (hs : SubSpec.Ok s) (h : subInit s d = .ok d') (hg : GStable lib d) :
    GStable lib d' := by
  obtain ⟨h1, h2, _⟩ := subInit_spec hs h
  refine ⟨fun p hp => ?_, by rw [h2]; rfl⟩
  obtain ⟨v, h3, h4⟩ := hg.1 p hp
  have hk : p.1 ∈ convKeys := by rw [← grainConvs_keys lib]; exact List.mem_map.2 ⟨p, hp, rfl⟩
  refine ⟨v, ?_, h4⟩
  rw [h1 p.1, h3]
  · intro he; rw [he] at hk; exact absurd hk (by decide)
  · intro he; rw [he] at hk; exact hs.key (List.mem_cons_of_mem _ hk)

theorem subInit_keeps {lib} {s : SubSpec} {d d' : Dict V} (hs : SubSpec.Ok s) (h : subInit s d = .ok d') {k v}
    (hk : d k = some v) (hne : k ≠ "grain_type") : ∃ v', d' k = some v' ∧ Means lib v v' ∧ (v' = v ∨ k = s.key) := by
  obtain ⟨h1, _, w, w', h3, h4, h5, h6⟩ := subInit_spec hs h
  by_cases hkey : k = s.key
  · subst hkey
    rw [hk] at h3
    simp only [Option.getD_some] at h3
    subst h3
    refine ⟨.sub w', h4, .sub w w' (fun x y hxy => ?_), .inr rfl⟩
    have hd := dflts_keeps s.missing w hxy
    by_cases hi : x ∈ s.ints
    · obtain ⟨a, b, h7, h8, h9⟩ := h5 x hi
      rw [hd] at h7
      injection h7 with h7
      subst h7
      exact ⟨b, h9, convInt_means h8⟩
    · exact ⟨y, by rw [h6 x hi, hd], .refl y⟩
  · exact ⟨v, by rw [h1 k hne hkey, hk], .refl v, .inl rfl⟩

/-! ## `VideoGrain` before the call of the base class -/

theorem no_default_components :
    (Cog.componentsForFormat Cog.FrameFormat.UNKNOWN 1920 1080).map (fun _ => 0) = [] := by decide

/-- The components entry of a video grain's dictionary. -/
def HasComponents (d : Dict V) : Prop := ∃ w l, d "cog_frame" = some (.sub w) ∧ w "components" = some (.list l)

theorem videoPre_spec {m m'} (h : videoPre m = .ok m') :
    ∃ d d', m.grain = some d ∧ m'.grain = some d' ∧ m'.top = m.top ∧ (∀ k, k ≠ "cog_frame" → d' k = d k) ∧
      ((d "cog_frame" = none ∧ d' = d) ∨ ∃ w w', d "cog_frame" = some (.sub w) ∧ d' "cog_frame" = some (.sub w') ∧
        (∀ k x, w k = some x → w' k = some x) ∧ (∃ l, w' "components" = some (.list l)) ∧
        (∀ k, k ≠ "components" → w' k = w k)) := by
  unfold videoPre at h
  rw [no_default_components] at h
  cases hg : m.grain with
  | none => rw [hg] at h; cases h
  | some d =>
    rw [hg] at h
    simp only at h
    cases hc : d "cog_frame" with
    | none =>
      rw [hc] at h
      injection h with h
      subst h
      exact ⟨d, d, rfl, hg, rfl, fun _ _ => rfl, .inl ⟨hc, rfl⟩⟩
    | some v =>
      rw [hc] at h
      cases v with
      | sub w =>
        simp only at h
        have fin : ∀ (hw : w "components" = none ∨ w "components" = some (.list [])),
            Except.ok ({ m with grain := some (put d "cog_frame" (.sub (put w "components" (.list [])))) } : Meta) =
              (Except.ok m' : Except MErr Meta) → ∃ d0 d', some d = some d0 ∧ m'.grain = some d' ∧ m'.top = m.top ∧
              (∀ k, k ≠ "cog_frame" → d' k = d0 k) ∧
              ((d0 "cog_frame" = none ∧ d' = d0) ∨ ∃ w w', d0 "cog_frame" = some (.sub w) ∧ d' "cog_frame" = some (.sub w') ∧
                (∀ k x, w k = some x → w' k = some x) ∧ (∃ l, w' "components" = some (.list l)) ∧
                (∀ k, k ≠ "components" → w' k = w k)) := by
          intro hw h
          injection h with h
          subst h
          refine ⟨d, _, rfl, rfl, rfl, fun k hk => put_ne _ _ hk, .inr ⟨w, _, hc, put_same _ _ _, ?_, ⟨[], put_same _ _ _⟩,
            fun k hk => put_ne _ _ hk⟩⟩
          intro k x hx
          by_cases hk : k = "components"
          · subst hk
            rcases hw with hw | hw
            · rw [hw] at hx; cases hx
            · rw [put_same, ← hx, hw]
          · rw [put_ne _ _ hk, hx]
        cases hw : w "components" with
        | none => rw [hw] at h; exact fin (.inl hw) h
        | some x =>
          rw [hw] at h
          cases x with
          | list l =>
            simp only at h
            by_cases hl : l.length = 0
            · rw [if_pos hl] at h
              rw [List.length_eq_zero_iff] at hl
              subst hl
              exact fin (.inr hw) h
            · rw [if_neg hl] at h
              injection h with h
              subst h
              exact ⟨d, d, rfl, hg, rfl, fun _ _ => rfl, .inr ⟨w, w, hc, hc, fun _ _ h => h, ⟨l, hw⟩, fun _ _ => rfl⟩⟩
          | int _ => cases h
          | enum _ => cases h
          | str _ => cases h
          | other _ => cases h
      | str _ => cases h
      | uuid _ => cases h
      | ts _ => cases h
      | offset _ => cases h
      | frac _ => cases h
      | other _ => cases h

theorem videoPre_id {m} {d : Dict V} (hg : m.grain = some d) (h : HasComponents d) : videoPre m = .ok m := by
  obtain ⟨w, l, h1, h2⟩ := h
  unfold videoPre
  rw [no_default_components, hg]
  simp only [h1, h2]
  by_cases hl : l.length = 0
  · rw [if_pos hl]
    rw [List.length_eq_zero_iff] at hl
    subst hl
    rw [put_id w h2, put_id d h1, ← hg]
  · rw [if_neg hl]

/-! ## Whole constructors -/

/-- The three stages of a constructor. -/
theorem classInit_spec {lib now c m m'} (h : classInit lib now c m = .ok m') :
    ∃ m1 m2, (if c = .video then videoPre m else .ok m) = .ok m1 ∧ grainInit lib now m1 = .ok m2 ∧ m'.top = m2.top ∧
      m'.grain = some (grainOf m') ∧
      ((specOf c = none ∧ m' = m2) ∨ ∃ s, specOf c = some s ∧ subInit s (grainOf m2) = .ok (grainOf m')) := by
  unfold classInit at h
  cases h1 : (if c = .video then videoPre m else .ok m) with
  | error e => rw [h1] at h; cases h
  | ok m1 =>
    rw [h1] at h
    simp only at h
    cases h2 : grainInit lib now m1 with
    | error e => rw [h2] at h; cases h
    | ok m2 =>
      rw [h2] at h
      simp only at h
      have hm2 := (grainInit_spec h2).1
      cases h3 : specOf c with
      | none =>
        rw [h3] at h
        injection h with h
        subst h
        exact ⟨m1, m2, rfl, h2, rfl, congrArg Meta.grain hm2, .inl ⟨rfl, rfl⟩⟩
      | some s =>
        rw [h3] at h
        simp only at h
        cases h4 : subInit s (m2.grain.getD (fun _ => none)) with
        | error e => rw [h4] at h; cases h
        | ok d =>
          rw [h4] at h
          injection h with h
          subst h
          exact ⟨m1, m2, rfl, h2, rfl, rfl, .inr ⟨s, rfl, h4⟩⟩

theorem factory_spec {lib now m c m'} (h : factory lib now m = .ok (c, m')) :
    c = dispatch m ∧ classInit lib now c m = .ok m' := by
  unfold factory at h
  cases hc : classInit lib now (dispatch m) m with
  | error e => rw [hc] at h; cases h
  | ok x =>
    rw [hc] at h
    simp only [Except.map, Except.ok.injEq, Prod.mk.injEq] at h
    obtain ⟨rfl, rfl⟩ := h
    exact ⟨rfl, hc⟩

/-- The part before the base class: nothing is lost. -/
theorem pre_keeps {lib c m m1} (h : (if c = GClass.video then videoPre m else .ok m) = Except.ok m1) :
    m1.top = m.top ∧ (∀ k, k ≠ "cog_frame" → grainOf m1 k = grainOf m k) ∧
      (∀ k v, grainOf m k = some v → ∃ v', grainOf m1 k = some v' ∧ Means lib v v') := by
  by_cases hv : c = .video
  · rw [if_pos hv] at h
    obtain ⟨d, d', h1, h2, h3, h4, h5⟩ := videoPre_spec h
    have e1 : grainOf m = d := by unfold grainOf; rw [h1]; rfl
    have e2 : grainOf m1 = d' := by unfold grainOf; rw [h2]; rfl
    rw [e1, e2]
    refine ⟨h3, h4, fun k v hk => ?_⟩
    by_cases hc : k = "cog_frame"
    · subst hc
      rcases h5 with ⟨h6, _⟩ | ⟨w, w', h6, h7, h8, _⟩
      · rw [h6] at hk; cases hk
      · rw [h6] at hk
        injection hk with hk
        subst hk
        exact ⟨.sub w', h7, .sub w w' (fun x y hxy => ⟨y, h8 x y hxy, .refl y⟩)⟩
    · exact ⟨v, by rw [h4 k hc, hk], .refl v⟩
  · rw [if_neg hv] at h
    injection h with h
    subst h
    exact ⟨rfl, fun _ _ => rfl, fun k v hk => ⟨v, hk, .refl v⟩⟩

theorem wmeans_trans {a b c : W} (h1 : WMeans a b) (h2 : WMeans b c) : WMeans a c := by
  cases h1 with
  | refl => exact h2
  | enum n => cases h2; exact .enum n

theorem means_trans {lib} {a b c : V} (h1 : Means lib a b) (h2 : Means lib b c) : Means lib a c := by
  cases h1 with
  | refl => exact h2
  | uuid u => cases h2; exact .uuid u
  | ts u => cases h2; exact .ts u
  | offset u => cases h2; exact .offset u
  | frac q d e1 e2 =>
    cases h2 with
    | refl => exact .frac q d e1 e2
    | sub _ d' h =>
      obtain ⟨a, h3, h4⟩ := h _ _ e1
      obtain ⟨b, h5, h6⟩ := h _ _ e2
      cases h4
      cases h6
      exact .frac q d' h3 h5
  | sub d d' h =>
    cases h2 with
    | refl => exact .sub d d' h
    | sub _ d'' h' =>
      refine .sub d d'' (fun k w hk => ?_)
      obtain ⟨w', h3, h4⟩ := h k w hk
      obtain ⟨w'', h5, h6⟩ := h' k w' h3
      exact ⟨w'', h5, wmeans_trans h4 h6⟩

/-- **C27**, nothing is lost: whatever metadata a grain is made from, every entry of the dictionary that was
supplied is still there with the same meaning, and so is every entry inside its nested dictionaries. (For
`grain_type` see C28.) -/
theorem C27_keeps {lib now m c m'} (h : factory lib now m = .ok (c, m')) :
    (∀ k v, m.top k = some v → m'.top k = some v) ∧
      (∀ k v, grainOf m k = some v → k ≠ "grain_type" → ∃ v', grainOf m' k = some v' ∧ Means lib v v') := by
  obtain ⟨_, hc⟩ := factory_spec h
  obtain ⟨m1, m2, h1, h2, h3, h4, h5⟩ := classInit_spec hc
  have hp := pre_keeps (lib := lib) h1
  have hg := grainInit_spec h2
  refine ⟨fun k v hk => ?_, fun k v hk hne => ?_⟩
  · rw [h3, hg.1]
    simp only
    rw [hp.1]
    exact dflt_keeps _ _ _ hk
  · obtain ⟨v1, h6, h7⟩ := hp.2.2 k v hk
    obtain ⟨v2, h8, h9⟩ := grainInit_keeps h2 h6
    rcases h5 with ⟨_, rfl⟩ | ⟨s, hs, hsub⟩
    · exact ⟨v2, h8, means_trans h7 h9⟩
    · obtain ⟨v3, h10, h11, _⟩ := subInit_keeps (lib := lib) (specOf_ok hs) hsub h8 hne
      exact ⟨v3, h10, means_trans (means_trans h7 h9) h11⟩

/-- **C27**, only the documented entries are added: an entry that was missing and is none of the eight common
ones nor the one of the class stays missing. -/
theorem C27_adds_only {lib now m c m'} (h : factory lib now m = .ok (c, m')) (k : String) (hk : grainOf m k = none)
    (h1 : k ∉ ["grain_type", "source_id", "flow_id", "origin_timestamp", "sync_timestamp", "creation_timestamp", "rate",
      "duration"]) (h2 : ∀ s, specOf c = some s → k ≠ s.key) : grainOf m' k = none := by
  obtain ⟨_, hc⟩ := factory_spec h
  obtain ⟨m1, m2, e1, e2, e3, e4, e5⟩ := classInit_spec hc
  have hp := pre_keeps (lib := lib) e1
  have hg := grainInit_spec e2
  have hm1 : grainOf m1 k = none := by
    by_cases hcf : k = "cog_frame"
    · by_cases hv : c = .video
      · subst hv; exact absurd hcf (h2 videoSpec rfl)
      · rw [if_neg hv] at e1
        injection e1 with e1
        subst e1
        exact hk
    · rw [hp.2.1 k hcf, hk]
  have hm2 : grainOf m2 k = none := by
    rw [hg.2.2 k (fun hc => h1 (List.mem_cons_of_mem _ hc)), fill_other now _ h1, hm1]
  rcases e5 with ⟨_, rfl⟩ | ⟨s, hs, hsub⟩
  · exact hm2
  · rw [(subInit_spec (specOf_ok hs) hsub).1 k (fun he => h1 (by rw [he]; simp)) (h2 s hs), hm2]

/-- **C27**, fallbacks: a missing creation timestamp is the time of construction, a missing origin timestamp is
the creation timestamp and a missing sync timestamp is the origin timestamp. -/
theorem C27_timestamps {lib now m c m'} (h : factory lib now m = .ok (c, m')) :
    (grainOf m "creation_timestamp" = none → grainOf m' "creation_timestamp" = some (.str now)) ∧
      (grainOf m "origin_timestamp" = none → grainOf m' "origin_timestamp" = grainOf m' "creation_timestamp") ∧
      (grainOf m "sync_timestamp" = none → grainOf m' "sync_timestamp" = grainOf m' "origin_timestamp") := by
  obtain ⟨_, hc⟩ := factory_spec h
  obtain ⟨m1, m2, e1, e2, e3, e4, e5⟩ := classInit_spec hc
  have hp := pre_keeps (lib := lib) e1
  obtain ⟨_, hg, _⟩ := grainInit_spec e2
  have hsub : ∀ k, k ∈ convKeys → grainOf m' k = grainOf m2 k := by
    intro k hk
    rcases e5 with ⟨_, rfl⟩ | ⟨s, hs, hsub⟩
    · rfl
    · refine (subInit_spec (specOf_ok hs) hsub).1 k (fun he => ?_) (fun he => ?_)
      · rw [he] at hk; exact absurd hk (by decide)
      · rw [he] at hk; exact (specOf_ok hs).key (List.mem_cons_of_mem _ hk)
  rw [hsub _ (by decide), hsub _ (by decide), hsub _ (by decide)]
  obtain ⟨c1, c2, hc1, hc2, hc3⟩ := hg ("creation_timestamp", convTs lib) (by simp [grainConvs])
  obtain ⟨o1, o2, ho1, ho2, ho3⟩ := hg ("origin_timestamp", convTs lib) (by simp [grainConvs])
  obtain ⟨s1, s2, hs1, hs2, hs3⟩ := hg ("sync_timestamp", convTs lib) (by simp [grainConvs])
  simp only at hc1 hc2 hc3 ho1 ho2 ho3 hs1 hs2 hs3
  rw [fill_creation, hp.2.1 _ (by decide)] at hc1
  rw [fill_origin, hp.2.1 _ (by decide), hp.2.1 "creation_timestamp" (by decide)] at ho1
  rw [fill_sync, hp.2.1 _ (by decide), hp.2.1 "origin_timestamp" (by decide), hp.2.1 "creation_timestamp" (by decide)] at hs1
  rw [hc3, ho3, hs3]
  refine ⟨fun hn => ?_, fun hn => ?_, fun hn => ?_⟩
  · rw [hn] at hc1
    injection hc1 with hc1
    subst hc1
    exact congrArg some (by injection hc2 with hc2; exact hc2.symm)
  · rw [hn] at ho1
    simp only [Option.getD_none] at ho1
    rw [hc1] at ho1
    injection ho1 with ho1
    subst ho1
    rw [hc2] at ho2
    injection ho2 with ho2
    rw [ho2]
  · rw [hn] at hs1
    simp only [Option.getD_none] at hs1
    rw [ho1] at hs1
    injection hs1 with hs1
    subst hs1
    rw [ho2] at hs2
    injection hs2 with hs2
    rw [hs2]

/-- What a missing entry becomes. -/
theorem C27_defaults {lib now m c m'} (h : factory lib now m = .ok (c, m')) :
    (grainOf m "source_id" = none → grainOf m' "source_id" = some (.str zeroUuid)) ∧
      (grainOf m "flow_id" = none → grainOf m' "flow_id" = some (.str zeroUuid)) ∧
      (grainOf m "rate" = none → grainOf m' "rate" = some (.sub (fracDict 0))) ∧
      (grainOf m "duration" = none → grainOf m' "duration" = some (.sub (fracDict 0))) ∧
      (m.top "@_ns" = none → m'.top "@_ns" = some (.str ns)) := by
  obtain ⟨_, hc⟩ := factory_spec h
  obtain ⟨m1, m2, e1, e2, e3, e4, e5⟩ := classInit_spec hc
  have hp := pre_keeps (lib := lib) e1
  obtain ⟨htop, hg, _⟩ := grainInit_spec e2
  have hsub : ∀ k, k ∈ convKeys → grainOf m' k = grainOf m2 k := by
    intro k hk
    rcases e5 with ⟨_, rfl⟩ | ⟨s, hs, hsub⟩
    · rfl
    · refine (subInit_spec (specOf_ok hs) hsub).1 k (fun he => ?_) (fun he => ?_)
      · rw [he] at hk; exact absurd hk (by decide)
      · rw [he] at hk; exact (specOf_ok hs).key (List.mem_cons_of_mem _ hk)
  have aux : ∀ (k : String) (f : V → Except MErr V) (v : V), (k, f) ∈ grainConvs lib → k ∈ convKeys → k ≠ "cog_frame" →
      f v = .ok v → (∀ d : Dict V, d k = none → fillGrain now d k = some v) → grainOf m k = none → grainOf m' k = some v := by
    intro k f v h1 h2 h3 h4 h5 h6
    obtain ⟨a, b, h7, h8, h9⟩ := hg (k, f) h1
    simp only at h7 h8 h9
    rw [h5 _ (by rw [hp.2.1 k h3, h6])] at h7
    injection h7 with h7
    subst h7
    rw [h4] at h8
    injection h8 with h8
    rw [hsub k h2, h9, h8]
  refine ⟨aux _ (convUuid lib) _ (by simp [grainConvs]) (by decide) (by decide) rfl ?_,
    aux _ (convUuid lib) _ (by simp [grainConvs]) (by decide) (by decide) rfl ?_,
    aux _ convFrac _ (by simp [grainConvs]) (by decide) (by decide) rfl ?_,
    aux _ convFrac _ (by simp [grainConvs]) (by decide) (by decide) rfl ?_, fun hn => ?_⟩
  · intro d hd; simp [fillGrain, dflt_apply, hd]
  · intro d hd; simp [fillGrain, dflt_apply, hd]
  · intro d hd; simp [fillGrain, dflt_apply, hd]
  · intro d hd; simp [fillGrain, dflt_apply, hd]
  · rw [e3, htop]
    simp only
    rw [hp.1, dflt_apply, if_pos rfl, hn]
    rfl

/-- Specification: the dictionary of its own that a class keeps, and what is put in it for what is missing. -/
def ownKey : GClass → Option String
  | .grain => none
  | .video => some "cog_frame"
  | .audio => some "cog_audio"
  | .codedVideo => some "cog_coded_frame"
  | .codedAudio => some "cog_coded_audio"
  | .event => some "event_payload"

def ownDefaults : GClass → List (String × W)
  | .grain => []
  | .video => [("format", .int 0xfffffffe), ("width", .int 0), ("height", .int 0), ("layout", .int 0xfffffffe),
      ("extension", .int 0), ("components", .list [])]
  | .audio => [("format", .int 0xffffffff), ("samples", .int 0), ("channels", .int 0), ("sample_rate", .int 0)]
  | .codedVideo => [("format", .int 0xfffffffe), ("layout", .int 0xfffffffe), ("origin_width", .int 0), ("origin_height", .int 0),
      ("coded_width", .int 0), ("coded_height", .int 0), ("length", .int 0)]
  | .codedAudio => [("format", .int 0xffffffff), ("channels", .int 0), ("samples", .int 0), ("priming", .int 0),
      ("remainder", .int 0), ("sample_rate", .int 48000)]
  | .event => [("type", .str ""), ("topic", .str ""), ("data", .list [])]

theorem MetaInit.dflts_new {l : List (String × W)} (hn : (l.map Prod.fst).Nodup) {d : Dict W} {p : String × W} (hp : p ∈ l)
    (hd : d p.1 = none) : dflts l d p.1 = some p.2 := by
  unfold dflts
  induction l generalizing d with
  | nil => cases hp
  | cons a l ih =>
    rw [List.map_cons, List.nodup_cons] at hn
    rw [List.foldl_cons]
    rcases List.mem_cons.1 hp with rfl | hp
    · refine dflts_keeps l _ ?_
      rw [dflt_apply, if_pos rfl, hd]
      rfl
    · refine ih hn.2 hp ?_
      rw [dflt_apply, if_neg, hd]
      intro h
      exact hn.1 (h ▸ List.mem_map.2 ⟨p, hp, rfl⟩)

theorem MetaInit.own_spec {c key} (hk : ownKey c = some key) : ∃ s, specOf c = some s ∧ s.key = key ∧
    (∀ p ∈ ownDefaults c, dflts s.missing (dflts s.fresh (fun _ => none)) p.1 = some p.2) ∧
    (c ≠ .video → s.missing = ownDefaults c) ∧ ((ownDefaults c).map Prod.fst).Nodup ∧
    (∀ p ∈ ownDefaults c, p.1 ∈ s.ints → convInt p.2 = .ok p.2) := by
  cases c <;> simp only [ownKey, Option.some.injEq, reduceCtorEq] at hk <;> subst hk <;>
    refine ⟨_, rfl, rfl, by decide, by decide, by decide, ?_⟩ <;> intro p hp hi <;>
    simp only [ownDefaults, List.mem_cons, List.not_mem_nil, or_false] at hp <;>
    rcases hp with rfl | rfl | rfl | rfl | rfl | rfl | rfl <;> first | rfl | exact absurd hi (by decide)

/-- **C27**, the dictionary that the class of a grain keeps for itself: after construction it is there; when it was missing it
has the default entries, and when it was there its missing entries have been filled with them. (A video grain does not fill
single entries, see `C27_video_counterexample`.) -/
theorem C27_class_defaults {lib now m c m'} (h : factory lib now m = .ok (c, m')) (key : String) (hk : ownKey c = some key) :
    ∃ w', grainOf m' key = some (.sub w') ∧
      (grainOf m key = none → ∀ p ∈ ownDefaults c, w' p.1 = some p.2) ∧
      (∀ w, grainOf m key = some (.sub w) → c ≠ .video → ∀ p ∈ ownDefaults c, w p.1 = none → w' p.1 = some p.2) := by
  obtain ⟨_, hc⟩ := factory_spec h
  obtain ⟨m1, m2, e1, e2, _, _, e5⟩ := classInit_spec hc
  obtain ⟨s, hs, rfl, hd1, hd2, hn, hi⟩ := MetaInit.own_spec hk
  rcases e5 with ⟨hno, _⟩ | ⟨s', hs', hsub⟩
  · rw [hno] at hs; cases hs
  rw [hs] at hs'
  injection hs' with hs'
  subst hs'
  have hok := specOf_ok hs
  obtain ⟨_, _, w, w', hw, hw', h1, h2⟩ := subInit_spec hok hsub
  have hm2 : grainOf m2 s.key = grainOf m1 s.key := by
    obtain ⟨_, _, h3⟩ := grainInit_spec e2
    rw [h3 _ (fun hm => hok.key (List.mem_cons_of_mem _ hm)), fill_other _ _ hok.key]
  rw [hm2] at hw
  have fin : ∀ p ∈ ownDefaults c, dflts s.missing w p.1 = some p.2 → w' p.1 = some p.2 := by
    intro p hp hd
    by_cases hin : p.1 ∈ s.ints
    · obtain ⟨v, v', h3, h4, h5⟩ := h1 _ hin
      rw [hd] at h3
      injection h3 with h3
      subst h3
      rw [hi p hp hin] at h4
      injection h4 with h4
      rw [h5, h4]
    · rw [h2 _ hin, hd]
  refine ⟨w', hw', fun hnone p hp => fin p hp ?_, fun w0 hw0 hv p hp hp0 => fin p hp ?_⟩
  · have hm1 : grainOf m1 s.key = none := by
      by_cases hv : c = .video
      · rw [if_pos hv] at e1
        subst hv
        injection hs with hs
        subst hs
        obtain ⟨d, d', g1, g2, _, _, g5⟩ := videoPre_spec e1
        have a1 : grainOf m = d := by unfold grainOf; rw [g1]; rfl
        have a2 : grainOf m1 = d' := by unfold grainOf; rw [g2]; rfl
        rw [a1] at hnone
        rw [a2]
        rcases g5 with ⟨g6, rfl⟩ | ⟨w, w', g6, _⟩
        · exact g6
        · exact absurd (g6.symm.trans hnone) (by simp)
      · rw [if_neg hv] at e1
        injection e1 with e1
        rw [← e1]; exact hnone
    rw [hm1] at hw
    simp only [Option.getD_none, V.sub.injEq] at hw
    rw [← hw]
    exact hd1 p hp
  · rw [if_neg hv] at e1
    injection e1 with e1
    rw [← e1, hw0] at hw
    simp only [Option.getD_some, V.sub.injEq] at hw
    rw [← hw, hd2 hv]
    exact MetaInit.dflts_new hn hp hp0

/-- **C27**, one representation: whatever kinds of values were supplied, after construction the timestamps are text, the
identifiers are no `UUID` objects and the rates no `Fraction` objects. -/
theorem C27_plain {lib now m c m'} (h : factory lib now m = .ok (c, m')) :
    (∀ k ∈ ["origin_timestamp", "sync_timestamp", "creation_timestamp"], ∃ s, grainOf m' k = some (.str s)) ∧
      (∀ k ∈ ["source_id", "flow_id"], ∀ u, grainOf m' k ≠ some (.uuid u)) ∧
      (∀ k ∈ ["rate", "duration"], ∀ q, grainOf m' k ≠ some (.frac q)) := by
  obtain ⟨_, hc⟩ := factory_spec h
  obtain ⟨m1, m2, e1, e2, e3, e4, e5⟩ := classInit_spec hc
  obtain ⟨_, hg, _⟩ := grainInit_spec e2
  have hsub : ∀ k, k ∈ convKeys → grainOf m' k = grainOf m2 k := by
    intro k hk
    rcases e5 with ⟨_, rfl⟩ | ⟨s, hs, hsub⟩
    · rfl
    · refine (subInit_spec (specOf_ok hs) hsub).1 k (fun he => ?_) (fun he => ?_)
      · rw [he] at hk; exact absurd hk (by decide)
      · rw [he] at hk; exact (specOf_ok hs).key (List.mem_cons_of_mem _ hk)
  have ts : ∀ k, k ∈ convKeys → (k, convTs lib) ∈ grainConvs lib → ∃ s, grainOf m' k = some (.str s) := by
    intro k hk hp
    obtain ⟨v, v', _, h2, h3⟩ := hg _ hp
    rw [hsub k hk]
    cases v <;> simp only [convTs, Except.ok.injEq, reduceCtorEq] at h2 <;> subst h2 <;> exact ⟨_, h3⟩
  have uu : ∀ k, k ∈ convKeys → (k, convUuid lib) ∈ grainConvs lib → ∀ u, grainOf m' k ≠ some (.uuid u) := by
    intro k hk hp u hu
    obtain ⟨v, v', _, h2, h3⟩ := hg _ hp
    rw [hsub k hk] at hu
    have h4 : V.uuid u = v' := Option.some.inj (hu.symm.trans h3)
    subst h4
    cases v <;> simp [convUuid] at h2
  have fr : ∀ k, k ∈ convKeys → (k, convFrac) ∈ grainConvs lib → ∀ q, grainOf m' k ≠ some (.frac q) := by
    intro k hk hp q hq
    obtain ⟨v, v', _, h2, h3⟩ := hg _ hp
    rw [hsub k hk] at hq
    have h4 : V.frac q = v' := Option.some.inj (hq.symm.trans h3)
    subst h4
    cases v <;> simp [convFrac] at h2
  refine ⟨fun k hk => ?_, fun k hk => ?_, fun k hk => ?_⟩
  · refine ts k ?_ ?_ <;> revert k <;> simp [convKeys, grainConvs]
  · refine uu k ?_ ?_ <;> revert k <;> simp [convKeys, grainConvs]
  · refine fr k ?_ ?_ <;> revert k <;> simp [convKeys, grainConvs]

/-! ## C28 -/

/-- The class that the English property asks for. -/
def classFor (t : Option V) : GClass :=
  match t with
  | some (.str "video") => .video
  | some (.str "audio") => .audio
  | some (.str "coded_video") => .codedVideo
  | some (.str "coded_audio") => .codedAudio
  | some (.str "event") => .event
  | some (.str "data") => .event
  | _ => .grain

/-- **C28**, dispatch: for every metadata dictionary. -/
theorem C28_class (m : Meta) : dispatch m = classFor (grainOf m "grain_type") := by
  unfold dispatch grainOf
  cases m.grain with
  | none => rfl
  | some d =>
    simp only [Option.getD_some]
    cases d "grain_type" with
    | none => rfl
    | some v =>
      cases v with
      | str t =>
        by_cases h1 : t = "video"
        · subst h1; rfl
        by_cases h2 : t = "audio"
        · subst h2; rfl
        by_cases h3 : t = "coded_video"
        · subst h3; rfl
        by_cases h4 : t = "coded_audio"
        · subst h4; rfl
        by_cases h5 : t = "event"
        · subst h5; rfl
        by_cases h6 : t = "data"
        · subst h6; rfl
        simp [classFor, h1, h2, h3, h4, h5, h6]
      | _ => rfl

/-- The `grain_type` of a made grain. -/
theorem grain_type_of {lib now m c m'} (h : factory lib now m = .ok (c, m')) :
    grainOf m' "grain_type" = match specOf c with
      | some s => some (.str s.name)
      | none => some ((grainOf m "grain_type").getD (.str "empty")) := by
  obtain ⟨_, hc⟩ := factory_spec h
  obtain ⟨m1, m2, e1, e2, e3, e4, e5⟩ := classInit_spec hc
  rcases e5 with ⟨hn, rfl⟩ | ⟨s, hs, hsub⟩
  · rw [hn]
    simp only
    have hp := pre_keeps (lib := lib) e1
    rw [(grainInit_spec e2).2.2 _ (by decide), fill_type, hp.2.1 _ (by decide)]
  · rw [hs]
    exact (subInit_spec (specOf_ok hs) hsub).2.1

def className : GClass → String
  | .grain => "empty" | .video => "video" | .audio => "audio" | .codedVideo => "coded_video"
  | .codedAudio => "coded_audio" | .event => "event"

/-- **C28**, agreement: if the type that was asked for is one of the known ones, or `empty`, or missing, the
grain's `grain_type` is the one of its class.  (`data` is another name for `event` and does not survive.) -/
theorem C28_type_agrees_partial {lib now m c m'} (h : factory lib now m = .ok (c, m'))
    (hk : c ≠ .grain ∨ grainOf m "grain_type" = none ∨ grainOf m "grain_type" = some (.str "empty")) :
    grainOf m' "grain_type" = some (.str (className c)) := by
  have := grain_type_of h
  cases c with
  | grain =>
    rcases hk with hk | hk | hk
    · exact absurd rfl hk
    · rw [hk] at this; exact this
    · rw [hk] at this; exact this
  | video => exact this
  | audio => exact this
  | codedVideo => exact this
  | codedAudio => exact this
  | event => exact this

/-- **C27**, stability: making a grain again from the metadata of a grain changes nothing, at any later time. -/
theorem C27_stable {lib now m c m'} (h : factory lib now m = .ok (c, m')) (later : String) :
    factory lib later m' = .ok (c, m') := by
  obtain ⟨hd, hc⟩ := factory_spec h
  obtain ⟨m1, m2, e1, e2, e3, e4, e5⟩ := classInit_spec hc
  have ht := grain_type_of h
  have hdisp : dispatch m' = c := by
    rw [C28_class, ht]
    cases c with
    | grain =>
      simp only [specOf]
      rw [C28_class] at hd
      cases hg : grainOf m "grain_type" with
      | none => rfl
      | some v => rw [hg] at hd; exact hd.symm
    | video => rfl
    | audio => rfl
    | codedVideo => rfl
    | codedAudio => rfl
    | event => rfl
  have hgs : GStable lib (grainOf m') := by
    have h2 := grainInit_stable e2
    rcases e5 with ⟨_, rfl⟩ | ⟨s, hs, hsub⟩
    · exact h2
    · exact subInit_gstable (specOf_ok hs) hsub h2
  have htop : (m'.top "@_ns").isSome = true := by
    rw [e3, (grainInit_spec e2).1]
    simp only
    rw [dflt_apply, if_pos rfl]; rfl
  have hpre : (if c = .video then videoPre m' else .ok m') = Except.ok m' := by
    by_cases hv : c = .video
    · rw [if_pos hv]
      refine videoPre_id e4 ?_
      subst hv
      rw [if_pos rfl] at e1
      rcases e5 with ⟨hn, _⟩ | ⟨s, hs, hsub⟩
      · cases hn
      · injection hs with hs
        subst hs
        obtain ⟨d, d', h1, h2, h3, h4, h5⟩ := videoPre_spec e1
        have hm1 : grainOf m1 = d' := by unfold grainOf; rw [h2]; rfl
        have hcf : grainOf m2 "cog_frame" = d' "cog_frame" := by
          rw [(grainInit_spec e2).2.2 _ (by decide), fill_other _ _ (by decide), hm1]
        obtain ⟨_, _, w, w', s3, s4, s5, s6⟩ := subInit_spec (specOf_ok (c := .video) rfl) hsub
        have hwc : ∃ l, w "components" = some (.list l) := by
          have s3' : (grainOf m2 "cog_frame").getD (.sub (dflts videoSpec.fresh (fun _ => none))) = .sub w := s3
          rw [hcf] at s3'
          rcases h5 with ⟨h6, rfl⟩ | ⟨a, b, h6, h7, h8, ⟨l, h9⟩, _⟩
          · rw [h6] at s3'
            simp only [Option.getD_none] at s3'
            injection s3' with s3'
            exact ⟨[], by rw [← s3']; rfl⟩
          · rw [h7] at s3'
            simp only [Option.getD_some] at s3'
            injection s3' with s3'
            exact ⟨l, by rw [← s3']; exact h9⟩
        obtain ⟨l, hl⟩ := hwc
        exact ⟨w', l, s4, by rw [s6 "components" (by decide)]; exact dflts_keeps _ _ hl⟩
    · rw [if_neg hv]
  have hcls : classInit lib later c m' = .ok m' := by
    unfold classInit
    rw [hpre]
    simp only
    rw [grainInit_id e4 htop hgs]
    simp only
    rcases e5 with ⟨hn, _⟩ | ⟨s, hs, hsub⟩
    · rw [hn]
    · rw [hs]
      simp only
      have he : m'.grain.getD (fun _ => none) = grainOf m' := rfl
      rw [he, subInit_id (subInit_stable (specOf_ok hs) hsub)]
      simp only
      rw [← e4]
  unfold factory
  rw [hdisp, hcls]
  rfl

/-! ## Examples and counterexamples -/

/-- A library that shows values as fixed text. -/
def sampleLib : Lib := ⟨fun _ => "id", fun n => "t" ++ toString n, fun n => "o" ++ toString n⟩

def dictOf {β : Type} (l : List (String × β)) : Dict β := fun k => (l.find? (fun p => p.1 == k)).map Prod.snd

def keysOf (m : Meta) (ks : List String) : List (Option String) :=
  ks.map (fun k => match grainOf m k with | some (.str s) => some s | _ => none)

/-- An audio grain with an origin timestamp, an identifier object and one field of its own. -/
def audioMeta : Meta :=
  ⟨fun _ => none, some (dictOf [("grain_type", .str "audio"), ("origin_timestamp", .ts 7), ("source_id", .uuid []),
    ("extra", .str "x"), ("cog_audio", .sub (dictOf [("format", .enum 2), ("mine", .int 1)]))])⟩

example : (factory sampleLib "now" audioMeta).toOption.map (fun r => (r.1, keysOf r.2 ["grain_type", "origin_timestamp",
      "sync_timestamp", "creation_timestamp", "source_id", "flow_id", "extra", "other"])) =
    some (.audio, [some "audio", some "t7", some "t7", some "now", some "id", some zeroUuid, some "x", none]) := by
  decide +kernel

/-- What a coded audio grain with only a number of channels of its own has after construction. -/
example : (factory sampleLib "now" ⟨fun _ => none, some (dictOf [("grain_type", .str "coded_audio"),
      ("cog_coded_audio", .sub (dictOf [("channels", .int 2)]))])⟩).toOption.map (fun r => match grainOf r.2 "cog_coded_audio" with
        | some (.sub w) => ["format", "channels", "sample_rate"].map w | _ => []) =
    some [some (.int 0xffffffff), some (.int 2), some (.int 48000)] := by decide +kernel

/-- **C28 fails** for an unknown type: a plain grain keeps it, so its type is not the one of its class. -/
theorem C28_unknown_counterexample :
    (factory sampleLib "now" ⟨fun _ => none, some (dictOf [("grain_type", .str "subtitle")])⟩).toOption.map
      (fun r => (r.1, keysOf r.2 ["grain_type"])) = some (.grain, [some "subtitle"]) := by decide +kernel

/-- **C27 fails** for the type `data`, which is replaced by `event`. -/
theorem C27_data_counterexample :
    (factory sampleLib "now" ⟨fun _ => none, some (dictOf [("grain_type", .str "data")])⟩).toOption.map
      (fun r => (r.1, keysOf r.2 ["grain_type"])) = some (.event, [some "event"]) := by decide +kernel

/-- **C27 fails** for a video grain whose `cog_frame` has no format: the other classes fill it in, here the
constructor raises `KeyError`. -/
theorem C27_video_counterexample :
    (match factory sampleLib "now" ⟨fun _ => none, some (dictOf [("grain_type", .str "video"),
        ("cog_frame", .sub (dictOf [("width", .int 16)]))])⟩ with | .error e => some e | .ok _ => none) = some .key ∧
    ((factory sampleLib "now" ⟨fun _ => none, some (dictOf [("grain_type", .str "coded_video"),
        ("cog_coded_frame", .sub (dictOf [("coded_width", .int 16)]))])⟩).toOption).isSome = true := by
  decide +kernel

/-- A grain made without metadata: the identifiers are required, the timestamps fall back in the same way. -/
theorem C27_new (lib : Lib) (nowNs : Int) (src flow : Bytes) (origin sync creation : Option Int) (rate duration : Rat) (now : String) :
    ∃ m, factoryNew lib nowNs (some src) (some flow) origin sync creation rate duration = .ok m ∧
      grainOf m "creation_timestamp" = some (.str (lib.tsStr (creation.getD nowNs))) ∧
      grainOf m "origin_timestamp" = some (.str (lib.tsStr (origin.getD (creation.getD nowNs)))) ∧
      grainOf m "sync_timestamp" = some (.str (lib.tsStr (sync.getD (origin.getD (creation.getD nowNs))))) ∧
      factory lib now m = .ok (.grain, m) := by
  refine ⟨_, rfl, rfl, rfl, rfl, ?_⟩
  have hd : ∀ m : Meta, grainOf m "grain_type" = some (.str "empty") → dispatch m = .grain := by
    intro m hm; rw [C28_class, hm]; rfl
  unfold factory
  rw [hd _ rfl]
  unfold classInit
  rw [if_neg (by decide)]
  simp only
  rw [grainInit_id rfl rfl ⟨?_, rfl⟩]
  · rfl
  · intro p hp
    refine grainConvs_cases hp (fun k f => ∃ v, (_ : Dict V) k = some v ∧ f v = .ok v)
      (fun k hk => by
        simp only [List.mem_cons, List.mem_nil_iff, or_false] at hk
        rcases hk with rfl | rfl
        · exact ⟨_, rfl, rfl⟩
        · exact ⟨_, rfl, rfl⟩)
      (fun k hk => by
        simp only [List.mem_cons, List.mem_nil_iff, or_false] at hk
        rcases hk with rfl | rfl | rfl
        · exact ⟨_, rfl, rfl⟩
        · exact ⟨_, rfl, rfl⟩
        · exact ⟨_, rfl, rfl⟩)
      (fun k hk => by
        simp only [List.mem_cons, List.mem_nil_iff, or_false] at hk
        rcases hk with rfl | rfl
        · exact ⟨_, rfl, rfl⟩
        · exact ⟨_, rfl, rfl⟩)

end Verif.Props

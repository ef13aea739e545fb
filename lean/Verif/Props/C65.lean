import Verif.Hypothesis.Strategies
import Verif.Props.C64
import Verif.Props.C42

/-!
# C65: drawn grains are as asked for
-/

namespace Verif.Hyp

open Verif.Attrs Verif.New
open Verif.Meta (Dict GClass)

/-! ## Specification -/

/-- What was asked for: the argument, or the documented default. -/
def want (given : List (String × Param)) (k : String) : Param :=
  match given.lookup k with
  | some p => p
  | none => if k ∈ ["rate", "duration", "priming", "remainder"] then .donotset else .none

/-- The documented range of the default strategies. -/
def Documented (c : GClass) (k : String) (v : A) : Prop :=
  match k with
  | "src_id" => IsId v
  | "flow_id" => IsId v
  | "origin_timestamp" => ∃ n : Int, 0 ≤ n ∧ v = .ts n
  | "sync_timestamp" => ∃ n : Int, 0 ≤ n ∧ v = .ts n
  | "creation_timestamp" => ∃ n : Int, 0 ≤ n ∧ v = .ts n
  | "rate" => ∃ q : Rat, 0 ≤ q ∧ v = .frac q
  | "duration" => ∃ q : Rat, 0 ≤ q ∧ v = .frac q
  | "format" =>
    match c with
    | .audio => ∃ n ∈ Cog.AudioFormat.all, v = .enum (n : Nat) ∧ Cog.audioIsCompressed n = false ∧
        n ≠ Cog.AudioFormat.UNKNOWN ∧ n ≠ Cog.AudioFormat.INVALID
    | .codedAudio => ∃ n ∈ Cog.AudioFormat.all, v = .enum (n : Nat) ∧ Cog.audioIsCompressed n = true
    | .video => ∃ n ∈ Cog.FrameFormat.all, v = .enum (n : Nat) ∧ Cog.isCompressed n = false ∧
        n ≠ Cog.FrameFormat.UNKNOWN ∧ n ≠ Cog.FrameFormat.INVALID
    | _ => ∃ n ∈ Cog.FrameFormat.all, v = .enum (n : Nat) ∧ Cog.isCompressed n = true
  | "samples" => ∃ n : Nat, 1 ≤ n ∧ v = .int n
  | "channels" => ∃ n : Nat, 1 ≤ n ∧ v = .int n
  | "sample_rate" => v = .int 48000 ∨ v = .int 44100
  | "width" => v = .int 240
  | "height" => v = .int 135
  | "coded_width" => v = .int 240
  | "coded_height" => v = .int 135
  | "origin_width" => v = .int 240
  | "origin_height" => v = .int 135
  | "cog_frame_layout" => ∃ n ∈ Cog.FrameLayout.all, v = .enum (n : Nat) ∧ n ≠ Cog.FrameLayout.UNKNOWN
  | "is_key_frame" => ∃ b, v = .bool b
  | "temporal_offset" => ∃ n : Nat, v = .int n
  | "event_type" => IsStr v
  | "topic" => IsStr v
  | "priming" => IsNat v
  | "remainder" => IsNat v
  | _ => True

/-- The value of an attribute that is not to be set. -/
def unset (c : GClass) (now : Int) (vals : String → A) (k : String) : A :=
  match k with
  | "creation_timestamp" => .ts now
  | "origin_timestamp" => vals "creation_timestamp"
  | "sync_timestamp" => vals "origin_timestamp"
  | "rate" => if c = .grain then .frac 0 else .frac 25
  | "duration" => if c = .grain then .frac 0 else .frac (1 / 25)
  | "coded_width" => vals "origin_width"
  | "coded_height" => vals "origin_height"
  | k => default c k

/-- The attributes `vals` of a grain are as asked for. -/
def Asked (c : GClass) (now : Int) (vals : String → A) (k : String) : Param → Prop
  | .none => Documented c k (vals k)
  | .strategy s => s (vals k)
  | .value v => vals k = v
  | .donotset => vals k = unset c now vals k

/-- A value of the type of the parameter. -/
def Good (k : String) (v : A) : Prop := Fits k v ∧ v ≠ .none

/-- Reasonable arguments: values and strategies for values of the type of the parameter; identifiers are not left unset, and of event
grains nothing but rate and duration. -/
structure Suits (c : GClass) (given : List (String × Param)) : Prop where
  known : ∀ p ∈ given, p.1 ∈ (parameters c).map Prod.fst
  value : ∀ k v, want given k = .value v → Good k v
  strategy : ∀ k s, want given k = .strategy s → ∀ v, s v → Good k v
  ids : ∀ k ∈ ["src_id", "flow_id"], want given k ≠ .donotset
  event : c = .event → ∀ k, k ≠ "rate" → k ≠ "duration" → want given k ≠ .donotset

/-- The arguments that are lost on the way are not used. -/
def NotLost (c : GClass) (given : List (String × Param)) : Prop :=
  want given "format" = .none ∧ (c = .codedAudio → want given "creation_timestamp" = .none)

/-! ## Lemmas -/

/-- The strategy for a parameter. -/
def stratOf (c : GClass) (kw : String → Option Param) (k : String) : Option Strategy :=
  match kw k with
  | some .donotset => none
  | some (.strategy s) => some s
  | some (.value v) => some (just v)
  | _ => strategyFor c k

def Unset (kw : String → Option Param) (k : String) : Prop := kw k = some .donotset

theorem grainStrategy_ok (c : GClass) (kw : String → Option Param) (ks : List String)
    (h : ∀ k ∈ ks, ¬ Unset kw k → (stratOf c kw k).isSome) : ∃ l, grainStrategy c kw ks = .ok l := by
  induction ks with
  | nil => exact ⟨_, rfl⟩
  | cons k ks ih =>
    obtain ⟨l, hl⟩ := ih (fun k hk => h k (by simp [hk]))
    have hk := h k (by simp)
    unfold grainStrategy
    rw [hl]
    unfold Unset stratOf at hk
    cases hp : kw k with
    | none =>
      simp only [hp] at hk ⊢
      cases hs : strategyFor c k with
      | none => simp [hs] at hk
      | some s => exact ⟨_, rfl⟩
    | some p =>
      cases p with
      | none =>
        simp only [hp] at hk ⊢
        cases hs : strategyFor c k with
        | none => simp [hs] at hk
        | some s => exact ⟨_, rfl⟩
      | donotset => exact ⟨_, rfl⟩
      | strategy s => exact ⟨_, rfl⟩
      | value v => exact ⟨_, rfl⟩

/-- What is drawn. -/
theorem draw_lookup (c : GClass) (kw : String → Option Param) (ks : List String) (hn : ks.Nodup) (l : List (String × Strategy))
    (hl : grainStrategy c kw ks = .ok l) (args : Args) (hd : Draw l args) :
    (∀ p ∈ args, p.1 ∈ ks) ∧ (∀ k, k ∉ ks → args.lookup k = none) ∧
      ∀ k ∈ ks, (Unset kw k ∧ args.lookup k = none) ∨
        (¬ Unset kw k ∧ ∃ s v, stratOf c kw k = some s ∧ args.lookup k = some v ∧ s v) := by
  induction ks generalizing l args with
  | nil =>
    cases hl
    cases args with
    | nil => simp
    | cons p ps => exact hd.elim
  | cons k ks ih =>
    obtain ⟨hk, hn⟩ := List.nodup_cons.1 hn
    unfold grainStrategy at hl
    cases hr : grainStrategy c kw ks with
    | error e => rw [hr] at hl; cases hl
    | ok rest =>
      rw [hr] at hl
      simp only [] at hl
      have step : (l = rest ∧ Unset kw k) ∨ (¬ Unset kw k ∧ ∃ s, stratOf c kw k = some s ∧ l = (k, s) :: rest) := by
        unfold stratOf Unset
        cases hp : kw k with
        | none =>
          simp only [hp] at hl
          cases hs : strategyFor c k with
          | none => rw [hs] at hl; cases hl
          | some s => rw [hs] at hl; cases hl; exact .inr ⟨by simp, s, rfl, rfl⟩
        | some p =>
          cases p with
          | none =>
            simp only [hp] at hl
            cases hs : strategyFor c k with
            | none => rw [hs] at hl; cases hl
            | some s => rw [hs] at hl; cases hl; exact .inr ⟨by simp, s, rfl, rfl⟩
          | donotset => simp only [hp] at hl; cases hl; exact .inl ⟨rfl, rfl⟩
          | strategy s => simp only [hp] at hl; cases hl; exact .inr ⟨by simp, _, rfl, rfl⟩
          | value v => simp only [hp] at hl; cases hl; exact .inr ⟨by simp, _, rfl, rfl⟩
      rcases step with ⟨rfl, hu⟩ | ⟨hu, s, hs, rfl⟩
      · obtain ⟨h1, h2, h3⟩ := ih hn l hr args hd
        refine ⟨fun p hp => by simp [h1 p hp], fun j hj => h2 j (by simp at hj; exact hj.2), ?_⟩
        intro j hj
        rcases List.mem_cons.1 hj with rfl | hj
        · exact .inl ⟨hu, h2 j hk⟩
        · exact h3 j hj
      · cases args with
        | nil => exact hd.elim
        | cons p ps =>
          obtain ⟨hp, hv, hd⟩ := hd
          obtain ⟨h1, h2, h3⟩ := ih hn rest hr ps hd
          obtain ⟨pk, pv⟩ := p
          simp only at hp hv
          subst hp
          have hlook : ∀ j, j ≠ k → List.lookup j ((k, pv) :: ps) = List.lookup j ps := by
            intro j hj
            have : (j == k) = false := by simpa using hj
            simp [List.lookup, this]
          refine ⟨?_, ?_, ?_⟩
          · intro p hp
            rcases List.mem_cons.1 hp with rfl | hp
            · simp
            · simp [h1 p hp]
          · intro j hj
            rw [List.mem_cons, not_or] at hj
            rw [hlook j hj.1]
            exact h2 j hj.2
          · intro j hj
            by_cases hjk : j = k
            · subst hjk
              exact .inr ⟨hu, s, pv, hs, by simp [List.lookup], hv⟩
            · rw [hlook j hjk]
              exact h3 j (by rcases List.mem_cons.1 hj with h | h; exact absurd h hjk; exact h)

theorem attributes_nodup (c : GClass) : (attributes c).Nodup := by cases c <;> decide

theorem attributes_names (c : GClass) : ∀ k ∈ attributes c, k ∈ names c := by cases c <;> decide

/-- The attributes other than the format are parameters of the functions. -/
theorem attributes_parameters (c : GClass) : ∀ k ∈ attributes c, k ≠ "cog_audio_format" → k ≠ "cog_frame_format" →
    k ∈ (parameters c).map Prod.fst := by
  cases c <;> simp [attributes, parameters]

theorem parameters_default (c : GClass) : ∀ k ∈ (parameters c).map Prod.fst, ((parameters c).lookup k).getD .none =
    if k ∈ ["rate", "duration", "priming", "remainder"] then Param.donotset else .none := by
  cases c <;> simp only [parameters, List.cons_append, List.nil_append, List.map_cons, List.map_nil, List.forall_mem_cons] <;>
    (repeat' apply And.intro) <;> first | rfl | (intro _ h; cases h)

/-- What the constructor gets for an attribute that is passed on. -/
theorem kwargs_want (c : GClass) (given : List (String × Param)) (k : String) (hk : k ∈ passed c)
    : kwargs c given k = some (preset c k (want given k)) := by
  have hp : k ∈ (parameters c).map Prod.fst := (List.mem_filter.1 hk).1
  unfold kwargs want
  rw [if_pos hk]
  cases given.lookup k with
  | some p => rfl
  | none =>
    show some (preset c k (((parameters c).lookup k).getD .none)) = _
    rw [parameters_default c k hp]

theorem kwargs_format (c : GClass) (given : List (String × Param)) (k : String)
    (hk : k = "cog_audio_format" ∨ k = "cog_frame_format") : kwargs c given k = none := by
  unfold kwargs
  rw [if_neg]
  intro h
  have hp : k ∈ (parameters c).map Prod.fst := (List.mem_filter.1 h).1
  rcases hk with rfl | rfl <;> revert hp <;> cases c <;> simp [parameters]

/-- The name of the parameter for an attribute. -/
def pname (k : String) : String := if k = "cog_audio_format" ∨ k = "cog_frame_format" then "format" else k

theorem kwargs_cases (c : GClass) (given : List (String × Param)) (hl : NotLost c given) (k : String) (hk : k ∈ attributes c) :
    (kwargs c given k = none ∧ want given (pname k) = .none) ∨
      (pname k = k ∧ kwargs c given k = some (preset c k (want given k))) := by
  by_cases hf : k = "cog_audio_format" ∨ k = "cog_frame_format"
  · left
    refine ⟨kwargs_format c given k hf, ?_⟩
    unfold pname
    rw [if_pos hf]
    exact hl.1
  · have hpn : pname k = k := if_neg hf
    rw [not_or] at hf
    have hp := attributes_parameters c k hk hf.1 hf.2
    by_cases hq : k ∈ passed c
    · exact .inr ⟨hpn, kwargs_want c given k hq⟩
    · left
      refine ⟨by unfold kwargs; rw [if_neg hq], ?_⟩
      have : c = .codedAudio ∧ k = "creation_timestamp" := by
        unfold passed at hq
        rw [List.mem_filter] at hq
        simpa [hp] using hq
      rw [hpn, this.2]
      exact hl.2 this.1

theorem audio_formats : ∀ n ∈ Cog.AudioFormat.all, decide (n < 0x200) = true →
    Cog.audioIsCompressed n = false ∧ n ≠ Cog.AudioFormat.UNKNOWN ∧ n ≠ Cog.AudioFormat.INVALID := by decide +kernel

theorem coded_audio_formats : ∀ n ∈ Cog.AudioFormat.all, (n &&& 0x200 != 0 && n != Cog.AudioFormat.INVALID) = true →
    Cog.audioIsCompressed n = true := by decide +kernel

theorem video_formats : ∀ n ∈ Cog.FrameFormat.all, ((n >>> 9) &&& 0x1 == 0) = true →
    Cog.isCompressed n = false ∧ n ≠ Cog.FrameFormat.UNKNOWN ∧ n ≠ Cog.FrameFormat.INVALID := by decide +kernel

theorem coded_video_formats : ∀ n ∈ Cog.FrameFormat.all, (n &&& 0x200 != 0 && n != Cog.FrameFormat.INVALID) = true →
    Cog.isCompressed n = true := by decide +kernel

theorem common_good (c : GClass) (k : String)
    (hk : k ∈ ["src_id", "flow_id", "origin_timestamp", "sync_timestamp", "creation_timestamp", "rate", "duration"]) :
    ∃ s, strategyFor c k = some s ∧ ∀ v, s v → Fits k v ∧ (k ≠ "unit_offsets" → v ≠ .none) ∧ Documented c (pname k) v := by
  simp only [List.mem_cons, List.not_mem_nil, or_false] at hk
  rcases hk with rfl | rfl | rfl | rfl | rfl | rfl | rfl
  · exact ⟨_, rfl, fun v ⟨x, h1, h⟩ => h ▸ ⟨⟨x, h1, rfl⟩, by simp, ⟨x, h1, rfl⟩⟩⟩
  · exact ⟨_, rfl, fun v ⟨x, h1, h⟩ => h ▸ ⟨⟨x, h1, rfl⟩, by simp, ⟨x, h1, rfl⟩⟩⟩
  · exact ⟨_, rfl, fun v ⟨x, h1, h⟩ => h ▸ ⟨.inr ⟨x, h1, rfl⟩, by simp, ⟨x, h1, rfl⟩⟩⟩
  · exact ⟨_, rfl, fun v ⟨x, h1, h⟩ => h ▸ ⟨.inr ⟨x, h1, rfl⟩, by simp, ⟨x, h1, rfl⟩⟩⟩
  · exact ⟨_, rfl, fun v ⟨x, h1, h⟩ => h ▸ ⟨.inr ⟨x, h1, rfl⟩, by simp, ⟨x, h1, rfl⟩⟩⟩
  · exact ⟨_, rfl, fun v ⟨x, h1, _, h⟩ => h ▸ ⟨⟨x, rfl⟩, by simp, ⟨x, h1, rfl⟩⟩⟩
  · exact ⟨_, rfl, fun v ⟨x, h1, _, h⟩ => h ▸ ⟨⟨x, rfl⟩, by simp, ⟨x, h1, rfl⟩⟩⟩

theorem rate_good (c : GClass) : ∃ s, strategyFor c "sample_rate" = some s ∧ ∀ v, s v →
    Fits "sample_rate" v ∧ ("sample_rate" ≠ "unit_offsets" → v ≠ .none) ∧ Documented c (pname "sample_rate") v := by
  refine ⟨_, rfl, ?_⟩
  rintro v (rfl | rfl)
  · exact ⟨⟨48000, rfl⟩, by simp, .inl rfl⟩
  · exact ⟨⟨44100, rfl⟩, by simp, .inr rfl⟩

theorem layout_good (c : GClass) : ∃ s, strategyFor c "cog_frame_layout" = some s ∧ ∀ v, s v →
    Fits "cog_frame_layout" v ∧ ("cog_frame_layout" ≠ "unit_offsets" → v ≠ .none) ∧ Documented c (pname "cog_frame_layout") v := by
  refine ⟨_, rfl, ?_⟩
  rintro v ⟨n, hn, hf, rfl⟩
  exact ⟨⟨n, hn, rfl⟩, by simp, ⟨n, hn, rfl, by simpa using hf⟩⟩

/-- The default strategies draw what is documented. -/
theorem default_good (c : GClass) (k : String) (hk : k ∈ attributes c) :
    ∃ s, strategyFor c k = some s ∧ ∀ v, s v → Fits k v ∧ (k ≠ "unit_offsets" → v ≠ .none) ∧ Documented c (pname k) v := by
  have hc := common_good c
  unfold attributes at hk
  rcases List.mem_append.1 hk with hk | hk
  · exact hc k hk
  · cases c with
    | grain => cases hk
    | event =>
      simp only [List.mem_cons, List.not_mem_nil, or_false] at hk
      rcases hk with rfl | rfl <;> exact ⟨_, rfl, fun v ⟨x, h⟩ => h ▸ ⟨⟨x, rfl⟩, by simp, ⟨x, rfl⟩⟩⟩
    | audio =>
      simp only [List.mem_cons, List.not_mem_nil, or_false] at hk
      rcases hk with rfl | rfl | rfl | rfl
      · refine ⟨_, rfl, ?_⟩
        rintro v ⟨n, hn, hf, rfl⟩
        obtain ⟨h1, h2, h3⟩ := audio_formats n hn hf
        exact ⟨⟨n, hn, rfl⟩, by simp, ⟨n, hn, rfl, h1, h2, h3⟩⟩
      · exact ⟨_, rfl, fun v ⟨x, h1, _, h⟩ => h ▸ ⟨⟨x, rfl⟩, by simp, ⟨x, h1, rfl⟩⟩⟩
      · exact ⟨_, rfl, fun v ⟨x, h1, _, h⟩ => h ▸ ⟨⟨x, rfl⟩, by simp, ⟨x, h1, rfl⟩⟩⟩
      · exact rate_good .audio
    | codedAudio =>
      simp only [List.mem_cons, List.not_mem_nil, or_false] at hk
      rcases hk with rfl | rfl | rfl | rfl | rfl | rfl
      · refine ⟨_, rfl, ?_⟩
        rintro v ⟨n, hn, hf, rfl⟩
        exact ⟨⟨n, hn, rfl⟩, by simp, ⟨n, hn, rfl, coded_audio_formats n hn hf⟩⟩
      · exact ⟨_, rfl, fun v ⟨x, h1, _, h⟩ => h ▸ ⟨⟨x, rfl⟩, by simp, ⟨x, h1, rfl⟩⟩⟩
      · exact ⟨_, rfl, fun v ⟨x, h1, _, h⟩ => h ▸ ⟨⟨x, rfl⟩, by simp, ⟨x, h1, rfl⟩⟩⟩
      · exact rate_good .codedAudio
      · exact ⟨_, rfl, fun v ⟨x, h1, _, h⟩ => h ▸ ⟨⟨x, rfl⟩, by simp, ⟨x, rfl⟩⟩⟩
      · exact ⟨_, rfl, fun v ⟨x, h1, _, h⟩ => h ▸ ⟨⟨x, rfl⟩, by simp, ⟨x, rfl⟩⟩⟩
    | video =>
      simp only [List.mem_cons, List.not_mem_nil, or_false] at hk
      rcases hk with rfl | rfl | rfl | rfl
      · refine ⟨_, rfl, ?_⟩
        rintro v ⟨n, hn, hf, rfl⟩
        obtain ⟨h1, h2, h3⟩ := video_formats n hn hf
        exact ⟨⟨n, hn, rfl⟩, by simp, ⟨n, hn, rfl, h1, h2, h3⟩⟩
      · exact ⟨_, rfl, fun v h => h ▸ ⟨⟨240, rfl⟩, by simp, rfl⟩⟩
      · exact ⟨_, rfl, fun v h => h ▸ ⟨⟨135, rfl⟩, by simp, rfl⟩⟩
      · exact layout_good .video
    | codedVideo =>
      simp only [List.mem_cons, List.not_mem_nil, or_false] at hk
      rcases hk with rfl | rfl | rfl | rfl | rfl | rfl | rfl | rfl | rfl
      · refine ⟨_, rfl, ?_⟩
        rintro v ⟨n, hn, hf, rfl⟩
        exact ⟨⟨n, hn, rfl⟩, by simp, ⟨n, hn, rfl, coded_video_formats n hn hf⟩⟩
      · exact ⟨_, rfl, fun v h => h ▸ ⟨.inr ⟨240, rfl⟩, by simp, rfl⟩⟩
      · exact ⟨_, rfl, fun v h => h ▸ ⟨.inr ⟨135, rfl⟩, by simp, rfl⟩⟩
      · exact layout_good .codedVideo
      · exact ⟨_, rfl, fun v h => h ▸ ⟨⟨240, rfl⟩, by simp, rfl⟩⟩
      · exact ⟨_, rfl, fun v h => h ▸ ⟨⟨135, rfl⟩, by simp, rfl⟩⟩
      · exact ⟨_, rfl, fun v ⟨x, h⟩ => h ▸ ⟨.inr ⟨x, rfl⟩, by simp, ⟨x, rfl⟩⟩⟩
      · exact ⟨_, rfl, fun v ⟨x, h1, _, h⟩ => h ▸ ⟨.inr ⟨x, rfl⟩, by simp, ⟨x, rfl⟩⟩⟩
      · exact ⟨_, rfl, fun v _ => ⟨trivial, fun h => absurd rfl h, trivial⟩⟩

theorem preset_cases (c : GClass) (k : String) (p : Param) (hp : c = .event → k ≠ "rate" → k ≠ "duration" → p ≠ .donotset) :
    preset c k p = p ∨ (c = .event ∧ p = .donotset ∧
      ((k = "rate" ∧ preset c k p = .value (.frac 25)) ∨ (k = "duration" ∧ preset c k p = .value (.frac (1 / 25))))) := by
  unfold preset
  split
  · exact .inr ⟨rfl, rfl, .inl ⟨rfl, rfl⟩⟩
  · exact .inr ⟨rfl, rfl, .inr ⟨rfl, rfl⟩⟩
  · exact .inl rfl

/-- What is drawn for an attribute. -/
inductive Drawn (c : GClass) (k : String) (r : Option A) : Param → Prop
  | unset : c ≠ .event → r = none → Drawn c k r .donotset
  | rate : c = .event → k = "rate" → r = some (.frac 25) → Drawn c k r .donotset
  | duration : c = .event → k = "duration" → r = some (.frac (1 / 25)) → Drawn c k r .donotset
  | value (v : A) : r = some v → Good k v → Drawn c k r (.value v)
  | strategy (s : Strategy) (v : A) : r = some v → s v → Good k v → Drawn c k r (.strategy s)
  | none (v : A) : r = some v → Fits k v → (k ≠ "unit_offsets" → v ≠ .none) → Documented c (pname k) v → Drawn c k r .none

theorem drawn (c : GClass) (given : List (String × Param)) (hs : Suits c given) (hl : NotLost c given)
    (l : List (String × Strategy)) (hg : grainStrategy c (kwargs c given) (attributes c) = .ok l) (args : Args) (hd : Draw l args) :
    ∀ k ∈ attributes c, Drawn c k (args.lookup k) (want given (pname k)) := by
  obtain ⟨-, -, h3⟩ := draw_lookup c _ _ (attributes_nodup c) l hg args hd
  intro k hk
  have dflt : ∀ s v, strategyFor c k = some s → args.lookup k = some v → s v → Drawn c k (args.lookup k) .none := by
    intro s v h1 h2 h3
    obtain ⟨s', h4, h5⟩ := default_good c k hk
    rw [h1] at h4
    cases h4
    obtain ⟨a, b, d⟩ := h5 v h3
    exact .none v h2 a b d
  rcases kwargs_cases c given hl k hk with ⟨h, hw⟩ | ⟨hpn, h⟩
  · rw [hw]
    rcases h3 k hk with ⟨hu, -⟩ | ⟨-, s, v, h4, h5, h6⟩
    · unfold Unset at hu
      rw [h] at hu
      cases hu
    · unfold stratOf at h4
      rw [h] at h4
      exact dflt s v h4 h5 h6
  · rw [hpn]
    have hev := fun hc => hs.event hc k
    rcases preset_cases c k (want given k) hev with hp | ⟨hc, hw, hp⟩
    · rw [hp] at h
      rcases h3 k hk with ⟨hu, hn⟩ | ⟨hu, s, v, h4, h5, h6⟩
      · unfold Unset at hu
        rw [h] at hu
        have hu : want given k = .donotset := by simpa using hu
        rw [hu]
        refine .unset ?_ hn
        intro hc
        by_cases h1 : k = "rate"
        · subst h1; subst hc; rw [hu] at hp; cases hp
        · by_cases h2 : k = "duration"
          · subst h2; subst hc; rw [hu] at hp; cases hp
          · exact hev hc h1 h2 hu
      · unfold stratOf at h4
        unfold Unset at hu
        rw [h] at h4 hu
        cases hw : want given k with
        | none => rw [hw] at h4; exact dflt s v h4 h5 h6
        | donotset => rw [hw] at hu; exact absurd rfl hu
        | strategy s' =>
          rw [hw] at h4
          cases h4
          exact .strategy _ v h5 h6 (hs.strategy k _ hw v h6)
        | value v' =>
          rw [hw] at h4
          cases h4
          rw [h6] at h5
          exact .value _ h5 (hs.value k _ hw)
    · rw [hw]
      rcases hp with ⟨hk', hp⟩ | ⟨hk', hp⟩
      · rw [hp] at h
        rcases h3 k hk with ⟨hu, -⟩ | ⟨-, s, v, h4, h5, h6⟩
        · unfold Unset at hu; rw [h] at hu; cases hu
        · unfold stratOf at h4
          rw [h] at h4
          cases h4
          rw [h6] at h5
          exact .rate hc hk' h5
      · rw [hp] at h
        rcases h3 k hk with ⟨hu, -⟩ | ⟨-, s, v, h4, h5, h6⟩
        · unfold Unset at hu; rw [h] at hu; cases hu
        · unfold stratOf at h4
          rw [h] at h4
          cases h4
          rw [h6] at h5
          exact .duration hc hk' h5

theorem names_attributes (c : GClass) : ∀ k ∈ names c, k ∈ attributes c ∨ k = "length" := by
  cases c <;> simp [names, attributes]

theorem defaults_fit (c : GClass) (k : String) (hk : k ∈ attributes c) (n1 : k ≠ "src_id") (n2 : k ≠ "flow_id") :
    Fits k (New.default c k) := by
  cases c <;> simp only [attributes, List.cons_append, List.nil_append, List.mem_cons, List.not_mem_nil, or_false] at hk <;>
    (repeat' (rcases hk with rfl | hk)) <;> (try subst hk) <;>
    first
      | exact absurd rfl n1
      | exact absurd rfl n2
      | exact .inl rfl
      | exact ⟨_, rfl⟩
      | exact ⟨_, by decide +kernel, rfl⟩
      | exact ⟨0, rfl⟩
      | exact ⟨48000, rfl⟩
      | exact ⟨1920, rfl⟩
      | exact ⟨1080, rfl⟩
      | trivial

/-- The arguments that are drawn are of the types the constructor asks for. -/
theorem drawn_valid (c : GClass) (given : List (String × Param)) (hs : Suits c given) (hl : NotLost c given)
    (l : List (String × Strategy)) (hg : grainStrategy c (kwargs c given) (attributes c) = .ok l) (args : Args) (hd : Draw l args) :
    Valid c args := by
  obtain ⟨h1, h2, -⟩ := draw_lookup c _ _ (attributes_nodup c) l hg args hd
  have h := drawn c given hs hl l hg args hd
  refine ⟨fun p hp => attributes_names c _ (h1 p hp), ?_⟩
  have dfl := defaults_fit c
  have hk : ∀ k ∈ attributes c, Fits k (arg c args k) := by
    intro k hk
    unfold arg
    have hd := h k hk
    generalize hw : want given (pname k) = w at hd
    cases hd with
    | unset hc hr =>
      rw [hr]
      refine dfl k hk ?_ ?_
      · rintro rfl; exact hs.ids "src_id" (by simp) hw
      · rintro rfl; exact hs.ids "flow_id" (by simp) hw
    | rate hc hk hr => rw [hr, hk]; exact ⟨_, rfl⟩
    | duration hc hk hr => rw [hr, hk]; exact ⟨_, rfl⟩
    | value v hr hg => rw [hr]; exact hg.1
    | strategy s v hr _ hg => rw [hr]; exact hg.1
    | none v hr hf => rw [hr]; exact hf
  intro k hn
  rcases names_attributes c k hn with ha | rfl
  · exact hk k ha
  · have : "length" ∉ attributes c := by cases c <;> decide
    unfold arg
    rw [h2 _ this]
    exact .inl rfl

theorem either_ne {a : A} (h : a ≠ .none) (b : A) : either a b = a := by
  unfold either
  cases a <;> first | rfl | exact absurd rfl h

theorem parameters_attributes (c : GClass) : ∀ k ∈ (parameters c).map Prod.fst, k ≠ "format" → k ∈ attributes c ∧ pname k = k := by
  cases c <;> simp only [parameters, List.cons_append, List.nil_append, List.map_cons, List.map_nil, List.forall_mem_cons] <;>
    (repeat' apply And.intro) <;> first | (intro _ h; cases h) | exact fun h => absurd rfl h | exact fun _ => ⟨by decide, by decide⟩

/-- An attribute for which there is an argument. -/
theorem reads_given (c : GClass) (now : Int) (args : Args) (k : String) (hk : k ∈ (parameters c).map Prod.fst) (hf : k ≠ "format")
    (v : A) (hr : args.lookup k = some v) (hv : v ≠ .none) : reads c now args k = v := by
  have ha : arg c args k = v := by unfold arg; rw [hr]; rfl
  have key : ∀ k ∈ (parameters c).map Prod.fst, k ≠ "format" →
      reads c now args k = arg c args k ∨ ∃ b, reads c now args k = either (arg c args k) b := by
    cases c <;> simp only [parameters, List.cons_append, List.nil_append, List.map_cons, List.map_nil, List.forall_mem_cons] <;>
      (repeat' apply And.intro) <;>
      first
        | (intro _ h; cases h)
        | exact fun h => absurd rfl h
        | exact fun _ => .inl rfl
        | exact fun _ => .inr ⟨_, rfl⟩
  rcases key k hk hf with h | ⟨b, h⟩
  · rw [h, ha]
  · rw [h, ha, either_ne hv]

/-- An attribute for which there is none. -/
theorem reads_unset (c : GClass) (now : Int) (args : Args) (k : String) (hk : k ∈ (parameters c).map Prod.fst) (hf : k ≠ "format")
    (h1 : k ≠ "src_id") (h2 : k ≠ "flow_id") (hr : args.lookup k = none) :
    reads c now args k = unset c now (reads c now args) k := by
  have ha : arg c args k = New.default c k := by unfold arg; rw [hr]; rfl
  revert k
  cases c <;> simp only [parameters, List.cons_append, List.nil_append, List.map_cons, List.map_nil, List.forall_mem_cons] <;>
    (repeat' apply And.intro) <;>
    first
      | (intro _ h; cases h)
      | exact fun h => absurd rfl h
      | exact fun _ h => absurd rfl h
      | exact fun _ _ h => absurd rfl h
      | (intro _ _ _ _ ha; exact ha)
      | (intro _ _ _ _ ha; exact congrArg (either · _) ha)

/-- All parameters together. -/
theorem asked (c : GClass) (now : Int) (given : List (String × Param)) (hs : Suits c given) (hl : NotLost c given)
    (l : List (String × Strategy)) (hg : grainStrategy c (kwargs c given) (attributes c) = .ok l) (args : Args) (hd : Draw l args) :
    ∀ k ∈ (parameters c).map Prod.fst, k ≠ "unit_offsets" → Asked c now (reads c now args) k (want given k) := by
  have h := drawn c given hs hl l hg args hd
  intro k hk hu
  by_cases hf : k = "format"
  · subst hf
    rw [hl.1]
    show Documented c "format" (reads c now args "format")
    have fmt : ∀ a ∈ attributes c, pname a = "format" → Documented c "format" (arg c args a) := by
      intro a ha hp
      have hd := h a ha
      rw [hp, hl.1] at hd
      cases hd with
      | none v hr _ _ hd =>
        rw [hp] at hd
        unfold arg
        rw [hr]
        exact hd
    cases c <;> simp [parameters] at hk
    · exact fmt "cog_frame_format" (by decide) (by decide)
    · exact fmt "cog_audio_format" (by decide) (by decide)
    · exact fmt "cog_frame_format" (by decide) (by decide)
    · exact fmt "cog_audio_format" (by decide) (by decide)
  · obtain ⟨ha, hp⟩ := parameters_attributes c k hk hf
    have hd := h k ha
    rw [hp] at hd
    generalize hw : want given k = w at hd
    cases hd with
    | unset hc hr =>
      refine reads_unset c now args k hk hf ?_ ?_ hr
      · rintro rfl; exact hs.ids "src_id" (by simp) hw
      · rintro rfl; exact hs.ids "flow_id" (by simp) hw
    | rate hc hk' hr =>
      subst hc; subst hk'
      exact reads_given .event now args _ hk hf (.frac 25) hr (by simp)
    | duration hc hk' hr =>
      subst hc; subst hk'
      exact reads_given .event now args _ hk hf (.frac (1 / 25)) hr (by simp)
    | value v hr hg => exact reads_given c now args k hk hf v hr hg.2
    | strategy s v hr h' hg =>
      show s (reads c now args k)
      rw [reads_given c now args k hk hf v hr hg.2]
      exact h'
    | none v hr _ hn hd =>
      show Documented c k (reads c now args k)
      rw [reads_given c now args k hk hf v hr (hn hu)]
      rw [hp] at hd
      exact hd

theorem builder_ok (lib : Lib) (now : Int) (c : GClass) (given : List (String × Param)) (hs : Suits c given) (hl : NotLost c given)
    (l : List (String × Strategy)) (hg : grainStrategy c (kwargs c given) (attributes c) = .ok l) (args : Args) (hd : Draw l args) :
    builder lib now c args = make lib now c args none := by
  have h := drawn c given hs hl l hg args hd
  unfold builder
  rw [if_neg]
  rintro ⟨hc, hn⟩
  refine hn (fun k hk => ?_)
  have hex : ∃ v, args.lookup k = some v := by
    have hd := h k hk
    generalize want given (pname k) = w at hd
    cases hd with
    | unset hc' => exact absurd hc hc'
    | rate _ _ hr => exact ⟨_, hr⟩
    | duration _ _ hr => exact ⟨_, hr⟩
    | value v hr => exact ⟨_, hr⟩
    | strategy s v hr => exact ⟨_, hr⟩
    | none v hr => exact ⟨_, hr⟩
  obtain ⟨v, hv⟩ := hex
  clear h hn hd hg
  induction args with
  | nil => cases hv
  | cons p ps ih =>
    by_cases hp : k = p.1
    · simp [hp]
    · have : (k == p.1) = false := by simpa using hp
      rw [List.lookup_cons, this] at hv
      exact List.mem_cons_of_mem _ (ih hv)

theorem strategyOf_eq (c : GClass) (given : List (String × Param)) (hk : ∀ p ∈ given, p.1 ∈ (parameters c).map Prod.fst) :
    strategyOf c given = grainStrategy c (kwargs c given) (attributes c) := by
  unfold strategyOf
  rw [if_pos]
  rw [List.all_eq_true]
  intro p hp
  simpa using hk p hp

theorem grainStrategy_congr (c : GClass) (f g : String → Option Param) (ks : List String) (h : ∀ k ∈ ks, f k = g k) :
    grainStrategy c f ks = grainStrategy c g ks := by
  induction ks with
  | nil => rfl
  | cons k ks ih =>
    unfold grainStrategy
    rw [ih (fun k hk => h k (by simp [hk])), h k (by simp)]

/-! ### Data -/

open Verif.Compare Verif.Props.CompareSpec Verif.Props.CompareLemmas

theorem groups_flatMap (n : Nat) (hn : 0 < n) (l : List Nat) (f : Nat) (hf : l.length ≤ f) :
    groups n f (l.flatMap (packFloat n)) = l.map (packFloat n) := by
  induction l generalizing f with
  | nil => cases f with
    | zero => rfl
    | succ f => simp [groups, hn]
  | cons x l ih =>
    cases f with
    | zero => simp at hf
    | succ f =>
      have hx : (packFloat n x).length = n := encodeUint_length _ _
      unfold groups
      rw [List.flatMap_cons, if_neg (by rw [List.length_append, hx]; omega)]
      rw [List.take_append_of_le_length (by omega), List.take_of_length_le (by omega), List.drop_append_of_le_length (by omega),
        List.drop_of_length_le (l := packFloat n x) (by omega), List.nil_append, ih f (by simpa using hf)]
      rfl

theorem flatMap_length (n : Nat) (l : List Nat) : (l.flatMap (packFloat n)).length = l.length * n := by
  induction l with
  | nil => simp
  | cons x l ih =>
    rw [List.flatMap_cons, List.length_append, ih, List.length_cons, Nat.add_mul, Nat.one_mul, Nat.add_comm]
    congr 1
    exact encodeUint_length _ _

theorem finite_eq (n x : Nat) (h : FiniteFloat n x) : Sample.eq (.flt n x) (.flt n x) = true := by
  obtain ⟨-, h2⟩ := h
  have hn : isNaN n x = false := by
    unfold isNaN
    have hlt := Nat.lt_of_lt_of_le h2 (Nat.sub_le _ _)
    rw [Nat.mod_eq_of_lt hlt]
    have : (x / 2 ^ mantissa n == 2 ^ (8 * n - 1 - mantissa n) - 1) = false := by
      rw [beq_eq_false_iff_ne]
      exact Nat.ne_of_lt h2
    rw [this]
    rfl
  simp [Sample.eq, hn]

theorem floats_good (n : Nat) (hn : n = 4 ∨ n = 8) (expected : Nat) (he : expected % n = 0) (b : Bytes) (h : Floats n expected b) :
    b.length = expected ∧ Aligned (.flt n) (some b) ∧ NoNaN (.flt n) (some b) := by
  obtain ⟨l, h1, h2, rfl⟩ := h
  have hpos : 0 < n := by omega
  have hlen : (l.flatMap (packFloat n)).length = expected := by
    rw [flatMap_length, h1]
    exact Nat.div_mul_cancel (Nat.dvd_of_mod_eq_zero he)
  refine ⟨hlen, (congrArg (· % n) hlen).trans he, ?_⟩
  intro b s hb hs u hu
  cases hb
  unfold unpack at hs
  simp only [] at hs
  rw [if_pos (by rw [hlen]; exact he), groups_flatMap n hpos l _ (by
    rw [flatMap_length]; exact Nat.le_mul_of_pos_right _ hpos)] at hs
  cases hs
  rw [List.map_map] at hu
  obtain ⟨x, hx, rfl⟩ := List.mem_map.1 hu
  show Sample.eq (.flt n (uintOf (encodeUint x n))) (.flt n (uintOf (encodeUint x n))) = true
  have hlt : x < 256 ^ n := by
    have := (h2 x hx).1
    rcases hn with rfl | rfl
    · exact Nat.lt_trans this (by decide)
    · exact Nat.lt_trans this (by decide)
  rw [uintOf_encodeUint_nat x n hlt]
  exact finite_eq n x (h2 x hx)

theorem ints_good (c : Code) (hc : ∀ n, c ≠ .flt n) (x : Option Bytes) : NoNaN c x := by
  intro b s hb hs u hu
  cases c with
  | flt n => exact absurd rfl (hc n)
  | int n =>
    unfold unpack at hs
    simp only [] at hs
    split at hs
    · cases hs
      obtain ⟨g, -, rfl⟩ := List.mem_map.1 hu
      simp [Sample.eq]
    · cases hs
  | three =>
    unfold unpack at hs
    cases hs
    obtain ⟨g, -, rfl⟩ := List.mem_map.1 hu
    simp [Sample.eq]

theorem audio_codes : ∀ fmt ∈ Cog.AudioFormat.all, fmt < 0x200 → Cog.audioIsCompressed fmt = false ∧
    Cog.audioSampleBytes fmt % wordSize (audioCode fmt) = 0 ∧
    (fmt ∈ floatFormats → audioCode fmt = .flt 4) ∧ (fmt ∈ doubleFormats → audioCode fmt = .flt 8) ∧
    (fmt ∉ floatFormats → fmt ∉ doubleFormats → ∀ n ∈ [4, 8], audioCode fmt ≠ .flt n) := by
  decide +kernel

theorem audioCode_flt (fmt n : Nat) (h : audioCode fmt = .flt n) : n ∈ [4, 8] := by
  unfold audioCode at h
  repeat' split at h
  all_goals cases h
  all_goals decide

theorem audio_good (fmt channels samples : Nat) (hf : fmt ∈ Cog.AudioFormat.all) (hu : fmt < 0x200) (b : Bytes)
    (h : audioData fmt channels samples b) : b.length = Cog.sizeForAudioFormat fmt channels samples ∧
      Aligned (audioCode fmt) (some b) ∧ NoNaN (audioCode fmt) (some b) := by
  obtain ⟨h1, h2, h3, h4, h5⟩ := audio_codes fmt hf hu
  have hm : Cog.sizeForAudioFormat fmt channels samples % wordSize (audioCode fmt) = 0 := by
    rw [Props.C32_audio_size, h1]
    simp only [Bool.false_eq_true, if_false]
    rw [Nat.mul_mod, h2, Nat.mul_zero, Nat.zero_mod]
  unfold audioData at h
  simp only [] at h
  by_cases c1 : fmt ∈ floatFormats
  · rw [if_pos c1] at h
    rw [h3 c1] at hm ⊢
    exact floats_good 4 (.inl rfl) _ hm b h
  · rw [if_neg c1] at h
    by_cases c2 : fmt ∈ doubleFormats
    · rw [if_pos c2] at h
      rw [h4 c2] at hm ⊢
      exact floats_good 8 (.inr rfl) _ hm b h
    · rw [if_neg c2] at h
      refine ⟨h, ?_, ints_good _ (fun n hn => h5 c1 c2 n (audioCode_flt fmt n hn) hn) _⟩
      exact (congrArg (· % wordSize (audioCode fmt)) h).trans hm

end Verif.Hyp

namespace Verif.Props

open Verif.Attrs Verif.New Verif.Hyp
open Verif.Meta (Dict GClass)

/-- **C65**: for reasonable arguments a function of `hypothesis.strategies` gives a strategy, all that is drawn from it are grains (no
exception), and each of their attributes is as asked for: the value given, a value of the strategy given, for `None` one of the
documented range, for `DONOTSET` the default of the constructor. The data are zeros, as many as the format asks for.

The full statement is without `NotLost` and with `DONOTSET` for event grains: it is violated there, see below. -/
theorem C65_drawn_partial (lib : Lib) (hlib : lib.Lawful) (ht : Times lib) (now : Int) (hn : 0 ≤ now) (c : GClass)
    (given : List (String × Param)) (hs : Suits c given) (hl : NotLost c given) :
    ∃ l, strategyOf c given = .ok l ∧ ∀ args, Draw l args → ∃ m, builder lib now c args = .ok m ∧
      ∃ vals, (∀ a ∈ attrs c, Attrs.get lib a m.grain = .ok (vals a.name)) ∧
        (∀ k ∈ (parameters c).map Prod.fst, k ≠ "unit_offsets" → Asked c now vals k (want given k)) ∧
        (∀ b, m.data = some b → ∀ x ∈ b, x = 0) ∧
        (c = .audio → (m.data.getD []).length =
          Cog.sizeForAudioFormat (num (vals "format")) (num (vals "channels")) (num (vals "samples"))) ∧
        (c = .video → (m.data.getD []).length = Cog.sizeForFormat (num (vals "format")) (num (vals "width")) (num (vals "height"))) := by
  obtain ⟨l, hg⟩ := grainStrategy_ok c (kwargs c given) (attributes c) (by
    intro k hk hu
    unfold Unset at hu
    unfold stratOf
    obtain ⟨s, hs, -⟩ := default_good c k hk
    cases hp : kwargs c given k with
    | none => simp [hs]
    | some p =>
      cases p with
      | none => simp [hs]
      | donotset => exact absurd hp hu
      | strategy s => rfl
      | value v => rfl)
  refine ⟨l, (strategyOf_eq c given hs.known).trans hg, ?_⟩
  intro args hd
  have hv := drawn_valid c given hs hl l hg args hd
  obtain ⟨m, h1, h2, -, h4⟩ := made lib hlib ht hn c hv none
  refine ⟨m, (builder_ok lib now c given hs hl l hg args hd).trans h1, reads c now args, h4,
    asked c now given hs hl l hg args hd, ?_, ?_, ?_⟩
  · intro b hb
    rw [h2] at hb
    intro x hx
    cases c <;> cases hb <;> exact (List.mem_replicate.1 hx).2
  · rintro rfl
    rw [h2]
    exact List.length_replicate
  · rintro rfl
    rw [h2]
    exact List.length_replicate

/-- **C65 is violated by `format`**: whatever is given for it, the strategy is the same (the attributes of the new style are called
`cog_audio_format` and `cog_frame_format`). -/
theorem C65_format_counterexample (c : GClass) (hc : c = .audio ∨ c = .video ∨ c = .codedAudio ∨ c = .codedVideo)
    (given : List (String × Param)) (p : Param) : strategyOf c (("format", p) :: given) = strategyOf c given := by
  have hp : ((parameters c).map Prod.fst).contains "format" = true := by
    rcases hc with rfl | rfl | rfl | rfl <;> rfl
  have hg : grainStrategy c (kwargs c (("format", p) :: given)) (attributes c) = grainStrategy c (kwargs c given) (attributes c) := by
    apply grainStrategy_congr
    intro k hk
    have : (k == "format") = false := by
      rw [beq_eq_false_iff_ne]
      rintro rfl
      revert hk
      cases c <;> decide
    unfold kwargs
    rw [List.lookup_cons, this]
  unfold strategyOf
  rw [hg, List.all_cons, hp, Bool.true_and]

/-- **C65 is violated by `creation_timestamp` of coded audio grains**, which is not passed on. -/
theorem C65_creation_counterexample (given : List (String × Param)) (p : Param) :
    strategyOf .codedAudio (("creation_timestamp", p) :: given) = strategyOf .codedAudio given := by
  have hp : ((parameters .codedAudio).map Prod.fst).contains "creation_timestamp" = true := by rfl
  have hg : grainStrategy .codedAudio (kwargs .codedAudio (("creation_timestamp", p) :: given)) (attributes .codedAudio) =
      grainStrategy .codedAudio (kwargs .codedAudio given) (attributes .codedAudio) := by
    apply grainStrategy_congr
    intro k hk
    by_cases h : k = "creation_timestamp"
    · subst h
      have : "creation_timestamp" ∉ passed .codedAudio := by decide
      unfold kwargs
      rw [if_neg this, if_neg this]
    · have : (k == "creation_timestamp") = false := by rw [beq_eq_false_iff_ne]; exact h
      unfold kwargs
      rw [List.lookup_cons, this]
  unfold strategyOf
  rw [hg, List.all_cons, hp, Bool.true_and]

/-- **C65 is violated for event grains by `DONOTSET`**: although documented, no grain can be drawn (a `TypeError`). -/
theorem C65_event_counterexample (lib : Lib) (now : Int) (given : List (String × Param)) (k : String)
    (hk : k ∈ ["creation_timestamp", "origin_timestamp", "sync_timestamp"]) (hw : given.lookup k = some .donotset)
    (l : List (String × Strategy)) (hl : strategyOf .event given = .ok l) (args : Args) (hd : Draw l args) :
    builder lib now .event args = .error .type := by
  unfold strategyOf at hl
  split at hl
  · obtain ⟨-, h2, h3⟩ := draw_lookup .event _ _ (attributes_nodup .event) l hl args hd
    have hka : k ∈ attributes .event ∧ k ∈ passed .event := by
      simp only [List.mem_cons, List.not_mem_nil, or_false] at hk
      rcases hk with rfl | rfl | rfl <;> decide
    have hkw : kwargs .event given k = some .donotset := by
      rw [kwargs_want .event given k hka.2]
      unfold want
      rw [hw]
      simp only [List.mem_cons, List.not_mem_nil, or_false] at hk
      rcases hk with rfl | rfl | rfl <;> rfl
    have hn : args.lookup k = none := by
      rcases h3 k hka.1 with ⟨-, h⟩ | ⟨h, -⟩
      · exact h
      · exact absurd hkw h
    unfold builder
    rw [if_pos]
    refine ⟨rfl, fun h => ?_⟩
    have hm := h k hka.1
    obtain ⟨p, hp, rfl⟩ := List.mem_map.1 hm
    exact absurd (List.lookup_eq_none_iff.1 hn p hp) (by simp)
  · cases hl

/-- **C65 is violated by the default format of coded grains**: it may be unknown. -/
theorem C65_unknown_counterexample :
    (∀ s, strategyFor .codedAudio "cog_audio_format" = some s → s (.enum (Cog.AudioFormat.UNKNOWN : Nat))) ∧
      ∀ s, strategyFor .codedVideo "cog_frame_format" = some s → s (.enum (Cog.FrameFormat.UNKNOWN : Nat)) := by
  refine ⟨fun s hs => ?_, fun s hs => ?_⟩
  · cases hs
    exact ⟨_, by decide +kernel, by decide +kernel, rfl⟩
  · cases hs
    exact ⟨_, by decide +kernel, by decide +kernel, rfl⟩

/-- **C65 is violated by the default unit offsets**: the lists drawn are all lists that are not empty, not those that increase. -/
theorem C65_offsets_counterexample (l : List Nat) : unitOffsets l ↔ l.length ≤ 16 ∧ (∀ n ∈ l, n ≤ 256) ∧ l ≠ [] := by
  unfold unitOffsets
  have : (l.mergeSort).isEmpty = false ↔ l ≠ [] := by
    rw [← Bool.not_eq_true, List.isEmpty_iff, ← List.length_eq_zero_iff, List.length_mergeSort, List.length_eq_zero_iff]
  rw [this]

/-- **C65**: the data drawn for an audio grain of an uncompressed format have the length the grain expects, and the grain compares
equal to itself: they are whole samples and all of them numbers. -/
theorem C65_audio_data {P V : Type} (env : Compare.Env P V) (fmt samples channels rate : Nat) (hf : fmt ∈ Cog.AudioFormat.all)
    (hu : fmt < 0x200) (b : Bytes) (h : audioData fmt channels samples b) (a : Compare.Grain V) (ha : CompareSpec.Wf a)
    (hl : ∀ d ∈ a.timelabels, ∀ x ∈ d, env.veq x.2 x.2 = true) (hb : a.body = .audio fmt samples channels rate) (hd : a.data = some b) :
    b.length = Cog.sizeForAudioFormat fmt channels samples ∧ ∃ r, Compare.compareGrain env [] a a = some r ∧ r.equal = true := by
  obtain ⟨h1, h2, h3⟩ := audio_good fmt channels samples hf hu b h
  refine ⟨h1, C42_self_partial env a ha hl ?_ ?_⟩
  · intro t p i hi
    rw [hb] at hi
    cases hi
  · intro c hc
    unfold CompareSpec.dataCode at hc
    rw [hb] at hc
    simp only [if_true] at hc
    cases hc
    rw [hd]
    exact ⟨h2, h3⟩

/-- The data drawn for a coded grain are empty, because the template's are: nothing random is drawn. -/
theorem C65_coded_data (lib : Lib) (hlib : lib.Lawful) (ht : Times lib) (now : Int) (hn : 0 ≤ now) (c : GClass)
    (hc : c = .codedAudio ∨ c = .codedVideo)
    (given : List (String × Param)) (hs : Suits c given) (hl : NotLost c given) (l : List (String × Strategy))
    (hst : strategyOf c given = .ok l) (args : Args) (hd : Draw l args) (m : Made) (hm : builder lib now c args = .ok m) (b : Bytes)
    (hb : otherData m.data b) : b = [] := by
  have hg := (strategyOf_eq c given hs.known).symm.trans hst
  have hv := drawn_valid c given hs hl l hg args hd
  obtain ⟨m', h1, h2, -, -⟩ := made lib hlib ht hn c hv none
  rw [builder_ok lib now c given hs hl l hg args hd, h1] at hm
  cases hm
  obtain ⟨-, h3, -⟩ := draw_lookup c _ _ (attributes_nodup c) l hg args hd
  have ha : arg c args "length" = .none := by
    have : "length" ∉ attributes c := by cases c <;> decide
    unfold arg
    rw [h3 _ this]
    rfl
  unfold otherData at hb
  have hz : size c args = 0 := by
    rcases hc with rfl | rfl
    · show num (arg .codedAudio args "length") = 0
      rw [ha]; rfl
    · show num (arg .codedVideo args "length") = 0
      rw [ha]; rfl
  have : (contents c args none).getD [] = [] := by
    rcases hc with rfl | rfl <;> (unfold contents; rw [hz]; rfl)
  rw [h2, this] at hb
  exact List.length_eq_zero_iff.1 hb

/-! ## The hypotheses are met -/

def C65_given : List (String × Param) :=
  [("channels", .value (.int 2)), ("samples", .strategy (integers 3 5)), ("origin_timestamp", .donotset)]

theorem C65_given_suits : Suits .audio C65_given ∧ NotLost .audio C65_given := by
  have hw : ∀ k, want C65_given k = if k = "channels" then .value (.int 2) else if k = "samples" then .strategy (integers 3 5)
      else if k = "origin_timestamp" then .donotset
      else if k ∈ ["rate", "duration", "priming", "remainder"] then .donotset else .none := by
    intro k
    unfold want C65_given
    by_cases h1 : k = "channels"
    · subst h1; rfl
    · by_cases h2 : k = "samples"
      · subst h2; rfl
      · by_cases h3 : k = "origin_timestamp"
        · subst h3; rfl
        · have e1 : (k == "channels") = false := by simpa using h1
          have e2 : (k == "samples") = false := by simpa using h2
          have e3 : (k == "origin_timestamp") = false := by simpa using h3
          simp only [List.lookup, e1, e2, e3, if_neg h1, if_neg h2, if_neg h3]
  refine ⟨⟨by decide +kernel, ?_, ?_, ?_, ?_⟩, ⟨rfl, fun h => by cases h⟩⟩
  · intro k v h
    rw [hw] at h
    split at h
    · rename_i hk
      cases h
      subst hk
      exact ⟨⟨2, rfl⟩, by simp⟩
    · repeat' split at h
      all_goals cases h
  · intro k s h v hv
    rw [hw] at h
    split at h
    · cases h
    · split at h
      · rename_i hk
        cases h
        subst hk
        obtain ⟨n, _, _, rfl⟩ := hv
        exact ⟨⟨n, rfl⟩, by simp⟩
      · repeat' split at h
        all_goals cases h
  · intro k hk
    rw [hw]
    simp only [List.mem_cons, List.not_mem_nil, or_false] at hk
    rcases hk with rfl | rfl <;> (intro h; cases h)
  · intro h; cases h

example : ∃ l args, strategyOf .audio C65_given = .ok l ∧ Draw l args ∧ args.lookup "samples" = some (.int 4) := by
  refine ⟨_, [("src_id", .uuid (List.replicate 16 1)), ("flow_id", .uuid (List.replicate 16 2)), ("sync_timestamp", .ts 5),
    ("creation_timestamp", .ts 6), ("cog_audio_format", .enum (Cog.AudioFormat.FLOAT_PAIRS : Nat)), ("samples", .int 4),
    ("channels", .int 2), ("sample_rate", .int 44100)], rfl, ?_, rfl⟩
  refine ⟨rfl, ⟨_, rfl, rfl⟩, rfl, ⟨_, rfl, rfl⟩, rfl, ⟨5, by decide, rfl⟩, rfl, ⟨6, by decide, rfl⟩, rfl,
    ⟨_, by decide +kernel, by decide +kernel, rfl⟩, rfl, ⟨4, by decide, by decide, rfl⟩, rfl, rfl, rfl, .inr rfl, trivial⟩

example : audioData Cog.AudioFormat.FLOAT_PAIRS 1 1 (packFloat 4 0x3f800000 ++ packFloat 4 0) := by
  show Floats 4 8 _
  refine ⟨[0x3f800000, 0], rfl, ?_, rfl⟩
  unfold FiniteFloat
  decide +kernel

example : unitOffsets [2, 1] := (C65_offsets_counterexample _).2 (by decide)

end Verif.Props

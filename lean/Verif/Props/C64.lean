import Verif.Grain.New
import Verif.Props.C31
import Verif.Props.C60

/-!
# C64: a grain made from arguments has them as its attributes
-/

namespace Verif.New

open Verif.Attrs
open Verif.Meta (Dict put dflt GClass)
open Verif.Json (Str)

/-! ## Specification -/

/-- The documented default of a parameter. -/
def default (c : GClass) (k : String) : A :=
  match k with
  | "rate" => .frac (if c = .grain then 0 else 25)
  | "duration" => .frac (if c = .grain then 0 else 1 / 25)
  | "cog_frame_format" => .enum Cog.FrameFormat.UNKNOWN
  | "cog_frame_layout" => .enum Cog.FrameLayout.UNKNOWN
  | "cog_audio_format" => .enum Cog.AudioFormat.INVALID
  | "width" => .int 1920
  | "height" => .int 1080
  | "origin_width" => .int 1920
  | "origin_height" => .int 1080
  | "samples" => .int 0
  | "channels" => .int 0
  | "priming" => .int 0
  | "remainder" => .int 0
  | "sample_rate" => .int 48000
  | "event_type" => .str []
  | "topic" => .str []
  | _ => .none

/-- The argument, or the default. -/
def arg (c : GClass) (args : Args) (k : String) : A := (args.lookup k).getD (default c k)

/-- The names of the parameters. -/
def names (c : GClass) : List String :=
  ["src_id", "flow_id", "origin_timestamp", "sync_timestamp", "creation_timestamp", "rate", "duration"] ++
    match c with
    | .grain => []
    | .video => ["cog_frame_format", "width", "height", "cog_frame_layout"]
    | .audio => ["cog_audio_format", "samples", "channels", "sample_rate"]
    | .codedVideo => ["cog_frame_format", "origin_width", "origin_height", "coded_width", "coded_height", "is_key_frame",
        "temporal_offset", "length", "cog_frame_layout", "unit_offsets"]
    | .codedAudio => ["cog_audio_format", "samples", "channels", "priming", "remainder", "sample_rate", "length"]
    | .event => ["event_type", "topic"]

def IsId (a : A) : Prop := ∃ u : Bytes, u.length = 16 ∧ a = .uuid u
def IsTime (a : A) : Prop := a = .none ∨ ∃ n : Int, 0 ≤ n ∧ a = .ts n
def IsFrac (a : A) : Prop := ∃ q, a = .frac q
def IsNat (a : A) : Prop := ∃ n : Nat, a = .int n
def IsNatOrNone (a : A) : Prop := a = .none ∨ IsNat a
def IsMember (vals : List Nat) (a : A) : Prop := ∃ n ∈ vals, a = .enum (n : Nat)
def IsStr (a : A) : Prop := ∃ s, a = .str s

/-- The type of a parameter. -/
def Fits (k : String) (a : A) : Prop :=
  match k with
  | "src_id" => IsId a
  | "flow_id" => IsId a
  | "origin_timestamp" => IsTime a
  | "sync_timestamp" => IsTime a
  | "creation_timestamp" => IsTime a
  | "rate" => IsFrac a
  | "duration" => IsFrac a
  | "cog_frame_format" => IsMember Cog.FrameFormat.all a
  | "cog_frame_layout" => IsMember Cog.FrameLayout.all a
  | "cog_audio_format" => IsMember Cog.AudioFormat.all a
  | "width" => IsNat a
  | "height" => IsNat a
  | "origin_width" => IsNat a
  | "origin_height" => IsNat a
  | "coded_width" => IsNatOrNone a
  | "coded_height" => IsNatOrNone a
  | "length" => IsNatOrNone a
  | "samples" => IsNat a
  | "channels" => IsNat a
  | "priming" => IsNat a
  | "remainder" => IsNat a
  | "sample_rate" => IsNat a
  | "is_key_frame" => a = .none ∨ ∃ b, a = .bool b
  | "temporal_offset" => a = .none ∨ ∃ n, a = .int n
  | "event_type" => IsStr a
  | "topic" => IsStr a
  | _ => True

/-- Arguments of the types the constructor asks for; both identifiers are given. -/
structure Valid (c : GClass) (args : Args) : Prop where
  known : ∀ p ∈ args, p.1 ∈ names c
  fits : ∀ k ∈ names c, Fits k (arg c args k)

/-- `a`, unless it is `None`. -/
def either (a b : A) : A := match a with | .none => b | a => a

/-- What an attribute of the new grain is. -/
def reads (c : GClass) (now : Int) (args : Args) (name : String) : A :=
  match name with
  | "grain_type" => .str (lit (typeName c))
  | "source_id" => arg c args "src_id"
  | "creation_timestamp" => either (arg c args "creation_timestamp") (.ts now)
  | "origin_timestamp" => either (arg c args "origin_timestamp") (either (arg c args "creation_timestamp") (.ts now))
  | "sync_timestamp" => either (arg c args "sync_timestamp")
      (either (arg c args "origin_timestamp") (either (arg c args "creation_timestamp") (.ts now)))
  | "format" => if c = .audio ∨ c = .codedAudio then arg c args "cog_audio_format" else arg c args "cog_frame_format"
  | "layout" => arg c args "cog_frame_layout"
  | "extension" => .int 0
  | "source_aspect_ratio" => .none
  | "pixel_aspect_ratio" => .none
  | "coded_width" => either (arg c args "coded_width") (arg c args "origin_width")
  | "coded_height" => either (arg c args "coded_height") (arg c args "origin_height")
  | name => arg c args name

/-- A number among the arguments. -/
def num : A → Nat
  | .int n => n.toNat
  | .enum n => n.toNat
  | _ => 0

/-- The size of the data of a new grain when none is given: that of the picture or of the samples; for a coded format what `length`
says. -/
def size (c : GClass) (args : Args) : Nat :=
  match c with
  | .video => Cog.sizeForFormat (num (arg c args "cog_frame_format")) (num (arg c args "width")) (num (arg c args "height"))
  | .audio => Cog.sizeForAudioFormat (num (arg c args "cog_audio_format")) (num (arg c args "channels")) (num (arg c args "samples"))
  | _ => num (arg c args "length")

/-- The data of a new grain. -/
def contents (c : GClass) (args : Args) (data : Option Bytes) : Option Bytes :=
  match c with
  | .grain => none
  | .event => none
  | _ =>
    match data with
    | some b => some b
    | none => some (List.replicate (size c args) 0)

/-- The components of a new grain: those of the format. -/
def planes (c : GClass) (args : Args) : List Cog.Component :=
  match c with
  | .video => Cog.componentsForFormat (num (arg c args "cog_frame_format")) (num (arg c args "width")) (num (arg c args "height"))
  | _ => []

/-- What is assumed of the other libraries: timestamps are written as `sec:nsec` and are true. -/
structure Times (lib : Lib) : Prop where
  text : ∀ n, lib.text (.ts n) = lib.tsText n
  truth : ∀ n, lib.truth (.ts n) = true
  none : lib.truth .none = false

/-! ## Lemmas -/

theorem val_arg (c : GClass) (args : Args) (k : String) (h : k ∈ names c) : val c args k = arg c args k := by
  unfold val arg
  cases args.lookup k with
  | some v => rfl
  | none =>
    show ((params c).lookup k).getD .none = default c k
    revert k
    cases c <;> decide +kernel

theorem params_names (c : GClass) (k : String) : k ∈ (params c).map Prod.fst ↔ k ∈ names c := by
  have : ∀ c, (∀ k ∈ (params c).map Prod.fst, k ∈ names c) ∧ (∀ k ∈ names c, k ∈ (params c).map Prod.fst) := by
    intro c
    cases c <;> decide +kernel
  exact ⟨(this c).1 k, (this c).2 k⟩

theorem common_names (c : GClass) :
    "src_id" ∈ names c ∧ "flow_id" ∈ names c ∧ "origin_timestamp" ∈ names c ∧ "sync_timestamp" ∈ names c ∧
      "creation_timestamp" ∈ names c ∧ "rate" ∈ names c ∧ "duration" ∈ names c := by
  cases c <;> decide

theorem orElse_either (a b : A) : orElse a b = either a b := by
  unfold orElse either
  cases a <;> rfl

theorem either_time {a : A} (h : IsTime a) {n : Int} (hn : 0 ≤ n) : ∃ m, 0 ≤ m ∧ either a (.ts n) = .ts m := by
  rcases h with rfl | ⟨m, hm, rfl⟩
  · exact ⟨n, hn, rfl⟩
  · exact ⟨m, hm, rfl⟩

/-- The metadata of the common arguments. -/
structure Base where
  src : Bytes
  flow : Bytes
  origin : Int
  sync : Int
  creation : Int
  rate : Rat
  duration : Rat

def Base.dict (lib : Lib) (c : GClass) (b : Base) : List (String × T) :=
  [("grain_type", .leaf (.str (lit (typeName c)))), ("source_id", .leaf (.str (lib.text (.uuid b.src)))),
    ("flow_id", .leaf (.str (lib.text (.uuid b.flow)))),
    ("origin_timestamp", .leaf (.str (lib.tsText b.origin))), ("sync_timestamp", .leaf (.str (lib.tsText b.sync))),
    ("creation_timestamp", .leaf (.str (lib.tsText b.creation))),
    ("rate", fracDict b.rate), ("duration", fracDict b.duration)]

structure Base.Of (b : Base) (c : GClass) (now : Int) (args : Args) : Prop where
  src : b.src.length = 16 ∧ arg c args "src_id" = .uuid b.src
  flow : b.flow.length = 16 ∧ arg c args "flow_id" = .uuid b.flow
  origin : 0 ≤ b.origin ∧ reads c now args "origin_timestamp" = .ts b.origin
  sync : 0 ≤ b.sync ∧ reads c now args "sync_timestamp" = .ts b.sync
  creation : 0 ≤ b.creation ∧ reads c now args "creation_timestamp" = .ts b.creation
  rate : arg c args "rate" = .frac b.rate
  duration : arg c args "duration" = .frac b.duration

theorem newMeta_ok (lib : Lib) (ht : Times lib) {now : Int} (hn : 0 ≤ now) {c : GClass} {args : Args} (hv : Valid c args) :
    ∃ b : Base, b.Of c now args ∧ newMeta lib now c args = .ok (dictOf (b.dict lib c ++ own c (val c args))) := by
  obtain ⟨m1, m2, m3, m4, m5, m6, m7⟩ := common_names c
  obtain ⟨u, hu, e1⟩ : IsId (arg c args "src_id") := hv.fits _ m1
  obtain ⟨w, hw, e2⟩ : IsId (arg c args "flow_id") := hv.fits _ m2
  have t3 : IsTime (arg c args "origin_timestamp") := hv.fits _ m3
  have t4 : IsTime (arg c args "sync_timestamp") := hv.fits _ m4
  have t5 : IsTime (arg c args "creation_timestamp") := hv.fits _ m5
  obtain ⟨q, e6⟩ : IsFrac (arg c args "rate") := hv.fits _ m6
  obtain ⟨r, e7⟩ : IsFrac (arg c args "duration") := hv.fits _ m7
  obtain ⟨x, hx, e5⟩ := either_time t5 hn
  obtain ⟨y, hy, e3⟩ := either_time t3 hx
  obtain ⟨z, hz, e4⟩ := either_time t4 hy
  have hc : creation lib now c (val c args "creation_timestamp") = .ts x := by
    rw [val_arg _ _ _ m5, ← e5]
    unfold creation
    rcases t5 with h | ⟨m, hm, h⟩
    · rw [h, ht.none]
      by_cases hc : c = .codedAudio
      · rw [if_pos hc]; rfl
      · rw [if_neg hc]; rfl
    · rw [h, ht.truth]
      by_cases hc : c = .codedAudio
      · rw [if_pos hc]; rfl
      · rw [if_neg hc]; rfl
  refine ⟨⟨u, w, y, z, x, q, r⟩, ⟨⟨hu, e1⟩, ⟨hw, e2⟩, ⟨hy, ?_⟩, ⟨hz, ?_⟩, ⟨hx, e5⟩, e6, e7⟩, ?_⟩
  · show either _ (either _ _) = _
    rw [e5, e3]
  · show either _ (either _ (either _ _)) = _
    rw [e5, e3, e4]
  · unfold newMeta
    simp only [hc]
    rw [val_arg _ _ _ m1, val_arg _ _ _ m2, val_arg _ _ _ m3, val_arg _ _ _ m4, val_arg _ _ _ m6, val_arg _ _ _ m7,
      orElse_either, e3, orElse_either, e4, e1, e2, e6, e7]
    simp only [idText, tsText, fracText, toFrac, ht.text]
    rfl

/-- The attributes that all grains have. -/
theorem common_reads (lib : Lib) (hl : lib.Lawful) {c : GClass} {now : Int} {args : Args} {b : Base} (hb : b.Of c now args)
    {g : Dict T} (hg : ∀ p ∈ b.dict lib c, g p.1 = some p.2) (a : Attr) (ha : a ∈ grainAttrs) :
    get lib a g = .ok (reads c now args a.name) := by
  unfold Base.dict at hg
  simp only [List.forall_mem_cons] at hg
  obtain ⟨g1, g2, g3, g4, g5, g6, g7, g8, -⟩ := hg
  simp only [grainAttrs, List.mem_cons, List.not_mem_nil, or_false] at ha
  have hu : reads c now args "source_id" = .uuid b.src := hb.src.2
  have hu' : reads c now args "src_id" = .uuid b.src := hb.src.2
  have hw : reads c now args "flow_id" = .uuid b.flow := hb.flow.2
  have hq : reads c now args "rate" = .frac b.rate := hb.rate
  have hr : reads c now args "duration" = .frac b.duration := hb.duration
  rcases ha with rfl | rfl | rfl | rfl | rfl | rfl | rfl | rfl | rfl
  · simp only [Attrs.get, home, g1, Kind.read, readLeaf]; rfl
  · simp only [Attrs.get, home, g2, Kind.read, readUuid, hl.uuid _ hb.src.1, hu]
  · simp only [Attrs.get, home, g2, Kind.read, readUuid, hl.uuid _ hb.src.1, hu']
  · simp only [Attrs.get, home, g3, Kind.read, readUuid, hl.uuid _ hb.flow.1, hw]
  · simp only [Attrs.get, home, g4, Kind.read, readTime, hl.time _ hb.origin.1, hb.origin.2]
  · simp only [Attrs.get, home, g5, Kind.read, readTime, hl.time _ hb.sync.1, hb.sync.2]
  · simp only [Attrs.get, home, g6, Kind.read, readTime, hl.time _ hb.creation.1, hb.creation.2]
  · simp only [Attrs.get, home, g7, Kind.read, C60.readFrac_dict, hq]
  · simp only [Attrs.get, home, g8, Kind.read, C60.readFrac_dict, hr]

theorem base_lookup (lib : Lib) (c : GClass) (b : Base) (l : List (String × T)) (p : String × T) (hp : p ∈ b.dict lib c) :
    dictOf (b.dict lib c ++ l) p.1 = some p.2 := by
  unfold Base.dict at hp ⊢
  simp only [List.mem_cons, List.not_mem_nil, or_false] at hp
  rcases hp with rfl | rfl | rfl | rfl | rfl | rfl | rfl | rfl <;> rfl

theorem base_keys (lib : Lib) (c : GClass) (b : Base) (s : Meta.SubSpec) (hs : Meta.specOf c = some s) :
    ∀ p ∈ b.dict lib c, p.1 ≠ s.key := by
  unfold Base.dict
  cases c <;> simp [Meta.specOf] at hs <;> subst hs <;>
    simp [Meta.videoSpec, Meta.audioSpec, Meta.codedVideoSpec, Meta.codedAudioSpec, Meta.eventSpec]

/-- The constructor, given what its own dictionary becomes. -/
theorem make_own (lib : Lib) (hl : lib.Lawful) (ht : Times lib) {now : Int} (hn : 0 ≤ now) {c : GClass} {args : Args}
    (hv : Valid c args) (data : Option Bytes) {s : Meta.SubSpec} (hs : Meta.specOf c = some s) {d d' : Dict T}
    (ho : own c (val c args) = [(s.key, .dict d)])
    (hd : s.ints.foldlM (fun d k => intAt lib k d) (if c = .codedVideo then dflt d "length" (.leaf (.int 0)) else d) = .ok d')
    {x : Option Bytes} (hx : newData c args data = .ok x) {cs : List Cog.Component} (hcs : newComponents c args = .ok cs) :
    ∃ m, make lib now c args data = .ok m ∧ m.components = cs ∧ m.data = x ∧ m.grain s.key = some (.dict d') ∧
      ∀ a ∈ grainAttrs, Attrs.get lib a m.grain = .ok (reads c now args a.name) := by
  obtain ⟨b, hb, hm⟩ := newMeta_ok lib ht hn hv
  have hk : ¬(c ≠ .grain ∧ ¬∀ p ∈ args, p.1 ∈ (params c).map Prod.fst) := by
    rintro ⟨-, h⟩
    exact h (fun p hp => (params_names c p.1).2 (hv.known p hp))
  have hh : home (dictOf (b.dict lib c ++ own c (val c args))) (some s.key) = .ok d := by
    have : dictOf (b.dict lib c ++ own c (val c args)) s.key = some (.dict d) := by
      rw [ho]
      have hne := base_keys lib c b s hs
      unfold dictOf
      rw [List.lookup_append]
      have : List.lookup s.key (b.dict lib c) = none := by
        rw [List.lookup_eq_none_iff]
        intro p hp
        simp [Ne.symm (hne p hp)]
      rw [this]
      simp [List.lookup]
    simp only [home, this]
  have hf : finish lib c (dictOf (b.dict lib c ++ own c (val c args))) =
      .ok (put (put (dictOf (b.dict lib c ++ own c (val c args))) "grain_type" (.leaf (.str (lit (typeName c))))) s.key (.dict d')) := by
    unfold finish
    rw [hs]
    simp only [hh]
    show Except.bind (s.ints.foldlM (fun d k => intAt lib k d)
      (if c = .codedVideo then dflt d "length" (.leaf (.int 0)) else d)) _ = _
    rw [hd]
    rfl
  refine ⟨⟨put (put (dictOf (b.dict lib c ++ own c (val c args))) "grain_type" (.leaf (.str (lit (typeName c))))) s.key (.dict d'),
    cs, x⟩, ?_, rfl, rfl, ?_, ?_⟩
  · unfold make
    rw [if_neg hk, hm, hx, hcs]
    show (finish lib c _).bind _ = _
    rw [hf]
    rfl
  · simp [put]
  · intro a ha
    refine common_reads lib hl hb ?_ a ha
    intro p hp
    simp only [put, if_neg (base_keys lib c b s hs p hp)]
    by_cases hg : p.1 = "grain_type"
    · rw [if_pos hg]
      unfold Base.dict at hp
      simp only [List.mem_cons, List.not_mem_nil, or_false] at hp
      rcases hp with rfl | rfl | rfl | rfl | rfl | rfl | rfl | rfl <;> first | rfl | simp at hg
    · rw [if_neg hg]
      exact base_lookup lib c b _ p hp

theorem natOf_int (n : Nat) : natOf (.int n) = .ok n := by simp [natOf]
theorem natOf_enum (n : Nat) : natOf (.enum n) = .ok n := by simp [natOf]

theorem readEnum_mem {vals : List Nat} {n : Nat} (h : n ∈ vals) : readEnum vals (.leaf (.int n)) = .ok (.enum n) := by
  simp [readEnum, h]

theorem made_video (lib : Lib) (hl : lib.Lawful) (ht : Times lib) {now : Int} (hn : 0 ≤ now) {args : Args}
    (hv : Valid .video args) (data : Option Bytes) :
    ∃ m, make lib now .video args data = .ok m ∧ m.data = contents .video args data ∧ m.components = planes .video args ∧
      ∀ a ∈ attrs .video, Attrs.get lib a m.grain = .ok (reads .video now args a.name) := by
  obtain ⟨f, hf, ef⟩ : IsMember Cog.FrameFormat.all (arg .video args "cog_frame_format") := hv.fits "cog_frame_format" (by decide)
  obtain ⟨l, hl', el⟩ : IsMember Cog.FrameLayout.all (arg .video args "cog_frame_layout") := hv.fits "cog_frame_layout" (by decide)
  obtain ⟨w, ew⟩ : IsNat (arg .video args "width") := hv.fits "width" (by decide)
  obtain ⟨h, eh⟩ : IsNat (arg .video args "height") := hv.fits "height" (by decide)
  have vf := (val_arg .video args "cog_frame_format" (by decide)).trans ef
  have vl := (val_arg .video args "cog_frame_layout" (by decide)).trans el
  have vw := (val_arg .video args "width" (by decide)).trans ew
  have vh := (val_arg .video args "height" (by decide)).trans eh
  have hx : newData .video args data = .ok (contents .video args data) := by
    unfold newData contents
    cases data with
    | some b => rfl
    | none =>
      simp only [vf, vw, vh, natOf_int, natOf_enum, size, ef, ew, eh]
      rfl
  have hcs : newComponents .video args = .ok (planes .video args) := by
    unfold newComponents planes
    simp only [vf, vw, vh, natOf_int, natOf_enum, ef, ew, eh]
    rfl
  obtain ⟨m, hm, hc, hd, hk, hg⟩ := make_own lib hl ht hn hv data (s := Meta.videoSpec) rfl rfl
    (by simp only [vf, vl, vw, vh]; rfl) hx hcs
  refine ⟨m, hm, hd, hc, ?_⟩
  intro a ha
  rcases List.mem_append.1 ha with ha | ha
  · exact hg a ha
  · have hk : m.grain "cog_frame" = _ := hk
    simp only [videoAttrs, List.mem_cons, List.not_mem_nil, or_false] at ha
    rcases ha with rfl | rfl | rfl | rfl | rfl | rfl | rfl | rfl | rfl
    · simp only [Attrs.get, home, hk, Kind.read]
      exact (readEnum_mem hf).trans (congrArg _ ef.symm)
    · simp only [Attrs.get, home, hk, Kind.read]
      exact (readEnum_mem hf).trans (congrArg _ ef.symm)
    · simp only [Attrs.get, home, hk]
      exact congrArg _ ew.symm
    · simp only [Attrs.get, home, hk]
      exact congrArg _ eh.symm
    · simp only [Attrs.get, home, hk, Kind.read]
      exact (readEnum_mem hl').trans (congrArg _ el.symm)
    · simp only [Attrs.get, home, hk, Kind.read]
      exact (readEnum_mem hl').trans (congrArg _ el.symm)
    · simp only [Attrs.get, home, hk]
      rfl
    · simp only [Attrs.get, home, hk]
      rfl
    · simp only [Attrs.get, home, hk]
      rfl

/-- The number of bytes asked for. -/
theorem length_ok {c : GClass} (hc : c = .codedVideo ∨ c = .codedAudio) {args : Args} (hv : Valid c args) (data : Option Bytes) :
    newData c args data = .ok (contents c args data) := by
  have hn : "length" ∈ names c := by rcases hc with rfl | rfl <;> decide
  have hf : IsNatOrNone (arg c args "length") := hv.fits "length" hn
  have hv := val_arg c args "length" hn
  have key : (if val c args "length" = .none then Except.ok 0 else natOf (val c args "length")) = .ok (num (arg c args "length")) := by
    rw [hv]
    rcases hf with h | ⟨n, h⟩
    · rw [h]; rfl
    · rw [h, if_neg (by simp), natOf_int]; rfl
  have hb : (if val c args "length" = .none then Except.ok 0 else natOf (val c args "length")).bind
      (fun n => Except.ok (some (zeros n))) = (.ok (some (List.replicate (size c args) 0)) : Except AErr (Option Bytes)) := by
    rw [key]
    rcases hc with rfl | rfl <;> rfl
  have hb' : (if val c args "length" = .none then (Except.ok 0 : Except AErr Nat).bind (fun n => Except.ok (some (zeros n)))
      else (natOf (val c args "length")).bind (fun n => Except.ok (some (zeros n)))) =
      (.ok (some (List.replicate (size c args) 0)) : Except AErr (Option Bytes)) := by
    rw [← hb]
    split <;> rfl
  rcases hc with rfl | rfl <;> cases data <;> first | rfl | exact hb'

theorem made_audio (lib : Lib) (hl : lib.Lawful) (ht : Times lib) {now : Int} (hn : 0 ≤ now) {args : Args}
    (hv : Valid .audio args) (data : Option Bytes) :
    ∃ m, make lib now .audio args data = .ok m ∧ m.data = contents .audio args data ∧ m.components = planes .audio args ∧
      ∀ a ∈ attrs .audio, Attrs.get lib a m.grain = .ok (reads .audio now args a.name) := by
  obtain ⟨f, hf, ef⟩ : IsMember Cog.AudioFormat.all (arg .audio args "cog_audio_format") := hv.fits "cog_audio_format" (by decide)
  have vf := (val_arg .audio args "cog_audio_format" (by decide)).trans ef
  obtain ⟨x, ex⟩ : IsNat (arg .audio args "samples") := hv.fits "samples" (by decide)
  have vx := (val_arg .audio args "samples" (by decide)).trans ex
  obtain ⟨y, ey⟩ : IsNat (arg .audio args "channels") := hv.fits "channels" (by decide)
  have vy := (val_arg .audio args "channels" (by decide)).trans ey
  obtain ⟨r, er⟩ : IsNat (arg .audio args "sample_rate") := hv.fits "sample_rate" (by decide)
  have vr := (val_arg .audio args "sample_rate" (by decide)).trans er
  have hx : newData .audio args data = .ok (contents .audio args data) := by
    unfold newData contents
    cases data with
    | some b => rfl
    | none =>
      simp only [vf, vx, vy, natOf_int, natOf_enum, size, ef, ex, ey]
      rfl
  obtain ⟨m, hm, hc, hd, hk, hg⟩ := make_own lib hl ht hn hv data (s := Meta.audioSpec) rfl rfl
    (by simp only [vf, vx, vy, vr]; rfl) hx (cs := []) rfl
  refine ⟨m, hm, hd, hc, ?_⟩
  intro a ha
  rcases List.mem_append.1 ha with ha | ha
  · exact hg a ha
  · have hk : m.grain "cog_audio" = _ := hk
    simp only [audioAttrs, List.mem_cons, List.not_mem_nil, or_false] at ha
    rcases ha with rfl | rfl | rfl | rfl | rfl
    · simp only [Attrs.get, home, hk, Kind.read]
      exact (readEnum_mem hf).trans (congrArg _ ef.symm)
    · simp only [Attrs.get, home, hk, Kind.read]
      exact (readEnum_mem hf).trans (congrArg _ ef.symm)
    · simp only [Attrs.get, home, hk]
      exact congrArg _ ex.symm
    · simp only [Attrs.get, home, hk]
      exact congrArg _ ey.symm
    · simp only [Attrs.get, home, hk]
      exact congrArg _ er.symm

theorem made_codedAudio (lib : Lib) (hl : lib.Lawful) (ht : Times lib) {now : Int} (hn : 0 ≤ now) {args : Args}
    (hv : Valid .codedAudio args) (data : Option Bytes) :
    ∃ m, make lib now .codedAudio args data = .ok m ∧ m.data = contents .codedAudio args data ∧ m.components = planes .codedAudio args ∧
      ∀ a ∈ attrs .codedAudio, Attrs.get lib a m.grain = .ok (reads .codedAudio now args a.name) := by
  obtain ⟨f, hf, ef⟩ : IsMember Cog.AudioFormat.all (arg .codedAudio args "cog_audio_format") := hv.fits "cog_audio_format" (by decide)
  have vf := (val_arg .codedAudio args "cog_audio_format" (by decide)).trans ef
  obtain ⟨x, ex⟩ : IsNat (arg .codedAudio args "samples") := hv.fits "samples" (by decide)
  have vx := (val_arg .codedAudio args "samples" (by decide)).trans ex
  obtain ⟨y, ey⟩ : IsNat (arg .codedAudio args "channels") := hv.fits "channels" (by decide)
  have vy := (val_arg .codedAudio args "channels" (by decide)).trans ey
  obtain ⟨p, ep⟩ : IsNat (arg .codedAudio args "priming") := hv.fits "priming" (by decide)
  have vp := (val_arg .codedAudio args "priming" (by decide)).trans ep
  obtain ⟨q, eq⟩ : IsNat (arg .codedAudio args "remainder") := hv.fits "remainder" (by decide)
  have vq := (val_arg .codedAudio args "remainder" (by decide)).trans eq
  obtain ⟨r, er⟩ : IsNat (arg .codedAudio args "sample_rate") := hv.fits "sample_rate" (by decide)
  have vr := (val_arg .codedAudio args "sample_rate" (by decide)).trans er
  obtain ⟨m, hm, hc, hd, hk, hg⟩ := make_own lib hl ht hn hv data (s := Meta.codedAudioSpec) rfl rfl
    (by simp only [vf, vx, vy, vp, vq, vr]; rfl) (length_ok (.inr rfl) hv data) (cs := []) rfl
  refine ⟨m, hm, hd, hc, ?_⟩
  intro a ha
  rcases List.mem_append.1 ha with ha | ha
  · exact hg a ha
  · have hk : m.grain "cog_coded_audio" = _ := hk
    simp only [codedAudioAttrs, List.mem_cons, List.not_mem_nil, or_false] at ha
    rcases ha with rfl | rfl | rfl | rfl | rfl | rfl | rfl
    · simp only [Attrs.get, home, hk, Kind.read]
      exact (readEnum_mem hf).trans (congrArg _ ef.symm)
    · simp only [Attrs.get, home, hk, Kind.read]
      exact (readEnum_mem hf).trans (congrArg _ ef.symm)
    · simp only [Attrs.get, home, hk]
      exact congrArg _ ey.symm
    · simp only [Attrs.get, home, hk]
      exact congrArg _ ex.symm
    · simp only [Attrs.get, home, hk]
      exact congrArg _ ep.symm
    · simp only [Attrs.get, home, hk]
      exact congrArg _ eq.symm
    · simp only [Attrs.get, home, hk]
      exact congrArg _ er.symm

theorem made_event (lib : Lib) (hl : lib.Lawful) (ht : Times lib) {now : Int} (hn : 0 ≤ now) {args : Args}
    (hv : Valid .event args) (data : Option Bytes) :
    ∃ m, make lib now .event args data = .ok m ∧ m.data = contents .event args data ∧ m.components = planes .event args ∧
      ∀ a ∈ attrs .event, Attrs.get lib a m.grain = .ok (reads .event now args a.name) := by
  obtain ⟨x, ex⟩ : IsStr (arg .event args "event_type") := hv.fits "event_type" (by decide)
  have vx := (val_arg .event args "event_type" (by decide)).trans ex
  obtain ⟨y, ey⟩ : IsStr (arg .event args "topic") := hv.fits "topic" (by decide)
  have vy := (val_arg .event args "topic" (by decide)).trans ey
  obtain ⟨m, hm, hc, hd, hk, hg⟩ := make_own lib hl ht hn hv data (s := Meta.eventSpec) rfl rfl
    (by simp only [vx, vy]; rfl) (x := none) rfl (cs := []) rfl
  refine ⟨m, hm, hd, hc, ?_⟩
  intro a ha
  rcases List.mem_append.1 ha with ha | ha
  · exact hg a ha
  · have hk : m.grain "event_payload" = _ := hk
    simp only [eventAttrs, List.mem_cons, List.not_mem_nil, or_false] at ha
    rcases ha with rfl | rfl
    · simp only [Attrs.get, home, hk]
      exact congrArg _ ex.symm
    · simp only [Attrs.get, home, hk]
      exact congrArg _ ey.symm

theorem made_codedVideo (lib : Lib) (hl : lib.Lawful) (ht : Times lib) {now : Int} (hn : 0 ≤ now) {args : Args}
    (hv : Valid .codedVideo args) (data : Option Bytes) :
    ∃ m, make lib now .codedVideo args data = .ok m ∧ m.data = contents .codedVideo args data ∧ m.components = planes .codedVideo args ∧
      ∀ a ∈ attrs .codedVideo, Attrs.get lib a m.grain = .ok (reads .codedVideo now args a.name) := by
  obtain ⟨f, hf, ef⟩ : IsMember Cog.FrameFormat.all (arg .codedVideo args "cog_frame_format") := hv.fits "cog_frame_format" (by decide)
  have vf := (val_arg .codedVideo args "cog_frame_format" (by decide)).trans ef
  obtain ⟨l, hl', el⟩ : IsMember Cog.FrameLayout.all (arg .codedVideo args "cog_frame_layout") := hv.fits "cog_frame_layout" (by decide)
  have vl := (val_arg .codedVideo args "cog_frame_layout" (by decide)).trans el
  obtain ⟨w, ew⟩ : IsNat (arg .codedVideo args "origin_width") := hv.fits "origin_width" (by decide)
  have vw := (val_arg .codedVideo args "origin_width" (by decide)).trans ew
  obtain ⟨h, eh⟩ : IsNat (arg .codedVideo args "origin_height") := hv.fits "origin_height" (by decide)
  have vh := (val_arg .codedVideo args "origin_height" (by decide)).trans eh
  have ti : IsNatOrNone (arg .codedVideo args "coded_width") := hv.fits "coded_width" (by decide)
  have vi := val_arg .codedVideo args "coded_width" (by decide)
  have tj : IsNatOrNone (arg .codedVideo args "coded_height") := hv.fits "coded_height" (by decide)
  have vj := val_arg .codedVideo args "coded_height" (by decide)
  obtain ⟨i, ei⟩ : IsNat (either (arg .codedVideo args "coded_width") (arg .codedVideo args "origin_width")) := by
    rcases ti with h | ⟨n, h⟩
    · rw [h]; exact ⟨w, ew⟩
    · rw [h]; exact ⟨n, rfl⟩
  obtain ⟨j, ej⟩ : IsNat (either (arg .codedVideo args "coded_height") (arg .codedVideo args "origin_height")) := by
    rcases tj with h' | ⟨n, h'⟩
    · rw [h']; exact ⟨h, eh⟩
    · rw [h']; exact ⟨n, rfl⟩
  have tk : arg .codedVideo args "is_key_frame" = .none ∨ ∃ b, arg .codedVideo args "is_key_frame" = .bool b :=
    hv.fits "is_key_frame" (by decide)
  have to : arg .codedVideo args "temporal_offset" = .none ∨ ∃ n, arg .codedVideo args "temporal_offset" = .int n :=
    hv.fits "temporal_offset" (by decide)
  have vk := val_arg .codedVideo args "is_key_frame" (by decide)
  have vo := val_arg .codedVideo args "temporal_offset" (by decide)
  have vi' : orElse (val .codedVideo args "coded_width") (val .codedVideo args "origin_width") = .int i := by
    rw [orElse_either, vi, vw, ← ei, ew]
  have vj' : orElse (val .codedVideo args "coded_height") (val .codedVideo args "origin_height") = .int j := by
    rw [orElse_either, vj, vh, ← ej, eh]
  obtain ⟨d, hd0, r⟩ : ∃ d : Dict T, Meta.codedVideoSpec.ints.foldlM (fun d k => intAt lib k d)
      (dflt (dictOf ([("format", .leaf (val .codedVideo args "cog_frame_format")),
      ("origin_width", .leaf (val .codedVideo args "origin_width")), ("origin_height", .leaf (val .codedVideo args "origin_height")),
      ("coded_width", .leaf (orElse (val .codedVideo args "coded_width") (val .codedVideo args "origin_width"))),
      ("coded_height", .leaf (orElse (val .codedVideo args "coded_height") (val .codedVideo args "origin_height"))),
      ("layout", .leaf (val .codedVideo args "cog_frame_layout"))] ++
      optional "is_key_frame" (val .codedVideo args "is_key_frame") ++
      optional "temporal_offset" (val .codedVideo args "temporal_offset") ++
      optional "unit_offsets" (val .codedVideo args "unit_offsets"))) "length" (.leaf (.int 0))) = .ok d ∧
      d "format" = some (.leaf (.int f)) ∧ d "layout" = some (.leaf (.int l)) ∧ d "origin_width" = some (.leaf (.int w)) ∧
      d "origin_height" = some (.leaf (.int h)) ∧ d "coded_width" = some (.leaf (.int i)) ∧
      d "coded_height" = some (.leaf (.int j)) ∧
      Kind.read lib .optBool (d "is_key_frame") = .ok (arg .codedVideo args "is_key_frame") ∧
      Kind.read lib .optPlain (d "temporal_offset") = .ok (arg .codedVideo args "temporal_offset") ∧
      d "source_aspect_ratio" = none ∧ d "pixel_aspect_ratio" = none := by
    rw [vi', vj', vf, vl, vw, vh, vk, vo]
    generalize val .codedVideo args "unit_offsets" = u
    have hu : (∃ x, optional "unit_offsets" u = [("unit_offsets", x)]) ∨ optional "unit_offsets" u = [] := by
      cases u <;> first | exact .inr rfl | exact .inl ⟨_, rfl⟩
    rcases hu with ⟨x, hu⟩ | hu <;> rw [hu] <;> rcases tk with tk | ⟨b, tk⟩ <;> rw [tk] <;>
      rcases to with to | ⟨t, to⟩ <;> rw [to] <;>
      exact ⟨_, rfl, rfl, rfl, rfl, rfl, rfl, rfl, rfl, rfl, rfl, rfl⟩
  obtain ⟨rf, rl, rw', rh, ri, rj, rk, ro, rs, rp⟩ := r
  obtain ⟨m, hm, hc, hd, hk, hg⟩ := make_own lib hl ht hn hv data (s := Meta.codedVideoSpec) rfl rfl
    hd0 (length_ok (.inl rfl) hv data) (cs := []) rfl
  refine ⟨m, hm, hd, hc, ?_⟩
  intro a ha
  rcases List.mem_append.1 ha with ha | ha
  · exact hg a ha
  · have hk : m.grain "cog_coded_frame" = _ := hk
    simp only [codedVideoAttrs, List.mem_cons, List.not_mem_nil, or_false] at ha
    rcases ha with rfl | rfl | rfl | rfl | rfl | rfl | rfl | rfl | rfl | rfl | rfl | rfl
    · simp only [Attrs.get, home, hk, rf, Kind.read]
      exact (readEnum_mem hf).trans (congrArg _ ef.symm)
    · simp only [Attrs.get, home, hk, rf, Kind.read]
      exact (readEnum_mem hf).trans (congrArg _ ef.symm)
    · simp only [Attrs.get, home, hk, rl, Kind.read]
      exact (readEnum_mem hl').trans (congrArg _ el.symm)
    · simp only [Attrs.get, home, hk, rl, Kind.read]
      exact (readEnum_mem hl').trans (congrArg _ el.symm)
    · simp only [Attrs.get, home, hk, rw']
      exact congrArg _ ew.symm
    · simp only [Attrs.get, home, hk, rh]
      exact congrArg _ eh.symm
    · simp only [Attrs.get, home, hk, ri]
      exact congrArg _ ei.symm
    · simp only [Attrs.get, home, hk, rj]
      exact congrArg _ ej.symm
    · simp only [Attrs.get, home, hk]
      exact rk
    · simp only [Attrs.get, home, hk]
      exact ro
    · simp only [Attrs.get, home, hk, rs]
      rfl
    · simp only [Attrs.get, home, hk, rp]
      rfl

theorem made_grain (lib : Lib) (hl : lib.Lawful) (ht : Times lib) {now : Int} (hn : 0 ≤ now) {args : Args}
    (hv : Valid .grain args) (data : Option Bytes) :
    ∃ m, make lib now .grain args data = .ok m ∧ m.data = contents .grain args data ∧ m.components = planes .grain args ∧
      ∀ a ∈ attrs .grain, Attrs.get lib a m.grain = .ok (reads .grain now args a.name) := by
  obtain ⟨b, hb, hm⟩ := newMeta_ok lib ht hn hv
  refine ⟨⟨dictOf (b.dict lib .grain ++ []), [], none⟩, ?_, rfl, rfl, ?_⟩
  · unfold make
    rw [if_neg (by simp), hm]
    rfl
  · exact common_reads lib hl hb (base_lookup lib .grain b [])

/-- All classes. -/
theorem made (lib : Lib) (hl : lib.Lawful) (ht : Times lib) {now : Int} (hn : 0 ≤ now) (c : GClass) {args : Args}
    (hv : Valid c args) (data : Option Bytes) :
    ∃ m, make lib now c args data = .ok m ∧ m.data = contents c args data ∧ m.components = planes c args ∧
      ∀ a ∈ attrs c, Attrs.get lib a m.grain = .ok (reads c now args a.name) := by
  cases c with
  | grain => exact made_grain lib hl ht hn hv data
  | video => exact made_video lib hl ht hn hv data
  | audio => exact made_audio lib hl ht hn hv data
  | codedVideo => exact made_codedVideo lib hl ht hn hv data
  | codedAudio => exact made_codedAudio lib hl ht hn hv data
  | event => exact made_event lib hl ht hn hv data

/-- The text under `source_id` is that of the argument, whatever it is. -/
theorem source_text {lib : Lib} {now : Int} {c : GClass} {args : Args} {data : Option Bytes} {m : Made}
    (hm : make lib now c args data = .ok m) :
    ∃ s, idText lib c (arg c args "src_id") = .ok s ∧ m.grain "source_id" = some (.leaf (.str s)) := by
  have hs : val c args "src_id" = arg c args "src_id" := val_arg c args "src_id" (common_names c).1
  have hnew : ∀ g, newMeta lib now c args = .ok g →
      ∃ s, idText lib c (arg c args "src_id") = .ok s ∧ g "source_id" = some (.leaf (.str s)) := by
    intro g hg
    unfold newMeta at hg
    simp only [hs, bind, Except.bind, pure, Except.pure] at hg
    cases h : idText lib c (arg c args "src_id") with
    | error e => rw [h] at hg; cases hg
    | ok x =>
      rw [h] at hg
      refine ⟨x, rfl, ?_⟩
      simp only [] at hg
      repeat' (split at hg)
      all_goals first | (cases hg; done) | skip
      cases hg
      rfl
  have hfin : ∀ g g', finish lib c g = .ok g' → g' "source_id" = g "source_id" := by
    intro g g' h
    unfold finish at h
    cases hsp : Meta.specOf c with
    | none => rw [hsp] at h; cases h; rfl
    | some s =>
      rw [hsp] at h
      simp only [bind, Except.bind, pure, Except.pure] at h
      repeat' (split at h)
      all_goals first | (cases h; done) | skip
      all_goals
        cases h
        cases c <;> cases hsp <;> rfl
  unfold make at hm
  simp only [bind, Except.bind, pure, Except.pure, throw, throwThe, MonadExceptOf.throw] at hm
  split at hm
  · cases hm
  · cases hg : newMeta lib now c args with
    | error e => rw [hg] at hm; cases hm
    | ok g =>
      rw [hg] at hm
      obtain ⟨s, h1, h2⟩ := hnew g hg
      simp only [] at hm
      cases hd : newData c args data with
      | error e => rw [hd] at hm; cases hm
      | ok x =>
        cases hcs : newComponents c args with
        | error e => rw [hd, hcs] at hm; cases hm
        | ok cs =>
          cases hf : finish lib c g with
          | error e => rw [hd, hcs] at hm; simp only [hf] at hm; cases hm
          | ok g' =>
            rw [hd, hcs] at hm
            simp only [hf] at hm
            cases hm
            exact ⟨s, h1, (hfin g g' hf).trans h2⟩

end Verif.New

namespace Verif.Props

open Verif.Attrs Verif.New
open Verif.Meta (Dict put dflt GClass)
open Verif.Json (Str)

/-- **C64**: a constructor that gets arguments of the documented types makes a grain, and every attribute of the grain reads as the
argument, or its default. The timestamps default to one another and at last to the time. -/
theorem C64_attributes_partial (lib : Lib) (hl : lib.Lawful) (ht : Times lib) (now : Int) (hn : 0 ≤ now) (c : GClass) (args : Args)
    (hv : Valid c args) (data : Option Bytes) :
    ∃ m, make lib now c args data = .ok m ∧ ∀ a ∈ attrs c, Attrs.get lib a m.grain = .ok (reads c now args a.name) := by
  obtain ⟨m, h1, -, -, h4⟩ := made lib hl ht hn c hv data
  exact ⟨m, h1, h4⟩

/-- **C64**: the data of the new grain are those given, else zeros that fill the picture or the samples, or as many as `length`
says. -/
theorem C64_data (lib : Lib) (hl : lib.Lawful) (ht : Times lib) (now : Int) (hn : 0 ≤ now) (c : GClass) (args : Args)
    (hv : Valid c args) (data : Option Bytes) :
    ∃ m, make lib now c args data = .ok m ∧ m.data = contents c args data := by
  obtain ⟨m, h1, h2, -, -⟩ := made lib hl ht hn c hv data
  exact ⟨m, h1, h2⟩

/-- **C64**: the components of a new picture tile its data, one after the other with no gap, to the last byte. -/
theorem C64_components (lib : Lib) (hl : lib.Lawful) (ht : Times lib) (now : Int) (hn : 0 ≤ now) (args : Args)
    (hv : Valid .video args) :
    ∃ m b, make lib now .video args none = .ok m ∧ m.data = some b ∧ Tiles 0 b.length m.components ∧
      Cog.expectedLength m.components = b.length ∧ ∀ x ∈ b, x = 0 := by
  obtain ⟨m, h1, h2, h3, -⟩ := made lib hl ht hn .video hv none
  refine ⟨m, _, h1, h2, ?_, ?_, ?_⟩
  · rw [h3, List.length_replicate]
    exact C31_tiles _ _ _
  · rw [h3, List.length_replicate]
    exact C31_expected_length _ _ _
  · intro x hx
    exact (List.mem_replicate.1 hx).2

/-- The statement holds only if both identifiers are given (`Valid`). **It fails without them**: the classes take `None`, write
its text into the metadata, and the attribute cannot be read. `GrainFactory` refuses. -/
theorem C64_no_id_counterexample (lib : Lib) (hu : lib.uuidOf (lib.text .none) = none) (now : Int) (c : GClass) (args : Args)
    (ha : arg c args "src_id" = .none) (data : Option Bytes) (m : Made) (hm : make lib now c args data = .ok m) :
    c ≠ .grain ∧ m.grain "source_id" = some (.leaf (.str (lib.text .none))) ∧
      Attrs.get lib ⟨"source_id", none, "source_id", .uuid⟩ m.grain = .error .value := by
  obtain ⟨s, h1, h2⟩ := source_text hm
  rw [ha] at h1
  unfold idText at h1
  by_cases hc : c = .grain
  · simp [hc] at h1
  · simp only [if_neg hc] at h1
    cases h1
    refine ⟨hc, h2, ?_⟩
    simp only [Attrs.get, home, h2, Kind.read, readUuid, hu]

/-! ## The hypotheses are met -/

/-- The library of C60, with the texts of timestamps and of `None`. -/
def C64_lib : Lib :=
  { C60_lib with
    text := fun v => match v with | .ts n => C60_lib.tsText n | .none => lit "None" | v => C60_lib.text v
    truth := fun v => match v with | .ts _ => true | .none => false | v => C60_lib.truth v }

theorem C64_lib_lawful : C64_lib.Lawful :=
  ⟨C60_lib_lawful.str, C60_lib_lawful.uuid, C60_lib_lawful.time, C60_lib_lawful.truth⟩

theorem C64_lib_times : Times C64_lib := ⟨fun _ => rfl, fun _ => rfl, rfl⟩

def C64_args : Args :=
  [("src_id", .uuid (List.replicate 16 1)), ("flow_id", .uuid (List.replicate 16 2)), ("origin_timestamp", .ts 5),
    ("cog_frame_format", .enum Cog.FrameFormat.U8_420), ("width", .int 4), ("height", .int 2)]

theorem C64_args_valid : Valid .video C64_args where
  known := by decide +kernel
  fits := by
    have h : names .video = ["src_id", "flow_id", "origin_timestamp", "sync_timestamp", "creation_timestamp", "rate", "duration",
      "cog_frame_format", "width", "height", "cog_frame_layout"] := rfl
    rw [h]
    simp only [List.forall_mem_cons]
    refine ⟨⟨_, by decide, rfl⟩, ⟨_, by decide, rfl⟩, .inr ⟨5, by decide, rfl⟩, .inl rfl, .inl rfl, ⟨_, rfl⟩, ⟨_, rfl⟩,
      ⟨_, by decide +kernel, rfl⟩, ⟨4, rfl⟩, ⟨2, rfl⟩, ⟨_, by decide +kernel, rfl⟩, by simp⟩

example : ∃ m b, make C64_lib 7 .video C64_args none = .ok m ∧ m.data = some b ∧ b.length = 12 ∧
    Attrs.get C64_lib ⟨"sync_timestamp", none, "sync_timestamp", .time⟩ m.grain = .ok (.ts 5) ∧
    Attrs.get C64_lib ⟨"creation_timestamp", none, "creation_timestamp", .time⟩ m.grain = .ok (.ts 7) ∧
    Attrs.get C64_lib ⟨"width", some "cog_frame", "width", .plain⟩ m.grain = .ok (.int 4) := by
  obtain ⟨m, h1, h2, -, h4⟩ := made C64_lib C64_lib_lawful C64_lib_times (now := 7) (by decide) .video C64_args_valid none
  exact ⟨m, _, h1, h2, by decide +kernel, h4 _ (by decide +kernel), h4 _ (by decide +kernel), h4 _ (by decide +kernel)⟩

example : C64_lib.uuidOf (C64_lib.text .none) = none ∧ arg .video [] "src_id" = .none ∧
    (make C64_lib 7 .video [] none).toOption.isSome := by
  decide +kernel

end Verif.Props

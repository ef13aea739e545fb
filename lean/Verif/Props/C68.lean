import Verif.Gsf.Objects
import Verif.Props.C01
import Verif.Props.C33
import Verif.Props.C64

/-!
# C68: a grain written to a file and read back has the attributes it had
-/

namespace Verif.Props

open Verif.Gsf

/-- The values of the grain have a representation of their own in the file (as in C01, whatever the data). -/
def PlainValues (major : Nat) (g : Gsf.Grain) : Prop := Plain major { g with data := none }

instance (major g) : Decidable (PlainValues major g) := by unfold PlainValues; infer_instance

end Verif.Props

namespace Verif.Objects

open Verif.Attrs
open Verif.Meta (Dict put dflt GClass)
open Verif.New (dictOf)
open Verif.Props (metaOf)

/-! ## Specification -/

/-- The attributes that files have a place for. They have none for the creation timestamp, nor for the aspect ratios of coded video;
the type and topic of events are in the payload. -/
def Stored (c : GClass) (a : Attr) : Prop :=
  a ∈ attrs c ∧ a.name ≠ "creation_timestamp" ∧ a.name ≠ "event_type" ∧ a.name ≠ "topic" ∧
    ¬ (c = .codedVideo ∧ (a.name = "source_aspect_ratio" ∨ a.name = "pixel_aspect_ratio"))

instance (c : GClass) (a : Attr) : Decidable (Stored c a) := by unfold Stored; infer_instance

/-- Two payloads with the same type, topic and items. -/
def SamePayload (p q : Event.Payload) : Prop :=
  p.type = q.type ∧ p.topic = q.topic ∧ p.data.length = q.data.length ∧
    ∀ (i : Nat) (d e : Event.Datum), p.data[i]? = some d → q.data[i]? = some e → Props.SameEventItem d e

/-- The second grain is like the first: of the same class, with the same attributes, lists, payload and bytes. -/
structure Same (lib : Lib) (o o' : Obj) : Prop where
  cls : o'.cls = o.cls
  attrs : ∀ a, Stored o.cls a → Attrs.get lib a o'.d = Attrs.get lib a o.d
  labels : o'.labels = o.labels
  comps : o.cls = .video → o'.comps = o.comps
  offsets : o.cls = .codedVideo → o'.offsets = o.offsets
  payload : o.cls = .event → SamePayload o'.payload o.payload
  /-- A grain without data may come back with empty data, and the other way round. -/
  data : o.cls ≠ .event → o'.data.getD [] = o.data.getD []

/-- The attributes that are numbers of any size. -/
def numbers : List String :=
  ["width", "height", "extension", "samples", "channels", "sample_rate", "origin_width", "origin_height", "coded_width",
    "coded_height", "priming", "remainder"]

/-- The attributes have values of the types that their annotations say, as far as the getters do not see to that; times are not
negative. -/
structure Typed (lib : Lib) (o : Obj) : Prop where
  type : o.attr lib "grain_type" = .ok (.str (New.lit (New.typeName o.cls)))
  times : ∀ name n, (name = "origin_timestamp" ∨ name = "sync_timestamp") → o.attr lib name = .ok (.ts n) → 0 ≤ n
  ints : ∀ name ∈ numbers, ∀ v, o.attr lib name = .ok v → ∃ n : Int, v = .int n
  offset : ∀ v, o.attr lib "temporal_offset" = .ok v → v = .none ∨ ∃ n : Int, v = .int n
  payload : o.cls = .event → Props.PayloadOk o.payload

namespace C68

/-! ## What the encoder has read -/

theorem bind_ok {ε α β : Type} {x : Except ε α} {f : α → Except ε β} {b : β} :
    x.bind f = .ok b ↔ ∃ a, x = .ok a ∧ f a = .ok b := by
  cases x with
  | error e => simp [Except.bind]
  | ok a => simp [Except.bind]

theorem uuid_ok {lib : Lib} {o : Obj} {name : String} {u : Bytes} (h : o.uuid lib name = .ok u) :
    o.attr lib name = .ok (.uuid u) := by
  obtain ⟨a, h1, h2⟩ := bind_ok.1 h
  rw [h1]
  cases a <;> simp [asUuid] at h2
  rw [h2]

theorem time_ok {lib : Lib} {o : Obj} {name : String} {u : Int} (h : o.time lib name = .ok u) :
    o.attr lib name = .ok (.ts u) := by
  obtain ⟨a, h1, h2⟩ := bind_ok.1 h
  rw [h1]
  cases a <;> simp [asTime] at h2
  rw [h2]

theorem frac_ok {lib : Lib} {o : Obj} {name : String} {q : Rat} (h : o.frac lib name = .ok q) :
    o.attr lib name = .ok (.frac q) := by
  obtain ⟨a, h1, h2⟩ := bind_ok.1 h
  rw [h1]
  cases a <;> simp [asFrac] at h2
  rw [h2]

/-- `None` or a fraction. -/
def ofOptFrac : Option Rat → A
  | none => .none
  | some q => .frac q

def ofOptBool : Option Bool → A
  | none => .none
  | some b => .bool b

def ofOptInt : Option Int → A
  | none => .none
  | some n => .int n

theorem optFrac_ok {lib : Lib} {o : Obj} {name : String} {q : Option Rat} (h : o.optFrac lib name = .ok q) :
    o.attr lib name = .ok (ofOptFrac q) := by
  obtain ⟨a, h1, h2⟩ := bind_ok.1 h
  rw [h1]
  cases a <;> simp [asOptFrac] at h2 <;> rw [← h2] <;> rfl

theorem optBool_ok {lib : Lib} {o : Obj} {name : String} {q : Option Bool} (h : o.optBool lib name = .ok q) :
    o.attr lib name = .ok (ofOptBool q) := by
  obtain ⟨a, h1, h2⟩ := bind_ok.1 h
  rw [h1]
  cases a <;> simp [asOptBool] at h2 <;> rw [← h2] <;> rfl

theorem optInt_ok {lib : Lib} {o : Obj} {name : String} {q : Option Int} (h : o.optInt lib name = .ok q)
    (ht : ∀ v, o.attr lib name = .ok v → v = .none ∨ ∃ n : Int, v = .int n) : o.attr lib name = .ok (ofOptInt q) := by
  obtain ⟨a, h1, h2⟩ := bind_ok.1 h
  rcases ht a h1 with rfl | ⟨n, rfl⟩
  · simp [asOptInt] at h2
    rw [h1, ← h2]; rfl
  · simp [asOptInt, toInt, Except.map] at h2
    rw [h1, ← h2]; rfl

theorem asNat_ok {lib : Lib} {a : A} {n : Nat} (h : asNat lib a = .ok n) : toInt lib a = .ok n := by
  unfold asNat at h
  cases hi : toInt lib a with
  | error e => simp [hi, bind, Except.bind] at h
  | ok i =>
    rw [hi] at h
    by_cases hn : i < 0
    · simp [bind, Except.bind, hn, throw, throwThe, MonadExceptOf.throw] at h
    · simp [bind, Except.bind, hn, pure, Except.pure] at h
      rw [← h]
      congr 1; omega

theorem int_ok {lib : Lib} {o : Obj} {name : String} {n : Nat} (h : o.nat lib name = .ok n)
    (ht : ∀ v, o.attr lib name = .ok v → ∃ n : Int, v = .int n) : o.attr lib name = .ok (.int n) := by
  obtain ⟨a, h1, h2⟩ := bind_ok.1 h
  obtain ⟨i, rfl⟩ := ht a h1
  have := asNat_ok h2
  simp only [toInt] at this
  injection this with this
  rw [h1, this]

theorem enum_ok {lib : Lib} {o : Obj} {name : String} {n : Nat} {a : Attr} {vals : List Nat} (h : o.nat lib name = .ok n)
    (ha : (attrs o.cls).find? (fun a => a.name = name) = some a) (hk : a.kind = .enum vals) :
    Attrs.get lib a o.d = .ok (.enum n) ∧ n ∈ vals := by
  obtain ⟨v, h1, h2⟩ := bind_ok.1 h
  unfold Obj.attr at h1
  rw [ha] at h1
  simp only at h1
  have h3 : ∃ m : Int, v = .enum m ∧ 0 ≤ m ∧ m.toNat ∈ vals := by
    unfold Attrs.get at h1
    cases hh : home o.d a.sub with
    | error e => rw [hh] at h1; simp at h1
    | ok d =>
      rw [hh, hk] at h1
      simp only at h1
      cases hd : d a.key with
      | none => rw [hd] at h1; simp [Kind.read] at h1
      | some t =>
        rw [hd] at h1
        simp only [Kind.read] at h1
        unfold readEnum at h1
        split at h1
        · split at h1
          · rename_i hc; injection h1 with h1; exact ⟨_, h1.symm, hc.1, hc.2⟩
          · simp at h1
        · split at h1
          · rename_i hc; injection h1 with h1; exact ⟨_, h1.symm, hc.1, hc.2⟩
          · simp at h1
        · simp at h1
  obtain ⟨m, rfl, hm, hv⟩ := h3
  have := asNat_ok h2
  simp only [toInt] at this
  injection this with this
  subst this
  exact ⟨h1, by simpa using hv⟩

/-! ## Making the grain -/

theorem grainInit_ok (lib : Lib) (now : Int) (d : Dict T) (s f : Bytes) (o y : Int) (r q : Rat)
    (h1 : d "source_id" = some (.leaf (.uuid s))) (h2 : d "flow_id" = some (.leaf (.uuid f)))
    (h3 : d "origin_timestamp" = some (.leaf (.ts o))) (h4 : d "sync_timestamp" = some (.leaf (.ts y)))
    (h5 : d "rate" = some (.leaf (.frac r))) (h6 : d "duration" = some (.leaf (.frac q)))
    (h7 : d "creation_timestamp" = none) :
    ∃ d', grainInit lib now d = .ok d' ∧ d' "source_id" = some (.leaf (.str (lib.text (.uuid s)))) ∧
      d' "flow_id" = some (.leaf (.str (lib.text (.uuid f)))) ∧
      d' "origin_timestamp" = some (.leaf (.str (lib.tsText o))) ∧ d' "sync_timestamp" = some (.leaf (.str (lib.tsText y))) ∧
      d' "creation_timestamp" = some (.leaf (.str (lib.text (.ts now)))) ∧
      d' "rate" = some (fracDict r) ∧ d' "duration" = some (fracDict q) ∧
      d' "grain_type" = some ((d "grain_type").getD (.leaf (.str (New.lit "empty")))) ∧
      ∀ k, k ∉ ["source_id", "flow_id", "origin_timestamp", "sync_timestamp", "creation_timestamp", "rate", "duration", "grain_type"] →
        d' k = d k := by
  cases h8 : d "grain_type" with
  | none =>
    refine ⟨_, by
      simp [grainInit, fill, dflt, put, convAt, convUuid, convTime, convFrac, timeText, bind, Except.bind, Except.map, h1, h2, h3,
        h4, h5, h6, h7, h8]
      rfl, ?_⟩
    simp +contextual [put]
  | some t =>
    refine ⟨_, by
      simp [grainInit, fill, dflt, put, convAt, convUuid, convTime, convFrac, timeText, bind, Except.bind, Except.map, h1, h2, h3,
        h4, h5, h6, h7, h8]
      rfl, ?_⟩
    simp +contextual [put, h8]

theorem dflts_eq (k : String) : ∀ (l : List (String × Meta.W)) (w : Dict T), (w k ≠ none ∨ k ∉ l.map Prod.fst) →
    dflts l w k = w k
  | [], _, _ => rfl
  | p :: l, w, h => by
    have hk : dflt w p.1 (ofW p.2) k = w k := by
      unfold dflt
      cases hw : w p.1 with
      | some v => rfl
      | none =>
        show put w p.1 _ k = _
        unfold put
        by_cases e : k = p.1
        · subst e
          rcases h with h | h
          · exact absurd hw h
          · simp at h
        · rw [if_neg e]
    show dflts l (dflt w p.1 (ofW p.2)) k = w k
    rw [dflts_eq k l, hk]
    rw [hk]
    rcases h with h | h
    · exact .inl h
    · simp only [List.map_cons, List.mem_cons, not_or] at h
      exact .inr h.2

theorem put_self {d : Dict T} {k : String} {t : T} (h : d k = some t) : put d k t = d := by
  funext x
  unfold put
  by_cases e : x = k
  · subst e; simp [h]
  · rw [if_neg e]

theorem ints_ok (lib : Lib) : ∀ (l : List String) (w : Dict T), (∀ k ∈ l, ∃ n : Int, w k = some (.leaf (.int n))) →
    l.foldlM (fun d k => New.intAt lib k d) w = Except.ok w
  | [], _, _ => rfl
  | k :: l, w, h => by
    obtain ⟨n, hn⟩ := h k (by simp)
    have : New.intAt lib k w = .ok w := by
      unfold New.intAt
      rw [hn]
      simp only [toInt]
      rw [put_self hn]
    rw [List.foldlM_cons, this]
    exact ints_ok lib l w (fun k hk => h k (by simp [hk]))

theorem subInit_ok (lib : Lib) (s : Meta.SubSpec) (d w : Dict T) (hk : s.key ≠ "grain_type") (hd : d s.key = some (.dict w))
    (hi : ∀ k ∈ s.ints, ∃ n : Int, w k = some (.leaf (.int n))) :
    subInit lib s d = .ok (put (put d "grain_type" (.leaf (.str (New.lit s.name)))) s.key (.dict (dflts s.missing w))) := by
  have e : put d "grain_type" (.leaf (.str (New.lit s.name))) s.key = some (.dict w) := by
    unfold put
    rw [if_neg hk, hd]
  have e2 : dflt (put d "grain_type" (.leaf (.str (New.lit s.name)))) s.key (.dict (dflts s.fresh (fun _ => none))) =
      put d "grain_type" (.leaf (.str (New.lit s.name))) := by
    unfold dflt
    rw [e]
  unfold subInit
  simp only [e2, e]
  rw [ints_ok]
  · rfl
  · intro k hk
    obtain ⟨n, hn⟩ := hi k hk
    exact ⟨n, by rw [dflts_eq _ _ _ (.inl (by rw [hn]; simp)), hn]⟩

/-- The attribute of a name, for those that all classes have. -/
theorem attr_base (lib : Lib) (o : Obj) (a : Attr) (ha : a ∈ grainAttrs) : o.attr lib a.name = Attrs.get lib a o.d := by
  unfold Obj.attr
  have : (attrs o.cls).find? (fun b => b.name = a.name) = some a := by
    revert a
    generalize o.cls = c
    cases c <;> decide +kernel
  rw [this]

/-- The same for the attributes of the class. -/
theorem attr_own (lib : Lib) (o : Obj) (a : Attr) (ha : a ∈ attrs o.cls) : o.attr lib a.name = Attrs.get lib a o.d := by
  unfold Obj.attr
  have : (attrs o.cls).find? (fun b => b.name = a.name) = some a := by
    revert a
    generalize o.cls = c
    cases c <;> decide +kernel
  rw [this]

/-- What the encoder has read. -/
structure Was (lib : Lib) (o : Obj) (g : Gsf.Grain) : Prop where
  src : o.attr lib "source_id" = .ok (.uuid g.sourceId)
  flow : o.attr lib "flow_id" = .ok (.uuid g.flowId)
  origin : o.attr lib "origin_timestamp" = .ok (.ts g.origin)
  sync : o.attr lib "sync_timestamp" = .ok (.ts g.sync)
  rate : o.attr lib "rate" = .ok (.frac g.rate)
  duration : o.attr lib "duration" = .ok (.frac g.duration)
  body : body lib o = .ok g.body
  labels : g.timelabels = o.labels
  data : g.data = o.content

theorem write_was {lib : Lib} {o : Obj} {g : Gsf.Grain} (h : write lib o = .ok g) : Was lib o g := by
  unfold write at h
  simp only [bind, bind_ok, pure, Except.pure] at h
  obtain ⟨src, h1, flow, h2, origin, h3, sync, h4, rate, h5, dur, h6, b, h7, h8⟩ := h
  injection h8 with h8
  subst h8
  exact ⟨uuid_ok h1, uuid_ok h2, time_ok h3, time_ok h4, frac_ok h5, frac_ok h6, h7, rfl, rfl⟩

/-- The entries of the dictionary that all grains have. -/
structure Base (lib : Lib) (now : Int) (c : GClass) (g : Gsf.Grain) (d : Dict T) : Prop where
  type : d "grain_type" = some (.leaf (.str (New.lit (New.typeName c))))
  src : d "source_id" = some (.leaf (.str (lib.text (.uuid g.sourceId))))
  flow : d "flow_id" = some (.leaf (.str (lib.text (.uuid g.flowId))))
  origin : d "origin_timestamp" = some (.leaf (.str (lib.tsText g.origin)))
  sync : d "sync_timestamp" = some (.leaf (.str (lib.tsText g.sync)))
  rate : d "rate" = some (fracDict g.rate)
  duration : d "duration" = some (fracDict g.duration)
  creation : d "creation_timestamp" = some (.leaf (.str (lib.text (.ts now))))

theorem base_same {lib : Lib} (hl : lib.Lawful) {now : Int} {o : Obj} {g : Gsf.Grain} {d : Dict T} (hw : Was lib o g) (ht : Typed lib o)
    (hi : g.sourceId.length = 16 ∧ g.flowId.length = 16) (hb : Base lib now o.cls g d) (a : Attr) (ha : a ∈ grainAttrs)
    (hn : a.name ≠ "creation_timestamp") : Attrs.get lib a d = Attrs.get lib a o.d := by
  rw [← attr_base lib o a ha]
  simp only [grainAttrs, List.mem_cons, List.not_mem_nil, or_false] at ha
  have hs : o.attr lib "src_id" = .ok (.uuid g.sourceId) := by
    rw [← hw.src]
    exact (attr_base lib o ⟨"src_id", none, "source_id", .uuid⟩ (by decide)).trans
      (attr_base lib o ⟨"source_id", none, "source_id", .uuid⟩ (by decide)).symm
  rcases ha with rfl | rfl | rfl | rfl | rfl | rfl | rfl | rfl | rfl
  · rw [ht.type]
    simp [Attrs.get, home, hb.type, Kind.read, readLeaf]
  · rw [hw.src]
    simp [Attrs.get, home, hb.src, Kind.read, readUuid, hl.uuid _ hi.1]
  · rw [hs]
    simp [Attrs.get, home, hb.src, Kind.read, readUuid, hl.uuid _ hi.1]
  · rw [hw.flow]
    simp [Attrs.get, home, hb.flow, Kind.read, readUuid, hl.uuid _ hi.2]
  · rw [hw.origin]
    simp [Attrs.get, home, hb.origin, Kind.read, readTime, hl.time _ (ht.times _ _ (.inl rfl) hw.origin)]
  · rw [hw.sync]
    simp [Attrs.get, home, hb.sync, Kind.read, readTime, hl.time _ (ht.times _ _ (.inr rfl) hw.sync)]
  · exact absurd rfl hn
  · rw [hw.rate]
    simp [Attrs.get, home, hb.rate, Kind.read, C60.readFrac_dict]
  · rw [hw.duration]
    simp [Attrs.get, home, hb.duration, Kind.read, C60.readFrac_dict]

/-- The class that the body of a written grain stands for. -/
def clsOf : Gsf.Body → GClass
  | .empty => .grain
  | .event => .event
  | .video _ => .video
  | .codedVideo _ => .codedVideo
  | .audio _ => .audio
  | .codedAudio _ => .codedAudio

theorem dispatch_ok (g : Gsf.Grain) : dispatch (metaDict (metaOf g)) = clsOf g.body := by
  unfold metaOf
  cases g.body <;> rfl

/-- The dictionary of the class, if it has one but for events. -/
def own : Gsf.Body → Option (Dict T)
  | .empty => none
  | .event => none
  | .video v => match videoDict v with | .dict w => some w | _ => none
  | .codedVideo v => match codedVideoDict v with | .dict w => some w | _ => none
  | .audio v => match audioDict v with | .dict w => some w | _ => none
  | .codedAudio v => match codedAudioDict v with | .dict w => some w | _ => none

theorem init_base (lib : Lib) (now : Int) (g : Gsf.Grain) :
    ∃ d, grainInit lib now (metaDict (metaOf g)) = .ok d ∧ Base lib now (clsOf g.body) g d ∧
      ∀ s, Meta.specOf (clsOf g.body) = some s → d s.key = (own g.body).map .dict := by
  obtain ⟨d, h1, h2, h3, h4, h5, hcr, h6, h7, h8, h9⟩ := grainInit_ok lib now (metaDict (metaOf g)) g.sourceId g.flowId g.origin g.sync
    g.rate g.duration rfl rfl rfl rfl rfl rfl (by unfold metaOf; cases g.body <;> rfl)
  refine ⟨d, h1, ⟨?_, h2, h3, h4, h5, h6, h7, hcr⟩, ?_⟩
  · rw [h8]
    unfold metaOf
    cases g.body <;> rfl
  · intro s hs
    rw [h9 _ (by revert s; generalize clsOf g.body = c; cases c <;> simp [Meta.specOf, Meta.videoSpec, Meta.audioSpec,
      Meta.codedVideoSpec, Meta.codedAudioSpec, Meta.eventSpec])]
    revert s
    unfold metaOf
    cases g.body <;> (intro s hs; cases hs <;> rfl)

/-- The encoder has chosen the body by the class. -/
theorem body_cls {lib : Lib} {o : Obj} (ht : Typed lib o) {b : Gsf.Body} (h : body lib o = .ok b) :
    match (generalizing := false) o.cls with
    | .grain => b = .empty
    | .event => b = .event
    | .video => ∃ v, b = .video v ∧ videoHdr lib o = .ok v
    | .codedVideo => ∃ v, b = .codedVideo v ∧ codedVideoHdr lib o = .ok v
    | .audio => ∃ v, b = .audio v ∧ audioHdr lib o = .ok v
    | .codedAudio => ∃ v, b = .codedAudio v ∧ codedAudioHdr lib o = .ok v := by
  unfold body at h
  rw [ht.type] at h
  simp only [bind, bind_ok, pure, Except.pure] at h
  obtain ⟨t, h1, h⟩ := h
  injection h1 with h1
  subst h1
  cases hc : o.cls with
  | grain =>
    rw [hc] at h
    rw [if_neg (by decide), if_neg (by decide), if_neg (by decide), if_neg (by decide), if_neg (by decide), if_pos (by decide)] at h
    injection h with h
    exact h.symm
  | event =>
    rw [hc] at h
    rw [if_neg (by decide), if_neg (by decide), if_neg (by decide), if_neg (by decide), if_pos (by decide)] at h
    injection h with h
    exact h.symm
  | video =>
    rw [hc] at h
    rw [if_pos (by decide)] at h
    obtain ⟨v, h2, h3⟩ := bind_ok.1 h
    injection h3 with h3
    exact ⟨v, h3.symm, h2⟩
  | codedVideo =>
    rw [hc] at h
    rw [if_neg (by decide), if_pos (by decide)] at h
    obtain ⟨v, h2, h3⟩ := bind_ok.1 h
    injection h3 with h3
    exact ⟨v, h3.symm, h2⟩
  | audio =>
    rw [hc] at h
    rw [if_neg (by decide), if_neg (by decide), if_pos (by decide)] at h
    obtain ⟨v, h2, h3⟩ := bind_ok.1 h
    injection h3 with h3
    exact ⟨v, h3.symm, h2⟩
  | codedAudio =>
    rw [hc] at h
    rw [if_neg (by decide), if_neg (by decide), if_neg (by decide), if_pos (by decide)] at h
    obtain ⟨v, h2, h3⟩ := bind_ok.1 h
    injection h3 with h3
    exact ⟨v, h3.symm, h2⟩

theorem get_num (lib : Lib) {d w : Dict T} {s : String} (hd : d s = some (.dict w)) {n k : String} {kind : Kind}
    (hk : kind = .plain ∨ kind = .int) {v : Nat} (hw : w k = some (num v)) : Attrs.get lib ⟨n, some s, k, kind⟩ d = .ok (.int v) := by
  rcases hk with rfl | rfl <;> simp [Attrs.get, home, hd, hw, Kind.read, num, readLeaf]

theorem get_enum (lib : Lib) {d w : Dict T} {s : String} (hd : d s = some (.dict w)) {n k : String} {vals : List Nat} {v : Nat}
    (hm : v ∈ vals) (hw : w k = some (num v)) : Attrs.get lib ⟨n, some s, k, .enum vals⟩ d = .ok (.enum v) := by
  simp [Attrs.get, home, hd, hw, Kind.read, num, readEnum, hm]

theorem get_optFrac (lib : Lib) {d w : Dict T} {s : String} (hd : d s = some (.dict w)) {n k : String} {q : Option Rat}
    (hw : w k = q.map fracDict) : Attrs.get lib ⟨n, some s, k, .optFrac⟩ d = .ok (ofOptFrac q) := by
  cases q <;> simp [Attrs.get, home, hd, hw, Kind.read, C60.readFrac_dict, ofOptFrac]

theorem get_optBool (lib : Lib) {d w : Dict T} {s : String} (hd : d s = some (.dict w)) {n k : String} {q : Option Bool}
    (hw : w k = q.map (fun b => .leaf (.bool b))) : Attrs.get lib ⟨n, some s, k, .optBool⟩ d = .ok (ofOptBool q) := by
  cases q <;> simp [Attrs.get, home, hd, hw, Kind.read, readLeaf, ofOptBool]

theorem get_optInt (lib : Lib) {d w : Dict T} {s : String} (hd : d s = some (.dict w)) {n k : String} {q : Option Int}
    (hw : w k = q.map (fun b => .leaf (.int b))) : Attrs.get lib ⟨n, some s, k, .optPlain⟩ d = .ok (ofOptInt q) := by
  cases q <;> simp [Attrs.get, home, hd, hw, Kind.read, readLeaf, ofOptInt]

/-- A number of the original. -/
theorem was_num {lib : Lib} {o : Obj} (ht : Typed lib o) {a : Attr} (ha : a ∈ attrs o.cls) (hn : a.name ∈ numbers) {v : Nat}
    (h : o.nat lib a.name = .ok v) : Attrs.get lib a o.d = .ok (.int v) := by
  rw [← attr_own lib o a ha]
  exact int_ok h (ht.ints _ hn)

theorem video_same {lib : Lib} {o : Obj} (ht : Typed lib o) (hc : o.cls = .video) {v : Gsf.VideoHdr} (hv : videoHdr lib o = .ok v)
    {d w : Dict T} (hd : d "cog_frame" = some (.dict w)) (hw : videoDict v = .dict w) (a : Attr) (ha : a ∈ videoAttrs) :
    Attrs.get lib a d = Attrs.get lib a o.d := by
  unfold videoHdr at hv
  simp only [bind, bind_ok, pure, Except.pure] at hv
  obtain ⟨f, h1, l, h2, x, h3, y, h4, e, h5, p, h6, q, h7, h8⟩ := hv
  injection h8 with h8
  subst h8
  injection hw with hw
  subst hw
  obtain ⟨e1, m1⟩ := enum_ok h1 (by rw [hc]; rfl) rfl
  obtain ⟨e2, m2⟩ := enum_ok h2 (by rw [hc]; rfl) rfl
  have g6 := optFrac_ok h6
  have g7 := optFrac_ok h7
  have m : ∀ b ∈ videoAttrs, b ∈ attrs o.cls := by
    intro b hb
    rw [hc]
    exact List.mem_append_right _ hb
  rw [attr_own lib o ⟨"source_aspect_ratio", "cog_frame", "source_aspect_ratio", .optFrac⟩ (m _ (by decide))] at g6
  rw [attr_own lib o ⟨"pixel_aspect_ratio", "cog_frame", "pixel_aspect_ratio", .optFrac⟩ (m _ (by decide))] at g7
  have ha' := ha
  simp only [videoAttrs, List.mem_cons, List.not_mem_nil, or_false] at ha
  rcases ha with rfl | rfl | rfl | rfl | rfl | rfl | rfl | rfl | rfl
  · exact (get_enum lib hd m1 rfl).trans e1.symm
  · exact (get_enum lib hd m1 rfl).trans e1.symm
  · rw [get_num lib hd (.inl rfl) rfl]
    exact (was_num ht (m _ ha') (by decide) h3).symm
  · rw [get_num lib hd (.inl rfl) rfl]
    exact (was_num ht (m _ ha') (by decide) h4).symm
  · exact (get_enum lib hd m2 rfl).trans e2.symm
  · exact (get_enum lib hd m2 rfl).trans e2.symm
  · rw [get_num lib hd (.inl rfl) rfl]
    exact (was_num ht (m _ ha') (by decide) h5).symm
  · rw [g6]
    exact get_optFrac lib hd (by cases p <;> cases q <;> rfl)
  · rw [g7]
    exact get_optFrac lib hd (by cases p <;> cases q <;> rfl)

theorem audio_same {lib : Lib} {o : Obj} (ht : Typed lib o) (hc : o.cls = .audio) {v : Gsf.AudioHdr} (hv : audioHdr lib o = .ok v)
    {d w w' : Dict T} (hd : d "cog_audio" = some (.dict w')) (hw : audioDict v = .dict w)
    (he : ∀ k, w k ≠ none → w' k = w k) (a : Attr) (ha : a ∈ audioAttrs) :
    Attrs.get lib a d = Attrs.get lib a o.d := by
  unfold audioHdr at hv
  simp only [bind, bind_ok, pure, Except.pure] at hv
  obtain ⟨f, h1, c, h2, x, h3, y, h4, h8⟩ := hv
  injection h8 with h8
  subst h8
  injection hw with hw
  subst hw
  obtain ⟨e1, m1⟩ := enum_ok h1 (by rw [hc]; rfl) rfl
  have m : ∀ b ∈ audioAttrs, b ∈ attrs o.cls := by
    intro b hb
    rw [hc]
    exact List.mem_append_right _ hb
  have k1 := he "format" (by simp [dictOf])
  have k2 := he "channels" (by simp [dictOf])
  have k3 := he "samples" (by simp [dictOf])
  have k4 := he "sample_rate" (by simp [dictOf])
  have ha' := ha
  simp only [audioAttrs, List.mem_cons, List.not_mem_nil, or_false] at ha
  rcases ha with rfl | rfl | rfl | rfl | rfl
  · exact (get_enum lib hd m1 k1).trans e1.symm
  · exact (get_enum lib hd m1 k1).trans e1.symm
  · rw [get_num lib hd (.inr rfl) k3]
    exact (was_num ht (m _ ha') (by decide) h3).symm
  · rw [get_num lib hd (.inr rfl) k2]
    exact (was_num ht (m _ ha') (by decide) h2).symm
  · rw [get_num lib hd (.inr rfl) k4]
    exact (was_num ht (m _ ha') (by decide) h4).symm

theorem codedAudio_same {lib : Lib} {o : Obj} (ht : Typed lib o) (hc : o.cls = .codedAudio) {v : Gsf.CodedAudioHdr}
    (hv : codedAudioHdr lib o = .ok v) {d w w' : Dict T} (hd : d "cog_coded_audio" = some (.dict w')) (hw : codedAudioDict v = .dict w)
    (he : ∀ k, w k ≠ none → w' k = w k) (a : Attr) (ha : a ∈ codedAudioAttrs) :
    Attrs.get lib a d = Attrs.get lib a o.d := by
  unfold codedAudioHdr at hv
  simp only [bind, bind_ok, pure, Except.pure] at hv
  obtain ⟨f, h1, c, h2, x, h3, y, h4, z, h5, r, h6, h8⟩ := hv
  injection h8 with h8
  subst h8
  injection hw with hw
  subst hw
  obtain ⟨e1, m1⟩ := enum_ok h1 (by rw [hc]; rfl) rfl
  have m : ∀ b ∈ codedAudioAttrs, b ∈ attrs o.cls := by
    intro b hb
    rw [hc]
    exact List.mem_append_right _ hb
  have k1 := he "format" (by simp [dictOf])
  have k2 := he "channels" (by simp [dictOf])
  have k3 := he "samples" (by simp [dictOf])
  have k4 := he "priming" (by simp [dictOf])
  have k5 := he "remainder" (by simp [dictOf])
  have k6 := he "sample_rate" (by simp [dictOf])
  have ha' := ha
  simp only [codedAudioAttrs, List.mem_cons, List.not_mem_nil, or_false] at ha
  rcases ha with rfl | rfl | rfl | rfl | rfl | rfl | rfl
  · exact (get_enum lib hd m1 k1).trans e1.symm
  · exact (get_enum lib hd m1 k1).trans e1.symm
  · rw [get_num lib hd (.inl rfl) k2]
    exact (was_num ht (m _ ha') (by decide) h2).symm
  · rw [get_num lib hd (.inl rfl) k3]
    exact (was_num ht (m _ ha') (by decide) h3).symm
  · rw [get_num lib hd (.inl rfl) k4]
    exact (was_num ht (m _ ha') (by decide) h4).symm
  · rw [get_num lib hd (.inl rfl) k5]
    exact (was_num ht (m _ ha') (by decide) h5).symm
  · rw [get_num lib hd (.inl rfl) k6]
    exact (was_num ht (m _ ha') (by decide) h6).symm

theorem codedVideo_same {lib : Lib} {o : Obj} (ht : Typed lib o) (hc : o.cls = .codedVideo) {v : Gsf.CodedVideoHdr}
    (hv : codedVideoHdr lib o = .ok v) {d w w' : Dict T} (hd : d "cog_coded_frame" = some (.dict w')) (hw : codedVideoDict v = .dict w)
    (he : ∀ k, (w k ≠ none ∨ k ∉ Meta.codedVideoSpec.missing.map Prod.fst) → w' k = w k) (a : Attr) (ha : a ∈ codedVideoAttrs)
    (hn : a.name ≠ "source_aspect_ratio" ∧ a.name ≠ "pixel_aspect_ratio") :
    Attrs.get lib a d = Attrs.get lib a o.d := by
  unfold codedVideoHdr at hv
  simp only [bind, bind_ok, pure, Except.pure] at hv
  obtain ⟨f, h1, l, h2, x, h3, y, h4, z, h5, r, h6, kf, h7, to, h9, h8⟩ := hv
  injection h8 with h8
  subst h8
  injection hw with hw
  subst hw
  obtain ⟨e1, m1⟩ := enum_ok h1 (by rw [hc]; rfl) rfl
  obtain ⟨e2, m2⟩ := enum_ok h2 (by rw [hc]; rfl) rfl
  have m : ∀ b ∈ codedVideoAttrs, b ∈ attrs o.cls := by
    intro b hb
    rw [hc]
    exact List.mem_append_right _ hb
  have k1 := he "format" (.inl (by simp [dictOf]))
  have k2 := he "layout" (.inl (by simp [dictOf]))
  have k3 := he "origin_width" (.inl (by simp [dictOf]))
  have k4 := he "origin_height" (.inl (by simp [dictOf]))
  have k5 := he "coded_width" (.inl (by simp [dictOf]))
  have k6 := he "coded_height" (.inl (by simp [dictOf]))
  have k7 := he "is_key_frame" (.inr (by decide))
  have k8 := he "temporal_offset" (.inr (by decide))
  have g7 := optBool_ok h7
  have g8 := optInt_ok h9 ht.offset
  rw [attr_own lib o ⟨"is_key_frame", "cog_coded_frame", "is_key_frame", .optBool⟩ (m _ (by decide))] at g7
  rw [attr_own lib o ⟨"temporal_offset", "cog_coded_frame", "temporal_offset", .optPlain⟩ (m _ (by decide))] at g8
  have ha' := ha
  simp only [codedVideoAttrs, List.mem_cons, List.not_mem_nil, or_false] at ha
  rcases ha with rfl | rfl | rfl | rfl | rfl | rfl | rfl | rfl | rfl | rfl | rfl | rfl
  · exact (get_enum lib hd m1 k1).trans e1.symm
  · exact (get_enum lib hd m1 k1).trans e1.symm
  · exact (get_enum lib hd m2 k2).trans e2.symm
  · exact (get_enum lib hd m2 k2).trans e2.symm
  · rw [get_num lib hd (.inl rfl) k3]
    exact (was_num ht (m _ ha') (by decide) h3).symm
  · rw [get_num lib hd (.inl rfl) k4]
    exact (was_num ht (m _ ha') (by decide) h4).symm
  · rw [get_num lib hd (.inl rfl) k5]
    exact (was_num ht (m _ ha') (by decide) h5).symm
  · rw [get_num lib hd (.inl rfl) k6]
    exact (was_num ht (m _ ha') (by decide) h6).symm
  · rw [g7]
    exact get_optBool lib hd (k7.trans (by cases kf <;> cases to <;> rfl))
  · rw [g8]
    exact get_optInt lib hd (k8.trans (by cases kf <;> cases to <;> rfl))
  · exact absurd rfl hn.1
  · exact absurd rfl hn.2

theorem initData_ok (c : GClass) (hc : c ≠ .event) (g : Gsf.Grain) :
    ∃ b, initData c g.payload = .ok b ∧ b.getD [] = g.data.getD [] := by
  unfold Gsf.Grain.payload
  by_cases h : g.data.getD [] = []
  · rw [if_pos h]
    cases c
    · exact ⟨none, rfl, h.symm⟩
    · exact ⟨some [], rfl, h.symm⟩
    · exact ⟨some [], rfl, h.symm⟩
    · exact ⟨some [], rfl, h.symm⟩
    · exact ⟨some [], rfl, h.symm⟩
    · exact absurd rfl hc
  · rw [if_neg h]
    cases c
    · exact ⟨_, rfl, rfl⟩
    · exact ⟨_, rfl, rfl⟩
    · exact ⟨_, rfl, rfl⟩
    · exact ⟨_, rfl, rfl⟩
    · exact ⟨_, rfl, rfl⟩
    · exact absurd rfl hc

/-- The same for any data that has the bytes of the grain. -/
theorem initData_any (c : GClass) (hc : c ≠ .event) (q : Option Bytes) : ∃ b, initData c q = .ok b ∧ b.getD [] = q.getD [] := by
  cases q with
  | none =>
    cases c
    · exact ⟨none, rfl, rfl⟩
    · exact ⟨some [], rfl, rfl⟩
    · exact ⟨some [], rfl, rfl⟩
    · exact ⟨some [], rfl, rfl⟩
    · exact ⟨some [], rfl, rfl⟩
    · exact absurd rfl hc
  | some d =>
    cases c
    · exact ⟨_, rfl, rfl⟩
    · exact ⟨_, rfl, rfl⟩
    · exact ⟨_, rfl, rfl⟩
    · exact ⟨_, rfl, rfl⟩
    · exact ⟨_, rfl, rfl⟩
    · exact absurd rfl hc

theorem initComps_eq (cs : List Gsf.Component) : initComps cs = cs := by
  unfold initComps
  by_cases h : cs = []
  · rw [if_pos h, h]; decide +kernel
  · rw [if_neg h]

/-- The constructor of a class makes the dictionary that the decoder's one stands for. -/
theorem init_ok (lib : Lib) (now : Int) (g : Gsf.Grain) :
    ∃ d, init lib now (clsOf g.body) (metaDict (metaOf g)) = .ok d ∧ Base lib now (clsOf g.body) g d ∧
      ∀ w, own g.body = some w → ∀ s, Meta.specOf (clsOf g.body) = some s →
        ∃ w', d s.key = some (.dict w') ∧ ∀ k, (w k ≠ none ∨ k ∉ s.missing.map Prod.fst) → w' k = w k := by
  obtain ⟨d, h1, hb, hk⟩ := init_base lib now g
  unfold init
  rw [h1]
  cases hs : Meta.specOf (clsOf g.body) with
  | none => exact ⟨d, rfl, hb, fun w _ s h => by cases h⟩
  | some s =>
    have hn : s.name = New.typeName (clsOf g.body) ∧
        s.key ∉ ["source_id", "flow_id", "origin_timestamp", "sync_timestamp", "creation_timestamp", "rate", "duration", "grain_type"] := by
      revert hs
      generalize clsOf g.body = c
      intro hs
      cases c <;> cases hs <;> decide
    have hq : s.key ≠ "grain_type" := fun e => hn.2 (by rw [e]; decide)
    have base : ∀ t, Base lib now (clsOf g.body) g (put (put d "grain_type" (.leaf (.str (New.lit s.name)))) s.key t) := by
      intro t
      have e : ∀ k ∈ ["source_id", "flow_id", "origin_timestamp", "sync_timestamp", "creation_timestamp", "rate", "duration", "grain_type"], k ≠ s.key :=
        fun k h e => hn.2 (e ▸ h)
      constructor
      · unfold put
        rw [if_neg (e _ (by decide)), if_pos rfl, hn.1]
      all_goals
        unfold put
        rw [if_neg (e _ (by decide)), if_neg (by decide)]
      · exact hb.src
      · exact hb.flow
      · exact hb.origin
      · exact hb.sync
      · exact hb.rate
      · exact hb.duration
      · exact hb.creation
    have hd := hk s hs
    cases ho : own g.body with
    | none =>
      have hev : clsOf g.body = .event := by
        cases hbd : g.body <;> rw [hbd] at ho hs <;> first | rfl | (cases ho; done) | (cases hs; done)
      rw [ho] at hd
      rw [hev] at hs
      cases hs
      have e : put d "grain_type" (.leaf (.str (New.lit Meta.eventSpec.name))) Meta.eventSpec.key = none := by
        unfold put
        rw [if_neg hq, hd]
        rfl
      refine ⟨_, ?_, base (.dict (dflts Meta.eventSpec.missing (dflts Meta.eventSpec.fresh (fun _ => none)))),
        fun w h => by cases h⟩
      · show subInit lib Meta.eventSpec d = _
        unfold subInit dflt
        simp only [e]
        have e2 : ∀ (x : Dict T) (k : String) (t : T), put x k t k = some t := by
          intro x k t; unfold put; rw [if_pos rfl]
        simp only [e2]
        show Except.ok _ = _
        congr 1
        funext x
        unfold put
        by_cases hx : x = Meta.eventSpec.key
        · rw [if_pos hx, if_pos hx]
        · rw [if_neg hx, if_neg hx, if_neg hx]
    | some w =>
      rw [ho] at hd
      refine ⟨_, subInit_ok lib s d w hq hd ?_, base _, ?_⟩
      · cases hbd : g.body with
        | empty => rw [hbd] at ho; cases ho
        | event => rw [hbd] at ho; cases ho
        | video v => rw [hbd] at ho hs; cases ho; cases hs; simp [Meta.videoSpec, dictOf, num, List.lookup]
        | codedVideo v => rw [hbd] at ho hs; cases ho; cases hs; simp [Meta.codedVideoSpec, dictOf, num, List.lookup]
        | audio v => rw [hbd] at ho hs; cases ho; cases hs; simp [Meta.audioSpec, dictOf, num, List.lookup]
        | codedAudio v => rw [hbd] at ho hs; cases ho; cases hs; simp [Meta.codedAudioSpec, dictOf, num, List.lookup]
      · intro w1 h1 s1 h2
        cases h1
        cases h2
        exact ⟨_, by unfold put; rw [if_pos rfl], fun k hk => dflts_eq k _ _ hk⟩

theorem read_same {lib : Lib} (hl : lib.Lawful) (now : Int) {o : Obj} {g : Gsf.Grain} (hw : write lib o = .ok g) (ht : Typed lib o)
    (hi : g.sourceId.length = 16 ∧ g.flowId.length = 16) :
    ∃ o', read lib now (metaOf g) g.payload = .ok o' ∧ Same lib o o' ∧
      o'.d "creation_timestamp" = some (.leaf (.str (lib.text (.ts now)))) ∧
      (o.cls = .codedVideo → ∃ w, o'.d "cog_coded_frame" = some (.dict w) ∧ w "source_aspect_ratio" = none ∧
        w "pixel_aspect_ratio" = none) := by
  have was := write_was hw
  have hbc := body_cls ht was.body
  have hcls : clsOf g.body = o.cls := by
    cases hc : o.cls <;> rw [hc] at hbc <;> simp only at hbc
    · rw [hbc]; rfl
    · obtain ⟨v, e, -⟩ := hbc; rw [e]; rfl
    · obtain ⟨v, e, -⟩ := hbc; rw [e]; rfl
    · obtain ⟨v, e, -⟩ := hbc; rw [e]; rfl
    · obtain ⟨v, e, -⟩ := hbc; rw [e]; rfl
    · rw [hbc]; rfl
  obtain ⟨d, hd, hb, hown⟩ := init_ok lib now g
  have hlab : (metaOf g).timelabels.getD [] = o.labels := by
    rw [← was.labels]
    show (if g.timelabels = [] then none else some g.timelabels).getD [] = _
    by_cases e : g.timelabels = []
    · rw [if_pos e, e]; rfl
    · rw [if_neg e]; rfl
  have hbase : ∀ a ∈ grainAttrs, a.name ≠ "creation_timestamp" → Attrs.get lib a d = Attrs.get lib a o.d :=
    fun a ha hn => base_same hl was ht hi (hcls ▸ hb) a ha hn
  unfold read
  rw [dispatch_ok]
  simp only [hd, bind, Except.bind]
  by_cases hev : o.cls = .event
  · rw [hev] at hbc hcls
    simp only at hbc
    obtain ⟨r, h1, h2, h3, h4, h5⟩ := Props.C33_round_trip o.payload blank (ht.payload hev)
    have hne : Event.getData o.payload ≠ [] := by
      intro e
      rw [e] at h1
      have : (Event.setData blank (.bytes [])).2 = .error .value := rfl
      rw [h1] at this
      cases this
    have hdat : g.payload = some (Event.getData o.payload) := by
      unfold Gsf.Grain.payload
      rw [was.data]
      unfold Obj.content
      rw [if_pos hev]
      exact if_neg hne
    rw [hcls, hdat]
    simp only [initPayload, h1]
    refine ⟨_, rfl, ?_, hb.creation, fun h => by rw [hev] at h; cases h⟩
    constructor
    · exact hev.symm
    · intro a ha
      obtain ⟨h6, h7, h8, h9, -⟩ := ha
      rw [hev] at h6
      rcases List.mem_append.1 h6 with h | h
      · exact hbase a h h7
      · simp only [eventAttrs, List.mem_cons, List.not_mem_nil, or_false] at h
        rcases h with rfl | rfl
        · exact absurd rfl h8
        · exact absurd rfl h9
    · exact hlab
    · intro h; rw [hev] at h; cases h
    · intro h; rw [hev] at h; cases h
    · exact fun _ => ⟨h2, h3, h4, fun i d e hd he => (h5 i e d he hd).1⟩
    · exact fun h => absurd hev h
  · have hp : initPayload (clsOf g.body) g.payload = .ok blank := by
      rw [hcls]
      unfold initPayload
      cases hc : o.cls <;> first | rfl | exact absurd hc hev
    obtain ⟨b, h1, h2⟩ := initData_ok (clsOf g.body) (by rw [hcls]; exact hev) g
    simp only [hp, h1]
    refine ⟨_, rfl, ?_, hb.creation, ?_⟩
    rotate_left
    · intro hc
      rw [hc] at hbc
      obtain ⟨v, e, hv⟩ := hbc
      rw [e] at hown
      obtain ⟨w', k1, k2⟩ := hown _ rfl _ rfl
      refine ⟨w', k1, ?_, ?_⟩
      · rw [k2 _ (.inr (by decide))]
        cases h1 : v.isKeyFrame <;> cases h2 : v.temporalOffset <;> simp [dictOf, entry, List.lookup, h1, h2]
      · rw [k2 _ (.inr (by decide))]
        cases h1 : v.isKeyFrame <;> cases h2 : v.temporalOffset <;> simp [dictOf, entry, List.lookup, h1, h2]
    have hdat : b.getD [] = o.data.getD [] := by
      rw [h2, was.data]
      unfold Obj.content
      rw [if_neg hev]
    constructor
    · exact hcls
    · intro a ha
      obtain ⟨h6, h7, -, -, h9⟩ := ha
      show Attrs.get lib a d = _
      cases hc : o.cls with
      | grain =>
        rw [hc] at h6
        exact hbase a h6 h7
      | event => exact absurd hc hev
      | video =>
        rw [hc] at h6 hbc
        obtain ⟨v, e, hv⟩ := hbc
        rcases List.mem_append.1 h6 with h | h
        · exact hbase a h h7
        · rw [e] at hown
          obtain ⟨w', k1, k2⟩ := hown _ rfl _ rfl
          exact video_same ht hc hv k1 (congrArg T.dict (funext fun k => (k2 k (.inr (by simp [Meta.videoSpec]))).symm)) a h
      | audio =>
        rw [hc] at h6 hbc
        obtain ⟨v, e, hv⟩ := hbc
        rcases List.mem_append.1 h6 with h | h
        · exact hbase a h h7
        · rw [e] at hown
          obtain ⟨w', k1, k2⟩ := hown _ rfl _ rfl
          exact audio_same ht hc hv k1 rfl (fun k hk => k2 k (.inl hk)) a h
      | codedAudio =>
        rw [hc] at h6 hbc
        obtain ⟨v, e, hv⟩ := hbc
        rcases List.mem_append.1 h6 with h | h
        · exact hbase a h h7
        · rw [e] at hown
          obtain ⟨w', k1, k2⟩ := hown _ rfl _ rfl
          exact codedAudio_same ht hc hv k1 rfl (fun k hk => k2 k (.inl hk)) a h
      | codedVideo =>
        rw [hc] at h6 hbc h9
        obtain ⟨v, e, hv⟩ := hbc
        rcases List.mem_append.1 h6 with h | h
        · exact hbase a h h7
        · rw [e] at hown
          obtain ⟨w', k1, k2⟩ := hown _ rfl _ rfl
          exact codedVideo_same ht hc hv k1 rfl k2 a h ⟨fun e => h9 ⟨rfl, .inl e⟩, fun e => h9 ⟨rfl, .inr e⟩⟩
    · exact hlab
    · intro hc
      rw [hc] at hbc
      obtain ⟨v, e, hv⟩ := hbc
      have : (metaOf g).cogFrame = some v := by unfold metaOf; rw [e]
      simp only [this]
      rw [initComps_eq]
      unfold videoHdr at hv
      simp only [bind, bind_ok, pure, Except.pure] at hv
      obtain ⟨f, -, l, -, x, -, y, -, z, -, p, -, q, -, h8⟩ := hv
      injection h8 with h8
      rw [← h8]
    · intro hc
      rw [hc] at hbc
      obtain ⟨v, e, hv⟩ := hbc
      have : (metaOf g).cogCodedFrame = some v := by unfold metaOf; rw [e]
      simp only [this]
      unfold codedVideoHdr at hv
      simp only [bind, bind_ok, pure, Except.pure] at hv
      obtain ⟨f, -, l, -, x, -, y, -, z, -, r, -, kf, -, to, -, h8⟩ := hv
      injection h8 with h8
      rw [← h8]
      by_cases e : o.offsets = []
      · rw [if_pos e, e]; rfl
      · rw [if_neg e]; rfl
    · exact fun h => absurd h hev
    · exact fun _ => hdat

/-! ## New grains -/

theorem nat_int {lib : Lib} {o : Obj} {name : String} {n : Nat} (h : o.attr lib name = .ok (.int n)) : o.nat lib name = .ok n := by
  unfold Obj.nat
  rw [h]
  show asNat lib _ = _
  have : ¬ ((n : Int) < 0) := by omega
  simp [asNat, toInt, bind, Except.bind, this, pure, Except.pure]

theorem nat_enum {lib : Lib} {o : Obj} {name : String} {n : Nat} (h : o.attr lib name = .ok (.enum n)) : o.nat lib name = .ok n := by
  unfold Obj.nat
  rw [h]
  show asNat lib _ = _
  have : ¬ ((n : Int) < 0) := by omega
  simp [asNat, toInt, bind, Except.bind, this, pure, Except.pure]

theorem packed_tiles : ∀ (l : List Cog.Component) (a b : Nat), Props.Tiles a b l →
    Props.Packed a (l.map (fun c => (⟨c.width, c.height, c.stride, c.length, c.offset⟩ : Gsf.Component)))
  | [], _, _, _ => trivial
  | _ :: l, _, _, h => ⟨h.1, packed_tiles l _ _ h.2⟩

theorem write_of {lib : Lib} {o : Obj} {u w : Bytes} {x y : Int} {q r : Rat} {b : Gsf.Body}
    (h1 : o.attr lib "source_id" = .ok (.uuid u)) (h2 : o.attr lib "flow_id" = .ok (.uuid w))
    (h3 : o.attr lib "origin_timestamp" = .ok (.ts x)) (h4 : o.attr lib "sync_timestamp" = .ok (.ts y))
    (h5 : o.attr lib "rate" = .ok (.frac q)) (h6 : o.attr lib "duration" = .ok (.frac r)) (h7 : body lib o = .ok b) :
    ∃ n, write lib o = .ok ⟨u, w, x, y, q, r, o.labels, b, n, o.content⟩ := by
  refine ⟨(o.content.getD []).length, ?_⟩
  simp [write, Obj.uuid, Obj.time, Obj.frac, h1, h2, h3, h4, h5, h6, h7, bind, Except.bind, asUuid, asTime, asFrac, pure, Except.pure]

theorem made_written {lib : Lib} (hl : lib.Lawful) (hs : New.Times lib) {now : Int} (hn : 0 ≤ now) {c : GClass} {args : New.Args}
    (hv : New.Valid c args) (data : Option Bytes) {m : New.Made} (hm : New.make lib now c args data = .ok m)
    (hpay : c = .event → Props.PayloadOk (ofMade c args m).payload)
    (hoff : c = .codedVideo → New.val c args "temporal_offset" ≠ .int 0x7fffffff) :
    ∃ g, write lib (ofMade c args m) = .ok g ∧ Typed lib (ofMade c args m) ∧ Props.PlainValues 9 g := by
  obtain ⟨m', k1, -, k3, k4⟩ := New.made lib hl hs hn c hv data
  rw [hm] at k1
  cases k1
  have att : ∀ a ∈ attrs c, (ofMade c args m).attr lib a.name = .ok (New.reads c now args a.name) := by
    intro a ha
    rw [attr_own lib (ofMade c args m) a ha]
    exact k4 a ha
  have mem : ∀ a ∈ grainAttrs, a ∈ attrs c := by
    intro a ha
    cases c
    · exact ha
    all_goals exact List.mem_append_left _ ha
  obtain ⟨m1, m2, m3, m4, m5, m6, m7⟩ := New.common_names c
  obtain ⟨u, hu, e1⟩ : New.IsId (New.arg c args "src_id") := hv.fits _ m1
  obtain ⟨w, hw, e2⟩ : New.IsId (New.arg c args "flow_id") := hv.fits _ m2
  obtain ⟨q, e6⟩ : New.IsFrac (New.arg c args "rate") := hv.fits _ m6
  obtain ⟨r, e7⟩ : New.IsFrac (New.arg c args "duration") := hv.fits _ m7
  obtain ⟨x, hx, e5⟩ := New.either_time (hv.fits _ m5 : New.IsTime (New.arg c args "creation_timestamp")) hn
  obtain ⟨y, hy, e3⟩ := New.either_time (hv.fits _ m3 : New.IsTime (New.arg c args "origin_timestamp")) hx
  obtain ⟨z, hz, e4⟩ := New.either_time (hv.fits _ m4 : New.IsTime (New.arg c args "sync_timestamp")) hy
  have a0 : (ofMade c args m).attr lib "grain_type" = .ok (.str (New.lit (New.typeName c))) :=
    att ⟨"grain_type", none, "grain_type", .plain⟩ (mem _ (by decide))
  have a1 : (ofMade c args m).attr lib "source_id" = .ok (.uuid u) := by
    rw [← e1]; exact att ⟨"source_id", none, "source_id", .uuid⟩ (mem _ (by decide))
  have a2 : (ofMade c args m).attr lib "flow_id" = .ok (.uuid w) := by
    rw [← e2]; exact att ⟨"flow_id", none, "flow_id", .uuid⟩ (mem _ (by decide))
  have a3 : (ofMade c args m).attr lib "origin_timestamp" = .ok (.ts y) := by
    rw [← e3, ← e5]; exact att ⟨"origin_timestamp", none, "origin_timestamp", .time⟩ (mem _ (by decide))
  have a4 : (ofMade c args m).attr lib "sync_timestamp" = .ok (.ts z) := by
    rw [← e4, ← e3, ← e5]; exact att ⟨"sync_timestamp", none, "sync_timestamp", .time⟩ (mem _ (by decide))
  have a5 : (ofMade c args m).attr lib "rate" = .ok (.frac q) := by
    rw [← e6]; exact att ⟨"rate", none, "rate", .frac⟩ (mem _ (by decide))
  have a6 : (ofMade c args m).attr lib "duration" = .ok (.frac r) := by
    rw [← e7]; exact att ⟨"duration", none, "duration", .frac⟩ (mem _ (by decide))
  have ty : (∀ name ∈ numbers, ∀ v, (ofMade c args m).attr lib name = .ok v → ∃ n : Int, v = .int n) →
      (∀ v, (ofMade c args m).attr lib "temporal_offset" = .ok v → v = .none ∨ ∃ n : Int, v = .int n) →
      Typed lib (ofMade c args m) := by
    intro h1 h2
    refine ⟨a0, ?_, h1, h2, hpay⟩
    intro name n hname h
    rcases hname with rfl | rfl
    · rw [a3] at h; cases h; exact hy
    · rw [a4] at h; cases h; exact hz
  have fin : ∀ b, body lib (ofMade c args m) = .ok b → Props.PlainBody 9 b →
      ∃ g, write lib (ofMade c args m) = .ok g ∧ Props.PlainValues 9 g := by
    intro b hb hp
    obtain ⟨n, h⟩ := write_of a1 a2 a3 a4 a5 a6 hb
    refine ⟨_, h, ?_⟩
    unfold Props.PlainValues Props.Plain
    exact ⟨fun h => (by cases h), fun l hl => (by cases hl), hp, by simp⟩
  suffices h : ∃ b, body lib (ofMade c args m) = .ok b ∧ Props.PlainBody 9 b ∧ Typed lib (ofMade c args m) by
    obtain ⟨b, h1, h2, h3⟩ := h
    obtain ⟨g, h4, h5⟩ := fin b h1 h2
    exact ⟨g, h4, h3, h5⟩
  unfold body
  rw [a0]
  simp only [bind, Except.bind, pure, Except.pure]
  cases c with
  | grain =>
    refine ⟨.empty, ?_, trivial, ty ?_ ?_⟩
    · rw [if_neg (by decide), if_neg (by decide), if_neg (by decide), if_neg (by decide), if_neg (by decide), if_pos (by decide)]
    · intro name h1 v h2
      simp only [numbers, List.mem_cons, List.not_mem_nil, or_false] at h1
      rcases h1 with rfl | rfl | rfl | rfl | rfl | rfl | rfl | rfl | rfl | rfl | rfl | rfl <;>
        first | (change Except.error _ = _ at h2; cases h2; done)
    · intro v h2
      (change Except.error _ = _ at h2; cases h2; done)
  | event =>
    refine ⟨.event, ?_, trivial, ty ?_ ?_⟩
    · rw [if_neg (by decide), if_neg (by decide), if_neg (by decide), if_neg (by decide), if_pos (by decide)]
    · intro name h1 v h2
      simp only [numbers, List.mem_cons, List.not_mem_nil, or_false] at h1
      rcases h1 with rfl | rfl | rfl | rfl | rfl | rfl | rfl | rfl | rfl | rfl | rfl | rfl <;>
        first | (change Except.error _ = _ at h2; cases h2; done)
    · intro v h2
      (change Except.error _ = _ at h2; cases h2; done)
  | video =>
    obtain ⟨f, nf, ef⟩ : New.IsMember Cog.FrameFormat.all (New.arg .video args "cog_frame_format") := hv.fits "cog_frame_format" (by decide)
    have bf : (ofMade .video args m).nat lib "cog_frame_format" = .ok f := by
      refine nat_enum ?_
      rw [← ef]
      exact att ⟨"cog_frame_format", "cog_frame", "format", .enum Cog.FrameFormat.all⟩ (by decide +kernel)
    obtain ⟨l, nl, el⟩ : New.IsMember Cog.FrameLayout.all (New.arg .video args "cog_frame_layout") := hv.fits "cog_frame_layout" (by decide)
    have bl : (ofMade .video args m).nat lib "cog_frame_layout" = .ok l := by
      refine nat_enum ?_
      rw [← el]
      exact att ⟨"cog_frame_layout", "cog_frame", "layout", .enum Cog.FrameLayout.all⟩ (by decide +kernel)
    obtain ⟨n, en⟩ : New.IsNat (New.arg .video args "width") := hv.fits "width" (by decide)
    have cn : (ofMade .video args m).attr lib "width" = .ok (.int n) := by
      rw [← en]
      exact att ⟨"width", "cog_frame", "width", .plain⟩ (by decide +kernel)
    obtain ⟨o, eo⟩ : New.IsNat (New.arg .video args "height") := hv.fits "height" (by decide)
    have co : (ofMade .video args m).attr lib "height" = .ok (.int o) := by
      rw [← eo]
      exact att ⟨"height", "cog_frame", "height", .plain⟩ (by decide +kernel)
    have cz : (ofMade .video args m).attr lib "extension" = .ok (.int (0 : Nat)) :=
      att ⟨"extension", "cog_frame", "extension", .plain⟩ (by decide +kernel)
    have cp : (ofMade .video args m).attr lib "source_aspect_ratio" = .ok .none :=
      att ⟨"source_aspect_ratio", "cog_frame", "source_aspect_ratio", .optFrac⟩ (by decide +kernel)
    have cq : (ofMade .video args m).attr lib "pixel_aspect_ratio" = .ok .none :=
      att ⟨"pixel_aspect_ratio", "cog_frame", "pixel_aspect_ratio", .optFrac⟩ (by decide +kernel)
    have hh : videoHdr lib (ofMade .video args m) = .ok ⟨f, l, n, o, 0, none, none, (ofMade .video args m).comps⟩ := by
      simp [videoHdr, bf, bl, nat_int cn, nat_int co, nat_int cz, Obj.optFrac, cp, cq, asOptFrac, bind, Except.bind, pure, Except.pure]
    refine ⟨.video ⟨f, l, n, o, 0, none, none, (ofMade .video args m).comps⟩, ?_, ⟨by simp, by simp, ?_⟩, ty ?_ ?_⟩
    · rw [if_pos (by decide)]
      simp only [hh]
    · show Props.Packed 0 (m.components.map _)
      rw [k3]
      exact packed_tiles _ _ _ (Props.C31_tiles _ _ _)
    · intro name h1 v h2
      simp only [numbers, List.mem_cons, List.not_mem_nil, or_false] at h1
      rcases h1 with rfl | rfl | rfl | rfl | rfl | rfl | rfl | rfl | rfl | rfl | rfl | rfl <;>
        first | (change Except.error _ = _ at h2; cases h2; done) | (rw [cn] at h2; cases h2; exact ⟨_, rfl⟩) | (rw [co] at h2; cases h2; exact ⟨_, rfl⟩) | (rw [cz] at h2; cases h2; exact ⟨_, rfl⟩)
    · intro v h2
      (change Except.error _ = _ at h2; cases h2; done)
  | audio =>
    obtain ⟨f, nf, ef⟩ : New.IsMember Cog.AudioFormat.all (New.arg .audio args "cog_audio_format") := hv.fits "cog_audio_format" (by decide)
    have bf : (ofMade .audio args m).nat lib "cog_audio_format" = .ok f := by
      refine nat_enum ?_
      rw [← ef]
      exact att ⟨"cog_audio_format", "cog_audio", "format", .enum Cog.AudioFormat.all⟩ (by decide +kernel)
    obtain ⟨n, en⟩ : New.IsNat (New.arg .audio args "channels") := hv.fits "channels" (by decide)
    have cn : (ofMade .audio args m).attr lib "channels" = .ok (.int n) := by
      rw [← en]
      exact att ⟨"channels", "cog_audio", "channels", .int⟩ (by decide +kernel)
    obtain ⟨o, eo⟩ : New.IsNat (New.arg .audio args "samples") := hv.fits "samples" (by decide)
    have co : (ofMade .audio args m).attr lib "samples" = .ok (.int o) := by
      rw [← eo]
      exact att ⟨"samples", "cog_audio", "samples", .int⟩ (by decide +kernel)
    obtain ⟨p, ep⟩ : New.IsNat (New.arg .audio args "sample_rate") := hv.fits "sample_rate" (by decide)
    have cp : (ofMade .audio args m).attr lib "sample_rate" = .ok (.int p) := by
      rw [← ep]
      exact att ⟨"sample_rate", "cog_audio", "sample_rate", .int⟩ (by decide +kernel)
    have hh : audioHdr lib (ofMade .audio args m) = .ok ⟨f, n, o, p⟩ := by
      simp [audioHdr, bf, nat_int cn, nat_int co, nat_int cp, bind, Except.bind, pure, Except.pure]
    refine ⟨.audio ⟨f, n, o, p⟩, ?_, trivial, ty ?_ ?_⟩
    · rw [if_neg (by decide), if_neg (by decide), if_pos (by decide)]
      simp only [hh]
    · intro name h1 v h2
      simp only [numbers, List.mem_cons, List.not_mem_nil, or_false] at h1
      rcases h1 with rfl | rfl | rfl | rfl | rfl | rfl | rfl | rfl | rfl | rfl | rfl | rfl <;>
        first | (change Except.error _ = _ at h2; cases h2; done) | (rw [cn] at h2; cases h2; exact ⟨_, rfl⟩) | (rw [co] at h2; cases h2; exact ⟨_, rfl⟩) | (rw [cp] at h2; cases h2; exact ⟨_, rfl⟩)
    · intro v h2
      (change Except.error _ = _ at h2; cases h2; done)
  | codedAudio =>
    obtain ⟨f, nf, ef⟩ : New.IsMember Cog.AudioFormat.all (New.arg .codedAudio args "cog_audio_format") := hv.fits "cog_audio_format" (by decide)
    have bf : (ofMade .codedAudio args m).nat lib "cog_audio_format" = .ok f := by
      refine nat_enum ?_
      rw [← ef]
      exact att ⟨"cog_audio_format", "cog_coded_audio", "format", .enum Cog.AudioFormat.all⟩ (by decide +kernel)
    obtain ⟨n, en⟩ : New.IsNat (New.arg .codedAudio args "channels") := hv.fits "channels" (by decide)
    have cn : (ofMade .codedAudio args m).attr lib "channels" = .ok (.int n) := by
      rw [← en]
      exact att ⟨"channels", "cog_coded_audio", "channels", .plain⟩ (by decide +kernel)
    obtain ⟨o, eo⟩ : New.IsNat (New.arg .codedAudio args "samples") := hv.fits "samples" (by decide)
    have co : (ofMade .codedAudio args m).attr lib "samples" = .ok (.int o) := by
      rw [← eo]
      exact att ⟨"samples", "cog_coded_audio", "samples", .plain⟩ (by decide +kernel)
    obtain ⟨s, es⟩ : New.IsNat (New.arg .codedAudio args "priming") := hv.fits "priming" (by decide)
    have cs : (ofMade .codedAudio args m).attr lib "priming" = .ok (.int s) := by
      rw [← es]
      exact att ⟨"priming", "cog_coded_audio", "priming", .plain⟩ (by decide +kernel)
    obtain ⟨t, et⟩ : New.IsNat (New.arg .codedAudio args "remainder") := hv.fits "remainder" (by decide)
    have ct : (ofMade .codedAudio args m).attr lib "remainder" = .ok (.int t) := by
      rw [← et]
      exact att ⟨"remainder", "cog_coded_audio", "remainder", .plain⟩ (by decide +kernel)
    obtain ⟨p, ep⟩ : New.IsNat (New.arg .codedAudio args "sample_rate") := hv.fits "sample_rate" (by decide)
    have cp : (ofMade .codedAudio args m).attr lib "sample_rate" = .ok (.int p) := by
      rw [← ep]
      exact att ⟨"sample_rate", "cog_coded_audio", "sample_rate", .plain⟩ (by decide +kernel)
    have hh : codedAudioHdr lib (ofMade .codedAudio args m) = .ok ⟨f, n, o, s, t, p⟩ := by
      simp [codedAudioHdr, bf, nat_int cn, nat_int co, nat_int cs, nat_int ct, nat_int cp, bind, Except.bind, pure, Except.pure]
    refine ⟨.codedAudio ⟨f, n, o, s, t, p⟩, ?_, trivial, ty ?_ ?_⟩
    · rw [if_neg (by decide), if_neg (by decide), if_neg (by decide), if_pos (by decide)]
      simp only [hh]
    · intro name h1 v h2
      simp only [numbers, List.mem_cons, List.not_mem_nil, or_false] at h1
      rcases h1 with rfl | rfl | rfl | rfl | rfl | rfl | rfl | rfl | rfl | rfl | rfl | rfl <;>
        first | (change Except.error _ = _ at h2; cases h2; done) | (rw [cn] at h2; cases h2; exact ⟨_, rfl⟩) | (rw [co] at h2; cases h2; exact ⟨_, rfl⟩) | (rw [cs] at h2; cases h2; exact ⟨_, rfl⟩) | (rw [ct] at h2; cases h2; exact ⟨_, rfl⟩) | (rw [cp] at h2; cases h2; exact ⟨_, rfl⟩)
    · intro v h2
      (change Except.error _ = _ at h2; cases h2; done)
  | codedVideo =>
    obtain ⟨f, nf, ef⟩ : New.IsMember Cog.FrameFormat.all (New.arg .codedVideo args "cog_frame_format") := hv.fits "cog_frame_format" (by decide)
    have bf : (ofMade .codedVideo args m).nat lib "cog_frame_format" = .ok f := by
      refine nat_enum ?_
      rw [← ef]
      exact att ⟨"cog_frame_format", "cog_coded_frame", "format", .enum Cog.FrameFormat.all⟩ (by decide +kernel)
    obtain ⟨l, nl, el⟩ : New.IsMember Cog.FrameLayout.all (New.arg .codedVideo args "cog_frame_layout") := hv.fits "cog_frame_layout" (by decide)
    have bl : (ofMade .codedVideo args m).nat lib "cog_frame_layout" = .ok l := by
      refine nat_enum ?_
      rw [← el]
      exact att ⟨"cog_frame_layout", "cog_coded_frame", "layout", .enum Cog.FrameLayout.all⟩ (by decide +kernel)
    obtain ⟨n, en⟩ : New.IsNat (New.arg .codedVideo args "origin_width") := hv.fits "origin_width" (by decide)
    have cn : (ofMade .codedVideo args m).attr lib "origin_width" = .ok (.int n) := by
      rw [← en]
      exact att ⟨"origin_width", "cog_coded_frame", "origin_width", .plain⟩ (by decide +kernel)
    obtain ⟨o, eo⟩ : New.IsNat (New.arg .codedVideo args "origin_height") := hv.fits "origin_height" (by decide)
    have co : (ofMade .codedVideo args m).attr lib "origin_height" = .ok (.int o) := by
      rw [← eo]
      exact att ⟨"origin_height", "cog_coded_frame", "origin_height", .plain⟩ (by decide +kernel)
    obtain ⟨s, es⟩ : ∃ n : Nat, New.either (New.arg .codedVideo args "coded_width") (New.arg .codedVideo args "origin_width") = .int n := by
      rcases (hv.fits "coded_width" (by decide) : New.IsNatOrNone (New.arg .codedVideo args "coded_width")) with h | ⟨n, h⟩
      · rw [h]; exact ⟨_, en⟩
      · rw [h]; exact ⟨n, rfl⟩
    have cs : (ofMade .codedVideo args m).attr lib "coded_width" = .ok (.int s) := by
      rw [← es]
      exact att ⟨"coded_width", "cog_coded_frame", "coded_width", .plain⟩ (by decide +kernel)
    obtain ⟨t, et⟩ : ∃ n : Nat, New.either (New.arg .codedVideo args "coded_height") (New.arg .codedVideo args "origin_height") = .int n := by
      rcases (hv.fits "coded_height" (by decide) : New.IsNatOrNone (New.arg .codedVideo args "coded_height")) with h | ⟨n, h⟩
      · rw [h]; exact ⟨_, eo⟩
      · rw [h]; exact ⟨n, rfl⟩
    have ct : (ofMade .codedVideo args m).attr lib "coded_height" = .ok (.int t) := by
      rw [← et]
      exact att ⟨"coded_height", "cog_coded_frame", "coded_height", .plain⟩ (by decide +kernel)
    obtain ⟨kf, ekf⟩ : ∃ b, New.arg .codedVideo args "is_key_frame" = ofOptBool b := by
      rcases (hv.fits "is_key_frame" (by decide) : New.arg .codedVideo args "is_key_frame" = .none ∨ ∃ b, New.arg .codedVideo args "is_key_frame" = .bool b)
        with h | ⟨b, h⟩
      · exact ⟨none, h⟩
      · exact ⟨some b, h⟩
    obtain ⟨to, eto⟩ : ∃ b, New.arg .codedVideo args "temporal_offset" = ofOptInt b := by
      rcases (hv.fits "temporal_offset" (by decide) : New.arg .codedVideo args "temporal_offset" = .none ∨
        ∃ b, New.arg .codedVideo args "temporal_offset" = .int b) with h | ⟨b, h⟩
      · exact ⟨none, h⟩
      · exact ⟨some b, h⟩
    have ck : (ofMade .codedVideo args m).attr lib "is_key_frame" = .ok (ofOptBool kf) := by
      rw [← ekf]
      exact att ⟨"is_key_frame", "cog_coded_frame", "is_key_frame", .optBool⟩ (by decide +kernel)
    have ct' : (ofMade .codedVideo args m).attr lib "temporal_offset" = .ok (ofOptInt to) := by
      rw [← eto]
      exact att ⟨"temporal_offset", "cog_coded_frame", "temporal_offset", .optPlain⟩ (by decide +kernel)
    have bk : (ofMade .codedVideo args m).optBool lib "is_key_frame" = .ok kf := by
      unfold Obj.optBool
      rw [ck]
      cases kf <;> rfl
    have bt : (ofMade .codedVideo args m).optInt lib "temporal_offset" = .ok to := by
      unfold Obj.optInt
      rw [ct']
      cases to <;> rfl
    have ho : (ofMade .codedVideo args m).offsets = [] := rfl
    have hh : codedVideoHdr lib (ofMade .codedVideo args m) = .ok ⟨f, l, n, o, s, t, kf, to, none⟩ := by
      simp [codedVideoHdr, bf, bl, nat_int cn, nat_int co, nat_int cs, nat_int ct, bk, bt, ho, bind, Except.bind, pure, Except.pure]
    refine ⟨.codedVideo ⟨f, l, n, o, s, t, kf, to, none⟩, ?_, ⟨.inl rfl, fun _ => ?_, by simp⟩, ty ?_ ?_⟩
    · rw [if_neg (by decide), if_pos (by decide)]
      simp only [hh]
    · intro e
      apply hoff rfl
      rw [New.val_arg _ _ _ (by decide), eto]
      show ofOptInt to = _
      have e : to = some 0x7fffffff := e
      rw [e]; rfl
    · intro name h1 v h2
      simp only [numbers, List.mem_cons, List.not_mem_nil, or_false] at h1
      rcases h1 with rfl | rfl | rfl | rfl | rfl | rfl | rfl | rfl | rfl | rfl | rfl | rfl <;>
        first | (change Except.error _ = _ at h2; cases h2; done) | (rw [cn] at h2; cases h2; exact ⟨_, rfl⟩) | (rw [co] at h2; cases h2; exact ⟨_, rfl⟩) | (rw [cs] at h2; cases h2; exact ⟨_, rfl⟩) | (rw [ct] at h2; cases h2; exact ⟨_, rfl⟩)
    · intro v h2
      rw [ct'] at h2
      cases h2
      cases to with
      | none => exact .inl rfl
      | some n => exact .inr ⟨n, rfl⟩

end C68

end Verif.Objects

namespace Verif.Props

open Verif.Attrs
open Verif.Meta (Dict put dflt GClass)
open Verif.Objects Verif.Gsf

/-- **C68.** The grains `objs` are written to a file (`f`) and the file is read: as many grains come back, in order, each of the class
of the original, with the same attributes, lists, payload and bytes. -/
theorem C68_attributes_partial (lib : Lib) (hl : lib.Lawful) (objs : List (Nat × Obj)) (ht : ∀ x ∈ objs, Typed lib x.2)
    (f : FileSpec) (hw : objs.mapM (fun x => (write lib x.2).map (fun g => (x.1, g))) = .ok f.grains) (hf : f.Ok)
    (hp : ∀ x ∈ f.grains, PlainValues f.major x.2) :
    ∃ r, decodeFile {} f.bytes = .ok r ∧ r.ending = .eof ∧ (r.view f.bytes).length = objs.length ∧
      ∀ (i : Nat) x v, objs[i]? = some x → (r.view f.bytes)[i]? = some v →
        v.2.2 = x.1 ∧ ∀ now, ∃ o, read lib now v.1 v.2.1 = .ok o ∧ Same lib x.2 o := by
  obtain ⟨r, h1, h2, -, h4⟩ := C01_round_trip_normal_form f hf
  have hz : ∀ (l : List (Nat × Obj)) (gs : List (Nat × Gsf.Grain)),
      l.mapM (fun x => (write lib x.2).map (fun g => (x.1, g))) = Except.ok gs →
      gs.length = l.length ∧ ∀ (i : Nat) x y, l[i]? = some x → gs[i]? = some y → y.1 = x.1 ∧ write lib x.2 = .ok y.2 := by
    intro l
    induction l with
    | nil =>
      intro gs h
      cases h
      exact ⟨rfl, fun i x y h => by simp at h⟩
    | cons a l ih =>
      intro gs h
      rw [List.mapM_cons] at h
      simp only [bind, C68.bind_ok, pure, Except.pure] at h
      obtain ⟨b, h5, bs, h6, h7⟩ := h
      injection h7 with h7
      subst h7
      obtain ⟨e1, e2⟩ := ih bs h6
      refine ⟨by simp [e1], ?_⟩
      intro i x y hx hy
      cases i with
      | zero =>
        simp only [List.getElem?_cons_zero, Option.some.injEq] at hx hy
        subst hx hy
        cases hwr : write lib a.2 with
        | error e => rw [hwr] at h5; simp [Except.map] at h5
        | ok g =>
          rw [hwr] at h5
          simp only [Except.map] at h5
          injection h5 with h5
          subst h5
          exact ⟨rfl, rfl⟩
      | succ i => exact e2 i x y (by simpa using hx) (by simpa using hy)
  obtain ⟨hlen, hz⟩ := hz _ _ hw
  refine ⟨r, h1, h2, by rw [h4, List.length_map, hlen], ?_⟩
  intro i x v hx hv
  rw [h4, List.getElem?_map] at hv
  cases hg : f.grains[i]? with
  | none => rw [hg] at hv; simp at hv
  | some y =>
    rw [hg] at hv
    simp only [Option.map_some, Option.some.injEq] at hv
    subst hv
    obtain ⟨e1, e2⟩ := hz i x y hx hg
    have hy : y ∈ f.grains := List.mem_of_getElem? hg
    refine ⟨e1, fun now => ?_⟩
    have hm : y.2.toMeta f.major = metaOf y.2 :=
      toMeta_plain (g := { y.2 with data := none }) hf.major (hp y hy)
    simp only [hm]
    have hwf := (hf.grains y hy).2.wf
    obtain ⟨o, h5, h6, -⟩ := C68.read_same hl now e2 (ht x (List.mem_of_getElem? hx)) ⟨hwf.1, hwf.2.1⟩
    exact ⟨o, h5, h6⟩

/-- **C68**, from the arguments of a constructor to the attributes of the grain read back: every class, every argument of the
documented type. The grain can be written (it is `Typed`, and in version 9 all its values are plain), and whatever the file around it,
each attribute reads as the argument that was given, or its default. -/
theorem C68_new_partial (lib : Lib) (hl : lib.Lawful) (hs : New.Times lib) (now : Int) (hn : 0 ≤ now) (c : GClass) (args : New.Args)
    (hv : New.Valid c args) (data : Option Bytes)
    (htxt : c = .event → ∀ k ∈ ["event_type", "topic"], ∀ s, New.arg c args k = .str s → Json.Str.Wf s)
    (hoff : c = .codedVideo → New.arg c args "temporal_offset" ≠ .int 0x7fffffff) :
    ∃ m g, New.make lib now c args data = .ok m ∧ write lib (ofMade c args m) = .ok g ∧ Typed lib (ofMade c args m) ∧
      PlainValues 9 g ∧
      ∀ (f : FileSpec) (id : Nat), f.Ok → f.major = 9 → f.grains = [(id, g)] →
        ∃ r v, decodeFile {} f.bytes = .ok r ∧ r.view f.bytes = [v] ∧ v.2.2 = id ∧
          ∀ later, ∃ o, read lib later v.1 v.2.1 = .ok o ∧ o.cls = c ∧
            ∀ a, Stored c a → Attrs.get lib a o.d = .ok (New.reads c now args a.name) := by
  obtain ⟨m, h1, -, -, h4⟩ := New.made lib hl hs hn c hv data
  have hpay : c = .event → PayloadOk (ofMade c args m).payload := by
    intro hc
    subst hc
    have hw : ∀ k ∈ ["event_type", "topic"],
        Json.J.Wf (match New.val .event args k with | .str s => Json.J.str s | _ => .null) := by
      intro k hk
      have hk' : k ∈ New.names .event := by
        simp only [List.mem_cons, List.not_mem_nil, or_false] at hk
        rcases hk with rfl | rfl <;> decide
      rw [New.val_arg _ _ _ hk']
      have hf : New.IsStr (New.arg .event args k) := by
        have := hv.fits k hk'
        simp only [List.mem_cons, List.not_mem_nil, or_false] at hk
        rcases hk with rfl | rfl <;> exact this
      obtain ⟨s, e⟩ := hf
      rw [e]
      exact htxt rfl k hk s e
    exact ⟨hw _ (by decide), hw _ (by decide), fun d hd => by cases hd⟩
  obtain ⟨g, h5, h6, h7⟩ := C68.made_written hl hs hn hv data h1 hpay (by
    intro hc
    rw [New.val_arg _ _ _ (by rw [hc]; decide)]
    exact hoff hc)
  refine ⟨m, g, h1, h5, h6, h7, ?_⟩
  intro f id hf hm hg
  obtain ⟨r, k1, -, k3, k4⟩ := C68_attributes_partial lib hl [(id, ofMade c args m)] (by simpa using h6) f
    (by
      simp only [List.mapM_cons, List.mapM_nil, h5]
      rw [hg]; rfl) hf
    (by intro x hx; rw [hg] at hx; simp only [List.mem_singleton] at hx; rw [hm, hx]; exact h7)
  cases hvw : r.view f.bytes with
  | nil => rw [hvw] at k3; simp at k3
  | cons v l =>
    rw [hvw] at k3 k4
    have : l = [] := by
      simp at k3
      exact k3
    subst this
    obtain ⟨e1, e2⟩ := k4 0 _ v rfl rfl
    refine ⟨r, v, k1, hvw, e1, fun later => ?_⟩
    obtain ⟨o, e3, e4⟩ := e2 later
    refine ⟨o, e3, e4.cls, fun a ha => ?_⟩
    rw [e4.attrs a ha]
    exact h4 a ha.1

/-- The statement leaves out the creation timestamp. **It is lost**: whatever it was, the grain read back has the time of reading. -/
theorem C68_creation_counterexample (lib : Lib) (hl : lib.Lawful) (hs : New.Times lib) (now : Int) (hn : 0 ≤ now) (o : Obj)
    (ht : Typed lib o) (g : Gsf.Grain) (hw : write lib o = .ok g) (hi : g.sourceId.length = 16 ∧ g.flowId.length = 16) :
    ∃ o', read lib now (metaOf g) g.payload = .ok o' ∧
      Attrs.get lib ⟨"creation_timestamp", none, "creation_timestamp", .time⟩ o'.d = .ok (.ts now) := by
  obtain ⟨o', h1, -, h2, -⟩ := C68.read_same hl now hw ht hi
  refine ⟨o', h1, ?_⟩
  simp only [Attrs.get, home, h2, Kind.read, readTime, hs.text, hl.time _ hn]

/-- The statement leaves out the aspect ratios of coded video. **They are lost**: whatever they were, they are `None` on the grain
read back. -/
theorem C68_coded_aspect_counterexample (lib : Lib) (hl : lib.Lawful) (now : Int) (o : Obj) (hc : o.cls = .codedVideo)
    (ht : Typed lib o) (g : Gsf.Grain) (hw : write lib o = .ok g) (hi : g.sourceId.length = 16 ∧ g.flowId.length = 16) :
    ∃ o', read lib now (metaOf g) g.payload = .ok o' ∧
      ∀ a ∈ codedVideoAttrs, (a.name = "source_aspect_ratio" ∨ a.name = "pixel_aspect_ratio") →
        Attrs.get lib a o'.d = .ok .none := by
  obtain ⟨o', h1, -, -, h3⟩ := C68.read_same hl now hw ht hi
  obtain ⟨w, h4, h5, h6⟩ := h3 hc
  refine ⟨o', h1, ?_⟩
  intro a ha hn
  simp only [codedVideoAttrs, List.mem_cons, List.not_mem_nil, or_false] at ha
  rcases ha with rfl | rfl | rfl | rfl | rfl | rfl | rfl | rfl | rfl | rfl | rfl | rfl <;> first
    | (simp only [Attrs.get, home, h4, h5, Kind.read]; done)
    | (simp only [Attrs.get, home, h4, h6, Kind.read]; done)
    | (exact absurd hn (by decide))

/-! ## The hypotheses are met -/

/-- A picture, a coded picture and an event, made from arguments. -/
def C68_objs : List (Nat × Obj) :=
  let ids : New.Args := [("src_id", .uuid (List.replicate 16 1)), ("flow_id", .uuid (List.replicate 16 2))]
  let new := fun c args => match New.make C64_lib 7 c args none with | .ok m => [ofMade c args m] | .error _ => []
  (new .video C64_args ++ new .codedVideo (ids ++ [("is_key_frame", .bool true), ("length", .int 3)]) ++
    new .event (ids ++ [("topic", .str (New.lit "/a"))])).map (fun o => (1, o))

def C68_grains : List (Nat × Gsf.Grain) :=
  ((C68_objs.mapM (fun x => (write C64_lib x.2).map (fun g => (x.1, g)))).toOption).getD []

def C68_file : FileSpec := ⟨9, 0, sampleHead, C68_grains⟩

example : C68_file.grains.length = 3 ∧ C68_file.Ok ∧ (∀ x ∈ C68_file.grains, PlainValues C68_file.major x.2) ∧
    (C68_objs.mapM (fun x => (write C64_lib x.2).map (fun g => (x.1, g)))).toOption = some C68_file.grains := by
  decide +kernel

/-- The hypotheses of `C68_new_partial` on the arguments are those of C64, which these arguments meet. -/
example : ∃ m g, New.make C64_lib 7 .video C64_args none = .ok m ∧ write C64_lib (ofMade .video C64_args m) = .ok g ∧
    PlainValues 9 g := by
  obtain ⟨m, g, h1, h2, -, h3, -⟩ := C68_new_partial C64_lib C64_lib_lawful C64_lib_times 7 (by decide) .video C64_args C64_args_valid
    none (fun h => by cases h) (fun h => by cases h)
  exact ⟨m, g, h1, h2, h3⟩

/-- A coded picture whose aspect ratio is set to 16/9. -/
def C68_wide : Obj :=
  match New.make C64_lib 7 .codedVideo (C64_args.take 2) none with
  | .ok m =>
    let o := ofMade .codedVideo (C64_args.take 2) m
    match Attrs.set C64_lib ⟨"source_aspect_ratio", "cog_coded_frame", "source_aspect_ratio", .optFrac⟩ (.frac (16 / 9)) o.d with
    | .ok d => { o with d := d }
    | .error _ => o
  | .error _ => ofMade .codedVideo [] ⟨fun _ => none, [], none⟩

/-- It reads as 16/9 until the grain is written, and the grain can be written. -/
example : C68_wide.cls = .codedVideo ∧
    (Attrs.get C64_lib ⟨"source_aspect_ratio", "cog_coded_frame", "source_aspect_ratio", .optFrac⟩ C68_wide.d).toOption =
      some (.frac (16 / 9)) ∧
    ((write C64_lib C68_wide).toOption.map (fun g => (g.sourceId.length, g.flowId.length))) = some (16, 16) := by
  decide +kernel

end Verif.Props

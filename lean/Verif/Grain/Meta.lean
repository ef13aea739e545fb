import Verif.Cog.Sizes

/-!
# Grain metadata

Models the constructors of the grain classes applied to a metadata dictionary
(`grains/Grain.py` 272-339, `VideoGrain.py` 426-447, `AudioGrain.py` 158-174, `CodedVideoGrain.py` 184-210,
`CodedAudioGrain.py` 163-179, `EventGrain.py` 151-176 without data) and `GrainFactory` (`Grain.py` 58-122).

Simplifications: dictionaries are maps without order; the nested dictionaries (`cog_frame`, `rate`, …) are one
level deep, what is inside lists is opaque; `int()` of a value that is neither an integer nor an enumeration member
raises; a dictionary left half changed by a raising constructor is not modelled.
-/

namespace Verif.Meta

/-- A python dictionary with string keys. -/
abbrev Dict (β : Type) := String → Option β

variable {β : Type}

/-- `d[k] = v`. -/
def put (d : Dict β) (k : String) (v : β) : Dict β := fun x => if x = k then some v else d x

/-- `if k not in d: d[k] = v`. -/
def dflt (d : Dict β) (k : String) (v : β) : Dict β :=
  match d k with
  | none => put d k v
  | some _ => d

inductive MErr where
  | key | value | type | attr
  deriving DecidableEq, Repr

/-- Values in nested dictionaries. -/
inductive W where
  | int (n : Int)
  /-- A member of an `IntEnum`. -/
  | enum (n : Int)
  | str (s : String)
  /-- A list of items with the given identities. -/
  | list (items : List Nat)
  | other (n : Nat)
  deriving DecidableEq, Repr

/-- Values of the `grain` dictionary. -/
inductive V where
  | str (s : String)
  | uuid (u : Bytes)
  /-- Something that converts to a `Timestamp`. -/
  | ts (ns : Int)
  /-- Something that converts to a `TimeOffset` only. -/
  | offset (ns : Int)
  | frac (q : Rat)
  | sub (d : Dict W)
  | other (n : Nat)

/-- The parts of the `uuid` and `mediatimestamp` libraries that turn values into text. -/
structure Lib where
  uuidStr : Bytes → String
  tsStr : Int → String
  offsetStr : Int → String

/-- The metadata: the dictionary under `grain`, if any, and everything else (`@_ns` too). -/
structure Meta where
  top : Dict V
  grain : Option (Dict V)

/-! ## `Grain.__init__` -/

def ns : String := "urn:x-ipstudio:ns:0.1"
def zeroUuid : String := "00000000-0000-0000-0000-000000000000"

/-- A fraction dictionary. -/
def fracDict (q : Rat) : Dict W :=
  put (put (fun _ => none) "numerator" (.int q.num)) "denominator" (.int q.den)

/-- `d[k]` for a key that is there. -/
def getD (d : Dict V) (k : String) : V := (d k).getD (.other 0)

/-- Lines 294-316: the missing fields of the `grain` dictionary; `now` is `str(Timestamp.get_time())`. -/
def fillGrain (now : String) (d : Dict V) : Dict V :=
  let d := dflt d "grain_type" (.str "empty")
  let d := dflt d "creation_timestamp" (.str now)
  let d := dflt d "origin_timestamp" (getD d "creation_timestamp")
  let d := dflt d "sync_timestamp" (getD d "origin_timestamp")
  let d := dflt d "rate" (.sub (fracDict 0))
  let d := dflt d "duration" (.sub (fracDict 0))
  let d := dflt d "source_id" (.str zeroUuid)
  dflt d "flow_id" (.str zeroUuid)

/-- Lines 318-321. -/
def convUuid (lib : Lib) : V → Except MErr V
  | .uuid u => .ok (.str (lib.uuidStr u))
  | v => .ok v

/-- `_stringify_timestamp_input`, lines 125-134, applied to what is not a string (322-330). -/
def convTs (lib : Lib) : V → Except MErr V
  | .str s => .ok (.str s)
  | .ts n => .ok (.str (lib.tsStr n))
  | .offset n => .ok (.str (lib.offsetStr n))
  | _ => .error .value

/-- Lines 331-337. -/
def convFrac : V → Except MErr V
  | .frac q => .ok (.sub (fracDict q))
  | v => .ok v

/-- Converting one entry of a dictionary in place. -/
def conv (k : String) (f : β → Except MErr β) (d : Dict β) : Except MErr (Dict β) :=
  match d k with
  | none => .error .key
  | some v =>
    match f v with
    | .error e => .error e
    | .ok v => .ok (put d k v)

/-- Several conversions in order. -/
def convs : List (String × (β → Except MErr β)) → Dict β → Except MErr (Dict β)
  | [], d => .ok d
  | (k, f) :: l, d =>
    match conv k f d with
    | .error e => .error e
    | .ok d => convs l d

/-- The conversions of lines 318-337, in order. -/
def grainConvs (lib : Lib) : List (String × (V → Except MErr V)) :=
  [("source_id", convUuid lib), ("flow_id", convUuid lib), ("origin_timestamp", convTs lib),
    ("sync_timestamp", convTs lib), ("creation_timestamp", convTs lib), ("rate", convFrac), ("duration", convFrac)]

/-- `Grain.__init__`, lines 272-339, as far as the metadata goes. -/
def grainInit (lib : Lib) (now : String) (m : Meta) : Except MErr Meta :=
  match convs (grainConvs lib) (fillGrain now (m.grain.getD (fun _ => none))) with
  | .error e => .error e
  | .ok d => .ok { top := dflt m.top "@_ns" (.str ns), grain := some d }

/-! ## The subclasses -/

inductive GClass where
  | grain | video | audio | codedVideo | codedAudio | event
  deriving DecidableEq, Repr

/-- `int(x)`. -/
def convInt : W → Except MErr W
  | .int n => .ok (.int n)
  | .enum n => .ok (.int n)
  | _ => .error .type

/-- The keys that each class puts in its own dictionary when they are missing, with their values
(the dictionary's key, the defaults when the dictionary itself is there, the dictionary when it is not). -/
structure SubSpec where
  name : String
  key : String
  /-- Made when the whole dictionary is missing. -/
  fresh : List (String × W)
  /-- Added when the dictionary is there. -/
  missing : List (String × W)
  /-- Converted with `int()`. -/
  ints : List String

def unknownFormat : W := .int 0xfffffffe
def invalidFormat : W := .int 0xffffffff

/-- `VideoGrain`, lines 436-446: no defaults for single keys. -/
def videoSpec : SubSpec :=
  ⟨"video", "cog_frame", [("format", unknownFormat), ("width", .int 0), ("height", .int 0), ("layout", unknownFormat),
    ("extension", .int 0), ("components", .list [])], [], ["format", "layout"]⟩

/-- `AudioGrain`, lines 163-174. -/
def audioSpec : SubSpec :=
  ⟨"audio", "cog_audio", [], [("format", invalidFormat), ("samples", .int 0), ("channels", .int 0),
    ("sample_rate", .int 0)], ["format"]⟩

/-- `CodedVideoGrain`, lines 193-210. -/
def codedVideoSpec : SubSpec :=
  ⟨"coded_video", "cog_coded_frame", [], [("format", unknownFormat), ("layout", unknownFormat), ("origin_width", .int 0),
    ("origin_height", .int 0), ("coded_width", .int 0), ("coded_height", .int 0), ("length", .int 0)],
    ["format", "layout"]⟩

/-- `CodedAudioGrain`, lines 165-179. -/
def codedAudioSpec : SubSpec :=
  ⟨"coded_audio", "cog_coded_audio", [], [("format", invalidFormat), ("channels", .int 0), ("samples", .int 0),
    ("priming", .int 0), ("remainder", .int 0), ("sample_rate", .int 48000)], ["format"]⟩

/-- `EventGrain`, lines 154-176. -/
def eventSpec : SubSpec :=
  ⟨"event", "event_payload", [("type", .str ""), ("topic", .str ""), ("data", .list [])],
    [("type", .str ""), ("topic", .str ""), ("data", .list [])], []⟩

def dflts (l : List (String × W)) (d : Dict W) : Dict W := l.foldl (fun d p => dflt d p.1 p.2) d

/-- The part of a subclass constructor after `super().__init__`. -/
def subInit (s : SubSpec) (d : Dict V) : Except MErr (Dict V) :=
  let d := put d "grain_type" (.str s.name)
  let d := dflt d s.key (.sub (dflts s.fresh (fun _ => none)))
  match d s.key with
  | some (.sub w) =>
    match convs (s.ints.map (fun k => (k, convInt))) (dflts s.missing w) with
    | .error e => .error e
    | .ok w => .ok (put d s.key (.sub w))
  | _ => .error .type

/-- `VideoGrain`, lines 426-429, before `super().__init__`: missing or empty components are made from the
constructor's default arguments (format UNKNOWN), whatever the dictionary says; that gives no components. -/
def videoPre (m : Meta) : Except MErr Meta :=
  match m.grain with
  | none => .error .key
  | some d =>
    match d "cog_frame" with
    | none => .ok m
    | some (.sub w) =>
      match w "components" with
      | none =>
        .ok { m with grain := some (put d "cog_frame" (.sub (put w "components"
          (.list ((Cog.componentsForFormat Cog.FrameFormat.UNKNOWN 1920 1080).map (fun _ => 0)))))) }
      | some (.list l) =>
        if l.length = 0 then
          .ok { m with grain := some (put d "cog_frame" (.sub (put w "components"
            (.list ((Cog.componentsForFormat Cog.FrameFormat.UNKNOWN 1920 1080).map (fun _ => 0)))))) }
        else .ok m
      | some _ => .error .type
    | some _ => .error .type

def specOf : GClass → Option SubSpec
  | .grain => none
  | .video => some videoSpec
  | .audio => some audioSpec
  | .codedVideo => some codedVideoSpec
  | .codedAudio => some codedAudioSpec
  | .event => some eventSpec

/-- The constructor of a class, given metadata and no data. -/
def classInit (lib : Lib) (now : String) (c : GClass) (m : Meta) : Except MErr Meta :=
  match (if c = .video then videoPre m else .ok m) with
  | .error e => .error e
  | .ok m =>
    match grainInit lib now m with
    | .error e => .error e
    | .ok m =>
      match specOf c with
      | none => .ok m
      | some s =>
        match subInit s (m.grain.getD (fun _ => none)) with
        | .error e => .error e
        | .ok d => .ok { m with grain := some d }

/-- The choice of class in `GrainFactory`, lines 111-122. -/
def dispatch (m : Meta) : GClass :=
  match m.grain with
  | none => .grain
  | some d =>
    match d "grain_type" with
    | some (.str t) =>
      if t = "video" then .video
      else if t = "audio" then .audio
      else if t = "coded_video" then .codedVideo
      else if t = "coded_audio" then .codedAudio
      else if t = "event" ∨ t = "data" then .event
      else .grain
    | _ => .grain

/-- `GrainFactory(meta)` (`mediagrains/grains/Grain.py` 58-122, the branch with metadata): the class by type, then its
constructor. -/
def factory (lib : Lib) (now : String) (m : Meta) : Except MErr (GClass × Meta) :=
  (classInit lib now (dispatch m) m).map (fun m' => (dispatch m, m'))

/-- `GrainFactory` without metadata, lines 75-110: the identifiers are required, the timestamps fall back, the data
argument is dropped. -/
def factoryNew (lib : Lib) (nowNs : Int) (src flow : Option Bytes) (origin sync creation : Option Int) (rate duration : Rat) :
    Except MErr Meta :=
  match src, flow with
  | some src, some flow =>
    let creation := creation.getD nowNs
    let origin := origin.getD creation
    let sync := sync.getD origin
    let d : Dict V := fun _ => none
    let d := put d "grain_type" (.str "empty")
    let d := put d "source_id" (.str (lib.uuidStr src))
    let d := put d "flow_id" (.str (lib.uuidStr flow))
    let d := put d "origin_timestamp" (.str (lib.tsStr origin))
    let d := put d "sync_timestamp" (.str (lib.tsStr sync))
    let d := put d "creation_timestamp" (.str (lib.tsStr creation))
    let d := put d "rate" (.sub (fracDict rate))
    let d := put d "duration" (.sub (fracDict duration))
    .ok ⟨put (fun _ => none) "@_ns" (.str ns), some d⟩
  | _, _ => .error .attr

end Verif.Meta

import Verif.Bytes
import Verif.Cog.Enums

/-!
# Comparing grains

Model of `mediagrains/comparison/_internal.py`, `options.py` and `__init__.py`. Messages are left out. A result keeps the options
it was made with, since whether it is excluded is asked of it later.

Identifiers are the strings of the code: `{}.timelabels[0]['tag']` with `{}` standing for the grain.
-/

namespace Verif.Compare

open Verif Verif.Cog

/-- `ComparisonOption` and its subclasses, `options.py` 170-211. `Exclude.x` is `exclude "{}.x"`, and so on (45-118). `P` is the type
of the outcome of `compute_psnr`. -/
inductive Opt (P : Type) where
  | exclude (path : String)
  | incl (path : String)
  | diff (path : String) (matcher : Int → Bool)
  | psnr (path : String) (matcher : P → Bool)

def Opt.path {P : Type} : Opt P → String
  | .exclude p => p
  | .incl p => p
  | .diff p _ => p
  | .psnr p _ => p

/-- The `key` of a result inside a container. -/
inductive Key where
  | idx (n : Nat)
  | name (s : String)
deriving DecidableEq, Repr

/-- A `ComparisonResult`, lines 41-83. -/
inductive Res (P : Type) where
  | mk (ident : String) (attr : Option String) (key : Option Key) (opts : List (Opt P)) (equal : Bool) (children : List (Res P))

namespace Res
variable {P : Type}
def ident : Res P → String | .mk i _ _ _ _ _ => i
def attr : Res P → Option String | .mk _ a _ _ _ _ => a
def key : Res P → Option Key | .mk _ _ k _ _ _ => k
def opts : Res P → List (Opt P) | .mk _ _ _ o _ _ => o
def equal : Res P → Bool | .mk _ _ _ _ e _ => e
def children : Res P → List (Res P) | .mk _ _ _ _ _ c => c
end Res

/-- `alternative_attrs`, lines 131-137. -/
def altPath (ident : String) : Option String :=
  if ident = "{}.src_id" then some "{}.source_id"
  else if ident = "{}.cog_frame_format" then some "{}.format"
  else if ident = "{}.cog_audio_format" then some "{}.format"
  else if ident = "{}.cog_frame_layout" then some "{}.layout"
  else none

/-- The test of lines 139-143 for one option. -/
def Opt.excludes {P : Type} (o : Opt P) (ident : String) : Bool :=
  match o with
  | .exclude p => p == ident || altPath ident == some p
  | _ => false

/-- `excluded`, lines 129-143. -/
def isExcluded {P : Type} (opts : List (Opt P)) (ident : String) : Bool := opts.any (fun o => o.excludes ident)

def Res.excluded {P : Type} (r : Res P) : Bool := isExcluded r.opts r.ident

/-- `c or c.excluded()`, lines 509, 593 and 872. -/
def Res.passes {P : Type} (r : Res P) : Bool := r.equal || r.excluded

section
variable {P V : Type}

/-- `EqualityComparisonResult`, lines 225-231; also the classes that always fail, 456-479 and 878-888. -/
def plainRes (ident : String) (attr : Option String) (key : Option Key) (opts : List (Opt P)) (equal : Bool) : Res P :=
  .mk ident attr key opts equal []

/-- The matchers that apply to `ident`, lines 145-147 and 393. -/
def matchers (opts : List (Opt P)) (ident : String) : List (Int → Bool) :=
  opts.filterMap (fun o => match o with | .diff p m => if ident = p then some m else none | _ => none)

/-- `DifferenceComparisonResult.compare`, lines 392-408, with the expected difference zero that is always used (386-388, 411-419).
Timestamps are in nanoseconds. -/
def diffTest (opts : List (Opt P)) (ident : String) (a b : Int) : Bool :=
  if matchers opts ident = [] then a - b == 0 else (matchers opts ident).all (fun m => m (a - b))

def diffRes (ident : String) (attr : Option String) (key : Option Key) (opts : List (Opt P)) (a b : Int) : Res P :=
  .mk ident attr key opts (diffTest opts ident a b) []

/-- A result made of others, lines 509-512 and 593-596. -/
def containerRes (ident : String) (attr : Option String) (key : Option Key) (opts : List (Opt P)) (children : List (Res P)) : Res P :=
  .mk ident attr key opts (children.all Res.passes) children

def itemIdent (ident : String) (n : Nat) : String := ident ++ "[" ++ toString n ++ "]"

/-- `OrderedContainerComparisonResult.compare`, lines 492-512: `item` is the comparison class. -/
def ordered {α : Type} (item : String → Option Key → α → α → Res P) (ident : String) (attr : Option String) (opts : List (Opt P))
    (a b : List α) : Res P :=
  containerRes ident attr none opts
    (plainRes ("len(" ++ ident ++ ")") none none opts (a.length == b.length) ::
      ((a.zip b).zipIdx.map (fun x => item (itemIdent ident x.2) (some (.idx x.2)) x.1.1 x.1.2) ++
        ((a.drop b.length).zipIdx b.length).map (fun x => plainRes (itemIdent ident x.2) none (some (.idx x.2)) opts false) ++
        ((b.drop a.length).zipIdx a.length).map (fun x => plainRes (itemIdent ident x.2) none (some (.idx x.2)) opts false)))

/-- A dictionary, in the order of insertion. -/
abbrev Dict (V : Type) := List (String × V)

def Dict.get? (d : Dict V) (k : String) : Option V := (d.find? (fun x => x.1 == k)).map (fun x => x.2)

/-- Simplification: `repr` of a key without quotes and backslashes. -/
def keyIdent (ident k : String) : String := ident ++ "['" ++ k ++ "']"

/-- `MappingContainerComparisonResult.compare`, lines 580-596. `veq` is `==` on the values. -/
def mapping (veq : V → V → Bool) (opts : List (Opt P)) (ident : String) (key : Option Key) (a b : Dict V) : Res P :=
  containerRes ident none key opts
    (a.filterMap (fun x => (b.get? x.1).map (fun v => plainRes (keyIdent ident x.1) none (some (.name x.1)) opts (veq x.2 v))) ++
      (a.filter (fun x => (b.get? x.1).isNone)).map (fun x => plainRes (keyIdent ident x.1) none (some (.name x.1)) opts false) ++
      (b.filter (fun x => (a.get? x.1).isNone)).map (fun x => plainRes (keyIdent ident x.1) none (some (.name x.1)) opts false))

/-! ## Data -/

/-- How data is cut into samples for the comparison, lines 657-683 and 744-758: whole numbers of `n` bytes, IEEE numbers of `n`
bytes, or three byte numbers. -/
inductive Code where
  | int (n : Nat)
  | flt (n : Nat)
  | three
deriving DecidableEq, Repr

inductive Sample where
  | int (v : Nat)
  | flt (n : Nat) (bits : Nat)
deriving DecidableEq, Repr

/-- Consecutive groups of `n` bytes; an incomplete last group is left out. -/
def groups (n : Nat) : Nat → Bytes → List Bytes
  | 0, _ => []
  | f + 1, b => if b.length < n then [] else b.take n :: groups n f (b.drop n)

/-- `DataEqualityComparisonResult.__init__`, lines 254-306, on a little-endian machine: `none` is `struct.error`. For whole numbers
the sign is left out: the same conversion on both sides, which is one to one. -/
def unpack : Code → Bytes → Option (List Sample)
  | .int n, b => if b.length % n = 0 then some ((groups n b.length b).map (fun g => .int (uintOf g))) else none
  | .flt n, b => if b.length % n = 0 then some ((groups n b.length b).map (fun g => .flt n (uintOf g))) else none
  | .three, b => some ((groups 3 b.length b).map (fun g => .int (uintOf g)))

/-- Width of the mantissa of the two formats. -/
def mantissa (n : Nat) : Nat := if n = 4 then 23 else 52

def isNaN (n bits : Nat) : Bool :=
  bits / 2 ^ mantissa n % 2 ^ (8 * n - 1 - mantissa n) == 2 ^ (8 * n - 1 - mantissa n) - 1 && bits % 2 ^ mantissa n != 0

def isZero (n bits : Nat) : Bool := bits % 2 ^ (8 * n - 1) == 0

/-- `==` on samples: not a number is not equal to itself, and the two zeros are equal. -/
def Sample.eq : Sample → Sample → Bool
  | .int a, .int b => a == b
  | .flt n a, .flt m b => n == m && !isNaN n a && !isNaN m b && (a == b || (isZero n a && isZero m b))
  | _, _ => false

/-- `SequenceMatcher(None, a, b).ratio() == 1.0`: all elements match (proved for the code of difflib in C87). -/
def sameSamples (a b : List Sample) : Bool := a.length == b.length && (a.zip b).all (fun x => x.1.eq x.2)

/-- `DataEqualityComparisonResult`, lines 308-324. `none` is `struct.error`, which comes before anything else (lines 282-306). -/
def dataRes (ident : String) (attr : Option String) (opts : List (Opt P)) (c : Code) (a b : Option Bytes) : Option (Res P) :=
  match a, b with
  | none, none => some (plainRes ident attr none opts true)
  | none, some y => (unpack c y).map (fun _ => plainRes ident attr none opts false)
  | some x, none => (unpack c x).map (fun _ => plainRes ident attr none opts false)
  | some x, some y =>
    (unpack c x).bind (fun s => (unpack c y).map (fun t =>
      plainRes ident attr none opts (if isExcluded opts ident then false else sameSamples s t)))

/-! ## Grains -/

/-- The attributes of each type of grain. The type and topic of events are lists of code points. -/
inductive Body (V : Type) where
  | event (eventType topic : List Nat) (items : List (Dict V))
  | audio (format samples channels rate : Nat)
  | codedAudio (format samples channels rate priming remainder : Nat)
  | video (format width height layout : Nat)
  | codedVideo (format codedWidth codedHeight originWidth originHeight : Nat) (key : Option Bool) (temporal : Option Int)
      (layout : Nat) (offsets : List Int)
  /-- any other grain type; the name is none of the five others -/
  | plain (name : String)

/-- What is compared. Identifiers of source and flow are numbers, `length` is the attribute (it need not agree with the data, see
C19). -/
structure Grain (V : Type) where
  src : Nat
  flow : Nat
  rate : Rat
  duration : Rat
  length : Nat
  origin : Int
  sync : Int
  creation : Int
  timelabels : List (Dict V)
  data : Option Bytes
  body : Body V

def Body.type : Body V → String
  | .event .. => "event"
  | .audio .. => "audio"
  | .codedAudio .. => "coded_audio"
  | .video .. => "video"
  | .codedVideo .. => "coded_video"
  | .plain n => n

/-- Lines 657-683. -/
def audioCode (fmt : Nat) : Code :=
  if fmt ∈ [AudioFormat.S16_PLANES, AudioFormat.S16_PAIRS, AudioFormat.S16_INTERLEAVED] then .int 2
  else if fmt ∈ [AudioFormat.S24_PLANES, AudioFormat.S24_PAIRS, AudioFormat.S24_INTERLEAVED] then .three
  else if fmt ∈ [AudioFormat.S32_PLANES, AudioFormat.S32_PAIRS, AudioFormat.S32_INTERLEAVED] then .int 4
  else if fmt = AudioFormat.S64_INVALID then .int 8
  else if fmt ∈ [AudioFormat.FLOAT_PLANES, AudioFormat.FLOAT_PAIRS, AudioFormat.FLOAT_INTERLEAVED] then .flt 4
  else if fmt ∈ [AudioFormat.DOUBLE_PLANES, AudioFormat.DOUBLE_PAIRS, AudioFormat.DOUBLE_INTERLEAVED] then .flt 8
  else .int 1

/-- Lines 744-758. -/
def videoCode (fmt : Nat) : Code :=
  if isCompressed fmt then .int 1
  else if fmt = FrameFormat.v210 then .int 4
  else if fmt = FrameFormat.v216 then .int 2
  else if isPacked fmt then .int 1
  else .int (bytesPerValue fmt)

/-- What `compute_psnr` gives. -/
inductive PsnrOut (P : Type) where
  | ok (p : P)
  /-- `NotImplementedError` -/
  | unsupported
  /-- any other exception -/
  | raised

/-- `==`on the values of dictionaries, and `compute_psnr`: both outside the model. -/
structure Env (P V : Type) where
  veq : V → V → Bool
  psnr : Grain V → Grain V → PsnrOut P

def psnrMatchers (opts : List (Opt P)) (ident : String) : List (P → Bool) :=
  opts.filterMap (fun o => match o with | .psnr p m => if ident = p then some m else none | _ => none)

/-- `PSNRComparisonResult`, lines 422-453; it has no `attr`. -/
def psnrRes (env : Env P V) (opts : List (Opt P)) (a b : Grain V) : Option (Res P) :=
  if isExcluded opts "{}.data" then some (plainRes "{}.data" none none opts false)
  else
    match env.psnr a b with
    | .raised => none
    | .unsupported => some (plainRes "{}.data" none none opts false)
    | .ok p => some (plainRes "{}.data" none none opts ((psnrMatchers opts "{}.data").all (fun m => m p)))

/-- An attribute compared with `==`. -/
def eqRes (opts : List (Opt P)) (name : String) (equal : Bool) : Res P := plainRes ("{}." ++ name) (some name) none opts equal

/-- The data of grains of different types or formats, lines 693-698 and 839-845: fails, but is excluded. -/
def incomparable (opts : List (Opt P)) : Res P :=
  plainRes "{}.data" (some "data") none (opts ++ [.exclude "{}.data"]) false

/-- Lines 822-836: what all grains have in common; `lopts` are the options of `length`. -/
def commonRes (env : Env P V) (opts lopts : List (Opt P)) (a b : Grain V) : List (Res P) :=
  [eqRes opts "grain_type" (a.body.type == b.body.type),
   eqRes opts "src_id" (a.src == b.src),
   eqRes opts "flow_id" (a.flow == b.flow),
   eqRes opts "rate" (a.rate == b.rate),
   eqRes opts "duration" (a.duration == b.duration),
   eqRes lopts "length" (a.length == b.length),
   diffRes "{}.origin_timestamp" (some "origin_timestamp") none opts a.origin b.origin,
   diffRes "{}.sync_timestamp" (some "sync_timestamp") none opts a.sync b.sync,
   diffRes "{}.creation_timestamp" (some "creation_timestamp") none opts a.creation b.creation,
   ordered (mapping env.veq opts) "{}.timelabels" (some "timelabels") opts a.timelabels b.timelabels]

/-- Lines 642-698 and 733-768: by PSNR if there is such an option, otherwise by samples. -/
def mediaData (env : Env P V) (opts : List (Opt P)) (c : Code) (a b : Grain V) : Option (Res P) :=
  if psnrMatchers opts "{}.data" = [] then dataRes "{}.data" (some "data") opts c a.data b.data else psnrRes env opts a b

/-- Lines 614-616: whether the length of event grains is excluded with their other attributes. -/
def eventExcluded (opts : List (Opt P)) : Bool :=
  isExcluded opts "{}.event_type" || isExcluded opts "{}.topic" || isExcluded opts "{}.event_data"

/-- The results for the attributes of the type of grain, lines 838-868: those that cannot raise, and the data (`none` for event
grains, whose data is not compared). -/
def bodyRes (env : Env P V) (opts : List (Opt P)) (a b : Grain V) : List (Res P) × Option (Option (Res P)) :=
  match a.body, b.body with
  | .event t p i, .event t' p' i' =>
    ([eqRes opts "event_type" (t == t'), eqRes opts "topic" (p == p'),
      ordered (mapping env.veq opts) "{}.event_data" (some "event_data") opts i i'], none)
  | .audio f s c r, .audio f' s' c' r' =>
    ([eqRes opts "cog_audio_format" (f == f'), eqRes opts "samples" (s == s'), eqRes opts "channels" (c == c'),
      eqRes opts "sample_rate" (r == r')],
     some (if f = f' then mediaData env opts (audioCode f) a b else some (incomparable opts)))
  | .codedAudio f s c r p m, .codedAudio f' s' c' r' p' m' =>
    ([eqRes opts "cog_audio_format" (f == f'), eqRes opts "samples" (s == s'), eqRes opts "channels" (c == c'),
      eqRes opts "sample_rate" (r == r'), eqRes opts "priming" (p == p'), eqRes opts "remainder" (m == m')],
     some (if f = f' then dataRes "{}.data" (some "data") opts (.int 1) a.data b.data else some (incomparable opts)))
  | .video f w h l, .video f' w' h' l' =>
    ([eqRes opts "cog_frame_format" (f == f'), eqRes opts "width" (w == w'), eqRes opts "height" (h == h'),
      eqRes opts "cog_frame_layout" (l == l')],
     some (if f = f' then mediaData env opts (videoCode f) a b else some (incomparable opts)))
  | .codedVideo f cw ch ow oh k t l u, .codedVideo f' cw' ch' ow' oh' k' t' l' u' =>
    ([eqRes opts "cog_frame_format" (f == f'), eqRes opts "coded_width" (cw == cw'), eqRes opts "coded_height" (ch == ch'),
      eqRes opts "origin_width" (ow == ow'), eqRes opts "origin_height" (oh == oh'), eqRes opts "is_key_frame" (k == k'),
      eqRes opts "temporal_offset" (t == t'), eqRes opts "cog_frame_layout" (l == l'),
      ordered (fun i key x y => diffRes i none key opts x y) "{}.unit_offsets" (some "unit_offsets") opts u u'],
     some (if f = f' then dataRes "{}.data" (some "data") opts (.int 1) a.data b.data else some (incomparable opts)))
  | .plain n, .plain n' =>
    ([], some (if n = n' then dataRes "{}.data" (some "data") opts (.int 1) a.data b.data else some (incomparable opts)))
  | _, _ => ([], some (some (incomparable opts)))

def isEvent : Body V → Bool
  | .event .. => true
  | _ => false

/-- Whether `Include.creation_timestamp` is among the options, line 819. -/
def includesCreation (opts : List (Opt P)) : Bool :=
  opts.any (fun o => match o with | .incl p => p == "{}.creation_timestamp" | _ => false)

/-- Lines 819-820. -/
def withDefault (opts : List (Opt P)) : List (Opt P) :=
  if includesCreation opts then opts else opts ++ [.exclude "{}.creation_timestamp"]

/-- Options of the result for `length`: `Exclude.length` is added for event grains with excluded attributes, lines 614-616. -/
def lengthOpts (opts : List (Opt P)) (a b : Grain V) : List (Opt P) :=
  if isEvent a.body && isEvent b.body && eventExcluded opts then opts ++ [.exclude "{}.length"] else opts

/-- `compare_grain(a, b, *options)`, `__init__.py` 31-43, and `GrainComparisonResult.compare`, lines 816-875. `none` is an
exception. `key` is set inside an iterator comparison. -/
def compareGrain (env : Env P V) (opts : List (Opt P)) (a b : Grain V) (key : Option Key := none) : Option (Res P) :=
  let o := withDefault opts
  match bodyRes env o a b with
  | (rs, none) => some (containerRes "{}" none key o (commonRes env o (lengthOpts o a b) a b ++ rs))
  | (_, some none) => none
  | (rs, some (some d)) => some (containerRes "{}" none key o (commonRes env o (lengthOpts o a b) a b ++ rs ++ [d]))

/-! ## Iterators -/

/-- The result of `compare_grains_pairwise`. -/
structure IterRes (P : Type) where
  equal : Bool
  children : List (Res P)
  count : Nat

/-- The loop of lines 532-557: `kept` are the children, `last` is `last_comparison`. -/
def iterLoop (env : Env P V) (opts : List (Opt P)) (lastOnly : Bool) :
    List (Grain V) → List (Grain V) → Nat → List (Res P) → Option (Res P) → Option (Bool × Nat × List (Res P) × Option (Res P))
  | [], [], n, kept, last => some (true, n, kept, last)
  | [], _ :: _, n, kept, last => some (false, n, kept ++ [plainRes "{}" none (some (.idx n)) opts false], last)
  | _ :: _, [], n, kept, last => some (false, n, kept ++ [plainRes "{}" none (some (.idx n)) opts false], last)
  | a :: as, b :: bs, n, kept, last =>
    match compareGrain env opts a b (some (.idx n)) with
    | none => none
    | some r =>
      if r.equal then
        iterLoop env opts lastOnly as bs (n + 1) (if lastOnly then kept else kept ++ [r]) (if lastOnly then some r else last)
      else some (false, n + 1, if lastOnly then kept else kept ++ [r], if lastOnly then some r else last)

/-- `GrainIteratorComparisonResult.compare`, lines 525-574, for iterators that end. `none` is an exception, among them
`UnboundLocalError` in line 559 when nothing was compared. -/
def compareGrains (env : Env P V) (opts : List (Opt P)) (lastOnly : Bool) (as bs : List (Grain V)) : Option (IterRes P) :=
  match iterLoop env opts lastOnly as bs 0 [] none with
  | none => none
  | some (ok, n, kept, last) =>
    if lastOnly then
      match last with
      | none => none
      | some r => some ⟨ok, kept ++ [r], n⟩
    else some ⟨ok, kept, n⟩

end

end Verif.Compare

import Verif.Gsf.Types

/-!
# The format documents

A grammar of GSF 9 files transcribed from the repository's own format documents, `gsf_docs/ssb.md` (SSB
2.1) and `gsf_docs/gsf.md` (GSF 9.0), and not from the code.  A format is a predicate on byte strings that
depends on the value it holds.

Where the documents allow more than files in practice contain, the parameter `tidy` tells the two readings
apart.  Tidy files fill strings up with zeros only and have the grain header first in a grain.

Additional properties (`ssb.md:98`) can come at the end of blocks without sub-blocks only: in front of
sub-blocks nobody could tell where they end.  The tag of a block is not the file signature, or files could
not be joined (`gsf.md:40-53`).
-/

namespace Verif.Gsf.Doc

open Verif

/-! ## Data types, `ssb.md:12-62` -/

/-- A format: the byte strings that may stand there. -/
abbrev Fmt := Bytes → Prop

/-- One format followed by another. -/
def Then (P Q : Fmt) : Fmt := fun bs => ∃ a b, bs = a ++ b ∧ P a ∧ Q b

@[inherit_doc] infixr:60 " ⨾ " => Then

/-- Exactly these bytes. -/
def Exactly (d : Bytes) : Fmt := fun bs => bs = d

/-- Additional properties, which a reader must ignore (`ssb.md:98`). -/
def Anything : Fmt := fun _ => True

/-- Low order byte first (`ssb.md:7`). -/
def value : Bytes → Nat
  | [] => 0
  | b :: bs => b.toNat + 256 * value bs

def Unsigned (n v : Nat) : Fmt := fun bs => bs.length = n ∧ value bs = v

/-- Two's complement. -/
def Signed (n : Nat) (v : Int) : Fmt := fun bs =>
  bs.length = n ∧ v = if 2 * value bs < 256 ^ n then (value bs : Int) else value bs - 256 ^ n

/-- Readers must treat a non-0 as true. -/
def Boolean (v : Bool) : Fmt := fun bs => ∃ n, Unsigned 1 n bs ∧ v = decide (n ≠ 0)

/-- An unsigned rational; null where numerator or denominator is 0. -/
def Rational (v : Rat) : Fmt := fun bs =>
  ∃ n d : Nat, (Unsigned 4 n ⨾ Unsigned 4 d) bs ∧ v = if n = 0 ∨ d = 0 then 0 else (n : Rat) / d

def Uuid (v : Bytes) : Fmt := fun bs => bs.length = 16 ∧ bs = v

/-- A timestamp in nanoseconds. -/
def Timestamp (v : Int) : Fmt := fun bs =>
  ∃ (positive : Bool) (secs nanos : Nat), (Boolean positive ⨾ Unsigned 6 secs ⨾ Unsigned 4 nanos) bs ∧
    nanos < 1000000000 ∧ v = (if positive then 1 else -1) * ((secs : Int) * 1000000000 + nanos)

/-- A string of `n` octets, terminated by a null character or by the end. -/
def FixString (tidy : Bool) (n : Nat) (s : List Char) : Fmt := fun bs =>
  bs.length = n ∧ '\x00' ∉ s ∧
    (bs = encodeUtf8 s ∨ ∃ r, bs = encodeUtf8 s ++ 0 :: r ∧ (tidy = true → ∀ b ∈ r, b = 0))

def VarString (tidy : Bool) (s : List Char) : Fmt := fun bs =>
  ∃ n, (Unsigned 2 n ⨾ FixString tidy n s) bs

def VarByteArray (d : Bytes) : Fmt := Unsigned 4 d.length ⨾ Exactly d

/-- A date and time; all zeros is the null date. -/
def Date : Option DateTime → Fmt
  | none => Exactly [0, 0, 0, 0, 0, 0, 0]
  | some d => fun bs => d.Valid ∧
      (Signed 2 d.year ⨾ Unsigned 1 d.month ⨾ Unsigned 1 d.day ⨾ Unsigned 1 d.hour ⨾
        Unsigned 1 d.minute ⨾ Unsigned 1 d.second) bs

/-- A label: tag, frame count, rate (a reduced fraction) and drop frame flag. -/
def Label (tidy : Bool) (l : TimeLabel) : Fmt := fun bs =>
  ∃ rate : Rat, rate.num = l.rateNum ∧ rate.den = l.rateDen ∧
    (FixString tidy 16 l.tag ⨾ Unsigned 4 l.frames ⨾ Rational rate ⨾ Boolean l.drop) bs

/-- Values of one format one after the other. -/
def Seq (R : α → Fmt) : List α → Fmt
  | [] => Exactly []
  | a :: l => R a ⨾ Seq R l

/-- A number of values and then the values. -/
def Counted (R : α → Fmt) (l : List α) : Fmt := Unsigned 2 l.length ⨾ Seq R l

/-! ## Blocks, `ssb.md:65-110` -/

/-- A tag: four ASCII characters. -/
def Tag (t : List Char) : Fmt := fun bs =>
  t.length = 4 ∧ (∀ c ∈ t, 0 < c.toNat ∧ c.toNat < 128) ∧ bs = t.map (fun c => UInt8.ofNat c.toNat)

/-- A block with its tag and payload; the size includes the header.  The file signature is no block. -/
def IsBlock (x : List Char × Bytes) : Fmt := fun bs =>
  x.1 ≠ tSSBB ∧ (Tag x.1 ⨾ Unsigned 4 (8 + x.2.length) ⨾ Exactly x.2) bs

/-- Sub-blocks, of which `C` says what they have to be. -/
def Blocks (C : List (List Char × Bytes) → Prop) : Fmt := fun bs => ∃ l, C l ∧ Seq IsBlock l bs

/-- The blocks with tag `t` are, in order, `vs`; there are any others in between. -/
def Each (t : List Char) (R : α → Fmt) : List (List Char × Bytes) → List α → Prop
  | [], vs => vs = []
  | x :: l, vs => if x.1 = t then ∃ v vs', vs = v :: vs' ∧ R v x.2 ∧ Each t R l vs' else Each t R l vs

/-- There is at most one block with tag `t`. -/
def AtMostOne (t : List Char) (R : α → Fmt) (l : List (List Char × Bytes)) (v : Option α) : Prop :=
  Each t R l v.toList

/-- No block has one of the tags. -/
def Without (ts : List (List Char)) (l : List (List Char × Bytes)) : Prop := ∀ x ∈ l, x.1 ∉ ts

/-! ## The head, `gsf.md:59-142` -/

def IsTag (tidy : Bool) (t : List Char × List Char) : Fmt :=
  VarString tidy t.1 ⨾ VarString tidy t.2 ⨾ Anything

/-- The data is a string in UTF-8. -/
def IsFlow (tidy : Bool) (f : Flow) : Fmt :=
  Uuid f.sourceId ⨾ Uuid f.flowId ⨾ FixString tidy 64 f.format ⨾ VarByteArray (encodeUtf8 f.data) ⨾ Anything

def IsSegm (tidy : Bool) (s : Segm) : Fmt :=
  Unsigned 2 s.localId ⨾ Uuid s.id ⨾ Signed 8 s.count ⨾
    Blocks (fun l => AtMostOne tFlow (IsFlow tidy) l s.flow ∧ Each tTag (IsTag tidy) l s.tags)

/-- What a head says. -/
structure DocHead where
  id : Bytes
  created : Option DateTime
  segments : List Segm
  tags : List (List Char × List Char)
  deriving DecidableEq, Repr

def IsHead (tidy : Bool) (h : DocHead) : Fmt :=
  Uuid h.id ⨾ Date h.created ⨾
    Blocks (fun l => Each tSegm (IsSegm tidy) l h.segments ∧ Each tTag (IsTag tidy) l h.tags)

/-! ## Grains, `gsf.md:144-520` -/

def IsTils (tidy : Bool) (ls : List TimeLabel) : Fmt := Counted (Label tidy) ls ⨾ Anything

/-- The octets from the start of the grain data to a component are the lengths of those before it. -/
def Offsets : Nat → List Component → Prop
  | _, [] => True
  | start, c :: cs => c.offset = start ∧ Offsets (start + c.length) cs

def IsComp (cs : List Component) : Fmt := fun bs => Offsets 0 cs ∧
  (Counted (fun (c : Component) =>
    Unsigned 4 c.width ⨾ Unsigned 4 c.height ⨾ Unsigned 4 c.stride ⨾ Unsigned 4 c.length) cs ⨾ Anything) bs

/-- A null aspect ratio is none. -/
def Aspect (v : Option Rat) : Fmt := fun bs => ∃ q, Rational q bs ∧ v = if q = 0 then none else some q

def IsVghd (v : VideoHdr) : Fmt :=
  Unsigned 4 v.format ⨾ Unsigned 4 v.layout ⨾ Unsigned 4 v.width ⨾ Unsigned 4 v.height ⨾
    Unsigned 4 v.extension ⨾ Aspect v.srcAspect ⨾ Aspect v.pixAspect ⨾
    Blocks (fun l => ∃ cs, AtMostOne tComp IsComp l cs ∧ v.components = cs.getD [])

/-- 0 and 1; a value of 2 or more is unknown. -/
def KeyFrame (v : Option Bool) : Fmt := fun bs =>
  ∃ n, Unsigned 1 n bs ∧ v = if n = 0 then some false else if n = 1 then some true else none

/-- 2147483647 is unknown. -/
def Temporal (v : Option Int) : Fmt := fun bs =>
  ∃ i, Signed 4 i bs ∧ v = if i = 2147483647 then none else some i

def IsUnof (us : List Nat) : Fmt := Counted (Unsigned 4) us ⨾ Anything

def IsCghd (c : CodedVideoHdr) : Fmt :=
  Unsigned 4 c.format ⨾ Unsigned 4 c.layout ⨾ Unsigned 4 c.originWidth ⨾ Unsigned 4 c.originHeight ⨾
    Unsigned 4 c.codedWidth ⨾ Unsigned 4 c.codedHeight ⨾ KeyFrame c.isKeyFrame ⨾ Temporal c.temporalOffset ⨾
    Blocks (fun l => AtMostOne tUnof IsUnof l c.unitOffsets)

def IsAghd (a : AudioHdr) : Fmt :=
  Unsigned 4 a.format ⨾ Unsigned 2 a.channels ⨾ Unsigned 4 a.samples ⨾ Unsigned 4 a.sampleRate ⨾ Anything

def IsCahd (a : CodedAudioHdr) : Fmt :=
  Unsigned 4 a.format ⨾ Unsigned 2 a.channels ⨾ Unsigned 4 a.samples ⨾ Unsigned 4 a.priming ⨾
    Unsigned 4 a.remainder ⨾ Unsigned 4 a.sampleRate ⨾ Anything

/-- The type of an event, of which only 0 is known. -/
def IsEghd (type : Nat) : Fmt := Unsigned 1 type ⨾ Anything

/-- Which of the five type headers a grain has: that of its type. -/
def headersOf : Option GType → List Bool
  | none => [false, false, false, false, false]
  | some .video => [true, false, false, false, false]
  | some .codedVideo => [false, true, false, false, false]
  | some .audio => [false, false, true, false, false]
  | some .codedAudio => [false, false, false, true, false]
  | some .event => [false, false, false, false, true]

def IsGbhd (tidy : Bool) (m : Meta) : Fmt :=
  Uuid m.sourceId ⨾ Uuid m.flowId ⨾ Timestamp m.origin ⨾ Timestamp m.sync ⨾ Rational m.rate ⨾
    Rational m.duration ⨾
    Blocks (fun l => AtMostOne tTils (IsTils tidy) l m.timelabels ∧ AtMostOne tVghd IsVghd l m.cogFrame ∧
      AtMostOne tCghd IsCghd l m.cogCodedFrame ∧ AtMostOne tAghd IsAghd l m.cogAudio ∧
      AtMostOne tCahd IsCahd l m.cogCodedAudio ∧ ∃ e, AtMostOne tEghd IsEghd l e ∧
      headersOf m.grainType = [m.cogFrame.isSome, m.cogCodedFrame.isSome, m.cogAudio.isSome,
        m.cogCodedAudio.isSome, e.isSome])

/-- What a grain block says. -/
structure DocGrain where
  localId : Nat
  info : Meta
  data : Bytes
  deriving DecidableEq, Repr

/-- A grain header and then the data, with any other blocks in between and after them. -/
def IsGrain (tidy : Bool) (g : DocGrain) : Fmt :=
  Unsigned 2 g.localId ⨾ Blocks (fun l => ∃ pre gbhd mid post,
    l = pre ++ (tGbhd, gbhd) :: (mid ++ (tGrdt, g.data) :: post) ∧ IsGbhd tidy g.info gbhd ∧
    Without [tGbhd, tGrdt] (pre ++ (mid ++ post)) ∧ (tidy = true → pre = []))

/-! ## Files, `gsf.md:12-50` -/

/-- What a file says. -/
structure Contents where
  minor : Nat
  head : DocHead
  grains : List DocGrain
  deriving DecidableEq, Repr

/-- The block of size 0 that ends the grains, and any other blocks after it. -/
def IsEnd : Fmt := fun bs =>
  bs = [] ∨ (Tag tGrai ⨾ Unsigned 4 0 ⨾ Blocks (Without [tHead, tGrai])) bs

/-- A GSF file of version 9. -/
def IsFile (tidy : Bool) (c : Contents) : Fmt :=
  Tag tSSBB ⨾ Tag tGrsg ⨾ Unsigned 2 9 ⨾ Unsigned 2 c.minor ⨾
    Blocks (fun l => ∃ pre head rest, l = pre ++ (tHead, head) :: rest ∧ Without [tHead, tGrai] pre ∧
      IsHead tidy c.head head ∧ Without [tHead] rest ∧ Each tGrai (IsGrain tidy) rest c.grains) ⨾
    IsEnd

end Verif.Gsf.Doc

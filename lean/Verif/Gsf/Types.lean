import Verif.Gsf.Reader

/-!
# The values that cross the GSF codec

The dictionaries built by `mediagrains/gsf.py` lines 833-1030 as records.  A dictionary key that may
be absent is an `Option`.
-/

namespace Verif.Gsf

/-- One entry of `timelabels`, `gsf.py:901-905`. -/
structure TimeLabel where
  tag : List Char
  frames : Nat
  rateNum : Nat
  rateDen : Nat
  drop : Bool
  deriving DecidableEq, Repr

/-- One entry of `cog_frame.components`, `gsf.py:969-977`. -/
structure Component where
  width : Nat
  height : Nat
  stride : Nat
  length : Nat
  offset : Nat
  deriving DecidableEq, Repr

/-- `cog_frame`, `gsf.py:938-977`.  An aspect ratio dictionary holds the numerator and denominator of
a reduced fraction, so it is the fraction. -/
structure VideoHdr where
  format : Nat
  layout : Nat
  width : Nat
  height : Nat
  extension : Nat
  srcAspect : Option Rat
  pixAspect : Option Rat
  components : List Component
  deriving DecidableEq, Repr

/-- `cog_coded_frame`, `gsf.py:980-1007`. -/
structure CodedVideoHdr where
  format : Nat
  layout : Nat
  originWidth : Nat
  originHeight : Nat
  codedWidth : Nat
  codedHeight : Nat
  isKeyFrame : Option Bool
  temporalOffset : Option Int
  unitOffsets : Option (List Nat)
  deriving DecidableEq, Repr

/-- `cog_audio`, `gsf.py:1011-1015`. -/
structure AudioHdr where
  format : Nat
  channels : Nat
  samples : Nat
  sampleRate : Nat
  deriving DecidableEq, Repr

/-- `cog_coded_audio`, `gsf.py:1019-1025`. -/
structure CodedAudioHdr where
  format : Nat
  channels : Nat
  samples : Nat
  priming : Nat
  remainder : Nat
  sampleRate : Nat
  deriving DecidableEq, Repr

/-- The values of `grain_type` set by the decoder. -/
inductive GType where
  | video | codedVideo | audio | codedAudio | event
  deriving DecidableEq, Repr

/-- The dictionary `meta['grain']` built by `_sync_decode_gbhd`, `gsf.py:909-1030`. -/
structure Meta where
  sourceId : Bytes
  flowId : Bytes
  origin : Int
  sync : Int
  rate : Rat
  duration : Rat
  timelabels : Option (List TimeLabel) := none
  grainType : Option GType := none
  cogFrame : Option VideoHdr := none
  cogCodedFrame : Option CodedVideoHdr := none
  cogAudio : Option AudioHdr := none
  cogCodedAudio : Option CodedAudioHdr := none
  deriving DecidableEq, Repr

/-- `segm['flow']`, `gsf.py:865-870`. -/
structure Flow where
  sourceId : Bytes
  flowId : Bytes
  format : List Char
  data : List Char
  deriving DecidableEq, Repr

/-- One entry of `file_headers['segments']`, `gsf.py:851-876`. -/
structure Segm where
  localId : Nat
  id : Bytes
  count : Int
  flow : Option Flow
  tags : List (List Char × List Char)
  deriving DecidableEq, Repr

/-- `file_headers`, `gsf.py:840-884`. -/
structure Head where
  id : Bytes
  created : DateTime
  segments : List Segm
  tags : List (List Char × List Char)
  deriving DecidableEq, Repr

end Verif.Gsf

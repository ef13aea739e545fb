import Verif.Bytes

/-!
# The format enumerations

Models `mediagrains/cogenums.py`.  Formats are modelled by their integer values (the classes are `IntEnum`s).
-/

namespace Verif.Cog

/-! ## CogFrameFormat, lines 41-93 -/

namespace FrameFormat

def MJPEG : Nat := 0x200
def DNxHD : Nat := 0x201
def MPEG2 : Nat := 0x202
def AVCI : Nat := 0x203
def H264 : Nat := 0x204
def DV : Nat := 0x205
def D10 : Nat := 0x206
def VC2 : Nat := 0x207
def VP8 : Nat := 0x208
def H265 : Nat := 0x209
def ALPHA_U8_1BIT : Nat := 0x1080
def U8_444 : Nat := 0x2000
def U8_422 : Nat := 0x2001
def U8_420 : Nat := 0x2003
def U8_444_RGB : Nat := 0x2010
def ALPHA_U8 : Nat := 0x2080
def YUYV : Nat := 0x2100
def UYVY : Nat := 0x2101
def AYUV : Nat := 0x2102
def RGB : Nat := 0x2104
def RGBx : Nat := 0x2110
def xRGB : Nat := 0x2111
def BGRx : Nat := 0x2112
def xBGR : Nat := 0x2113
def RGBA : Nat := 0x2114
def ARGB : Nat := 0x2115
def BGRA : Nat := 0x2116
def ABGR : Nat := 0x2117
def S16_444_10BIT : Nat := 0x2804
def S16_444_10BIT_RGB : Nat := 0x2814
def S16_422_10BIT : Nat := 0x2805
def S16_420_10BIT : Nat := 0x2807
def ALPHA_S16_10BIT : Nat := 0x2884
def v210 : Nat := 0x2906
def S16_444_12BIT : Nat := 0x3004
def S16_444_12BIT_RGB : Nat := 0x3014
def S16_422_12BIT : Nat := 0x3005
def S16_420_12BIT : Nat := 0x3007
def ALPHA_S16_12BIT : Nat := 0x3084
def S16_444 : Nat := 0x4004
def S16_444_RGB : Nat := 0x4014
def S16_422 : Nat := 0x4005
def S16_420 : Nat := 0x4007
def ALPHA_S16 : Nat := 0x4084
def v216 : Nat := 0x4105
def S32_444 : Nat := 0x8008
def S32_444_RGB : Nat := 0x8018
def S32_422 : Nat := 0x8009
def S32_420 : Nat := 0x800b
def ALPHA_S32 : Nat := 0x8088
def UNKNOWN : Nat := 0xfffffffe
def INVALID : Nat := 0xffffffff

/-- All members of `CogFrameFormat`. -/
def all : List Nat :=
  [MJPEG, DNxHD, MPEG2, AVCI, H264, DV, D10, VC2, VP8, H265, ALPHA_U8_1BIT, U8_444, U8_422, U8_420,
    U8_444_RGB, ALPHA_U8, YUYV, UYVY, AYUV, RGB, RGBx, xRGB, BGRx, xBGR, RGBA, ARGB, BGRA, ABGR,
    S16_444_10BIT, S16_444_10BIT_RGB, S16_422_10BIT, S16_420_10BIT, ALPHA_S16_10BIT, v210,
    S16_444_12BIT, S16_444_12BIT_RGB, S16_422_12BIT, S16_420_12BIT, ALPHA_S16_12BIT, S16_444,
    S16_444_RGB, S16_422, S16_420, ALPHA_S16, v216, S32_444, S32_444_RGB, S32_422, S32_420, ALPHA_S32,
    UNKNOWN, INVALID]

end FrameFormat

/-! ## CogFrameLayout, lines 96-102 -/

namespace FrameLayout

def FULL_FRAME : Nat := 0x0
def SEPARATE_FIELDS : Nat := 0x1
def SINGLE_FIELD : Nat := 0x2
def MIXED_FIELDS : Nat := 0x3
def SEGMENTED_FRAME : Nat := 0x4
def UNKNOWN : Nat := 0xfffffffe

/-- All members of `CogFrameLayout`. -/
def all : List Nat :=
  [FULL_FRAME, SEPARATE_FIELDS, SINGLE_FIELD, MIXED_FIELDS, SEGMENTED_FRAME, UNKNOWN]

end FrameLayout

/-! ## CogAudioFormat, lines 105-126 -/

namespace AudioFormat

def S16_PLANES : Nat := 0x0
def S16_PAIRS : Nat := 0x1
def S16_INTERLEAVED : Nat := 0x2
def S24_PLANES : Nat := 0x4
def S24_PAIRS : Nat := 0x5
def S24_INTERLEAVED : Nat := 0x6
def S32_PLANES : Nat := 0x8
def S32_PAIRS : Nat := 0x9
def S32_INTERLEAVED : Nat := 0xa
def S64_INVALID : Nat := 0xc
def FLOAT_PLANES : Nat := 0x18
def FLOAT_PAIRS : Nat := 0x19
def FLOAT_INTERLEAVED : Nat := 0x1a
def DOUBLE_PLANES : Nat := 0x2c
def DOUBLE_PAIRS : Nat := 0x2d
def DOUBLE_INTERLEAVED : Nat := 0x2e
def MP1 : Nat := 0x200
def AAC : Nat := 0x201
def OPUS : Nat := 0x202
def UNKNOWN : Nat := 0xfffffffe
def INVALID : Nat := 0xffffffff

/-- All members of `CogAudioFormat`. -/
def all : List Nat :=
  [S16_PLANES, S16_PAIRS, S16_INTERLEAVED, S24_PLANES, S24_PAIRS, S24_INTERLEAVED, S32_PLANES,
    S32_PAIRS, S32_INTERLEAVED, S64_INVALID, FLOAT_PLANES, FLOAT_PAIRS, FLOAT_INTERLEAVED,
    DOUBLE_PLANES, DOUBLE_PAIRS, DOUBLE_INTERLEAVED, MP1, AAC, OPUS, UNKNOWN, INVALID]

end AudioFormat

/-! ## PlanarChromaFormat, lines 129-133 -/

namespace Chroma

def YUV_444 : Nat := 0x0
def YUV_422 : Nat := 0x1
def YUV_420 : Nat := 0x3
def RGB : Nat := 0x10

/-- All members of `PlanarChromaFormat`. -/
def all : List Nat :=
  [YUV_444, YUV_422, YUV_420, RGB]

end Chroma

/-- `CogFrameFormat(v)`: `none` is `ValueError`. -/
def frameFormat (v : Nat) : Option Nat := if v ∈ FrameFormat.all then some v else none

/-- `COG_PLANAR_FORMAT`, lines 136-142. -/
def planarFormat (chroma depth : Nat) : Option Nat :=
  if depth ≤ 8 then frameFormat (0 + chroma + (depth <<< 10))
  else if depth > 16 then frameFormat (8 + chroma + (depth <<< 10))
  else frameFormat (4 + chroma + (depth <<< 10))

/-- Lines 145-146. -/
def isPacked (fmt : Nat) : Bool := (fmt >>> 8) &&& 0x1 != 0
/-- Lines 149-150. -/
def isCompressed (fmt : Nat) : Bool := (fmt >>> 9) &&& 0x1 != 0
/-- Lines 153-154. -/
def isPlanar (fmt : Nat) : Bool := (fmt >>> 8) &&& 0x3 == 0
/-- Lines 157-158. -/
def isAlpha (fmt : Nat) : Bool := (fmt >>> 7) &&& 0x1 != 0
/-- Lines 161-162. -/
def isPlanarRgb (fmt : Nat) : Bool := (fmt >>> 4) &&& 0x31 == 1
/-- Lines 165-171. -/
def bytesPerValue (fmt : Nat) : Nat :=
  if fmt &&& 0xc = 0 then 1 else if fmt &&& 0xc = 4 then 2 else 4
/-- Lines 174-175. -/
def hShift (fmt : Nat) : Nat := fmt &&& 0x1
/-- Lines 178-179. -/
def vShift (fmt : Nat) : Nat := (fmt >>> 1) &&& 0x1
/-- Lines 182-183. -/
def activeBits (fmt : Nat) : Nat := (fmt >>> 10) &&& 0x3F

/-- Lines 186-187. -/
def audioIsPlanes (fmt : Nat) : Bool := fmt &&& 0x3 == 0
/-- Lines 190-191. -/
def audioIsPairs (fmt : Nat) : Bool := fmt &&& 0x3 == 1
/-- Lines 194-195. -/
def audioIsInterleaved (fmt : Nat) : Bool := fmt &&& 0x3 == 2
/-- Lines 198-199. -/
def audioIsCompressed (fmt : Nat) : Bool := fmt &&& 0x200 == 0x200
/-- Lines 202-203. -/
def audioIsInt (fmt : Nat) : Bool := fmt &&& 0x30 == 0
/-- Lines 206-207. -/
def audioIsFloat (fmt : Nat) : Bool := fmt &&& 0x30 == 0x10
/-- Lines 210-211. -/
def audioIsDouble (fmt : Nat) : Bool := fmt &&& 0x30 == 0x20
/-- Lines 220-221. -/
def audioDepth (fmt : Nat) : Nat := fmt &&& 0xc
/-- Lines 224-230. -/
def audioSampleBytes (fmt : Nat) : Nat :=
  if audioDepth fmt = 0xc then 8
  else if audioIsPlanes fmt ∧ audioDepth fmt = 4 then (((fmt &&& 0xf) >>> 2) &&& 0x07) + 3
  else (((fmt &&& 0xf) >>> 2) &&& 0x07) + 2

end Verif.Cog

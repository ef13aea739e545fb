import Verif.Numpy.Table

/-!
# C50: the list of formats, and the check of the conversion table

`formats` lists the 29 formats with what they are (RGB or YUV, chroma subsampling, depth), independently of the code.
-/

namespace Verif.Props

open Verif.Numpy Verif.Cog

/-- What a format is. -/
inductive Model where
  | rgb | yuv444 | yuv422 | yuv420 | packed422
deriving DecidableEq, Repr

/-- The formats, with the colour model and chroma subsampling, and the depth. -/
def formats : List (Nat × Model × Nat) :=
  [(FrameFormat.U8_420, .yuv420, 8), (FrameFormat.S16_420_10BIT, .yuv420, 10), (FrameFormat.S16_420_12BIT, .yuv420, 12),
   (FrameFormat.S16_420, .yuv420, 16), (FrameFormat.S32_420, .yuv420, 32),
   (FrameFormat.U8_422, .yuv422, 8), (FrameFormat.UYVY, .yuv422, 8), (FrameFormat.YUYV, .yuv422, 8),
   (FrameFormat.S16_422_10BIT, .yuv422, 10), (FrameFormat.S16_422_12BIT, .yuv422, 12), (FrameFormat.S16_422, .yuv422, 16),
   (FrameFormat.v216, .yuv422, 16), (FrameFormat.S32_422, .yuv422, 32),
   (FrameFormat.U8_444, .yuv444, 8), (FrameFormat.S16_444_10BIT, .yuv444, 10), (FrameFormat.S16_444_12BIT, .yuv444, 12),
   (FrameFormat.S16_444, .yuv444, 16), (FrameFormat.S32_444, .yuv444, 32),
   (FrameFormat.RGB, .rgb, 8), (FrameFormat.U8_444_RGB, .rgb, 8), (FrameFormat.RGBx, .rgb, 8), (FrameFormat.xRGB, .rgb, 8),
   (FrameFormat.BGRx, .rgb, 8), (FrameFormat.xBGR, .rgb, 8), (FrameFormat.S16_444_10BIT_RGB, .rgb, 10),
   (FrameFormat.S16_444_12BIT_RGB, .rgb, 12), (FrameFormat.S16_444_RGB, .rgb, 16), (FrameFormat.S32_444_RGB, .rgb, 32),
   (FrameFormat.v210, .packed422, 10)]

def supported (fmt : Nat) : Bool := formats.any (fun f => f.1 == fmt)

/-- The function of a step is written for formats like its source and target. -/
def fits (k : Kind) (src dst : Model × Nat) : Bool :=
  let yuv := fun (m : Model) => m == .yuv444 || m == .yuv422 || m == .yuv420
  match k with
  | .copyYuv => yuv src.1 && src == dst
  | .copyRgb => src.1 == .rgb && src == dst
  | .mean444to422 => src.1 == .yuv444 && dst.1 == .yuv422 && src.2 == dst.2
  | .mean422to420 => src.1 == .yuv422 && dst.1 == .yuv420 && src.2 == dst.2
  | .dup422to444 => src.1 == .yuv422 && dst.1 == .yuv444 && src.2 == dst.2
  | .dup420to422 => src.1 == .yuv420 && dst.1 == .yuv422 && src.2 == dst.2
  | .downYuv => yuv src.1 && src.1 == dst.1 && dst.2 < src.2
  | .downRgb => src.1 == .rgb && dst.1 == .rgb && dst.2 < src.2
  | .upYuv => yuv src.1 && src.1 == dst.1 && src.2 < dst.2
  | .upRgb => src.1 == .rgb && dst.1 == .rgb && src.2 < dst.2
  | .rgbToYuv444 => src.1 == .rgb && dst.1 == .yuv444 && src.2 == dst.2
  | .yuv444ToRgb => src.1 == .yuv444 && dst.1 == .rgb && src.2 == dst.2
  | .v210To422 => src == (.packed422, 10) && dst == (.yuv422, 10)
  | .to422v210 => src == (.yuv422, 10) && dst == (.packed422, 10)

/-- A list of steps leads from one format to another, through formats of the list with at least `depth` bits, and every step fits. -/
def Leads (depth : Nat) : (Nat × Model × Nat) → List Step → (Nat × Model × Nat) → Bool
  | s, [], t => s == t
  | s, x :: xs, t => formats.any (fun m => x.src == s.1 && x.dst == m.1 && depth ≤ m.2.2 && fits x.kind s.2 m.2 && Leads depth m xs t)

namespace NumpyTable

/-- The registrations with the given source, the last one first. -/
def rowOf (src : Nat) : List (Nat × Impl) :=
  (registrations.reverse.filter (fun e => e.src == src)).map (fun e => (e.dst, e.impl))

/-- The rows written out (so that the kernel computes the registrations once). -/
def rows : List (Nat × List (Nat × Impl)) :=
  [(8195, [(10502, .twoStep 10245), (32792, .twoStep 32776), (16404, .twoStep 16388), (12308, .twoStep 12292), (10260,
     .twoStep 10244), (8467, .twoStep 8192), (8466, .twoStep 8192), (8465, .twoStep 8192), (8464, .twoStep 8192), (8208,
     .twoStep 8192), (8452, .twoStep 8192), (32776, .twoStep 8192), (16388, .twoStep 8192), (12292, .twoStep 8192), (10244,
     .twoStep 8192), (32777, .twoStep 8193), (16645, .twoStep 8193), (16389, .twoStep 8193), (12293, .twoStep 8193), (10245,
     .twoStep 8193), (32779, .direct .upYuv), (16391, .direct .upYuv), (12295, .direct .upYuv), (10247, .direct .upYuv),
     (8192, .composed .dup420to422 8193 .dup422to444), (8448, .direct .dup420to422), (8449, .direct .dup420to422), (8193,
     .direct .dup420to422)]),
   (10247, [(10502, .twoStep 10245), (32792, .twoStep 32776), (16404, .twoStep 16388), (12308, .twoStep 12292), (8467,
     .twoStep 8192), (8466, .twoStep 8192), (8465, .twoStep 8192), (8464, .twoStep 8192), (8208, .twoStep 8192), (8452,
     .twoStep 8192), (10260, .twoStep 10244), (32776, .twoStep 10244), (16388, .twoStep 10244), (12292, .twoStep 10244),
     (8192, .twoStep 10244), (32777, .twoStep 10245), (16645, .twoStep 10245), (16389, .twoStep 10245), (12293, .twoStep
     10245), (8448, .twoStep 10245), (8449, .twoStep 10245), (8193, .twoStep 10245), (32779, .direct .upYuv), (16391, .direct
     .upYuv), (12295, .direct .upYuv), (8195, .direct .downYuv), (10244, .composed .dup420to422 10245 .dup422to444), (10245,
     .direct .dup420to422)]),
   (12295, [(10502, .twoStep 10245), (32792, .twoStep 32776), (16404, .twoStep 16388), (10260, .twoStep 10244), (8467,
     .twoStep 8192), (8466, .twoStep 8192), (8465, .twoStep 8192), (8464, .twoStep 8192), (8208, .twoStep 8192), (8452,
     .twoStep 8192), (12308, .twoStep 12292), (32776, .twoStep 12292), (16388, .twoStep 12292), (10244, .twoStep 12292),
     (8192, .twoStep 12292), (32777, .twoStep 12293), (16645, .twoStep 12293), (16389, .twoStep 12293), (10245, .twoStep
     12293), (8448, .twoStep 12293), (8449, .twoStep 12293), (8193, .twoStep 12293), (32779, .direct .upYuv), (16391, .direct
     .upYuv), (10247, .direct .downYuv), (8195, .direct .downYuv), (12292, .composed .dup420to422 12293 .dup422to444),
     (12293, .direct .dup420to422)]),
   (16391, [(10502, .twoStep 10245), (32792, .twoStep 32776), (12308, .twoStep 12292), (10260, .twoStep 10244), (8467,
     .twoStep 8192), (8466, .twoStep 8192), (8465, .twoStep 8192), (8464, .twoStep 8192), (8208, .twoStep 8192), (8452,
     .twoStep 8192), (16404, .twoStep 16388), (32776, .twoStep 16388), (12292, .twoStep 16388), (10244, .twoStep 16388),
     (8192, .twoStep 16388), (32777, .twoStep 16389), (12293, .twoStep 16389), (10245, .twoStep 16389), (8448, .twoStep
     16389), (8449, .twoStep 16389), (8193, .twoStep 16389), (32779, .direct .upYuv), (12295, .direct .downYuv), (10247,
     .direct .downYuv), (8195, .direct .downYuv), (16388, .composed .dup420to422 16389 .dup422to444), (16645, .direct
     .dup420to422), (16389, .direct .dup420to422)]),
   (32779, [(10502, .twoStep 10245), (16404, .twoStep 16388), (12308, .twoStep 12292), (10260, .twoStep 10244), (8467,
     .twoStep 8192), (8466, .twoStep 8192), (8465, .twoStep 8192), (8464, .twoStep 8192), (8208, .twoStep 8192), (8452,
     .twoStep 8192), (32792, .twoStep 32776), (16388, .twoStep 32776), (12292, .twoStep 32776), (10244, .twoStep 32776),
     (8192, .twoStep 32776), (16645, .twoStep 32777), (16389, .twoStep 32777), (12293, .twoStep 32777), (10245, .twoStep
     32777), (8448, .twoStep 32777), (8449, .twoStep 32777), (8193, .twoStep 32777), (16391, .direct .downYuv), (12295,
     .direct .downYuv), (10247, .direct .downYuv), (8195, .direct .downYuv), (32776, .composed .dup420to422 32777
     .dup422to444), (32777, .direct .dup420to422)]),
   (8193, [(10502, .twoStep 10245), (32792, .twoStep 32776), (16404, .twoStep 16388), (12308, .twoStep 12292), (10260,
     .twoStep 10244), (8467, .twoStep 8192), (8466, .twoStep 8192), (8465, .twoStep 8192), (8464, .twoStep 8192), (8208,
     .twoStep 8192), (8452, .twoStep 8192), (32776, .twoStep 8192), (16388, .twoStep 8192), (12292, .twoStep 8192), (10244,
     .twoStep 8192), (32779, .twoStep 32777), (16391, .twoStep 16389), (12295, .twoStep 12293), (10247, .twoStep 10245),
     (32777, .direct .upYuv), (16645, .direct .upYuv), (16389, .direct .upYuv), (12293, .direct .upYuv), (10245, .direct
     .upYuv), (8192, .direct .dup422to444), (8195, .direct .mean422to420), (8448, .direct .copyYuv), (8449, .direct
     .copyYuv)]),
   (8449, [(10502, .twoStep 10245), (32792, .twoStep 32776), (16404, .twoStep 16388), (12308, .twoStep 12292), (10260,
     .twoStep 10244), (8467, .twoStep 8192), (8466, .twoStep 8192), (8465, .twoStep 8192), (8464, .twoStep 8192), (8208,
     .twoStep 8192), (8452, .twoStep 8192), (32776, .twoStep 8192), (16388, .twoStep 8192), (12292, .twoStep 8192), (10244,
     .twoStep 8192), (32779, .twoStep 32777), (16391, .twoStep 16389), (12295, .twoStep 12293), (10247, .twoStep 10245),
     (32777, .direct .upYuv), (16645, .direct .upYuv), (16389, .direct .upYuv), (12293, .direct .upYuv), (10245, .direct
     .upYuv), (8192, .direct .dup422to444), (8195, .direct .mean422to420), (8448, .direct .copyYuv), (8193, .direct
     .copyYuv)]),
   (8448, [(10502, .twoStep 10245), (32792, .twoStep 32776), (16404, .twoStep 16388), (12308, .twoStep 12292), (10260,
     .twoStep 10244), (8467, .twoStep 8192), (8466, .twoStep 8192), (8465, .twoStep 8192), (8464, .twoStep 8192), (8208,
     .twoStep 8192), (8452, .twoStep 8192), (32776, .twoStep 8192), (16388, .twoStep 8192), (12292, .twoStep 8192), (10244,
     .twoStep 8192), (32779, .twoStep 32777), (16391, .twoStep 16389), (12295, .twoStep 12293), (10247, .twoStep 10245),
     (32777, .direct .upYuv), (16645, .direct .upYuv), (16389, .direct .upYuv), (12293, .direct .upYuv), (10245, .direct
     .upYuv), (8192, .direct .dup422to444), (8195, .direct .mean422to420), (8449, .direct .copyYuv), (8193, .direct
     .copyYuv)]),
   (10245, [(32792, .twoStep 32776), (16404, .twoStep 16388), (12308, .twoStep 12292), (8467, .twoStep 8192), (8466, .twoStep
     8192), (8465, .twoStep 8192), (8464, .twoStep 8192), (8208, .twoStep 8192), (8452, .twoStep 8192), (10260, .twoStep
     10244), (32776, .twoStep 10244), (16388, .twoStep 10244), (12292, .twoStep 10244), (8192, .twoStep 10244), (32779,
     .twoStep 32777), (16391, .twoStep 16389), (12295, .twoStep 12293), (8195, .twoStep 10247), (10502, .direct .to422v210),
     (32777, .direct .upYuv), (16645, .direct .upYuv), (16389, .direct .upYuv), (12293, .direct .upYuv), (8448, .direct
     .downYuv), (8449, .direct .downYuv), (8193, .direct .downYuv), (10244, .direct .dup422to444), (10247, .direct
     .mean422to420)]),
   (12293, [(10502, .twoStep 10245), (32792, .twoStep 32776), (16404, .twoStep 16388), (10260, .twoStep 10244), (8467,
     .twoStep 8192), (8466, .twoStep 8192), (8465, .twoStep 8192), (8464, .twoStep 8192), (8208, .twoStep 8192), (8452,
     .twoStep 8192), (12308, .twoStep 12292), (32776, .twoStep 12292), (16388, .twoStep 12292), (10244, .twoStep 12292),
     (8192, .twoStep 12292), (32779, .twoStep 32777), (16391, .twoStep 16389), (10247, .twoStep 12295), (8195, .twoStep
     12295), (32777, .direct .upYuv), (16645, .direct .upYuv), (16389, .direct .upYuv), (10245, .direct .downYuv), (8448,
     .direct .downYuv), (8449, .direct .downYuv), (8193, .direct .downYuv), (12292, .direct .dup422to444), (12295, .direct
     .mean422to420)]),
   (16389, [(10502, .twoStep 10245), (32792, .twoStep 32776), (12308, .twoStep 12292), (10260, .twoStep 10244), (8467,
     .twoStep 8192), (8466, .twoStep 8192), (8465, .twoStep 8192), (8464, .twoStep 8192), (8208, .twoStep 8192), (8452,
     .twoStep 8192), (16404, .twoStep 16388), (32776, .twoStep 16388), (12292, .twoStep 16388), (10244, .twoStep 16388),
     (8192, .twoStep 16388), (32779, .twoStep 32777), (12295, .twoStep 16391), (10247, .twoStep 16391), (8195, .twoStep
     16391), (32777, .direct .upYuv), (12293, .direct .downYuv), (10245, .direct .downYuv), (8448, .direct .downYuv), (8449,
     .direct .downYuv), (8193, .direct .downYuv), (16388, .direct .dup422to444), (16391, .direct .mean422to420), (16645,
     .direct .copyYuv)]),
   (16645, [(10502, .twoStep 10245), (32792, .twoStep 32776), (12308, .twoStep 12292), (10260, .twoStep 10244), (8467,
     .twoStep 8192), (8466, .twoStep 8192), (8465, .twoStep 8192), (8464, .twoStep 8192), (8208, .twoStep 8192), (8452,
     .twoStep 8192), (16404, .twoStep 16388), (32776, .twoStep 16388), (12292, .twoStep 16388), (10244, .twoStep 16388),
     (8192, .twoStep 16388), (32779, .twoStep 32777), (12295, .twoStep 16391), (10247, .twoStep 16391), (8195, .twoStep
     16391), (32777, .direct .upYuv), (12293, .direct .downYuv), (10245, .direct .downYuv), (8448, .direct .downYuv), (8449,
     .direct .downYuv), (8193, .direct .downYuv), (16388, .direct .dup422to444), (16391, .direct .mean422to420), (16389,
     .direct .copyYuv)]),
   (32777, [(10502, .twoStep 10245), (16404, .twoStep 16388), (12308, .twoStep 12292), (10260, .twoStep 10244), (8467,
     .twoStep 8192), (8466, .twoStep 8192), (8465, .twoStep 8192), (8464, .twoStep 8192), (8208, .twoStep 8192), (8452,
     .twoStep 8192), (32792, .twoStep 32776), (16388, .twoStep 32776), (12292, .twoStep 32776), (10244, .twoStep 32776),
     (8192, .twoStep 32776), (16391, .twoStep 32779), (12295, .twoStep 32779), (10247, .twoStep 32779), (8195, .twoStep
     32779), (16645, .direct .downYuv), (16389, .direct .downYuv), (12293, .direct .downYuv), (10245, .direct .downYuv),
     (8448, .direct .downYuv), (8449, .direct .downYuv), (8193, .direct .downYuv), (32776, .direct .dup422to444), (32779,
     .direct .mean422to420)]),
   (8192, [(10502, .twoStep 10245), (32792, .twoStep 8208), (16404, .twoStep 8208), (12308, .twoStep 8208), (10260, .twoStep
     8208), (32777, .twoStep 32776), (16645, .twoStep 16388), (16389, .twoStep 16388), (12293, .twoStep 12292), (10245,
     .twoStep 10244), (32779, .twoStep 32776), (16391, .twoStep 16388), (12295, .twoStep 12292), (10247, .twoStep 10244),
     (8467, .direct .yuv444ToRgb), (8466, .direct .yuv444ToRgb), (8465, .direct .yuv444ToRgb), (8464, .direct .yuv444ToRgb),
     (8208, .direct .yuv444ToRgb), (8452, .direct .yuv444ToRgb), (32776, .direct .upYuv), (16388, .direct .upYuv), (12292,
     .direct .upYuv), (10244, .direct .upYuv), (8195, .composed .mean444to422 8193 .mean422to420), (8448, .direct
     .mean444to422), (8449, .direct .mean444to422), (8193, .direct .mean444to422)]),
   (10244, [(10502, .twoStep 10245), (32792, .twoStep 10260), (16404, .twoStep 10260), (12308, .twoStep 10260), (8467,
     .twoStep 10260), (8466, .twoStep 10260), (8465, .twoStep 10260), (8464, .twoStep 10260), (8208, .twoStep 10260), (8452,
     .twoStep 10260), (32777, .twoStep 32776), (16645, .twoStep 16388), (16389, .twoStep 16388), (12293, .twoStep 12292),
     (8448, .twoStep 10245), (8449, .twoStep 10245), (8193, .twoStep 10245), (32779, .twoStep 32776), (16391, .twoStep
     16388), (12295, .twoStep 12292), (8195, .twoStep 10247), (10260, .direct .yuv444ToRgb), (32776, .direct .upYuv), (16388,
     .direct .upYuv), (12292, .direct .upYuv), (8192, .direct .downYuv), (10247, .composed .mean444to422 10245
     .mean422to420), (10245, .direct .mean444to422)]),
   (12292, [(10502, .twoStep 10245), (32792, .twoStep 12308), (16404, .twoStep 12308), (10260, .twoStep 12308), (8467,
     .twoStep 12308), (8466, .twoStep 12308), (8465, .twoStep 12308), (8464, .twoStep 12308), (8208, .twoStep 12308), (8452,
     .twoStep 12308), (32777, .twoStep 32776), (16645, .twoStep 16388), (16389, .twoStep 16388), (10245, .twoStep 12293),
     (8448, .twoStep 12293), (8449, .twoStep 12293), (8193, .twoStep 12293), (32779, .twoStep 32776), (16391, .twoStep
     16388), (10247, .twoStep 12295), (8195, .twoStep 12295), (12308, .direct .yuv444ToRgb), (32776, .direct .upYuv), (16388,
     .direct .upYuv), (10244, .direct .downYuv), (8192, .direct .downYuv), (12295, .composed .mean444to422 12293
     .mean422to420), (12293, .direct .mean444to422)]),
   (16388, [(10502, .twoStep 10245), (32792, .twoStep 16404), (12308, .twoStep 16404), (10260, .twoStep 16404), (8467,
     .twoStep 16404), (8466, .twoStep 16404), (8465, .twoStep 16404), (8464, .twoStep 16404), (8208, .twoStep 16404), (8452,
     .twoStep 16404), (32777, .twoStep 32776), (12293, .twoStep 16389), (10245, .twoStep 16389), (8448, .twoStep 16389),
     (8449, .twoStep 16389), (8193, .twoStep 16389), (32779, .twoStep 32776), (12295, .twoStep 16391), (10247, .twoStep
     16391), (8195, .twoStep 16391), (16404, .direct .yuv444ToRgb), (32776, .direct .upYuv), (12292, .direct .downYuv),
     (10244, .direct .downYuv), (8192, .direct .downYuv), (16391, .composed .mean444to422 16389 .mean422to420), (16645,
     .direct .mean444to422), (16389, .direct .mean444to422)]),
   (32776, [(10502, .twoStep 10245), (16404, .twoStep 32792), (12308, .twoStep 32792), (10260, .twoStep 32792), (8467,
     .twoStep 32792), (8466, .twoStep 32792), (8465, .twoStep 32792), (8464, .twoStep 32792), (8208, .twoStep 32792), (8452,
     .twoStep 32792), (16645, .twoStep 32777), (16389, .twoStep 32777), (12293, .twoStep 32777), (10245, .twoStep 32777),
     (8448, .twoStep 32777), (8449, .twoStep 32777), (8193, .twoStep 32777), (16391, .twoStep 32779), (12295, .twoStep
     32779), (10247, .twoStep 32779), (8195, .twoStep 32779), (32792, .direct .yuv444ToRgb), (16388, .direct .downYuv),
     (12292, .direct .downYuv), (10244, .direct .downYuv), (8192, .direct .downYuv), (32779, .composed .mean444to422 32777
     .mean422to420), (32777, .direct .mean444to422)]),
   (8452, [(10502, .twoStep 10245), (32777, .twoStep 8192), (32779, .twoStep 8192), (16645, .twoStep 8192), (16389, .twoStep
     8192), (16391, .twoStep 8192), (12293, .twoStep 8192), (12295, .twoStep 8192), (10245, .twoStep 8192), (10247, .twoStep
     8192), (32776, .twoStep 8192), (16388, .twoStep 8192), (12292, .twoStep 8192), (10244, .twoStep 8192), (8448, .twoStep
     8192), (8449, .twoStep 8192), (8193, .twoStep 8192), (8195, .twoStep 8192), (8192, .direct .rgbToYuv444), (32792,
     .direct .upRgb), (16404, .direct .upRgb), (12308, .direct .upRgb), (10260, .direct .upRgb), (8467, .direct .copyRgb),
     (8466, .direct .copyRgb), (8465, .direct .copyRgb), (8464, .direct .copyRgb), (8208, .direct .copyRgb)]),
   (8208, [(10502, .twoStep 10245), (32777, .twoStep 8192), (32779, .twoStep 8192), (16645, .twoStep 8192), (16389, .twoStep
     8192), (16391, .twoStep 8192), (12293, .twoStep 8192), (12295, .twoStep 8192), (10245, .twoStep 8192), (10247, .twoStep
     8192), (32776, .twoStep 8192), (16388, .twoStep 8192), (12292, .twoStep 8192), (10244, .twoStep 8192), (8448, .twoStep
     8192), (8449, .twoStep 8192), (8193, .twoStep 8192), (8195, .twoStep 8192), (8192, .direct .rgbToYuv444), (32792,
     .direct .upRgb), (16404, .direct .upRgb), (12308, .direct .upRgb), (10260, .direct .upRgb), (8467, .direct .copyRgb),
     (8466, .direct .copyRgb), (8465, .direct .copyRgb), (8464, .direct .copyRgb), (8452, .direct .copyRgb)]),
   (8464, [(10502, .twoStep 10245), (32777, .twoStep 8192), (32779, .twoStep 8192), (16645, .twoStep 8192), (16389, .twoStep
     8192), (16391, .twoStep 8192), (12293, .twoStep 8192), (12295, .twoStep 8192), (10245, .twoStep 8192), (10247, .twoStep
     8192), (32776, .twoStep 8192), (16388, .twoStep 8192), (12292, .twoStep 8192), (10244, .twoStep 8192), (8448, .twoStep
     8192), (8449, .twoStep 8192), (8193, .twoStep 8192), (8195, .twoStep 8192), (8192, .direct .rgbToYuv444), (32792,
     .direct .upRgb), (16404, .direct .upRgb), (12308, .direct .upRgb), (10260, .direct .upRgb), (8467, .direct .copyRgb),
     (8466, .direct .copyRgb), (8465, .direct .copyRgb), (8208, .direct .copyRgb), (8452, .direct .copyRgb)]),
   (8465, [(10502, .twoStep 10245), (32777, .twoStep 8192), (32779, .twoStep 8192), (16645, .twoStep 8192), (16389, .twoStep
     8192), (16391, .twoStep 8192), (12293, .twoStep 8192), (12295, .twoStep 8192), (10245, .twoStep 8192), (10247, .twoStep
     8192), (32776, .twoStep 8192), (16388, .twoStep 8192), (12292, .twoStep 8192), (10244, .twoStep 8192), (8448, .twoStep
     8192), (8449, .twoStep 8192), (8193, .twoStep 8192), (8195, .twoStep 8192), (8192, .direct .rgbToYuv444), (32792,
     .direct .upRgb), (16404, .direct .upRgb), (12308, .direct .upRgb), (10260, .direct .upRgb), (8467, .direct .copyRgb),
     (8466, .direct .copyRgb), (8464, .direct .copyRgb), (8208, .direct .copyRgb), (8452, .direct .copyRgb)]),
   (8466, [(10502, .twoStep 10245), (32777, .twoStep 8192), (32779, .twoStep 8192), (16645, .twoStep 8192), (16389, .twoStep
     8192), (16391, .twoStep 8192), (12293, .twoStep 8192), (12295, .twoStep 8192), (10245, .twoStep 8192), (10247, .twoStep
     8192), (32776, .twoStep 8192), (16388, .twoStep 8192), (12292, .twoStep 8192), (10244, .twoStep 8192), (8448, .twoStep
     8192), (8449, .twoStep 8192), (8193, .twoStep 8192), (8195, .twoStep 8192), (8192, .direct .rgbToYuv444), (32792,
     .direct .upRgb), (16404, .direct .upRgb), (12308, .direct .upRgb), (10260, .direct .upRgb), (8467, .direct .copyRgb),
     (8465, .direct .copyRgb), (8464, .direct .copyRgb), (8208, .direct .copyRgb), (8452, .direct .copyRgb)]),
   (8467, [(10502, .twoStep 10245), (32777, .twoStep 8192), (32779, .twoStep 8192), (16645, .twoStep 8192), (16389, .twoStep
     8192), (16391, .twoStep 8192), (12293, .twoStep 8192), (12295, .twoStep 8192), (10245, .twoStep 8192), (10247, .twoStep
     8192), (32776, .twoStep 8192), (16388, .twoStep 8192), (12292, .twoStep 8192), (10244, .twoStep 8192), (8448, .twoStep
     8192), (8449, .twoStep 8192), (8193, .twoStep 8192), (8195, .twoStep 8192), (8192, .direct .rgbToYuv444), (32792,
     .direct .upRgb), (16404, .direct .upRgb), (12308, .direct .upRgb), (10260, .direct .upRgb), (8466, .direct .copyRgb),
     (8465, .direct .copyRgb), (8464, .direct .copyRgb), (8208, .direct .copyRgb), (8452, .direct .copyRgb)]),
   (10260, [(10502, .twoStep 10245), (32777, .twoStep 10244), (32779, .twoStep 10244), (16645, .twoStep 10244), (16389,
     .twoStep 10244), (16391, .twoStep 10244), (12293, .twoStep 10244), (12295, .twoStep 10244), (8448, .twoStep 10244),
     (8449, .twoStep 10244), (8193, .twoStep 10244), (8195, .twoStep 10244), (32776, .twoStep 10244), (16388, .twoStep
     10244), (12292, .twoStep 10244), (8192, .twoStep 10244), (10245, .twoStep 10244), (10247, .twoStep 10244), (10244,
     .direct .rgbToYuv444), (32792, .direct .upRgb), (16404, .direct .upRgb), (12308, .direct .upRgb), (8467, .direct
     .downRgb), (8466, .direct .downRgb), (8465, .direct .downRgb), (8464, .direct .downRgb), (8208, .direct .downRgb),
     (8452, .direct .downRgb)]),
   (12308, [(10502, .twoStep 10245), (32777, .twoStep 12292), (32779, .twoStep 12292), (16645, .twoStep 12292), (16389,
     .twoStep 12292), (16391, .twoStep 12292), (10245, .twoStep 12292), (10247, .twoStep 12292), (8448, .twoStep 12292),
     (8449, .twoStep 12292), (8193, .twoStep 12292), (8195, .twoStep 12292), (32776, .twoStep 12292), (16388, .twoStep
     12292), (10244, .twoStep 12292), (8192, .twoStep 12292), (12293, .twoStep 12292), (12295, .twoStep 12292), (12292,
     .direct .rgbToYuv444), (32792, .direct .upRgb), (16404, .direct .upRgb), (10260, .direct .downRgb), (8467, .direct
     .downRgb), (8466, .direct .downRgb), (8465, .direct .downRgb), (8464, .direct .downRgb), (8208, .direct .downRgb),
     (8452, .direct .downRgb)]),
   (16404, [(10502, .twoStep 10245), (32777, .twoStep 16388), (32779, .twoStep 16388), (12293, .twoStep 16388), (12295,
     .twoStep 16388), (10245, .twoStep 16388), (10247, .twoStep 16388), (8448, .twoStep 16388), (8449, .twoStep 16388),
     (8193, .twoStep 16388), (8195, .twoStep 16388), (32776, .twoStep 16388), (12292, .twoStep 16388), (10244, .twoStep
     16388), (8192, .twoStep 16388), (16645, .twoStep 16388), (16389, .twoStep 16388), (16391, .twoStep 16388), (16388,
     .direct .rgbToYuv444), (32792, .direct .upRgb), (12308, .direct .downRgb), (10260, .direct .downRgb), (8467, .direct
     .downRgb), (8466, .direct .downRgb), (8465, .direct .downRgb), (8464, .direct .downRgb), (8208, .direct .downRgb),
     (8452, .direct .downRgb)]),
   (32792, [(10502, .twoStep 10245), (16645, .twoStep 32776), (16389, .twoStep 32776), (16391, .twoStep 32776), (12293,
     .twoStep 32776), (12295, .twoStep 32776), (10245, .twoStep 32776), (10247, .twoStep 32776), (8448, .twoStep 32776),
     (8449, .twoStep 32776), (8193, .twoStep 32776), (8195, .twoStep 32776), (16388, .twoStep 32776), (12292, .twoStep
     32776), (10244, .twoStep 32776), (8192, .twoStep 32776), (32777, .twoStep 32776), (32779, .twoStep 32776), (32776,
     .direct .rgbToYuv444), (16404, .direct .downRgb), (12308, .direct .downRgb), (10260, .direct .downRgb), (8467, .direct
     .downRgb), (8466, .direct .downRgb), (8465, .direct .downRgb), (8464, .direct .downRgb), (8208, .direct .downRgb),
     (8452, .direct .downRgb)]),
   (10502, [(32792, .twoStep 10245), (32776, .twoStep 10245), (32777, .twoStep 10245), (32779, .twoStep 10245), (16404,
     .twoStep 10245), (16388, .twoStep 10245), (16645, .twoStep 10245), (16389, .twoStep 10245), (16391, .twoStep 10245),
     (12308, .twoStep 10245), (12292, .twoStep 10245), (12293, .twoStep 10245), (12295, .twoStep 10245), (10260, .twoStep
     10245), (10244, .twoStep 10245), (10247, .twoStep 10245), (8467, .twoStep 10245), (8466, .twoStep 10245), (8465,
     .twoStep 10245), (8464, .twoStep 10245), (8208, .twoStep 10245), (8452, .twoStep 10245), (8192, .twoStep 10245), (8448,
     .twoStep 10245), (8449, .twoStep 10245), (8193, .twoStep 10245), (8195, .twoStep 10245), (10245, .direct .v210To422)])]

def row (src : Nat) : List (Nat × Impl) := ((rows.find? (fun r => r.1 == src)).map (fun r => r.2)).getD []

def lookupRow (src dst : Nat) : Option Impl := ((row src).find? (fun e => e.1 == dst)).map (fun e => e.2)

def stepsRow : Nat → Nat → Nat → Option (List Step)
  | 0, _, _ => none
  | fuel + 1, src, dst => expand (stepsRow fuel) src dst (lookupRow src dst)

def checkRow (s t : Nat × Model × Nat) : Bool :=
  match stepsRow 4 s.1 t.1 with
  | some l => Leads (min s.2.2 t.2.2) s l t
  | none => false

def check (s t : Nat × Model × Nat) : Bool :=
  match steps 4 s.1 t.1 with
  | some l => Leads (min s.2.2 t.2.2) s l t
  | none => false

theorem rows_rowOf : formats.map (fun s => (s.1, rowOf s.1)) = rows := by decide +kernel

theorem checkedRow : ∀ s ∈ formats, ∀ t ∈ formats, s.1 ≠ t.1 → checkRow s t = true := by decide +kernel

theorem entries : ∀ e ∈ registrations, supported e.src = true ∧ supported e.dst = true ∧ e.src ≠ e.dst := by decide +kernel

theorem find_map (l : List (Nat × Model × Nat)) (x : Nat) :
    (((l.map (fun s => (s.1, rowOf s.1))).find? (fun r => r.1 == x)).map (fun r => r.2)).getD [] =
      if l.any (fun f => f.1 == x) then rowOf x else [] := by
  induction l with
  | nil => simp
  | cons a l ih =>
    by_cases h : a.1 = x
    · simp [h]
    · have h' : (a.1 == x) = false := by simpa using h
      simp only [List.map_cons, List.find?_cons, List.any_cons, h', Bool.false_or]
      exact ih

theorem row_eq (src : Nat) : row src = rowOf src := by
  unfold row
  rw [← rows_rowOf, find_map]
  split
  · rfl
  · rename_i h
    unfold rowOf
    rw [List.filter_eq_nil_iff.2]
    · rfl
    · intro e he hs
      apply h
      have := (entries e (by simpa using he)).1
      unfold supported at this
      rwa [show e.src = src by simpa using hs] at this

theorem find_filter (l : List Entry) (src dst : Nat) :
    ((l.find? (fun e => e.src == src && e.dst == dst)).map (fun e => e.impl)) =
      ((((l.filter (fun e => e.src == src)).map (fun e => (e.dst, e.impl))).find? (fun e => e.1 == dst)).map (fun e => e.2)) := by
  induction l with
  | nil => rfl
  | cons a l ih =>
    by_cases h : a.src = src
    · by_cases h' : a.dst = dst
      · simp [h, h']
      · have h' : (a.dst == dst) = false := by simpa using h'
        simp only [List.find?_cons, List.filter_cons, h, h', beq_self_eq_true, Bool.and_false, if_true, List.map_cons]
        exact ih
    · have h : (a.src == src) = false := by simpa using h
      simp only [List.find?_cons, List.filter_cons, h, Bool.false_and, Bool.false_eq_true, if_false]
      exact ih

theorem lookup_eq (src dst : Nat) : lookup src dst = lookupRow src dst := by
  unfold lookup lookupRow
  rw [row_eq, find_filter]
  rfl

theorem steps_eq (fuel src dst : Nat) : steps fuel src dst = stepsRow fuel src dst := by
  induction fuel generalizing src dst with
  | zero => rfl
  | succ fuel ih =>
    have : steps fuel = stepsRow fuel := funext fun a => funext fun b => ih a b
    rw [steps_succ, this, lookup_eq]
    rfl

theorem checked : ∀ s ∈ formats, ∀ t ∈ formats, s.1 ≠ t.1 → check s t = true := by
  intro s hs t ht hne
  have := checkedRow s hs t ht hne
  unfold check
  rw [steps_eq]
  exact this

end NumpyTable

/-- The planar formats named in the registrations all exist. -/
theorem C50_planar : ∀ c ∈ [Chroma.YUV_420, Chroma.YUV_422, Chroma.YUV_444, Chroma.RGB], ∀ d ∈ depths, planarFormat c d ≠ none := by
  decide +kernel

end Verif.Props

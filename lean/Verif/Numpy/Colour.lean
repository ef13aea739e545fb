import Verif.Numpy.Samples

/-!
# Conversions between RGB and YUV

`_convert_rgb_to_yuv444` and `_convert_yuv444_to_rgb` (mediagrains/numpy/convert.py, lines 160-188) calculate with double precision
floating point numbers. Their calculations are modelled step by step: a double is a rational number, and the result of each operation is
the exact result, rounded to 53 significant bits, to the nearest one, to even ones on ties (IEEE 754). The exponents are not limited: the
numbers in question are below 2 ** 34, and where they are not zero far above the smallest doubles.

The numbers are then stored in arrays of unsigned integers with `casting="unsafe"`: the fraction is dropped. A number that does not
fit (256 in an array of bytes) has no defined value in C; here it is taken modulo the size of the type (`assign` in `Samples`), which is
what compilers for x86-64 do.
-/

namespace Verif.Numpy.Colour

open Verif.Numpy

/-- A power of two. -/
def pow2 (e : Int) : Rat := if 0 ≤ e then 2 ^ e.toNat else 1 / 2 ^ (-e).toNat

/-- The exponent of the highest bit of a positive number. -/
def exponent (x : Rat) : Int :=
  let e : Int := (x.num.toNat.log2 : Int) - (x.den.log2 : Int)
  if pow2 e ≤ x then e else e - 1

/-- The nearest integer, the even one on ties. -/
def nearest (x : Rat) : Int :=
  let f := x.floor
  let r := x - f
  if r < 1 / 2 then f else if 1 / 2 < r then f + 1 else if f % 2 = 0 then f else f + 1

/-- The double nearest to a number. -/
def rnd (x : Rat) : Rat :=
  if x = 0 then 0
  else if 0 < x then nearest (x / pow2 (exponent x - 52)) * pow2 (exponent x - 52)
  else -(nearest (-x / pow2 (exponent (-x) - 52)) * pow2 (exponent (-x) - 52))

/-- `x * c` for a constant with the decimal expansion `c`. -/
def mul (x c : Rat) : Rat := rnd (x * rnd c)

def add (x y : Rat) : Rat := rnd (x + y)

def sub (x y : Rat) : Rat := rnd (x - y)

/-- `1 << (bd - 1)`. -/
def half (bd : Nat) : Rat := 2 ^ (bd - 1)

/-- `np.clip(x, 0, 1 << bd, out=..., casting="unsafe")`, up to the size of the target. -/
def store (bd : Nat) (x : Rat) : Nat := (min (max x 0) (2 ^ bd)).floor.toNat

/-- Lines 168-169. -/
def yOf (r g b : Rat) : Rat := add (add (mul r 0.2126) (mul g 0.7152)) (mul b 0.0722)

/-- Lines 170-171. -/
def uOf (bd : Nat) (r g b : Rat) : Rat := add (add (sub (mul r (-0.114572)) (mul g 0.385428)) (mul b 0.5)) (half bd)

/-- Lines 172-173. -/
def vOf (bd : Nat) (r g b : Rat) : Rat := add (sub (sub (mul r 0.5) (mul g 0.454153)) (mul b 0.045847)) (half bd)

/-- `_convert_rgb_to_yuv444`, lines 161-173, for one pixel. -/
def toYuv (bd : Nat) (p : Nat × Nat × Nat) : Nat × Nat × Nat :=
  let r : Rat := p.1
  let g : Rat := p.2.1
  let b : Rat := p.2.2
  (store bd (yOf r g b), store bd (uOf bd r g b), store bd (vOf bd r g b))

/-- Line 183. -/
def rOf (y v : Rat) : Rat := add y (mul v 1.5748)

/-- Line 185. -/
def gOf (y u v : Rat) : Rat := sub (sub y (mul u 0.187324)) (mul v 0.468124)

/-- Line 187. -/
def bOf (y u : Rat) : Rat := add y (mul u 1.8556)

/-- `_convert_yuv444_to_rgb`, lines 176-188, for one pixel. -/
def toRgb (bd : Nat) (p : Nat × Nat × Nat) : Nat × Nat × Nat :=
  let y : Rat := p.1
  let u : Rat := sub p.2.1 (half bd)
  let v : Rat := sub p.2.2 (half bd)
  (store bd (rOf y v), store bd (gOf y u v), store bd (bOf y u))

/-- The conversions of `Samples` with these functions. -/
def colours (random : Nat → Nat → Nat → Nat) : Env := ⟨toYuv, toRgb, random⟩

end Verif.Numpy.Colour

import Mathlib.Data.Int.Log
import Mathlib.Data.Rat.Floor
/-
IEEE 754 binary64 arithmetic as used by the coordinate conversions.

A `double` is represented by the rational number it stands for; each arithmetic operation
computes the exact rational result and rounds it to 53 significant bits, to nearest, ties to
even (`fl`).  Simplification: the exponent range is unbounded (no subnormals, overflow, NaN,
infinities, signed zeros); all values occurring in the modelled functions are either 0 or
between 1e-8 and 1e19 in absolute value, far inside the range of normal doubles.
-/
namespace Osmium

/-- Round to nearest integer, ties to even (the IEEE default rounding). (helper for `fl`) (rounding of the operations
in osm/position.hpp 39-45) -/
def rne (r : ℚ) : ℤ :=
  let f := ⌊r⌋
  let d := r - f
  if d < 1/2 then f else if 1/2 < d then f + 1 else if f % 2 = 0 then f else f + 1

/-- Round a rational to the nearest binary64 number (53 significant bits). (the type `double`, for example in
osm/position.hpp 39-45) -/
def fl (q : ℚ) : ℚ :=
  if q = 0 then 0
  else
    let e := Int.log 2 |q| - 52
    (rne (q / (2 : ℚ) ^ e) : ℚ) * (2 : ℚ) ^ e

/-- The C library function `round()`: to nearest integer, halfway cases away from zero. (called
in osm/position.hpp 40, output/pbf.hpp 464 and 471) -/
def cround (q : ℚ) : ℤ := if 0 ≤ q then ⌊q + 1/2⌋ else ⌈q - 1/2⌉

/-- Conversion of a double to an integer type: truncation towards zero. (osm/position.hpp 39-41:
the return type of `double_to_fix`; output/pbf.hpp 463-472) -/
def ctrunc (q : ℚ) : ℤ := if 0 ≤ q then ⌊q⌋ else ⌈q⌉

/-- osm/position.hpp:35 `coordinate_precision`. -/
def coordinatePrecision : ℚ := 10000000

/-- osm/position.hpp:39-41 `double_to_fix`.  (The conversion of the rounded value to `int32_t`
is undefined if out of range; callers state the range.) -/
def doubleToFix (c : ℚ) : ℤ := cround (fl (c * coordinatePrecision))

/-- osm/position.hpp:43-45 `fix_to_double`.  The cast of the `int32_t` to `double` is exact. -/
def fixToDouble (c : ℤ) : ℚ := fl ((c : ℚ) / coordinatePrecision)

/-- `OSMPBF::lonlat_resolution` (osmpbf library constant, 10^9). -/
def lonlatResolution : ℚ := 1000000000

/-- output/pbf.hpp:463-465 `lonlat2int(double)` with the given location granularity, applied to
the double obtained from the fixed point coordinate `x` (`node->lon()`). -/
def lonlat2int (granularity : ℤ) (x : ℤ) : ℤ :=
  cround (fl (fl (fixToDouble x * lonlatResolution) / (granularity : ℚ)))

/-- output/pbf.hpp:470-472 `timestamp2int` with the given date granularity. -/
def timestamp2int (granularity : ℤ) (ts : ℤ) : ℤ :=
  cround (fl (fl (ts : ℚ) * fl (1000 / (granularity : ℚ))))

/-- output/pbf.hpp:889-892: a bounding box coordinate: `lon() * lonlat_resolution` assigned to an
`int64_t` (truncating conversion). -/
def bboxCoord (x : ℤ) : ℤ := ctrunc (fl (fixToDouble x * lonlatResolution))

end Osmium

import Verif.Xml.Number

/-
Doubles as text (`operator<<` with ten digits) and as bytes.
-/
namespace Osmium.Text

/-- Remove the zeros at the end. (part of `operator<<` for doubles with `std::setprecision(10)`,
geometry/point.hpp 74, geometry/linestring.hpp 65, geometry/polygon.hpp 69) -/
def stripZeros (ds : List Char) : List Char := (ds.reverse.dropWhile (· == '0')).reverse

/-- The ten significant decimal digits (as a number) and the decimal exponent of a positive double, as
`printf("%.9e")` has them: rounded to nearest, ties to even. (part of `operator<<` for doubles
with `std::setprecision(10)`, geometry/point.hpp 74, geometry/linestring.hpp 65,
geometry/polygon.hpp 69) -/
def sig10 (a : ℚ) : Nat × Int :=
  let e := Int.log 10 a
  let m := (rne (a / (10 : ℚ) ^ (e - 9))).toNat
  if m = 10000000000 then (1000000000, e + 1) else (m, e)

/-- A dot and digits, if there are digits. (part of `operator<<` for doubles with
`std::setprecision(10)`, geometry/point.hpp 74, geometry/linestring.hpp 65, geometry/polygon.hpp
69) -/
def fracPart (ds : List Char) : List Char := if ds = [] then [] else '.' :: ds

/-- Two digits at least. (part of `operator<<` for doubles with `std::setprecision(10)`,
geometry/point.hpp 74, geometry/linestring.hpp 65, geometry/polygon.hpp 69) -/
def expDigits (n : Nat) : List Char := if n < 10 then '0' :: natDec n else natDec n

/-- The digits with the dot at the right place, without zeros at the end: `%g` without the sign.
(part of `operator<<` for doubles with `std::setprecision(10)`, geometry/point.hpp 74,
geometry/linestring.hpp 65, geometry/polygon.hpp 69) -/
def gText (m : Nat) (e : Int) : List Char :=
  let ds := natDec m
  if -4 ≤ e ∧ e < 10 then
    if 0 ≤ e then ds.take (e.toNat + 1) ++ fracPart (stripZeros (ds.drop (e.toNat + 1)))
    else '0' :: fracPart (stripZeros (List.replicate (-e - 1).toNat '0' ++ ds))
  else ds.take 1 ++ fracPart (stripZeros (ds.drop 1)) ++
    'e' :: (if e < 0 then '-' else '+') :: expDigits e.natAbs

/-- `std::ostream << double` after `setprecision(10)`, which is `printf("%.10g")` (default floating point
format, "C" locale).  Simplification: no infinities, NaN and negative zero. (set in geometry/point.hpp 74,
geometry/linestring.hpp 65 and geometry/polygon.hpp 69) -/
def fmtG10 (q : ℚ) : List Char :=
  if q = 0 then ['0']
  else (if q < 0 then ['-'] else []) ++ gText (sig10 |q|).1 (sig10 |q|).2

end Osmium.Text

namespace Osmium

/-- The IEEE 754 binary64 bit pattern of a normal number or zero. -/
def doubleBits (q : ℚ) : Nat :=
  if q = 0 then 0
  else
    let e := Int.log 2 |q|
    let m := ⌊|q| / (2 : ℚ) ^ (e - 52)⌋.toNat
    (if q < 0 then 9223372036854775808 else 0) + (e + 1023).toNat * 4503599627370496 + (m - 4503599627370496)

/-- The bytes of an unsigned number in memory, little endian (as on the platforms for which the WKB byte
order marker 1 is right). (geometry.hpp 120-137) -/
def leBytes : Nat → Nat → List UInt8
  | 0, _ => []
  | k + 1, n => UInt8.ofNat (n % 256) :: leBytes k (n / 256)

end Osmium

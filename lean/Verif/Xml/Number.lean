import Verif.Common.Text
import Verif.Float.Model
/-
Decimal fractions as text: `printf("%.7f")` and `atof`.  Text is a `List Char`.
-/
namespace Osmium.Text

/-- The seven last decimal digits of `n`, zero padded. (part of `%.7f` in output/xml.hpp 85-88,
103-104) -/
def dec7 (n : Nat) : List Char :=
  [digitChar (n / 1000000 % 10), digitChar (n / 100000 % 10), digitChar (n / 10000 % 10),
   digitChar (n / 1000 % 10), digitChar (n / 100 % 10), digitChar (n / 10 % 10), digitChar (n % 10)]

/-- `printf("%.7f", q)` (glibc): the exact value of the double, rounded to seven digits after the
decimal point in the current rounding mode (to nearest, ties to even).  Simplification: no
infinities, NaN and negative zero. (called in output/xml.hpp 85-88, 103-104) -/
def fmt7 (q : ℚ) : List Char :=
  let n := (rne (|q| * 10000000)).toNat
  (if q < 0 then ['-'] else []) ++ natDec (n / 10000000) ++ '.' :: dec7 (n % 10000000)

/-- The longest prefix of digits, and what follows. (part of `atof`, called in input/xml.hpp 153,
157, 215-221) -/
def spanDigits : List Char → List Char × List Char
  | [] => ([], [])
  | c :: cs => if isDigit c then let (a, b) := spanDigits cs; (c :: a, b) else ([], c :: cs)

/-- `strtod`: the exponent part, if there is one: `e` or `E`, an optional sign, at least one
digit. (part of `atof`, called in input/xml.hpp 153, 157, 215-221) -/
def expPart : List Char → Int
  | e :: cs =>
    if e = 'e' ∨ e = 'E' then
      match cs with
      | '-' :: ds => -(digitsVal 0 ds : Int)
      | '+' :: ds => (digitsVal 0 ds : Int)
      | ds => (digitsVal 0 ds : Int)
    else 0
  | [] => 0

/-- `strtod`: digits with an optional decimal point, then an optional exponent.  If there is no
digit there is no number and the result is 0. (part of `atof`, called in input/xml.hpp 153, 157,
215-221) -/
def decimalVal (s : List Char) : ℚ :=
  let (a, s1) := spanDigits s
  let (b, s2) := match s1 with
    | '.' :: cs => spanDigits cs
    | cs => ([], cs)
  if a = [] ∧ b = [] then 0
  else (digitsVal 0 (a ++ b) : ℚ) * (10 : ℚ) ^ (expPart s2 - b.length)

/-- Is this the beginning of `inf`, `infinity` or `nan` (in any case)? (part of `atof`, called in
input/xml.hpp 153, 157, 215-221) -/
def isNonFinite (s : List Char) : Bool :=
  let p := (s.take 3).map Char.toLower
  p == ['i', 'n', 'f'] || p == ['n', 'a', 'n']

/-- The exact value of the number at the beginning of the text (`none`: infinity or NaN). (part
of `atof`, called in input/xml.hpp 153, 157, 215-221) -/
def strtodVal (s : List Char) : Option ℚ :=
  match skipSpace s with
  | '-' :: cs => if isNonFinite cs then none else some (-(decimalVal cs))
  | '+' :: cs => if isNonFinite cs then none else some (decimalVal cs)
  | cs => if isNonFinite cs then none else some (decimalVal cs)

/-- `atof` in the "C" locale: the nearest double.  Simplifications: hexadecimal floating point
constants are not modelled (they read as 0 here), nor is the exponent range of doubles (a number
that overflows is a huge number here instead of infinity). (called in input/xml.hpp 153, 157,
215-221) -/
def atof (s : List Char) : Option ℚ := (strtodVal s).map fl

end Osmium.Text

namespace Osmium

/-- osm/position.hpp:39-41 `double_to_fix` applied to a value that may be out of range: converting
the rounded value to `int32_t` is undefined (`none`) unless it fits. -/
def doubleToFixChk (c : Option ℚ) : Option Int :=
  match c with
  | none => none
  | some q => if InS32 (doubleToFix q) then some (doubleToFix q) else none

end Osmium

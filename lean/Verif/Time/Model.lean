import Verif.Common.Text
import Verif.Common.Res
import Verif.Common.Num
/-
Model of utils/timestamp.hpp together with the libc functions it uses (gmtime, timegm, strftime,
strptime), which are not part of the repository: they are modelled after POSIX and glibc.
-/
namespace Osmium.Time
open Text

/-- `struct tm` (the members used), with the real year and month 1..12. -/
structure Tm where
  year : Int
  mon : Int
  mday : Int
  hour : Int
  min : Int
  sec : Int
deriving DecidableEq, Repr

/-- Gregorian leap year rule. (part of `gmtime` and `timegm`, called in utils/timestamp.hpp 58
and 79) -/
def isLeap (y : Int) : Bool := y % 4 == 0 && (y % 100 != 0 || y % 400 == 0)

/-- Days from 0001-01-01 to the first of January of year `y`. -/
def daysTo (y : Int) : Int := 365 * (y - 1) + (y - 1) / 4 - (y - 1) / 100 + (y - 1) / 400

/-- 1 in leap years. (part of `gmtime` and `timegm`, called in utils/timestamp.hpp 58 and 79) -/
def leapDay (y : Int) : Int := if isLeap y then 1 else 0

/-- Days from the first of January to the first of month `m`. (part of `gmtime` and `timegm`,
called in utils/timestamp.hpp 58 and 79) -/
def monthStart (y m : Int) : Int :=
  if m ≤ 1 then 0 else if m = 2 then 31 else
  leapDay y + (if m = 3 then 59 else if m = 4 then 90 else if m = 5 then 120
    else if m = 6 then 151 else if m = 7 then 181 else if m = 8 then 212 else if m = 9 then 243
    else if m = 10 then 273 else if m = 11 then 304 else 334)

/-- libc `timegm`: POSIX "seconds since the epoch"; out-of-range days run over into the next
month. (part of `gmtime` and `timegm`, called in utils/timestamp.hpp 58 and 79) -/
def timegm (tm : Tm) : Int :=
  (daysTo tm.year - 719162 + monthStart tm.year tm.mon + (tm.mday - 1)) * 86400
    + tm.hour * 3600 + tm.min * 60 + tm.sec

/-- Year of the day with number `n` (days since 0001-01-01). -/
def yearOf (n : Int) : Int :=
  let g := 400 * n / 146097 + 1
  if daysTo (g + 1) ≤ n then g + 1 else if n < daysTo g then g - 1 else g

/-- Month containing the day of the year `d` (0..365). (the C library, `gmtime` called in utils/timestamp.hpp 39-91) -/
def monthOf (y d : Int) : Int :=
  if monthStart y 12 ≤ d then 12 else if monthStart y 11 ≤ d then 11
  else if monthStart y 10 ≤ d then 10 else if monthStart y 9 ≤ d then 9
  else if monthStart y 8 ≤ d then 8 else if monthStart y 7 ≤ d then 7
  else if monthStart y 6 ≤ d then 6 else if monthStart y 5 ≤ d then 5
  else if monthStart y 4 ≤ d then 4 else if monthStart y 3 ≤ d then 3
  else if monthStart y 2 ≤ d then 2 else 1

/-- libc `gmtime`. (called in utils/timestamp.hpp 58) -/
def gmtime (t : Int) : Tm :=
  let n := t / 86400 + 719162
  let s := t % 86400
  let y := yearOf n
  let d := n - daysTo y
  let m := monthOf y d
  { year := y, mon := m, mday := d - monthStart y m + 1,
    hour := s / 3600, min := s % 3600 / 60, sec := s % 60 }

/-- Two digits, zero padded (strftime `%m`, `%d`, `%H`, `%M`, `%S`). (part of `strftime`, called
in utils/timestamp.hpp 65) -/
def dec2 (n : Int) : List Char := [digitChar (n.toNat / 10 % 10), digitChar (n.toNat % 10)]

/-- The format "%Y-%m-%dT%H:%M:%SZ" (utils/timestamp.hpp:45-48); `%Y` is not padded. -/
def isoText (tm : Tm) : List Char :=
  intDec tm.year ++ '-' :: dec2 tm.mon ++ '-' :: dec2 tm.mday ++ 'T' :: dec2 tm.hour
    ++ ':' :: dec2 tm.min ++ ':' :: dec2 tm.sec ++ ['Z']

/-- utils/timestamp.hpp:54-67 `to_iso`.  `strftime` returns 0 if the text with terminating NUL
does not fit into the 21 characters of the buffer, so that the result is empty. -/
def toIso (t : Int) : List Char :=
  if t = 0 then []
  else
    let s := isoText (gmtime t)
    if s.length + 1 ≤ 21 then s else []

/-- utils/timestamp.hpp:54-67 `to_iso`, for all values of `time_t`: `gmtime` returns NULL if the year since 1900 does not
fit into the `int` of `struct tm`, and `strftime` is then called with NULL (undefined behaviour).  The other parts of
the model use `toIso`, which leaves this out (see `to_iso_defined`). -/
def toIsoFull (t : Int) : Res (List Char) :=
  if t = 0 then .ok []
  else
    let y := (gmtime t).year - 1900
    if -2147483648 ≤ y ∧ y ≤ 2147483647 then .ok (toIso t) else .error .ub

/-- The digit loop of glibc's `get_number` in strptime: at most `n` more digits, while the value
can still stay within `to`. (part of `strptime`, called in utils/timestamp.hpp 76) -/
def getDigits (to_ : Nat) : Nat → Nat → List Char → Nat × List Char
  | _, val, [] => (val, [])
  | 0, val, cs => (val, cs)
  | n + 1, val, c :: cs =>
    if val * 10 ≤ to_ && isDigit c then getDigits to_ n (val * 10 + digitVal c) cs
    else (val, c :: cs)

/-- glibc strptime's `get_number (from, to, n)` with `n ≥ 1`: white space, then at least one
digit, then up to `n-1` more. (part of `strptime`, called in utils/timestamp.hpp 76) -/
def getNumber (from_ to_ n : Nat) (s : List Char) : Option (Int × List Char) :=
  match skipSpace s with
  | [] => none
  | c :: cs =>
    if isDigit c then
      let (v, rest) := getDigits to_ (n - 1) (digitVal c) cs
      if from_ ≤ v ∧ v ≤ to_ then some (v, rest) else none
    else none

/-- A literal character of the strptime format. (part of `strptime`, called in
utils/timestamp.hpp 76) -/
def lit (c : Char) : List Char → Option (List Char)
  | [] => none
  | d :: ds => if d = c then some ds else none

/-- utils/timestamp.hpp:73-80 `parse_iso` (non-Windows branch); `none` = `std::invalid_argument`
is thrown.  Text after the `Z` is ignored, as by `strptime`. -/
def parseIso (s : List Char) : Option Int := do
  let (y, s) ← getNumber 0 9999 4 s
  let s ← lit '-' s
  let (mo, s) ← getNumber 1 12 2 s
  let s ← lit '-' s
  let (d, s) ← getNumber 1 31 2 s
  let s ← lit 'T' s
  let (h, s) ← getNumber 0 23 2 s
  let s ← lit ':' s
  let (mi, s) ← getNumber 0 59 2 s
  let s ← lit ':' s
  let (sec, s) ← getNumber 0 61 2 s
  let _ ← lit 'Z' s
  return timegm { year := y, mon := mo, mday := d, hour := h, min := mi, sec := sec }

end Osmium.Time

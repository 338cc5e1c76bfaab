/-
Specification of the Gregorian calendar, independent of the model: the calendar is generated by
"the next day" from 1970-01-01.
-/
namespace Osmium.Spec

structure Date where
  year : Int
  month : Int
  day : Int
deriving DecidableEq, Repr

/-- Thirty days hath September, April, June and November ... -/
def daysInMonth (y m : Int) : Int :=
  if m = 4 ∨ m = 6 ∨ m = 9 ∨ m = 11 then 30
  else if m = 2 then (if y % 400 = 0 ∨ (y % 4 = 0 ∧ y % 100 ≠ 0) then 29 else 28)
  else 31

/-- A date that exists. -/
def Date.Valid (d : Date) : Prop :=
  1 ≤ d.month ∧ d.month ≤ 12 ∧ 1 ≤ d.day ∧ d.day ≤ daysInMonth d.year d.month

/-- The day after. -/
def Date.next (d : Date) : Date :=
  if d.day < daysInMonth d.year d.month then { d with day := d.day + 1 }
  else if d.month < 12 then ⟨d.year, d.month + 1, 1⟩
  else ⟨d.year + 1, 1, 1⟩

/-- `cal` assigns to each day number (days since the epoch) its date: day 0 is 1970-01-01, and
every following day is the next date in the calendar. -/
structure IsCalendar (cal : Int → Date) : Prop where
  epoch : cal 0 = ⟨1970, 1, 1⟩
  valid : ∀ n, (cal n).Valid
  next : ∀ n, cal (n + 1) = (cal n).next

end Osmium.Spec

namespace Osmium.Spec

/-- The last `k` decimal digits of `n`, as text. -/
def padded : Nat → Nat → List Char
  | 0, _ => []
  | k + 1, n => padded k (n / 10) ++ [Char.ofNat (48 + n % 10)]

/-- `yyyy-mm-ddThh:mm:ssZ`. -/
def isoForm (d : Date) (hour min sec : Int) : List Char :=
  padded 4 d.year.toNat ++ ['-'] ++ padded 2 d.month.toNat ++ ['-'] ++ padded 2 d.day.toNat ++
  ['T'] ++ padded 2 hour.toNat ++ [':'] ++ padded 2 min.toNat ++ [':'] ++ padded 2 sec.toNat ++ ['Z']

end Osmium.Spec

import Verif.Geometry.Bits

/-
What the formats mean: readers for WKB, hex and WKT, written from the formats' definitions.
-/
namespace Osmium.Spec
open Text

/-- The geometry that a text or byte string describes. -/
inductive GeoValue where
  | point (p : ℚ × ℚ)
  | line (ps : List (ℚ × ℚ))
  | polygon (rings : List (List (ℚ × ℚ)))
deriving DecidableEq

/-! ### WKB -/

/-- A 32 bit number, little endian. -/
def wkbU32 (s : List UInt8) : Option (Nat × List UInt8) :=
  if 4 ≤ s.length then some (leVal (s.take 4), s.drop 4) else none

/-- A double. -/
def wkbDouble (s : List UInt8) : Option (ℚ × List UInt8) :=
  if 8 ≤ s.length then (ieeeVal (leVal (s.take 8))).map fun v => (v, s.drop 8) else none

/-- A point: X, then Y. -/
def wkbXY (s : List UInt8) : Option ((ℚ × ℚ) × List UInt8) :=
  match wkbDouble s with
  | none => none
  | some (x, s) =>
    match wkbDouble s with
    | none => none
    | some (y, s) => some ((x, y), s)

/-- So many points. -/
def wkbXYs : Nat → List UInt8 → Option (List (ℚ × ℚ) × List UInt8)
  | 0, s => some ([], s)
  | n + 1, s =>
    match wkbXY s with
    | none => none
    | some (p, s) =>
      match wkbXYs n s with
      | none => none
      | some (ps, s) => some (p :: ps, s)

/-- A number and so many points. -/
def wkbPointList (s : List UInt8) : Option (List (ℚ × ℚ) × List UInt8) :=
  match wkbU32 s with
  | none => none
  | some (n, s) => wkbXYs n s

/-- So many rings. -/
def wkbRings : Nat → List UInt8 → Option (List (List (ℚ × ℚ)) × List UInt8)
  | 0, s => some ([], s)
  | n + 1, s =>
    match wkbPointList s with
    | none => none
    | some (r, s) =>
      match wkbRings n s with
      | none => none
      | some (rs, s) => some (r :: rs, s)

/-- The geometry after the header: type 1, 2 or 3 (OGC 99-049). -/
def wkbBody (type : Nat) (s : List UInt8) : Option (GeoValue × List UInt8) :=
  if type = 1 then (wkbXY s).map fun r => (.point r.1, r.2)
  else if type = 2 then (wkbPointList s).map fun r => (.line r.1, r.2)
  else if type = 3 then
    match wkbU32 s with
    | none => none
    | some (n, s) => (wkbRings n s).map fun r => (.polygon r.1, r.2)
  else none

/-- A whole (E)WKB value in little endian byte order: the SRID, if it has one, and the geometry. -/
def wkbDecode (s : List UInt8) : Option (Option Nat × GeoValue) :=
  match s with
  | 1 :: s =>
    match wkbU32 s with
    | none => none
    | some (t, s) =>
      if t / 536870912 % 2 = 1 then
        match wkbU32 s with
        | none => none
        | some (srid, s) =>
          match wkbBody (t - 536870912) s with
          | some (g, []) => some (some srid, g)
          | _ => none
      else
        match wkbBody t s with
        | some (g, []) => some (none, g)
        | _ => none
  | _ => none

/-- Upper case hexadecimal digit. -/
def hexDigit (n : Nat) : Char := if n < 10 then Char.ofNat (48 + n) else Char.ofNat (55 + n)

/-- Two digits for each byte, the higher four bits first. -/
def hexDump (s : List UInt8) : List Char :=
  s.flatMap fun b => [hexDigit (b.toNat / 16), hexDigit (b.toNat % 16)]

/-! ### WKT -/

/-- Split at each separator. -/
def splitOn (sep : Char) : List Char → List (List Char)
  | [] => [[]]
  | c :: cs =>
    if c = sep then [] :: splitOn sep cs
    else
      match splitOn sep cs with
      | [] => [[c]]
      | w :: ws => (c :: w) :: ws

/-- Remove a prefix. -/
def dropPre : List Char → List Char → Option (List Char)
  | [], s => some s
  | _ :: _, [] => none
  | p :: ps, c :: cs => if p = c then dropPre ps cs else none

/-- Remove a suffix. -/
def dropSuf (suf s : List Char) : Option (List Char) := (dropPre suf.reverse s.reverse).map List.reverse

/-- A number and nothing else. -/
def wktNumber (s : List Char) : Option ℚ := if s ≠ [] ∧ s.all isNumChar = true then strtodVal s else none

/-- Two numbers, with a space between them. -/
def wktXY (s : List Char) : Option (ℚ × ℚ) :=
  match splitOn ' ' s with
  | [a, b] =>
    match wktNumber a, wktNumber b with
    | some x, some y => some (x, y)
    | _, _ => none
  | _ => none

/-- All or nothing. -/
def allSome {α : Type} : List (Option α) → Option (List α)
  | [] => some []
  | none :: _ => none
  | some a :: l => (allSome l).map (a :: ·)

/-- Points, with commas between them. -/
def wktXYs (s : List Char) : Option (List (ℚ × ℚ)) := allSome ((splitOn ',' s).map wktXY)

/-- A point, a line string, or a polygon with one ring. -/
def wktBody (s : List Char) : Option GeoValue :=
  match (dropPre "POINT(".toList s).bind (dropSuf [')']) with
  | some b => (wktXY b).map .point
  | none =>
    match (dropPre "LINESTRING(".toList s).bind (dropSuf [')']) with
    | some b => (wktXYs b).map .line
    | none =>
      match (dropPre "POLYGON((".toList s).bind (dropSuf [')', ')']) with
      | some b => (wktXYs b).map fun r => .polygon [r]
      | none => none

/-- (E)WKT: with or without SRID 4326. -/
def wktDecode (s : List Char) : Option (Bool × GeoValue) :=
  match dropPre "SRID=4326;".toList s with
  | some b => (wktBody b).map fun g => (true, g)
  | none => (wktBody s).map fun g => (false, g)

example : wktDecode "SRID=4326;LINESTRING(1.5 2,-3 40)".toList = some (true, .line [(3/2, 2), (-3, 40)]) := by
  decide +kernel

end Osmium.Spec

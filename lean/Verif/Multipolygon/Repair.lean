import Verif.Common.Num
import Verif.Multipolygon.Rings
import Mathlib.Data.List.Destutter

/-
C75: the model of how the multipolygon builder makes the geometry of a ring, multipolygon/builder.hpp
350-479.

A GEOS coordinate is represented by the position it is made from (geometry/geos.hpp 56-58): the
fixed point numbers instead of the doubles that come from them.
-/
namespace Osmium

/-- What the builder asks GEOS about the coordinates of a line or ring; `none` is a
GEOSException. (GEOS, as asked in multipolygon/builder.hpp 340-420) -/
structure Geos where
  /-- `LineString::isSimple` -/
  simpleLine : List Position → Option Bool
  /-- `LinearRing::isSimple` -/
  simpleRing : List Position → Option Bool
  /-- `LinearRing::isValid` -/
  validRing : List Position → Option Bool
  /-- `CGAlgorithms::isCCW` -/
  ccw : List Position → Option Bool

/-- What is thrown when GEOS throws a GEOSException. (multipolygon/builder.hpp 340-420) -/
def geosError : Fail := .exn "GEOSException"

/-- multipolygon/builder.hpp 434, 438 `coordinates->add(.., false)`: GEOS does not add a coordinate
that is equal to the last one. -/
def addCoord (cs : List Position) (n : WayNode) : List Position :=
  if cs.getLast? = some n.position then cs else cs ++ [n.position]

/-- multipolygon/builder.hpp 429-445 `create_ring_coordinate_sequence`, with the direction of each
way beside it. -/
def ringCoords (path : List (Way × Bool)) : List Position :=
  path.foldl (fun cs s =>
    if s.2 then s.1.nodes.reverse.foldl addCoord cs else s.1.nodes.foldl addCoord cs) []

/-- `GeometryFactory::createLineString` throws when there is exactly one coordinate
(multipolygon/builder.hpp 366, 395, followed by `isSimple`). -/
def Geos.lineSimple (g : Geos) (l : List Position) : Option Bool :=
  if l.length = 1 then none else g.simpleLine l

/-- `GeometryFactory::createLinearRing` throws unless the coordinates are none at all, or at least
four, the first equal to the last (multipolygon/builder.hpp 413, 459). -/
def ringMakes (l : List Position) : Bool := l.isEmpty || decide (4 ≤ l.length ∧ l.head? = l.getLast?)

/-- multipolygon/builder.hpp 363-376 and 392-405, the two loops (which are the same except for the
stretch of coordinates they look at): the value of `current` and of `simple` after the loop. -/
def bisect (g : Geos) (n : Nat) (stretch : Nat → List Position) :
    (fuel : Nat) → (inv val current : Int) → Res (Int × Bool)
  | 0, _, _, _ => .error (.exn "out of fuel")
  | fuel + 1, inv, val, current =>
    if current < 0 ∨ n < current then .error .ub
    else
      match g.lineSimple (stretch current.toNat) with
      | none => .error geosError
      | some simple =>
        let inv' := if simple then inv else current
        let val' := if simple then current else val
        if inv' + val' < -2147483648 ∨ 2147483647 < inv' + val' then .error .ub
        else if current = (inv' + val').tdiv 2 then .ok (current, simple)
        else bisect g n stretch fuel inv' val' ((inv' + val').tdiv 2)

/-- multipolygon/builder.hpp 402-412: the coordinates of the new ring, from `cutoutstart` and
`cutoutend`. -/
def cutOut (cs : List Position) (cutoutstart cutoutend : Int) : Res (List Position) :=
  let hi := if cutoutstart < cutoutend then cutoutend else cutoutstart
  let lo := if cutoutstart < cutoutend then cutoutstart else cutoutend
  if lo < 0 ∨ cs.length < hi then .error .ub
  else if hi - lo > ((cs.length / 2 : Nat) : Int) then
    match (cs.take hi.toNat).drop lo.toNat with
    | [] => .error (.exn "std::out_of_range")
    | c :: l => .ok (c :: l ++ [c])
  else .ok (cs.take lo.toNat ++ cs.drop hi.toNat)

/-- multipolygon/builder.hpp 350-422 `create_non_intersecting_linear_ring`: the coordinates of the
ring made, if any. -/
def repairRing (g : Geos) (cs : List Position) : Res (Option (List Position)) :=
  let n := cs.length
  match bisect g n (fun k => cs.take k) (n + 1) n 0 (n / 2 : Nat) with
  | .error e => .error e
  | .ok (current, simple) =>
    let cutoutstart := wrapU32 (if simple then current else current - 1)
    match bisect g n (fun k => cs.drop k) (n + 1) 0 n (n / 2 : Nat) with
    | .error e => .error e
    | .ok (current, simple) =>
      let cutoutend := wrapU32 (if simple then current else current + 1)
      match cutOut cs cutoutstart cutoutend with
      | .error e => .error e
      | .ok ring =>
        if !ringMakes ring then .error geosError
        else
          match g.validRing ring with
          | none => .error geosError
          | some true => .ok (some ring)
          | some false => .ok none

/-- multipolygon/builder.hpp 458-475: the body of the `try` block of `ring_is_complete`: the
coordinates of the ring and whether they are counterclockwise, or nothing when no ring is returned. -/
def ringBody (g : Geos) (repair : Bool) (cs : List Position) : Res (Option (List Position × Bool)) :=
  if !ringMakes cs then .error geosError
  else
    match g.simpleRing cs with
    | none => .error geosError
    | some simple =>
      match if simple then g.validRing cs else some false with
      | none => .error geosError
      | some good =>
        match if good then .ok (some cs) else if repair then repairRing g cs else .ok none with
        | .error e => .error e
        | .ok none => .ok none
        | .ok (some ring) =>
          match g.ccw ring with
          | none => .error geosError
          | some ccw => .ok (some (ring, ccw))

/-- multipolygon/builder.hpp 450-479 `ring_is_complete` for the ways in order: a GEOSException is
caught, nothing else is. -/
def ringGeometry (g : Geos) (repair : Bool) (path : List (Way × Bool)) :
    Res (Option (List Position × Bool)) :=
  match ringBody g repair (ringCoords path) with
  | .error e => if e = geosError then .ok none else .error e
  | r => r

/-- The same as the check of the ring search (Rings.lean). (multipolygon/builder.hpp 455-480) -/
def geosCheck (g : Geos) (repair : Bool) (path : List (Way × Bool)) : Bool :=
  match ringGeometry g repair path with
  | .ok (some _) => true
  | _ => false

namespace Spec

/-- The positions of the nodes one comes by walking the ways. (specification, no counterpart in /repo) -/
def walk (path : List (Way × Bool)) : List Position :=
  path.flatMap fun s => (if s.2 then s.1.nodes.reverse else s.1.nodes).map (·.position)

/-- Coordinates of a ring: at least four, the first is the last. (specification, no counterpart in /repo) -/
def IsRing (l : List Position) : Prop := 4 ≤ l.length ∧ l.head? = l.getLast?

/-- `out` is `cs` without a stretch that is at most half of it, or a longer stretch of it, closed. (specification, no
counterpart in /repo) -/
def CutFrom (cs out : List Position) : Prop :=
  ∃ a b c, cs = a ++ b ++ c ∧
    (b.length ≤ cs.length / 2 ∧ out = a ++ c ∨
     cs.length / 2 < b.length ∧ out = b ++ b.take 1)

end Spec

end Osmium

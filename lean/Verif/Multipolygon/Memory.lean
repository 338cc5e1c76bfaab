import Verif.Common.Res
import Verif.Osm.Model

/-
C76, C77: the model of how the multipolygon builder makes the geometries, with all GEOS objects it
creates and destroys; multipolygon/builder.hpp 124-176, 758-972.
-/
namespace Osmium

/-- The coordinates of a line or ring (represented as in Repair.lean). (GEOS
`CoordinateSequence`, multipolygon/builder.hpp 405-414) -/
abbrev Coords := List Position

/-- The objects created with `new` or by GEOS; the elements of a vector are pointers.
(multipolygon/builder.hpp 161-166, 405-414, 474, 773-778, 820-856, 876-970) -/
inductive Geom
  | line (c : Coords)
  | ring (c : Coords)
  | poly (shell : Coords) (holes : List Coords)
  | multi (polys : List (Coords × List Coords))
  | vec (elements : List Nat)
  /-- `ring1_geom->intersection(ring2_geom)` -/
  | inter (a b : Coords)
  /-- `ring1_geom->symDifference(ring2_geom)` -/
  | diff (a b : Coords)
deriving DecidableEq

/-- How two rings intersect (multipolygon/builder.hpp 821-836). -/
inductive Touch
  /-- not at all, or GEOS throws -/
  | apart
  /-- the intersection is a linestring -/
  | line
  /-- the intersection is something else -/
  | other
deriving DecidableEq

/-- What GEOS answers, in terms of the coordinates. (GEOS, as asked in multipolygon/builder.hpp
155-170 and 815-970) -/
structure MpGeos where
  /-- `CGAlgorithms::isCCW` -/
  ccw : Coords → Bool
  /-- `intersects`, `intersection`, `getGeometryTypeId` -/
  touch : Coords → Coords → Touch
  /-- what the Polygonizer makes from the symmetric difference; `none`: GEOSException; `some none`:
  null pointer -/
  polygonize : Coords → Coords → Option (Option (List (Coords × List Coords)))
  /-- whether `createPolygon` succeeds (it throws otherwise) -/
  polygonMakes : Coords → List Coords → Bool
  /-- `Polygon::isValid`; `none`: GEOSException -/
  polygonValid : Coords → List Coords → Option Bool
  /-- whether `createMultiPolygon` succeeds -/
  multiMakes : List (Coords × List Coords) → Bool
  /-- `MultiPolygon::isValid`; `none`: GEOSException -/
  multiValid : List (Coords × List Coords) → Option Bool

/-- multipolygon/builder.hpp 124-140 class `RingInfo`: the pointer to the polygon (or null) and the
direction. -/
structure RingPoly where
  polygon : Option Nat
  ccw : Bool
deriving DecidableEq

/-- The objects that exist, by address; the rings (`m_ringlist`), the geometries of the areas in
`m_areas` so far, and the one of `m_new_area`. (multipolygon/builder.hpp 188-196) -/
structure MpMem where
  next : Nat
  cells : List (Nat × Geom)
  rings : List RingPoly
  areas : List Nat
  result : Option Nat

/-- A piece of program: it returns a value or fails, and changes the memory in any case. (the
statements of multipolygon/builder.hpp 758-972) -/
def Mem (α : Type) := MpMem → Except Fail α × MpMem

namespace Mem

/-- One after the other; a failure ends it. -/
instance : Monad Mem where
  pure a := fun m => (.ok a, m)
  bind x f := fun m =>
    match x m with
    | (.ok a, m') => f a m'
    | (.error e, m') => (.error e, m')

/-- Undefined behaviour or exception. (multipolygon/builder.hpp 758-972) -/
def fail {α : Type} (e : Fail) : Mem α := fun m => (.error e, m)

/-- A new object. (`new` and GEOS factory calls, multipolygon/builder.hpp 758-972) -/
def alloc (v : Geom) : Mem Nat := fun m =>
  (.ok m.next, { m with next := m.next + 1, cells := (m.next, v) :: m.cells })

/-- Access to an object: undefined behaviour if it does not exist (any more). (dereferencing in
multipolygon/builder.hpp 758-972) -/
def look (i : Nat) : Mem Geom := fun m =>
  match m.cells.lookup i with
  | none => (.error .ub, m)
  | some v => (.ok v, m)

/-- The object ceases to exist: `delete`, or it becomes part of another one.  Undefined behaviour if
it does not exist (any more). (multipolygon/builder.hpp 145, 828-856, 907-918, 950-970) -/
def take (i : Nat) : Mem Geom := fun m =>
  match m.cells.lookup i with
  | none => (.error .ub, m)
  | some v => (.ok v, { m with cells := m.cells.eraseP fun c => c.1 == i })

/-- `delete` for all pointers of a list. (multipolygon/builder.hpp 851-853, 909-911, 957-960) -/
def deleteAll : List Nat → Mem Unit
  | [] => pure ()
  | i :: is => do
    let _ ← take i
    deleteAll is

/-- The coordinates of a linear ring. (dereferencing in multipolygon/builder.hpp 758-972) -/
def lookRing (i : Nat) : Mem Coords := do
  match ← look i with
  | .ring c => pure c
  | _ => fail .ub

/-- The rings of a polygon. (dereferencing in multipolygon/builder.hpp 758-972) -/
def lookPoly (i : Nat) : Mem (Coords × List Coords) := do
  match ← look i with
  | .poly s hs => pure (s, hs)
  | _ => fail .ub

/-- The elements of a vector. (dereferencing in multipolygon/builder.hpp 758-972) -/
def lookVec (i : Nat) : Mem (List Nat) := do
  match ← look i with
  | .vec l => pure l
  | _ => fail .ub

/-- A change of an object. (multipolygon/builder.hpp 775, 889) -/
def store (i : Nat) (v : Geom) : Mem Unit := fun m =>
  (.ok (), { m with cells := m.cells.map fun c => if c.1 == i then (i, v) else c })

/-- `push_back`. (multipolygon/builder.hpp 775, 889, 919) -/
def pushVec (v i : Nat) : Mem Unit := do
  let l ← lookVec v
  store v (.vec (l ++ [i]))

/-- The coordinates of some linear rings. (GEOS reading the holes, multipolygon/builder.hpp 898) -/
def lookRings : List Nat → Mem (List Coords)
  | [] => pure []
  | i :: is => do
    let c ← lookRing i
    let cs ← lookRings is
    pure (c :: cs)

/-- Some polygons. (GEOS reading the polygons, multipolygon/builder.hpp 778 and 956) -/
def lookPolys : List Nat → Mem (List (Coords × List Coords))
  | [] => pure []
  | i :: is => do
    let c ← lookPoly i
    let cs ← lookPolys is
    pure (c :: cs)

/-- `m_ringlist[i]`. (multipolygon/builder.hpp 793-795 and 878-892) -/
def getRing (i : Nat) : Mem RingPoly := fun m =>
  match m.rings[i]? with
  | none => (.error .ub, m)
  | some r => (.ok r, m)

/-- Assignment to the members of `*m_ringlist[i]`. (multipolygon/builder.hpp 838-850) -/
def setRing (i : Nat) (r : RingPoly) : Mem Unit := fun m => (.ok (), { m with rings := m.rings.set i r })

/-- `m_ringlist.push_back`. (multipolygon/builder.hpp 542) -/
def addRing (r : RingPoly) : Mem Unit := fun m => (.ok (), { m with rings := m.rings ++ [r] })

/-- `m_areas.push_back`. (multipolygon/builder.hpp 779) -/
def addArea (mp : Nat) : Mem Unit := fun m => (.ok (), { m with areas := m.areas ++ [mp] })

/-- osm/area.hpp 123-126 `m_new_area->geos_geometry(mp)`. -/
def setResult (mp : Nat) : Mem Unit := fun m => (.ok (), { m with result := some mp })

end Mem

/-- multipolygon/builder.hpp 155-165 `ring_in_direction`. -/
def ringInDirection (r : RingPoly) (ccw : Bool) : Mem Nat :=
  match r.polygon with
  | none => Mem.fail .ub
  | some p => do
    let s ← Mem.lookPoly p
    if r.ccw = ccw then Mem.alloc (.ring s.1)
    else do
      let tmp ← Mem.alloc (.line s.1.reverse)
      let ring ← Mem.alloc (.ring s.1.reverse)
      let _ ← Mem.take tmp
      pure ring

/-- GEOS `createPolygon` with a vector of holes: on success the ring, the vector and the holes become
parts of the polygon, otherwise (exception) everything is as before. (called in
multipolygon/builder.hpp 898) -/
def createPolygon (g : MpGeos) (ring holes : Nat) : Mem (Option Nat) := do
  let shell ← Mem.lookRing ring
  let hs ← Mem.lookVec holes
  let cs ← Mem.lookRings hs
  if !g.polygonMakes shell cs then pure none
  else do
    Mem.deleteAll (ring :: holes :: hs)
    let p ← Mem.alloc (.poly shell cs)
    pure (some p)

/-- GEOS `createMultiPolygon`: on success the vector and the polygons become parts of it. (called
in multipolygon/builder.hpp 778 and 956) -/
def createMulti (makes : Bool) (polys : Nat) : Mem (Option Nat) := do
  let ps ← Mem.lookVec polys
  let cs ← Mem.lookPolys ps
  if !makes then pure none
  else do
    Mem.deleteAll (polys :: ps)
    let mp ← Mem.alloc (.multi cs)
    pure (some mp)

/-- multipolygon/builder.hpp 773-781: the extra area for an inner ring (the conditions before are in
Build.lean). -/
def extraArea (j : Nat) : Mem Unit := do
  let geometries ← Mem.alloc (.vec [])
  let r ← Mem.getRing j
  let ring ← ringInDirection r false
  let shell ← Mem.lookRing ring
  let _ ← Mem.take ring
  let p ← Mem.alloc (.poly shell [])
  Mem.pushVec geometries p
  match ← createMulti true geometries with
  | none => Mem.fail .ub
  | some mp => Mem.addArea mp

/-- multipolygon/builder.hpp 791-803: all extra areas. -/
def extraAreas : List Nat → Mem Unit
  | [] => pure ()
  | j :: js => do
    extraArea j
    extraAreas js

/-- The polygons made by the Polygonizer. (multipolygon/builder.hpp 835-838) -/
def allocPolys : List (Coords × List Coords) → Mem (List Nat)
  | [] => pure []
  | p :: ps => do
    let i ← Mem.alloc (.poly p.1 p.2)
    let is ← allocPolys ps
    pure (i :: is)

/-- multipolygon/builder.hpp 809-860: the two loops of `check_touching_inner_rings` from the given
pairs of ring numbers on; `rec` is the recursive call.  (The exception of 827 is in `Touch.apart`.) -/
def touchPairs (g : MpGeos) (rec : Mem Unit) : List (Nat × Nat) → Mem Unit
  | [] => pure ()
  | (j, k) :: ps => do
    let rj ← Mem.getRing j
    let rk ← Mem.getRing k
    match rj.polygon, rk.polygon with
    | some a, some b => do
      let ga ← Mem.lookPoly a
      let gb ← Mem.lookPoly b
      match g.touch ga.1 gb.1 with
      | .apart => touchPairs g rec ps
      | .other => do
        let inter ← Mem.alloc (.inter ga.1 gb.1)
        let _ ← Mem.take inter
        touchPairs g rec ps
      | .line => do
        let inter ← Mem.alloc (.inter ga.1 gb.1)
        let _ ← Mem.take inter
        let _ ← Mem.alloc (.diff ga.1 gb.1)
        match g.polygonize ga.1 gb.1 with
        | none => Mem.fail (.exn "GEOSException")
        | some none => touchPairs g rec ps
        | some (some polys) => do
          let is ← allocPolys polys
          let v ← Mem.alloc (.vec is)
          match is with
          | [p] => do
            let _ ← Mem.take a
            let gp ← Mem.lookPoly p
            Mem.setRing j ⟨some p, g.ccw gp.1⟩
            let _ ← Mem.take b
            let rk ← Mem.getRing k
            Mem.setRing k { rk with polygon := none }
            let _ ← Mem.take v
            rec
          | is => Mem.deleteAll (is ++ [v])
    | _, _ => touchPairs g rec ps

/-- All pairs of elements, in the order of the two loops. (multipolygon/builder.hpp 815-818) -/
def ringPairs : List Nat → List (Nat × Nat)
  | [] => []
  | j :: js => js.map (fun k => (j, k)) ++ ringPairs js

/-- multipolygon/builder.hpp 804-862 `check_touching_inner_rings`, recursion up to depth `fuel`. -/
def checkTouching (g : MpGeos) (inner : List Nat) : Nat → Mem Unit
  | 0 => Mem.fail (.exn "out of fuel")
  | fuel + 1 => touchPairs g (checkTouching g inner fuel) (ringPairs inner)

/-- multipolygon/builder.hpp 885-890: the holes. -/
def pushHoles (holes : Nat) : List Nat → Mem Unit
  | [] => pure ()
  | j :: js => do
    let r ← Mem.getRing j
    if r.polygon.isNone then pushHoles holes js
    else do
      let h ← ringInDirection r true
      Mem.pushVec holes h
      pushHoles holes js

/-- multipolygon/builder.hpp 876-919: one outer ring. -/
def outerPolygon (g : MpGeos) (polygons : Nat) (i : Nat) (inner : List Nat) : Mem Unit := do
  checkTouching g inner (inner.length + 1)
  let holes ← Mem.alloc (.vec [])
  pushHoles holes inner
  let r ← Mem.getRing i
  let ring ← ringInDirection r false
  match ← createPolygon g ring holes with
  | none => do
    let hs ← Mem.lookVec holes
    Mem.deleteAll (hs ++ [holes, ring])
    let ps ← Mem.lookVec polygons
    Mem.deleteAll (ps ++ [polygons])
    Mem.fail (.exn "invalid ring")
  | some p => do
    let gp ← Mem.lookPoly p
    if g.polygonValid gp.1 gp.2 = some true then Mem.pushVec polygons p
    else do
      let _ ← Mem.take p
      let ps ← Mem.lookVec polygons
      Mem.deleteAll (ps ++ [polygons])
      Mem.fail (.exn "invalid ring")

/-- multipolygon/builder.hpp 876-946: the loop over the outer rings (the tags are in Build.lean). -/
def outerPolygons (g : MpGeos) (polygons : Nat) (inner : Nat → List Nat) : List Nat → Mem Unit
  | [] => pure ()
  | i :: is => do
    outerPolygon g polygons i (inner i)
    outerPolygons g polygons inner is

/-- multipolygon/builder.hpp 948-972: the multipolygon. -/
def finishMulti (g : MpGeos) (polygons : Nat) : Mem Unit := do
  let ps ← Mem.lookVec polygons
  if ps.isEmpty then do
    let _ ← Mem.take polygons
    Mem.fail (.exn "no rings")
  else do
    let cs ← Mem.lookPolys ps
    match ← createMulti (g.multiMakes cs) polygons with
    | none => do
      Mem.deleteAll (ps ++ [polygons])
      Mem.fail (.exn "multipolygon invalid")
    | some mp =>
      match g.multiValid cs with
      | none => Mem.fail (.exn "GEOSException")
      | some true => Mem.setResult mp
      | some false => do
        let _ ← Mem.take mp
        Mem.fail (.exn "multipolygon invalid")

/-- multipolygon/builder.hpp 867-972 `build_multipolygon`: `extra` are the inner rings that get an
area of their own, `outer` the outer rings, `inner` gives the inner rings of an outer ring. -/
def buildMultipolygon (g : MpGeos) (extra outer : List Nat) (inner : Nat → List Nat) : Mem Unit := do
  extraAreas extra
  let polygons ← Mem.alloc (.vec [])
  outerPolygons g polygons inner outer
  finishMulti g polygons

/-- multipolygon/builder.hpp 474: the polygons of the rings. -/
def allocRings (g : MpGeos) : List Coords → Mem Unit
  | [] => pure ()
  | c :: cs => do
    let p ← Mem.alloc (.poly c [])
    Mem.addRing ⟨some p, g.ccw c⟩
    allocRings g cs

/-- All that the builder does with the rings it has found. (multipolygon/builder.hpp 786-800 and
868-972) -/
def buildGeometry (g : MpGeos) (rings : List Coords) (extra outer : List Nat) (inner : Nat → List Nat) :
    Mem Unit := do
  allocRings g rings
  buildMultipolygon g extra outer inner

/-- multipolygon/builder.hpp 142-144 `~RingInfo` for all rings (deleting a null pointer does nothing)
and osm/area.hpp 105-107 `~Area` for all areas. -/
def destroyAll : Mem Unit := fun m =>
  Mem.deleteAll (m.rings.filterMap (·.polygon) ++ m.areas ++ m.result.toList) m

/-- The memory before. (multipolygon/builder.hpp 290-300) -/
def MpMem.start : MpMem := ⟨0, [], [], [], none⟩

end Osmium

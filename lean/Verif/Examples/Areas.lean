import Verif.Multipolygon.Pipeline
import Verif.Geometry.Model
import Verif.Examples.RelationMembers

/-
The example programs osmium_mpdump and osmium_toogr2: what is done with the areas of a file.
-/
namespace Osmium

/-- GEOS makes a linear ring of no points, or of at least four of which the first is the last one; otherwise it
throws an exception. (`createLinearRing`, geometry/geos.hpp 112) -/
def geosRingOk (c : Coords) : Bool := c.isEmpty || (decide (4 ≤ c.length) && decide (c.head? = c.getLast?))

/-- geometry/multipolygon.hpp 44-57, 91-97, geometry/geos.hpp 99-113: the polygons of the geometry of an area, as it is after the constructor;
an area without a geometry was made from a way. (The last case is not possible: only multipolygons are stored.) -/
def areaPolygons (a : Area) : Option Geom → Res (List (Coords × List Coords))
  | none =>
    match Polygon.new a.nodes false a.obj.id with
    | .error e => .error e
    | .ok p =>
      let c := (if p.reverse then p.nodes.reverse else p.nodes).map (·.position)
      if geosRingOk c then .ok [(c, [])] else .error geosError
  | some (.multi ps) => .ok ps
  | some _ => .error .ub

/-! ### osmium_mpdump -/

/-- examples/osmium_mpdump.cpp 30-46 `area`: the lines printed; `wkt` is the text GEOS makes of a multipolygon. -/
def mpdumpArea (wkt : List (Coords × List Coords) → List Char) (a : Area) (g : Option Geom) : Res (List Line) :=
  match areaPolygons a g with
  | .error e => .error e
  | .ok ps => .ok ([txt "Area " ++ (if areaFromWay a.obj.id then txt "from way" else txt "from relation") ++
      txt " id=" ++ Text.intDec a.obj.id ++ txt " (orig_id=" ++ Text.intDec (areaOrigId a.obj.id) ++ txt ")" ++
      txt " version=" ++ Text.intDec a.obj.version ++ txt " timestamp=" ++ Text.intDec a.obj.timestamp ++
      txt " uid=" ++ Text.intDec a.obj.uid ++ txt " user=" ++ a.obj.user.toList, txt "  " ++ wkt ps] ++
      dumpTags (txt "  ") a.obj.tags ++ [[]])

/-- All calls of the handler behind the assembler; it only does something for areas.
(examples/osmium_mpdump.cpp 22-48) -/
def mpdumpCalls (wkt : List (Coords × List Coords) → List Char) : List WholeCall → Res (List Line)
  | [] => .ok []
  | .call _ :: cs => mpdumpCalls wkt cs
  | .area a g :: cs =>
    match mpdumpArea wkt a g with
    | .error e => .error e
    | .ok ls =>
      match mpdumpCalls wkt cs with
      | .error e => .error e
      | .ok rest => .ok (ls ++ rest)

/-- examples/osmium_mpdump.cpp 63-84 `main`: the second pass, `s` is the assembler after the first one.
Simplification: what was printed before an exception is left out; it is in `mpdumpSoFar` (Examples/AreasInterrupted). -/
def mpdumpMain {S T : Type} (wkt : List (Coords × List Coords) → List Char) (env : WholeEnv) (pos : IdStore S Position)
    (neg : IdStore T Position) (s : Asm) (calls : List Cb) : Res (List Line) :=
  match secondPass env pos neg s calls with
  | .error e => .error e
  | .ok cs => mpdumpCalls wkt cs

/-! ### osmium_toogr2 -/

/-- A multipolygon with an id given to the library. (examples/osmium_toogr2.cpp 84-90) -/
structure OgrArea where
  polygons : List (List (ℚ × ℚ) × List (List (ℚ × ℚ)))
  id : Int
deriving DecidableEq

/-- geometry/ogr_multipolygon.hpp 46-92 `create_ogr_geometry(MultiPolygon)`: outer ring first, then the holes.
(`addGeometryDirectly` of a polygon to a multipolygon does not fail.) -/
def ogrMultiPolygon (ps : List (Coords × List Coords)) : List (List (ℚ × ℚ) × List (List (ℚ × ℚ))) :=
  ps.map fun p => (p.1.map coordinate, p.2.map fun h => h.map coordinate)

/-- examples/osmium_toogr2.cpp 78-101 `area`: the feature for the area, if there is one. -/
def toogr2Area (a : Area) (g : Option Geom) : Res (Option OgrArea) :=
  match TagList.getValueByKey a.obj.tags "building" with
  | none => .ok none
  | some _ =>
    match areaPolygons a g with
    | .error e => .error e
    | .ok ps => .ok (some ⟨ogrMultiPolygon ps, wrapS32 a.obj.id⟩)

/-- All calls of the handler behind the assembler; `accepts` tells which features the library accepts, otherwise the
program ends. (examples/osmium_toogr2.cpp 78-101) -/
def toogr2Calls (accepts : OgrArea → Bool) : List WholeCall → Res (List OgrArea)
  | [] => .ok []
  | .call _ :: cs => toogr2Calls accepts cs
  | .area a g :: cs =>
    match toogr2Area a g with
    | .error e => .error e
    | .ok none => toogr2Calls accepts cs
    | .ok (some f) =>
      if accepts f then
        match toogr2Calls accepts cs with
        | .error e => .error e
        | .ok fs => .ok (f :: fs)
      else .error (.exn "exit(1)")

/-- examples/osmium_toogr2.cpp 118-140 `main`: the features made, `s` is the assembler after the first pass. -/
def toogr2Main {S T : Type} (accepts : OgrArea → Bool) (env : WholeEnv) (pos : IdStore S Position)
    (neg : IdStore T Position) (s : Asm) (calls : List Cb) : Res (List OgrArea) :=
  match secondPass env pos neg s calls with
  | .error e => .error e
  | .ok cs => toogr2Calls accepts cs

end Osmium

import Verif.Multipolygon.NestingThrows
import Verif.Multipolygon.BuildProps
import Verif.Multipolygon.RepairProps
import Verif.Multipolygon.GeometryProps

/-
C76: the model of the multipolygon builder from the members of a relation to the areas with their
geometries; multipolygon/builder.hpp 308-324.  It puts together the search for rings (Rings.lean,
MakeRings.lean), the geometry of a ring (Repair.lean), the nesting (Nesting.lean), the tags
(Build.lean) and the geometry objects (Memory.lean).
-/
namespace Osmium

open Spec

/-- All that the builder asks from outside, in terms of coordinates. (GEOS and the settings, as
used in multipolygon/builder.hpp 286-972) -/
structure WholeEnv where
  /-- `m_attempt_repair` -/
  repair : Bool
  /-- lines and rings -/
  geos : Geos
  /-- polygons and multipolygons -/
  mp : MpGeos
  /-- `PreparedPolygon::contains`, multipolygon/builder.hpp 707-711 -/
  contains : Coords → Coords → Bool
  /-- whether it throws a GEOSException instead -/
  containsThrows : Coords → Coords → Bool
  /-- comparison of distances, multipolygon/builder.hpp 614-620 -/
  closer : WayNode → WayNode → WayNode → Bool
  /-- `std::sort`, multipolygon/builder.hpp 578 -/
  sort : List WayNode → List WayNode
  /-- `CGAlgorithms::isCCW` is the same function everywhere. -/
  ccw_eq : ∀ c b, geos.ccw c = some b → mp.ccw c = b

/-- The ring search of this builder. (multipolygon/builder.hpp 524-545) -/
def WholeEnv.ringEnv (env : WholeEnv) : RingEnv := ⟨env.repair, geosCheck env.geos env.repair, env.closer, env.sort⟩

/-- multipolygon/builder.hpp 450-479, 523: the coordinates of the polygon of ring `r`, from the ways as
they are walked. -/
def WholeEnv.coords (env : WholeEnv) (s : RingState) (r : List Nat) : Coords :=
  match ringGeometry env.geos env.repair (ringPath s.ways r) with
  | .ok (some (c, _)) => c
  | _ => []

/-- multipolygon/builder.hpp 706-711: which ring contains which. -/
def WholeEnv.bits (env : WholeEnv) (rings : List Coords) : Bits := fun i j =>
  match rings[i]?, rings[j]? with
  | some a, some b => env.contains a b
  | _, _ => false

/-- multipolygon/builder.hpp 706-711: at which of these questions GEOS throws an exception. -/
def WholeEnv.throwBits (env : WholeEnv) (rings : List Coords) : Bits := fun i j =>
  match rings[i]?, rings[j]? with
  | some a, some b => env.containsThrows a b
  | _, _ => false

/-- multipolygon/builder.hpp 791-803: the inner rings that get an area of their own, with this area. -/
def extraRings (rel : TagList) (s : RingState) (t : RingTree) (js : List Nat) : List (Nat × Area) :=
  js.flatMap fun j =>
    if t.isInner j then
      match innerArea rel s t j with
      | .ok as => as.map fun a => (j, a)
      | .error _ => []
    else []

/-- multipolygon/builder.hpp 308-324 `build`: the areas returned, each with its geometry, and the reason
reported on the standard error if the builder gave up.  The exceptions of the builder are caught, a
GEOSException is not. -/
def buildReport (env : WholeEnv) (r : Relation) (members : List (Option Way)) :
    Res (List (Area × Option Geom) × Option String) :=
  match Area.ofRelation r with
  | .error e => .error e
  | .ok area =>
    let (ways, ts) := assembleWays env.repair members [] area.obj.timestamp
    match makeRings env.ringEnv ways with
    | .error (.exn msg) => .ok ([], some msg)
    | .error e => .error e
    | .ok s =>
      let rings := s.rings.map (env.coords s)
      let n := rings.length
      match tryRings n (env.bits rings) (env.throwBits rings) with
      | none => .error geosError
      | some t =>
        match innerAreas area.obj.tags s t (List.range n) with
        | .error e => .error e
        | .ok inner =>
          let extra := (extraRings area.obj.tags s t (List.range n)).map Prod.fst
          match buildGeometry env.mp rings extra (outerRings n t) t.inner .start with
          | (.ok (), m) =>
            let tags := ((outerRings n t).map (ringWays s)).foldl
              (fun tags ws => ws.foldl (outerWayTags (outerCount n t) ws.length) tags) area.obj.tags
            .ok (inner.zip (m.areas.map fun i => m.cells.lookup i) ++
              [(⟨{ area.obj with timestamp := ts, tags := tags }, []⟩, m.result.bind fun i => m.cells.lookup i)], none)
          | (.error (.exn msg), m) =>
            if msg = "GEOSException" then .error (.exn msg)
            else .ok (inner.zip (m.areas.map fun i => m.cells.lookup i), some msg)
          | (.error e, _) => .error e

/-- multipolygon/builder.hpp 308-324 `build`: the areas returned. -/
def buildWhole (env : WholeEnv) (r : Relation) (members : List (Option Way)) : Res (List (Area × Option Geom)) :=
  (buildReport env r members).map Prod.fst

end Osmium

import Verif.Geometry.Number
import Verif.Osm.Model
import Verif.Common.Res

/-
C54-C57, C65: geometries of nodes and ways and their output formats (geometry.hpp, geometry/*.hpp).
Doubles are rational numbers as in `Verif.Float`.
-/
namespace Osmium
open Text

/-- osm/position.hpp `lon()`. (lines 114-116) -/
def Position.lon (p : Position) : ℚ := fixToDouble p.x
/-- osm/position.hpp `lat()`. (lines 118-120) -/
def Position.lat (p : Position) : ℚ := fixToDouble p.y

/-! ### geometry.hpp -/

/-- geometry.hpp 46-60: `wkbPoint`, `wkbLineString`, `wkbPolygon` and the flag `wkbSRID`. -/
def wkbPoint : Nat := 1
/-- geometry.hpp 48. -/
def wkbLineString : Nat := 2
/-- geometry.hpp 49. -/
def wkbPolygon : Nat := 3
/-- geometry.hpp 56. -/
def wkbSRID : Nat := 0x20000000
/-- geometry.hpp 65-68. -/
def wkbNDR : Nat := 1
/-- geometry.hpp 38 -/
def geometrySrid : Nat := 4326

/-- geometry.hpp 118-121 `write_binary` for an unsigned type of `k` bytes; the value is converted to
that type. -/
def writeBinary (k : Nat) (value : Nat) : List UInt8 := leBytes k (value % 256 ^ k)
/-- `write_binary<double>`. (geometry.hpp 120-123) -/
def writeBinaryDouble (q : ℚ) : List UInt8 := leBytes 8 (doubleBits q)

/-- geometry.hpp 130: the table `lookup_hex`. -/
def lookupHex : List Char := "0123456789ABCDEF".toList
/-- The value of a byte read as (signed) `char`. (geometry.hpp 131-137: `buffer[i] >> 4`) -/
def signedChar (b : UInt8) : Int := if b.toNat < 128 then b.toNat else (b.toNat : Int) - 256
/-- geometry.hpp 131-134: one byte; `>>` is an arithmetic shift. -/
def writeHexByte (b : UInt8) : List Char :=
  let c := signedChar b
  [lookupHex.getD ((c / 16) % 16).toNat '?', lookupHex.getD (c % 16).toNat '?']
/-- geometry.hpp 128-135 `write_hex`. -/
def writeHex (k : Nat) (value : Nat) : List Char := (leBytes k (value % 256 ^ k)).flatMap writeHexByte
/-- geometry.hpp 130-138: `write_hex<double>`. -/
def writeHexDouble (q : ℚ) : List Char := (leBytes 8 (doubleBits q)).flatMap writeHexByte

/-- geometry.hpp 144-152 `write_binary_wkb_header`. -/
def writeBinaryWkbHeader (withSrid : Bool) (type : Nat) : List UInt8 :=
  writeBinary 1 wkbNDR ++
    (if withSrid then writeBinary 4 (type ||| wkbSRID) ++ writeBinary 4 geometrySrid else writeBinary 4 type)

/-- geometry.hpp 161-169 `write_hex_wkb_header`. -/
def writeHexWkbHeader (withSrid : Bool) (type : Nat) : List Char :=
  writeHex 1 wkbNDR ++
    (if withSrid then writeHex 4 (type ||| wkbSRID) ++ writeHex 4 geometrySrid else writeHex 4 type)

/-- geometry.hpp 236-266 `LonLatListWriter`: the text so far and the flag `m_first`. -/
def lonLatWriter (s : List Char × Bool) (p : Position) : List Char × Bool :=
  let out := if s.2 then s.1 else s.1 ++ [',']
  (out ++ fmtG10 p.lon ++ [' '] ++ fmtG10 p.lat, false)

/-- `for_each` over the positions with a `LonLatListWriter`. (geometry.hpp 235-266 as used in
geometry/linestring.hpp 64-71 and geometry/polygon.hpp 68-71) -/
def lonLatList (out : List Char) (ps : List Position) : List Char := (ps.foldl lonLatWriter (out, true)).1

/-- The prefix for EWKT. (geometry/point.hpp 71-73, geometry/linestring.hpp 61-63,
geometry/polygon.hpp 65-67) -/
def sridPrefix (withSrid : Bool) : List Char := if withSrid then "SRID=4326;".toList else []

/-! ### geometry/point.hpp -/

/-- geometry/point.hpp 70-75 (WKT). -/
def pointWkt (p : Position) (withSrid : Bool) : List Char :=
  sridPrefix withSrid ++ "POINT(".toList ++ fmtG10 p.lon ++ [' '] ++ fmtG10 p.lat ++ [')']

/-- geometry/point.hpp 77-82 (WKB). -/
def pointWkb (p : Position) (withSrid : Bool) : List UInt8 :=
  writeBinaryWkbHeader withSrid wkbPoint ++ writeBinaryDouble p.lon ++ writeBinaryDouble p.lat

/-- geometry/point.hpp 84-89 (hex WKB). -/
def pointHexWkb (p : Position) (withSrid : Bool) : List Char :=
  writeHexWkbHeader withSrid wkbPoint ++ writeHexDouble p.lon ++ writeHexDouble p.lat

/-! ### geometry/from_way.hpp, linestring.hpp, polygon.hpp -/

/-- geometry/from_way.hpp 32-67 class `FromWay`.  The class keeps a reference to the node list; here
it has the list (the list must stay unchanged while the geometry is used). -/
structure FromWay where
  id : Int
  nodes : List WayNode
  reverse : Bool

/-- geometry/linestring.hpp 41-56 constructors. -/
def LineString.new (nodes : List WayNode) (reverse : Bool) (id : Int) : FromWay := ⟨id, nodes, reverse⟩

/-- geometry/polygon.hpp 44-62 constructors: `is_closed` of an empty list is undefined. -/
def Polygon.new (nodes : List WayNode) (reverse : Bool) (id : Int) : Res FromWay :=
  match wayNodesIsClosed nodes with
  | none => .error .ub
  | some false => .error (.exn "RingNotClosed")
  | some true => .ok ⟨id, nodes, reverse⟩

/-- geometry/linestring.hpp 60-72 (WKT). -/
def lineWkt (g : FromWay) (withSrid : Bool) : List Char :=
  let out := sridPrefix withSrid ++ "LINESTRING(".toList
  let out := if g.reverse then lonLatList out (g.nodes.reverse.map (·.position))
    else lonLatList out (g.nodes.map (·.position))
  out ++ [')']

/-- Two doubles for each node. (geometry/linestring.hpp 77-87, geometry/polygon.hpp 78-81) -/
def wkbNodes (nodes : List WayNode) : List UInt8 :=
  nodes.flatMap fun n => writeBinaryDouble n.position.lon ++ writeBinaryDouble n.position.lat

/-- geometry/linestring.hpp 94-104: the same in hexadecimal. -/
def hexWkbNodes (nodes : List WayNode) : List Char :=
  nodes.flatMap fun n => writeHexDouble n.position.lon ++ writeHexDouble n.position.lat

/-- geometry/linestring.hpp 74-89 (WKB). -/
def lineWkb (g : FromWay) (withSrid : Bool) : List UInt8 :=
  writeBinaryWkbHeader withSrid wkbLineString ++ writeBinary 4 g.nodes.length ++
    (if g.reverse then wkbNodes g.nodes.reverse else wkbNodes g.nodes)

/-- geometry/linestring.hpp 91-106 (hex WKB). -/
def lineHexWkb (g : FromWay) (withSrid : Bool) : List Char :=
  writeHexWkbHeader withSrid wkbLineString ++ writeHex 4 g.nodes.length ++
    (if g.reverse then hexWkbNodes g.nodes.reverse else hexWkbNodes g.nodes)

/-- geometry/polygon.hpp 64-72 (WKT). -/
def polygonWkt (g : FromWay) (withSrid : Bool) : List Char :=
  lonLatList (sridPrefix withSrid ++ "POLYGON((".toList) (g.nodes.map (·.position)) ++ [')', ')']

/-- geometry/polygon.hpp 74-83 (WKB). -/
def polygonWkb (g : FromWay) (withSrid : Bool) : List UInt8 :=
  writeBinaryWkbHeader withSrid wkbPolygon ++ writeBinary 4 1 ++ writeBinary 4 g.nodes.length ++ wkbNodes g.nodes

/-- geometry/polygon.hpp 85-94 (hex WKB). -/
def polygonHexWkb (g : FromWay) (withSrid : Bool) : List Char :=
  writeHexWkbHeader withSrid wkbPolygon ++ writeHex 4 1 ++ writeHex 4 g.nodes.length ++ hexWkbNodes g.nodes

/-! ### geometry/geos.hpp, ogr.hpp -/

/-- geometry/geos.hpp 60-62 `create_geos_coordinate`; geometry/ogr.hpp `addPoint(lon, lat)`. -/
def coordinate (p : Position) : ℚ × ℚ := (p.lon, p.lat)

/-- geometry/geos.hpp 78-92 `create_geos_geometry(LineString)`: the coordinate sequence. -/
def geosLine (g : FromWay) : List (ℚ × ℚ) :=
  if g.reverse then g.nodes.reverse.map fun n => coordinate n.position
  else g.nodes.map fun n => coordinate n.position

/-- geometry/geos.hpp 99-115 `create_geos_geometry(Polygon)`: the coordinates of its only ring. -/
def geosPolygon (g : FromWay) : List (ℚ × ℚ) :=
  if g.reverse then g.nodes.reverse.map fun n => coordinate n.position
  else g.nodes.map fun n => coordinate n.position

/-- geometry/ogr.hpp 54-68 `create_ogr_geometry(LineString)`. -/
def ogrLine (g : FromWay) : List (ℚ × ℚ) :=
  if g.reverse then g.nodes.reverse.map fun n => coordinate n.position
  else g.nodes.map fun n => coordinate n.position

/-- geometry/ogr.hpp 75-90 `create_ogr_geometry(Polygon)`: the points of its only ring. -/
def ogrPolygon (g : FromWay) : List (ℚ × ℚ) :=
  if g.reverse then g.nodes.reverse.map fun n => coordinate n.position
  else g.nodes.map fun n => coordinate n.position

/-! ### geometry/shplib.hpp -/

/-- What is given to Shapelib: the start of each part and the coordinates. (arguments of
`SHPCreateObject`, geometry/shplib.hpp 60-185) -/
structure ShpObject where
  parts : List Nat
  xs : List ℚ
  ys : List ℚ
deriving DecidableEq

/-- geometry/shplib.hpp 80-90: the loop; `prev` is the node before. -/
def shpLoop : WayNode → List WayNode → List ℚ × List ℚ → List ℚ × List ℚ
  | _, [], acc => acc
  | prev, n :: ns, (lons, lats) =>
    if n.eq prev then shpLoop n ns (lons, lats)
    else if n.position.eq prev.position then shpLoop n ns (lons, lats)
    else shpLoop n ns (lons ++ [n.position.lon], lats ++ [n.position.lat])

/-- geometry/shplib.hpp 59-101 `create_line_or_polygon` (the messages are in `lineSays`; less than 2^31
nodes). -/
def createLineOrPolygon (g : FromWay) : Res ShpObject :=
  if !wayNodesHasPosition g.nodes then .error (.exn "node coordinates not available for building way geometry")
  else
    match g.nodes with
    | [] => .error (.exn "IllegalGeometry")
    | [_] => .error (.exn "IllegalGeometry")
    | n :: ns =>
      let r := shpLoop n ns ([n.position.lon], [n.position.lat])
      if r.1.length = 1 then .error (.exn "IllegalGeometry")
      else if g.reverse then .ok ⟨[0], r.1.reverse, r.2.reverse⟩
      else .ok ⟨[0], r.1, r.2⟩

/-- A GEOS geometry, as far as `dump_geometry` looks at it. (geometry/shplib.hpp 127-160) -/
inductive GeosGeometry where
  | line (coords : List (ℚ × ℚ))
  | polygon (exterior : List (ℚ × ℚ)) (interior : List (List (ℚ × ℚ)))
  | collection (parts : List GeosGeometry)
  | other

/-- geometry/shplib.hpp 142-151: a line string or ring. -/
def dumpLine (coords : List (ℚ × ℚ)) (o : ShpObject) : ShpObject :=
  ⟨o.parts ++ [o.xs.length], o.xs ++ coords.map (·.1), o.ys ++ coords.map (·.2)⟩

mutual
/-- geometry/shplib.hpp 125-156 `dump_geometry`. -/
def dumpGeometry : GeosGeometry → ShpObject → Res ShpObject
  | .line coords, o => .ok (dumpLine coords o)
  | .polygon exterior interior, o => .ok (interior.foldl (fun o r => dumpLine r o) (dumpLine exterior o))
  | .collection parts, o => dumpGeometries parts o
  | .other, _ => .error (.exn "invalid geometry type encountered")

/-- The loop over the parts of a collection. (geometry/shplib.hpp 130-135) -/
def dumpGeometries : List GeosGeometry → ShpObject → Res ShpObject
  | [], o => .ok o
  | g :: gs, o =>
    match dumpGeometry g o with
    | .ok o => dumpGeometries gs o
    | .error e => .error e
end

/-- geometry/shplib.hpp 166-188 `create_shp_object(MultiPolygon)`: `&part_start_list[0]` of an empty
vector is undefined. -/
def createShpMultipolygon (polygons : List (List (ℚ × ℚ) × List (List (ℚ × ℚ)))) : Res ShpObject :=
  match dumpGeometry (.collection (polygons.map fun p => .polygon p.1 p.2)) ⟨[], [], []⟩ with
  | .error e => .error e
  | .ok o => if o.parts = [] ∨ o.xs = [] then .error .ub else .ok o

end Osmium

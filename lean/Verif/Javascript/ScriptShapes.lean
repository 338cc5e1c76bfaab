import Verif.Javascript.ShapeExport
import Verif.Javascript.Wrapper
import Verif.Examples.ToShape
import Verif.Handler.LocatedFile

/-
C113: the shapes that scripts put into shapefiles, and shape_export.js with the objects of a file.
-/
namespace Osmium

/-- geometry/shplib.hpp 196-217 `create_shp_object(Geometry)`, with 49-53, 109-121 and 166-188: the type of the
shape and what Shapelib gets.  `none`: the null pointer. -/
def createShpObject : JsGeom → Res (Option (ShpType × ShpObject))
  | .point p => .ok (some (.point, pointObject p))
  | .line g => (createLineOrPolygon g).map fun o => some (.arc, o)
  | .polygon g => (createLineOrPolygon g).map fun o => some (.polygon, o)
  | .multi polys =>
    (createShpMultipolygon (polys.map fun p => (p.1.map fun q => (q.lon, q.lat), p.2.map fun r => r.map fun q => (q.lon, q.lat)))).map
      fun o => some (.polygon, o)
  | .null => .ok none

/-- javascript/wrapper/export_shapefile.hpp 108-112, the argument of `add_geometry`: `none` if `IllegalGeometry`
is thrown here (caught in line 110) or there is a null pointer (`add_geometry`, export/shapefile.hpp 199-201,
throws it then). -/
def shapeArgument (ident : ShpObject → Nat) (g : JsGeom) : Res (Option ShpShape) :=
  match createShpObject g with
  | .error (.exn "IllegalGeometry") => .ok none
  | .error e => .error e
  | .ok none => .ok none
  | .ok (some (type, o)) => .ok (some (shapeOf ident type o))

/-- What a script does with a shapefile. (part of a script, no counterpart in /repo) -/
inductive GeomCall
  | addField (args : List (String × Int))
  | add (geometry : JsGeom) (attrs : String → ScriptAttr)
  | close

/-- javascript/wrapper/export_shapefile.hpp 104-180: a sequence of calls without exception.  (As `shpRun`, with
geometries.) -/
def geomRun (fits : DbfField → DbfValue → Bool) (ident : ShpObject → Nat) :
    ShpTable → Bool → List GeomCall → Res (ShpTable × List Int)
  | t, _, [] => .ok (t, [])
  | t, _, .close :: cs => geomRun fits ident t false cs
  | t, isOpen, .addField args :: cs =>
    if isOpen then
      match scriptAddField fits t args with
      | .error e => .error e
      | .ok (t, r) => (geomRun fits ident t isOpen cs).map fun p => (p.1, r :: p.2)
    else .error .ub
  | t, isOpen, .add g attrs :: cs =>
    match shapeArgument ident g with
    | .error e => .error e
    | .ok geometry =>
      if isOpen ∨ geometry = none then
        match scriptAdd fits t geometry attrs with
        | .error e => .error e
        | .ok (t, r) => (geomRun fits ident t isOpen cs).map fun p => (p.1, r :: p.2)
      else .error .ub

/-- What a callback of shape_export.js sees of a node or way: the id, the tags, and `geom` (osmjs/js/shape_export.js
41, 60; javascript/wrapper/osm.hpp 224-262).  The script has no callback for relations. -/
def exportArgument (ident : ShpObject → Nat) : OsmObj → Res (Option ShapeObj)
  | .node n => (shapeArgument ident (.point n.position)).map fun g => some ⟨.node, n.obj.id, n.obj.tags, g⟩
  | .way w => (shapeArgument ident (jsWayLine w false)).map fun g => some ⟨.way, w.obj.id, w.obj.tags, g⟩
  | _ => .ok none

/-- javascript/handler.hpp 274-380: the callbacks of shape_export.js for the calls of a handler, without those for
areas (they come in a second pass with multipolygons only).  `end` is the only other callback with an effect on the
files. -/
def exportCall (fits : DbfField → DbfValue → Bool) (fn : JsFunctions) (toInt32 : JsString → Int)
    (ident : ShpObject → Nat) (s : ExportFiles) : Cb → Res ExportFiles
  | .obj o =>
    match exportArgument ident o with
    | .error e => .error e
    | .ok none => .ok s
    | .ok (some a) => exportObject fits fn toInt32 s a
  | .final => .ok (exportEnd s)
  | _ => .ok s

/-- osmjs/osmjs.cpp 255-260: shape_export.js on one pass over a file with a location store.  Each call goes to the
handler for coordinates first (handler/sequence.hpp; handler/coordinates_for_ways.hpp 50-76). -/
def exportRun {S T : Type} (pos : IdStore S Position) (neg : IdStore T Position)
    (fits : DbfField → DbfValue → Bool) (fn : JsFunctions) (toInt32 : JsString → Int) (ident : ShpObject → Nat) :
    S × T → ExportFiles → List Cb → Res ExportFiles
  | _, s, [] => .ok s
  | c, s, call :: calls =>
    match cfwStep pos neg c call with
    | .error e => .error e
    | .ok (c, call) =>
      match exportCall fits fn toInt32 ident s call with
      | .error e => .error e
      | .ok s => exportRun pos neg fits fn toInt32 ident c s calls

/-- `osmjs -l ... -j shape_export.js`: the script is run, then the file is read. (osmjs/osmjs.cpp 236-260) -/
def exportMain {S T : Type} (pos : IdStore S Position) (neg : IdStore T Position)
    (fits : DbfField → DbfValue → Bool) (fn : JsFunctions) (toInt32 : JsString → Int) (ident : ShpObject → Nat)
    (calls : List Cb) : Res ExportFiles :=
  match exportLoad fits with
  | .error e => .error e
  | .ok s => exportRun pos neg fits fn toInt32 ident (pos.empty, neg.empty) s calls

end Osmium

import Verif.Javascript.AreaScript
import Verif.Examples.Areas

/-
C118: the example script testgeom.js of osmjs, which shows the geometries of all objects.
-/
namespace Osmium
open Text

mutual
/-- `JSON.stringify` for numbers and arrays; `none` is `undefined`.  Simplification: no texts and other objects, which do
not occur here. (V8; called in osmjs/js/testgeom.js 15, 25, 37) -/
def jsJson (num : ℚ → List Char) : JsVal → Option JsString
  | .num q => some (jsLit (num q))
  | .arr l => some (jsLit ['['] ++ jsJsonList num l ++ jsLit [']'])
  | _ => none

/-- The elements of an array for `JSON.stringify`. (V8) (called in osmjs/js/testgeom.js 11-44) -/
def jsJsonList (num : ℚ → List Char) : List JsVal → JsString
  | [] => []
  | [v] => (jsJson num v).getD (jsLit "null".toList)
  | v :: w :: vs => (jsJson num v).getD (jsLit "null".toList) ++ jsLit [','] ++ jsJsonList num (w :: vs)
end

/-- What GEOS writes for a multipolygon: WKT, and hex WKB without or with the SRID. (GEOS `WKTWriter::write` and
`WKBWriter::writeHEX`, called in geometry/multipolygon.hpp 63-83) -/
structure GeosTexts where
  wkt : List (Coords × List Coords) → List Char
  hex : Bool → List (Coords × List Coords) → List Char

/-- `toWKT(srid)` for all geometries: javascript/wrapper/geometry.hpp 49-57; geometry/multipolygon.hpp 63-71. -/
def geomWkt (geos : GeosTexts) (srid : Bool) : JsGeom → JsVal
  | .multi ps => .str (v8New ((sridPrefix srid ++ geos.wkt ps).flatMap String.utf8EncodeChar))
  | g => (jsToWkt srid g).getD .undefined

/-- `toHexWKB(srid)` for all geometries: javascript/wrapper/geometry.hpp 69-77; geometry/multipolygon.hpp 80-85. -/
def geomHex (geos : GeosTexts) (srid : Bool) : JsGeom → JsVal
  | .multi ps => .str (v8New ((geos.hex srid ps).flatMap String.utf8EncodeChar))
  | g => (jsToHexWkb srid g).getD .undefined

/-- `"..." + value`. (osmjs/js/testgeom.js) (lines 11-44) -/
def labelled (num : ℚ → List Char) (label : String) (v : Res JsVal) : Res JsString :=
  v.map fun v => jsLit label.toList ++ jsShow num v

/-- `"..." + JSON.stringify(value)`. (osmjs/js/testgeom.js 15, 25, 37) -/
def labelledJson (num : ℚ → List Char) (label : String) (v : Res JsVal) : Res JsString :=
  v.map fun v => jsLit label.toList ++ (jsJson num v).getD (jsLit "undefined".toList)

/-- A function of a geometry that is a property. (V8) (used in osmjs/js/testgeom.js 11-44) -/
def ofGeom (v : Res JsVal) (f : JsGeom → Res JsVal) : Res JsVal :=
  v.bind fun
    | .geom g => f g
    | _ => .error (.exn "TypeError")

/-- Several `print`. (javascript/handler.hpp 114-123) -/
def printAll (out : List UInt8) : List (Res JsString) → Res (List UInt8)
  | [] => .ok out
  | r :: rs => r.bind fun s => (printText out s).bind fun out => printAll out rs

/-- osmjs/js/testgeom.js 15-19, 25-29, 37-41: the lines for the property `geom`. -/
def geomShown (geos : GeosTexts) (num : ℚ → List Char) (geom : Res JsVal) : List (Res JsString) :=
  [labelledJson num "geom.toArray():       " (ofGeom geom jsToArray),
   labelled num "geom.toWKT():         " (ofGeom geom fun g => .ok (geomWkt geos false g)),
   labelled num "geom.toWKT(true):     " (ofGeom geom fun g => .ok (geomWkt geos true g)),
   labelled num "geom.toHexWKB():      " (ofGeom geom fun g => .ok (geomHex geos false g)),
   labelled num "geom.toHexWKB(true):  " (ofGeom geom fun g => .ok (geomHex geos true g))]

/-- osmjs/js/testgeom.js 11-21: the callback `node`. -/
def testgeomNode (geos : GeosTexts) (num : ℚ → List Char) (out : List UInt8) (n : Node) : Res (List UInt8) :=
  printAll out ([labelled num "node id:              " (jsNodeProp n "id"),
    labelled num "geom.lon:             " (ofGeom (jsNodeProp n "geom") fun g => .ok (jsGeomProp g "lon")),
    labelled num "geom.lat:             " (ofGeom (jsNodeProp n "geom") fun g => .ok (jsGeomProp g "lat"))] ++
    geomShown geos num (jsNodeProp n "geom") ++ [.ok []])

/-- osmjs/js/testgeom.js 23-33: the callback `way`. -/
def testgeomWay (geos : GeosTexts) (num : ℚ → List Char) (out : List UInt8) (w : Way) : Res (List UInt8) :=
  printAll out (labelled num "way id:               " (jsWayProp w "id") :: geomShown geos num (jsWayProp w "geom") ++
    [labelled num "reverse_geom.toWKT(): " (ofGeom (jsWayProp w "reverse_geom") fun g => .ok (geomWkt geos false g)),
     labelled num "polygon_geom.toWKT(): " (ofGeom (jsWayProp w "polygon_geom") fun g => .ok (geomWkt geos false g)),
     .ok []])

/-- osmjs/js/testgeom.js 35-43: the callback `area`; javascript/wrapper/osm.hpp 304-307 and geometry/multipolygon.hpp 44-57
for `geom`. -/
def testgeomArea (geos : GeosTexts) (num : ℚ → List Char) (out : List UInt8) (a : Area) (g : Option Geom) :
    Res (List UInt8) :=
  printAll out (labelled num "area id:              " (jsAreaProp a.obj [] "id") ::
    geomShown geos num ((areaPolygons a g).bind fun ps => jsAreaProp a.obj ps "geom") ++ [.ok []])

/-- The callbacks of the script (osmjs/js/testgeom.js 11-43; javascript/handler.hpp 274-380). -/
def testgeomCall (geos : GeosTexts) (num : ℚ → List Char) (out : List UInt8) : WholeCall → Res (List UInt8)
  | .call (.obj (.node n)) => testgeomNode geos num out n
  | .call (.obj (.way w)) => testgeomWay geos num out w
  | .area a g => testgeomArea geos num out a g
  | _ => .ok out

/-- `osmjs -2 -m -l sparsetable -j testgeom.js` (osmjs/js/testgeom.js 7; osmjs/osmjs.cpp 236-254): the second pass; `s` is
the assembler after the first one.  Simplification: what is printed before an exception is left out. -/
def testgeom {S T : Type} (env : WholeEnv) (pos : IdStore S Position) (neg : IdStore T Position) (s : Asm)
    (geos : GeosTexts) (num : ℚ → List Char) (calls : List Cb) : Res (List UInt8) :=
  match secondPass env pos neg s calls with
  | .error e => .error e
  | .ok cs => callChain (testgeomCall geos num) [] cs

end Osmium

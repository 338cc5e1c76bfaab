import Verif.Javascript.ScriptAreas
import Verif.Javascript.Listing

/-
C116: the example scripts area.js, which exports and lists all areas, and callback_test.js of osmjs.
-/
namespace Osmium
open Text

/-- The shapefile of the script, and what it has printed. (osmjs/js/area.js 11) -/
structure AreaOutput where
  file : ShpTable × Bool
  out : List UInt8

/-- The columns of the shapefile (osmjs/js/area.js 12-14). -/
def areaColumns : List ShapeColumn := [⟨"id", "integer", 10⟩, ⟨"type", "string", 32⟩, ⟨"name", "string", 32⟩]

/-- osmjs/js/area.js 21: the line that is printed for an area; `id` and `from` are the properties as texts. -/
def areaText (id origin : JsString) : JsString :=
  jsLit "area ".toList ++ id ++ jsLit " from ".toList ++ origin

/-- osmjs/js/area.js 26-27: what is put into the column `type`. -/
def areaType (toInt32 : JsString → Int) (tags : TagList) : Res ScriptAttr :=
  (jsTag tags (jsLit "boundary".toList)).bind fun boundary =>
    if jsTruthy boundary then .ok (textAttr toInt32 "boundary")
    else (jsTag tags (jsLit "building".toList)).map fun building =>
      if jsTruthy building then textAttr toInt32 "building" else textAttr toInt32 "unknown"

/-- osmjs/js/area.js 23-28 with javascript/wrapper/osm.hpp 304-307 and javascript/wrapper/export_shapefile.hpp 104-180:
the area is put into the shapefile. -/
def areaAdd (fits : DbfField → DbfValue → Bool) (toInt32 : JsString → Int) (ident : ShpObject → Nat)
    (h : ShpTable × Bool) (a : Area) (g : Option Geom) : Res (ShpTable × Bool) :=
  (areaPolygons a g).bind fun ps => (jsTag a.obj.tags (jsLit "name".toList)).bind fun name =>
    (areaType toInt32 a.obj.tags).bind fun type => (shapeArgument ident (.multi ps)).bind fun shape =>
      shpCall fits h (.add shape fun k =>
        if k = "id" then idAttr a.obj.id else if k = "name" then tagAttr toInt32 name
        else if k = "type" then type else .missing)

/-- osmjs/js/area.js 20-29: the callback `area`. -/
def areaCallback (fits : DbfField → DbfValue → Bool) (toInt32 : JsString → Int) (ident : ShpObject → Nat)
    (num : ℚ → List Char) (s : AreaOutput) (a : Area) (g : Option Geom) : Res AreaOutput :=
  (shownProps num (jsAreaProp a.obj []) ["id", "from"]).bind fun
    | [id, origin] => (printText s.out (areaText id origin)).bind fun out =>
        (areaAdd fits toInt32 ident s.file a g).map fun h => ⟨h, out⟩
    | _ => .error .ub

/-- The callbacks of the script (osmjs/js/area.js 16-34; javascript/handler.hpp 274-380). -/
def areaScriptCall (fits : DbfField → DbfValue → Bool) (toInt32 : JsString → Int) (ident : ShpObject → Nat)
    (num : ℚ → List Char) (s : AreaOutput) : WholeCall → Res AreaOutput
  | .call (.init _) => (printText s.out (jsLit "Start!".toList)).map fun out => ⟨s.file, out⟩
  | .call .final => (shpCall fits s.file .close).bind fun h =>
      (printText s.out (jsLit "End!".toList)).map fun out => ⟨h, out⟩
  | .area a g => areaCallback fits toInt32 ident num s a g
  | _ => .ok s

/-- `osmjs -2 -m -l ... -j area.js` (osmjs/js/area.js 7, 11-14; osmjs/osmjs.cpp 236-254): the second pass; `s` is the
assembler after the first one.  Simplification: what is done before an exception is left out. -/
def areaScript {S T : Type} (env : WholeEnv) (pos : IdStore S Position) (neg : IdStore T Position) (s : Asm)
    (fits : DbfField → DbfValue → Bool) (toInt32 : JsString → Int) (ident : ShpObject → Nat) (num : ℚ → List Char)
    (calls : List Cb) : Res AreaOutput :=
  match exportOpen fits "polygon" areaColumns with
  | .error e => .error e
  | .ok h =>
    match secondPass env pos neg s calls with
    | .error e => .error e
    | .ok cs => callChain (areaScriptCall fits toInt32 ident num) ⟨h, []⟩ cs

/-! ### callback_test.js -/

/-- The global variables (osmjs/js/callback_test.js 5) and what has been printed. -/
structure CallbackTest where
  calledNode : Bool
  calledWay : Bool
  calledRelation : Bool
  calledArea : Bool
  out : List UInt8
deriving DecidableEq

/-- osmjs/js/callback_test.js: `print('✔ ...')`.  (javascript/handler.hpp 178-179: V8 reads the source of a script as UTF-8.) -/
def printTick (out : List UInt8) (name : String) : Res (List UInt8) := printText out (jsLit ("✔ ".toList ++ name.toList))

/-- The callbacks of the script (osmjs/js/callback_test.js 7-42; javascript/handler.hpp 274-380). -/
def tickCall (s : CallbackTest) : WholeCall → Res CallbackTest
  | .call (.init _) => (printTick s.out "init").map fun out => { s with out := out }
  | .call (.before .node) => (printTick s.out "before_nodes").map fun out => { s with out := out }
  | .call (.before .way) => (printTick s.out "before_ways").map fun out => { s with out := out }
  | .call (.before .relation) => (printTick s.out "before_relations").map fun out => { s with out := out }
  | .call (.after .node) => (printTick s.out "after_nodes").map fun out => { s with out := out }
  | .call (.after .way) => (printTick s.out "after_ways").map fun out => { s with out := out }
  | .call (.after .relation) => (printTick s.out "after_relations").map fun out => { s with out := out }
  | .call (.obj (.node _)) =>
    if !s.calledNode then (printTick s.out "node").map fun out => { s with out := out, calledNode := true } else .ok s
  | .call (.obj (.way _)) =>
    if !s.calledWay then (printTick s.out "way").map fun out => { s with out := out, calledWay := true } else .ok s
  | .call (.obj (.relation _)) =>
    if !s.calledRelation then (printTick s.out "relation").map fun out => { s with out := out, calledRelation := true }
    else .ok s
  | .area _ _ =>
    if !s.calledArea then (printTick s.out "area").map fun out => { s with out := out, calledArea := true } else .ok s
  | .call .final => (printTick s.out "end").map fun out => { s with out := out }
  | _ => .ok s

/-- `osmjs -l ... -2 -m -j callback_test.js` (osmjs/js/callback_test.js 1-2, 5; osmjs/osmjs.cpp 236-254): the second
pass; `s` is the assembler after the first one. -/
def callbackTest {S T : Type} (env : WholeEnv) (pos : IdStore S Position) (neg : IdStore T Position) (s : Asm)
    (calls : List Cb) : Res (List UInt8) :=
  match secondPass env pos neg s calls with
  | .error e => .error e
  | .ok cs => (callChain tickCall ⟨false, false, false, false, []⟩ cs).map (·.out)

end Osmium

import Verif.Javascript.ScriptShapes
import Verif.Examples.Areas

/-
C114: shape_export.js with the areas of a file, in two passes.
-/
namespace Osmium

/-- osmjs/js/shape_export.js 64-68 with javascript/handler.hpp 355-361, javascript/wrapper/osm.hpp 304-307 and
javascript/wrapper/export_shapefile.hpp 104-180: the callback for an area.  The geometry is made only if the script
asks for it. -/
def exportAreaCall (fits : DbfField → DbfValue → Bool) (fn : JsFunctions) (toInt32 : JsString → Int)
    (ident : ShpObject → Nat) (s : ExportFiles) (a : Area) (g : Option Geom) : Res ExportFiles :=
  match jsTag a.obj.tags (jsLit "landuse".toList) with
  | .error e => .error e
  | .ok landuse =>
    if jsTruthy landuse then
      match areaPolygons a g with
      | .error e => .error e
      | .ok ps =>
        match shapeArgument ident (.multi ps) with
        | .error e => .error e
        | .ok shape => exportObject fits fn toInt32 s ⟨.area, a.obj.id, a.obj.tags, shape⟩
    else .ok s

/-- All callbacks of the script for what the assembler gives to it. (javascript/handler.hpp 274-380) -/
def exportWholeCall (fits : DbfField → DbfValue → Bool) (fn : JsFunctions) (toInt32 : JsString → Int)
    (ident : ShpObject → Nat) (s : ExportFiles) : WholeCall → Res ExportFiles
  | .call c => exportCall fits fn toInt32 ident s c
  | .area a g => exportAreaCall fits fn toInt32 ident s a g

/-- `osmjs -2 -m -l ... -j shape_export.js` (osmjs/js/shape_export.js 5; osmjs/osmjs.cpp 236-254): the second pass; `s`
is the assembler after the first one.  Simplification: what is put into the files before an exception is left out. -/
def exportAreas {S T : Type} (env : WholeEnv) (pos : IdStore S Position) (neg : IdStore T Position) (s : Asm)
    (fits : DbfField → DbfValue → Bool) (fn : JsFunctions) (toInt32 : JsString → Int) (ident : ShpObject → Nat)
    (calls : List Cb) : Res ExportFiles :=
  match exportLoad fits with
  | .error e => .error e
  | .ok f =>
    match secondPass env pos neg s calls with
    | .error e => .error e
    | .ok cs => callChain (exportWholeCall fits fn toInt32 ident) f cs

end Osmium

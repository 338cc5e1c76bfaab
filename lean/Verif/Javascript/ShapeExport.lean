import Verif.Javascript.Scripts

/-
C112: the example script osmjs/js/shape_export.js, which exports some objects to three shapefiles.
-/
namespace Osmium
open Text

/-- What the functions every object inherits look like: their source text, and which properties of them are true
when they are used as a condition (with the text and the number V8 makes of them). (V8) (used in
osmjs/js/shape_export.js 11-75) -/
structure JsFunctions where
  text : JsString → JsString
  prop : JsString → JsString → Option (JsString × Int)

/-- The files of the script (osmjs/js/shape_export.js 11-25). -/
structure ExportFiles where
  pois : ShpTable × Bool
  roads : ShpTable × Bool
  landuse : ShpTable × Bool

/-- The columns of shp_pois (osmjs/js/shape_export.js 12-14). -/
def poiColumns : List ShapeColumn := [⟨"id", "string", 12⟩, ⟨"type", "string", 32⟩, ⟨"name", "string", 32⟩]

/-- The columns of shp_roads (osmjs/js/shape_export.js 17-21). -/
def roadColumns : List ShapeColumn :=
  [⟨"id", "integer", 10⟩, ⟨"type", "string", 32⟩, ⟨"name", "string", 32⟩, ⟨"oneway", "integer", 1⟩,
   ⟨"maxspeed", "integer", 3⟩]

/-- The columns of shp_landuse (osmjs/js/shape_export.js 24-25). -/
def landuseColumns : List ShapeColumn := [⟨"id", "integer", 10⟩, ⟨"type", "string", 32⟩]

/-- osmjs/js/shape_export.js 11-14, 16-21, 23-25: one of the files. -/
def exportOpen (fits : DbfField → DbfValue → Bool) (gtype : String) (columns : List ShapeColumn) : Res (ShpTable × Bool) :=
  match scriptOpenShp gtype with
  | .error e => .error e
  | .ok t => callChain (fun h c => shpCall fits h (.addField (columnArgs c))) (t, true) columns

/-- osmjs/js/shape_export.js 11-25: the main part of the script. -/
def exportLoad (fits : DbfField → DbfValue → Bool) : Res ExportFiles :=
  match exportOpen fits "point" poiColumns with
  | .error e => .error e
  | .ok p =>
    match exportOpen fits "line" roadColumns with
    | .error e => .error e
    | .ok r =>
      match exportOpen fits "polygon" landuseColumns with
      | .error e => .error e
      | .ok l => .ok ⟨p, r, l⟩

/-- What `x[name]` is for an object `x` that does not have the property itself: one of the functions or, for
`__proto__`, an object. (V8) (used in osmjs/js/shape_export.js 11-75) -/
def inheritedValue (fn : JsFunctions) (name : JsString) : Option ScriptAttr :=
  if name ∈ inheritedUnits then some (.value (fn.text name) 0)
  else if name = protoName then some (.value (jsLit "[object Object]".toList) 0)
  else none

/-- A text of the script as a value for a column. (V8) (used in osmjs/js/shape_export.js 11-75) -/
def textAttr (toInt32 : JsString → Int) (s : String) : ScriptAttr := .value (jsLit s.toList) (toInt32 (jsLit s.toList))

/-- osmjs/js/shape_export.js 38: is `node_tags[key]` true? (27-30: the variable `node_tags`) -/
def isNodeKey (key : JsString) : Bool :=
  key = jsLit "amenity".toList || key = jsLit "shop".toList || key ∈ inheritedUnits || key = protoName

/-- osmjs/js/shape_export.js 39-40: `node_tags[key][value]`, if this is true.  `__proto__` of `node_tags` is
`Object.prototype`. -/
def nodeType (fn : JsFunctions) (toInt32 : JsString → Int) (key value : JsString) : Option ScriptAttr :=
  if key = jsLit "amenity".toList then
    if value = jsLit "restaurant".toList then some (textAttr toInt32 "restaurant")
    else if value = jsLit "pub".toList then some (textAttr toInt32 "pub")
    else inheritedValue fn value
  else if key = jsLit "shop".toList then
    if value = jsLit "supermarket".toList then some (textAttr toInt32 "supermarket")
    else inheritedValue fn value
  else if key = protoName then
    if value ∈ inheritedUnits then some (.value (fn.text value) 0) else none
  else (fn.prop key value).map fun p => .value p.1 p.2

/-- osmjs/js/shape_export.js 37-44: the body of the loop in the callback `node`. -/
def exportTag (fits : DbfField → DbfValue → Bool) (fn : JsFunctions) (toInt32 : JsString → Int) (o : ShapeObj)
    (h : ShpTable × Bool) (key : JsString) : Res (ShpTable × Bool) :=
  if isNodeKey key then
    match jsTag o.tags key with
    | .error e => .error e
    | .ok value =>
      match nodeType fn toInt32 key (jsToText value) with
      | none => .ok h
      | some type =>
        match jsTag o.tags (jsLit "name".toList) with
        | .error e => .error e
        | .ok name =>
          shpCall fits h (.add o.geom fun k =>
            if k = "id" then idAttr o.id else if k = "type" then type
            else if k = "name" then tagAttr toInt32 name else .missing)
  else .ok h

/-- osmjs/js/shape_export.js 36-46: the callback `node`. -/
def exportNode (fits : DbfField → DbfValue → Bool) (fn : JsFunctions) (toInt32 : JsString → Int) (o : ShapeObj)
    (h : ShpTable × Bool) : Res (ShpTable × Bool) :=
  match jsTagKeys o.tags with
  | .error e => .error e
  | .ok keys => callChain (exportTag fits fn toInt32 o) h keys

/-- osmjs/js/shape_export.js 52-56: the number for `oneway`. -/
def onewayCode (v : JsVal) : Nat :=
  if jsEqText v "1" || jsEqText v "yes" || jsEqText v "true" then 1
  else if jsEqText v "-1" then 2
  else 0

/-- `/^([0-9]+) ?(km\/?h)?$/` and `RegExp.$1` (osmjs/js/shape_export.js 57-58).  What follows the digits does not
begin with a digit, so the first group is all of them. (V8) -/
def speedDigits (s : JsString) : Option JsString :=
  let ds := s.takeWhile fun u => 48 ≤ u && u ≤ 57
  let rest := s.dropWhile fun u => 48 ≤ u && u ≤ 57
  if ds = [] then none
  else if rest ∈ ["", "kmh", "km/h", " ", " kmh", " km/h"].map (fun t => jsLit t.toList) then some ds
  else none

/-- osmjs/js/shape_export.js 51, 57-59: the value for `maxspeed`. -/
def maxspeedAttr (toInt32 : JsString → Int) : JsVal → ScriptAttr
  | .str s =>
    match speedDigits s with
    | some ds => .value ds (toInt32 ds)
    | none => idAttr 0
  | _ => idAttr 0

/-- osmjs/js/shape_export.js 48-62: the callback `way`. -/
def exportWay (fits : DbfField → DbfValue → Bool) (toInt32 : JsString → Int) (o : ShapeObj) (h : ShpTable × Bool) :
    Res (ShpTable × Bool) :=
  match jsTag o.tags (jsLit "highway".toList) with
  | .error e => .error e
  | .ok highway =>
    if jsTruthy highway then
      match jsTag o.tags (jsLit "oneway".toList), jsTag o.tags (jsLit "maxspeed".toList),
          jsTag o.tags (jsLit "name".toList) with
      | .ok oneway, .ok maxspeed, .ok name =>
        shpCall fits h (.add o.geom fun k =>
          if k = "id" then idAttr o.id else if k = "type" then tagAttr toInt32 highway
          else if k = "name" then tagAttr toInt32 name else if k = "oneway" then idAttr (onewayCode oneway)
          else if k = "maxspeed" then maxspeedAttr toInt32 maxspeed else .missing)
      | .error e, _, _ => .error e
      | _, .error e, _ => .error e
      | _, _, .error e => .error e
    else .ok h

/-- osmjs/js/shape_export.js 64-68: the callback `area`. -/
def exportArea (fits : DbfField → DbfValue → Bool) (toInt32 : JsString → Int) (o : ShapeObj) (h : ShpTable × Bool) :
    Res (ShpTable × Bool) :=
  match jsTag o.tags (jsLit "landuse".toList) with
  | .error e => .error e
  | .ok landuse =>
    if jsTruthy landuse then
      shpCall fits h (.add o.geom fun k =>
        if k = "id" then idAttr o.id else if k = "type" then tagAttr toInt32 landuse else .missing)
    else .ok h

/-- The callbacks for objects (osmjs/js/shape_export.js 36-68). -/
def exportObject (fits : DbfField → DbfValue → Bool) (fn : JsFunctions) (toInt32 : JsString → Int) (s : ExportFiles)
    (o : ShapeObj) : Res ExportFiles :=
  match o.kind with
  | .node => (exportNode fits fn toInt32 o s.pois).map fun h => { s with pois := h }
  | .way => (exportWay fits toInt32 o s.roads).map fun h => { s with roads := h }
  | .area => (exportArea fits toInt32 o s.landuse).map fun h => { s with landuse := h }

/-- osmjs/js/shape_export.js 70-75: the callback `end`. -/
def exportEnd (s : ExportFiles) : ExportFiles := ⟨(s.pois.1, false), (s.roads.1, false), (s.landuse.1, false)⟩

/-- osmjs/js/shape_export.js: the files after a file with these objects. (lines 11-75) -/
def shapeExport (fits : DbfField → DbfValue → Bool) (fn : JsFunctions) (toInt32 : JsString → Int) (os : List ShapeObj) :
    Res ExportFiles :=
  match exportLoad fits with
  | .error e => .error e
  | .ok s => (callChain (exportObject fits fn toInt32) s os).map exportEnd

end Osmium

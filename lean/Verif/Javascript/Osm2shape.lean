import Verif.Javascript.Exports
import Verif.Javascript.Wrapper

/-
C110: the framework for exporting shapefiles that comes with osmjs, osmjs/js/osm2shape.js, and its example of a
configuration, osmjs/js/config.js.

A configuration is modelled as a list of statements, each a call of `shapefile`, `node`, `way` or `area`
followed by calls of methods of the result.  Exceptions of V8 (`throw`, `TypeError`, `ReferenceError`) end the
function they happen in; in the configuration they end the program (javascript/handler.hpp 190-210), in
callbacks they are ignored (javascript/handler.hpp 270-400).  C++ exceptions end the program.  What is printed
on the screen is not modelled, nor is a configuration that uses the name `__proto__`.  The shapefiles have
different file names.
-/
namespace Osmium
open Text

/-! ### Values of the configuration -/

/-- The three lists of rules (osmjs/js/osm2shape.js 27-31). -/
inductive RuleKind
  | node
  | way
  | area
deriving DecidableEq, Repr

/-- What can be given as value of a rule: nothing or `null`, a text, an array of texts, or something else, for
instance a number (osmjs/js/osm2shape.js 74, 126-160). -/
inductive RuleValue
  | null
  | text (s : String)
  | list (l : List String)
  | other
deriving DecidableEq, Repr

/-- The functions made by `build_func` (osmjs/js/osm2shape.js 128-130, 133-135, 139-141, 146-156). -/
inductive RuleMatch
  | any (key : String)
  | equals (key : String) (value : String)
  | oneOf (key : String) (values : List String)
deriving DecidableEq, Repr

/-- A rule (osmjs/js/osm2shape.js 78-109); `built` is the property `match`, `none` if it is undefined. -/
structure ShapeRule where
  key : String
  value : RuleValue
  file : Option String
  attrs : List (String × String)
  built : Option RuleMatch
deriving DecidableEq, Repr

/-- A column (osmjs/js/osm2shape.js 59). -/
structure ShapeColumn where
  name : String
  type : String
  size : Int
deriving DecidableEq, Repr

/-- A shapefile of the configuration (osmjs/js/osm2shape.js 34-68).  `shp` is the file after it has been opened
(168): the table and whether it is still open. -/
structure ShapeDef where
  fname : String
  gtype : String
  columns : List ShapeColumn
  shp : Option (ShpTable × Bool)

/-- The variables `files` and `rules` (osmjs/js/osm2shape.js 25-31). -/
structure ShapeState where
  files : List (String × ShapeDef)
  node : List ShapeRule
  way : List ShapeRule
  area : List ShapeRule

/-- osmjs/js/osm2shape.js 25-31: at the beginning. -/
def ShapeState.new : ShapeState := ⟨[], [], [], []⟩

/-- `rules[type]`. (osmjs/js/osm2shape.js 27-31) -/
def ShapeState.rules (s : ShapeState) : RuleKind → List ShapeRule
  | .node => s.node
  | .way => s.way
  | .area => s.area

/-- Assignment to `rules[type]` (osmjs/js/osm2shape.js 110 `push`). -/
def ShapeState.setRules (s : ShapeState) (k : RuleKind) (l : List ShapeRule) : ShapeState :=
  match k with
  | .node => { s with node := l }
  | .way => { s with way := l }
  | .area => { s with area := l }

/-! ### Objects of a script used as tables -/

/-- `object[name] = value`: an own property keeps its place (V8). (used in osmjs/js/osm2shape.js 61, 69, 106, 200) -/
def jsPut {α : Type} : List (String × α) → String → α → List (String × α)
  | [], k, v => [(k, v)]
  | (k', v') :: l, k, v => if k' = k then (k, v) :: l else (k', v') :: jsPut l k v

/-- The own property `name` of an object (V8). (used in osmjs/js/osm2shape.js 85, 98, 187, 210) -/
def jsOwn {α : Type} : List (String × α) → String → Option α
  | [], _ => none
  | (k', v') :: l, k => if k' = k then some v' else jsOwn l k

/-- The properties every object inherits from `Object.prototype`; their values are functions (V8). (used in
osmjs/js/osm2shape.js 85 and 98) -/
def inheritedNames : List String :=
  ["constructor", "toString", "toLocaleString", "valueOf", "hasOwnProperty", "isPrototypeOf",
   "propertyIsEnumerable", "__defineGetter__", "__defineSetter__", "__lookupGetter__", "__lookupSetter__"]

/-- `!!object[name]`, if the own properties are objects. (osmjs/js/osm2shape.js 85 and 98) -/
def jsHas {α : Type} (l : List (String × α)) (name : String) : Bool :=
  (jsOwn l name).isSome || inheritedNames.contains name

/-! ### The functions of the configuration -/

/-- The methods of the result of `shapefile` (osmjs/js/osm2shape.js 40-67); a size that is not given is `none`. -/
inductive FileCall
  | type (t : String)
  | column (name type : String) (size : Option Int)
  | filename (name : String)
deriving DecidableEq, Repr

/-- osmjs/js/osm2shape.js 40-67.  There is no function `exit` (43), so calling it is an exception. -/
def fileCall (f : ShapeDef) : FileCall → Res ShapeDef
  | .type t =>
    if t ≠ "point" ∧ t ≠ "line" ∧ t ≠ "polygon" then .error (.exn "exit is not defined")
    else .ok { f with gtype := t }
  | .column name type size =>
    if type ≠ "integer" ∧ type ≠ "string" ∧ type ≠ "bool" ∧ type ≠ "double" then .error (.exn "config error")
    else .ok { f with columns := f.columns ++ [⟨name, type, size.getD 1⟩] }
  | .filename name => .ok { f with fname := name }

/-- The methods of a rule (osmjs/js/osm2shape.js 84-108); a key that is not given is `none`. -/
inductive RuleCall
  | output (name : String)
  | attr (attr : String) (key : Option String)
deriving DecidableEq, Repr

/-- osmjs/js/osm2shape.js 84-108.  An inherited function has no `column_names` (98), so looking for a column in
it is an exception. -/
def ruleCall (files : List (String × ShapeDef)) (r : ShapeRule) : RuleCall → Res ShapeRule
  | .output name =>
    if !jsHas files name then .error (.exn "config error") else .ok { r with file := some name }
  | .attr a key =>
    match r.file with
    | none => .error (.exn "config error")
    | some file =>
      match jsOwn files file with
      | none => .error (.exn "TypeError")
      | some f =>
        if !jsHas (f.columns.map fun c => (c.name, c)) a then .error (.exn "config error")
        else .ok { r with attrs := jsPut r.attrs a (key.getD a) }

/-- osmjs/js/osm2shape.js 75-77: `value == '*'` also holds for the array `['*']`. -/
def ruleValue : RuleValue → RuleValue
  | .text s => if s = "*" then .null else .text s
  | .list l => if l = ["*"] then .null else .list l
  | v => v

/-- The statements of a configuration. (for example osmjs/js/config.js 16-146; the functions are in
osmjs/js/osm2shape.js 33-124) -/
inductive ConfigStmt
  | shapefile (name : String) (calls : List FileCall)
  | rule (kind : RuleKind) (key : String) (value : RuleValue) (calls : List RuleCall)
deriving DecidableEq, Repr

/-- A chain of calls up to the first exception. (V8) (as in osmjs/js/config.js 16-146) -/
def callChain {α β : Type} (f : α → β → Res α) : α → List β → Res α
  | a, [] => .ok a
  | a, b :: bs =>
    match f a b with
    | .error e => .error e
    | .ok a => callChain f a bs

/-- osmjs/js/osm2shape.js 33-71 `shapefile`, 74-124 `rule`, `node`, `way` and `area`, with the calls of methods
after them. -/
def configStmt (s : ShapeState) : ConfigStmt → Res ShapeState
  | .shapefile name calls =>
    match callChain fileCall ⟨name, "point", [], none⟩ calls with
    | .error e => .error e
    | .ok f => .ok { s with files := jsPut s.files name f }
  | .rule kind key value calls =>
    match callChain (ruleCall s.files) ⟨key, ruleValue value, none, [], none⟩ calls with
    | .error e => .error e
    | .ok r => .ok (s.setRules kind (s.rules kind ++ [r]))

/-- A configuration, up to the first exception (which ends the program). (osmjs/js/osm2shape.js 33-124, read with `-j`
in osmjs/osmjs.cpp 143-144 and 242) -/
def loadConfig (stmts : List ConfigStmt) : Res ShapeState := callChain configStmt ShapeState.new stmts

/-! ### Rules -/

/-- A text of a script. (V8) (osmjs/js/osm2shape.js 14-23) -/
def jsLit (cs : List Char) : JsString := cs.flatMap utf16Char

/-- `value.split('|')`. (V8) (osmjs/js/osm2shape.js 137) -/
def splitBar : List Char → List (List Char)
  | [] => [[]]
  | c :: cs =>
    if c = '|' then [] :: splitBar cs
    else match splitBar cs with
      | [] => [[c]]
      | p :: ps => (c :: p) :: ps

/-- osmjs/js/osm2shape.js 126-160 `build_func`. -/
def buildFunc (key : String) : RuleValue → Option RuleMatch
  | .null => some (.any key)
  | .text s =>
    if s = "*" then some (.any key)
    else if s.toList.contains '|' then some (.oneOf key ((splitBar s.toList).map String.ofList))
    else some (.equals key s)
  | .list l => some (.oneOf key l)
  | .other => none

/-- `!!value`, of the values `tags[key]` can have. (V8) (osmjs/js/osm2shape.js 129, 134, 140, 147) -/
def jsTruthy : JsVal → Bool
  | .str s => s ≠ []
  | _ => false

/-- `value == text`, of the values `tags[key]` can have. (V8) (osmjs/js/osm2shape.js 140 and 151) -/
def jsEqText : JsVal → String → Bool
  | .str s, t => s = jsLit t.toList
  | _, _ => false

/-- The functions made by `build_func`, called with an object that has these tags (osmjs/js/osm2shape.js
128-130, 133-135, 139-141, 146-156). -/
def ruleMatches (tags : TagList) : RuleMatch → Res Bool
  | .any key => (jsTag tags (jsLit key.toList)).map jsTruthy
  | .equals key v => (jsTag tags (jsLit key.toList)).map fun x => jsTruthy x && jsEqText x v
  | .oneOf key l => (jsTag tags (jsLit key.toList)).map fun x => if !jsTruthy x then false else l.any (jsEqText x)

/-! ### Callbacks -/

/-- One call of a method of a shapefile (see `shpRun`). (osmjs/js/osm2shape.js 178, 210, 229) -/
def shpCall (fits : DbfField → DbfValue → Bool) (h : ShpTable × Bool) (c : ShpCall) : Res (ShpTable × Bool) :=
  match c with
  | .close => .ok (h.1, false)
  | c => (shpRun fits h.1 h.2 [c]).map fun p => (p.1, h.2)

/-- The arguments of `add_field` (osmjs/js/osm2shape.js 178). -/
def columnArgs (c : ShapeColumn) : List (String × Int) := [(c.name, 0), (c.type, 0), ("", c.size)]

/-- osmjs/js/osm2shape.js 166-179: a file is opened and gets its columns. -/
def openShape (fits : DbfField → DbfValue → Bool) (f : ShapeDef) : Res ShapeDef :=
  match scriptOpenShp f.gtype with
  | .error e => .error e
  | .ok t =>
    match callChain (fun h c => shpCall fits h (.addField (columnArgs c))) (t, true) f.columns with
    | .error e => .error e
    | .ok h => .ok { f with shp := some h }

/-- osmjs/js/osm2shape.js 165-182: the loop over the files.  (V8 enumerates names that are numbers first; as the
files do not depend on each other this does not matter.) -/
def initFiles (fits : DbfField → DbfValue → Bool) : List (String × ShapeDef) → Res (List (String × ShapeDef))
  | [] => .ok []
  | (n, f) :: l =>
    match openShape fits f with
    | .error e => .error e
    | .ok f =>
      match initFiles fits l with
      | .error e => .error e
      | .ok l => .ok ((n, f) :: l)

/-- osmjs/js/osm2shape.js 185-193: the loop over the rules of a type; `false`: an exception (there is no
function `exit`). -/
def initRules (files : List (String × ShapeDef)) : List ShapeRule → List ShapeRule × Bool
  | [] => ([], true)
  | r :: rs =>
    match r.file with
    | none => (r :: rs, false)
    | some file =>
      if file ≠ "" && jsHas files file then
        let p := initRules files rs
        ({ r with built := buildFunc r.key r.value } :: p.1, p.2)
      else (r :: rs, false)

/-- osmjs/js/osm2shape.js 162-195: the callback `init`. -/
def shapeInit (fits : DbfField → DbfValue → Bool) (s : ShapeState) : Res ShapeState :=
  match initFiles fits s.files with
  | .error e => .error e
  | .ok files =>
    let n := initRules files s.node
    let w := if n.2 then initRules files s.way else (s.way, false)
    let a := if w.2 then initRules files s.area else (s.area, false)
    .ok ⟨files, n.1, w.1, a.1⟩

/-- What a callback sees of the object: `geom` is what `create_shp_object` makes of the geometry, `none` if it
cannot be made into a shape. (osmjs/js/osm2shape.js 205-213) -/
structure ShapeObj where
  kind : RuleKind
  id : Int
  tags : TagList
  geom : Option ShpShape

/-- A number as a value for a column: ids up to 2^53 are exact in a script (see `script_object_partial`), their
`ToString` is the decimal number and `Int32Value` takes the low 32 bits.  (Other ids are not modelled.) -/
def idAttr (id : Int) : ScriptAttr := .value (jsLit (intDec id)) (wrapS32 id)

/-- A tag as a value for a column; `toInt32` is V8's `Int32Value` of texts. (osmjs/js/osm2shape.js 197-203) -/
def tagAttr (toInt32 : JsString → Int) : JsVal → ScriptAttr
  | .str s => .value s (toInt32 s)
  | _ => .empty

/-- osmjs/js/osm2shape.js 197-203 `tags2attributes`. -/
def tags2attributes (toInt32 : JsString → Int) (id : Int) (tags : TagList) :
    List (String × String) → Res (List (String × ScriptAttr))
  | attrs => callChain (fun obj (a : String × String) =>
      match jsTag tags (jsLit a.2.toList) with
      | .error e => .error e
      | .ok v => .ok (jsPut obj a.1 (tagAttr toInt32 v))) [("id", idAttr id)] attrs

/-- osmjs/js/osm2shape.js 205-213 `check`: the loop over the rules.  If `match` is undefined, or the file is an
inherited function, there is an exception. -/
def checkRules (fits : DbfField → DbfValue → Bool) (toInt32 : JsString → Int) (o : ShapeObj) :
    List (String × ShapeDef) → List ShapeRule → Res (List (String × ShapeDef))
  | files, [] => .ok files
  | files, r :: rs =>
    match r.built with
    | none => .ok files
    | some m =>
      match ruleMatches o.tags m with
      | .error e => .error e
      | .ok false => checkRules fits toInt32 o files rs
      | .ok true =>
        match tags2attributes toInt32 o.id o.tags r.attrs with
        | .error e => .error e
        | .ok attrs =>
          match r.file with
          | none => .ok files
          | some name =>
            match jsOwn files name with
            | none => .ok files
            | some f =>
              match f.shp with
              | none => .ok files
              | some h =>
                match shpCall fits h (.add o.geom fun k => (jsOwn attrs k).getD .missing) with
                | .error e => .error e
                | .ok h => checkRules fits toInt32 o (jsPut files name { f with shp := some h }) rs

/-- osmjs/js/osm2shape.js 215-225: the callbacks `node`, `way` and `area`. -/
def shapeObject (fits : DbfField → DbfValue → Bool) (toInt32 : JsString → Int) (s : ShapeState) (o : ShapeObj) :
    Res ShapeState :=
  match checkRules fits toInt32 o s.files (s.rules o.kind) with
  | .error e => .error e
  | .ok files => .ok { s with files := files }

/-- osmjs/js/osm2shape.js 227-232: the callback `end`. -/
def shapeEnd (s : ShapeState) : ShapeState :=
  { s with files := s.files.map fun p => (p.1, { p.2 with shp := p.2.shp.map fun h => (h.1, false) }) }

/-- The callbacks in the order in which they are called: `init`, then objects, then `end` (see C81).
(osmjs/js/osm2shape.js 162-232) -/
def shapeRun (fits : DbfField → DbfValue → Bool) (toInt32 : JsString → Int) (s : ShapeState) (os : List ShapeObj) :
    Res ShapeState :=
  match shapeInit fits s with
  | .error e => .error e
  | .ok s =>
    match callChain (shapeObject fits toInt32) s os with
    | .error e => .error e
    | .ok s => .ok (shapeEnd s)

/-- The whole program: configuration and run. (osmjs/js/osm2shape.js 14-232) -/
def osm2shape (fits : DbfField → DbfValue → Bool) (toInt32 : JsString → Int) (stmts : List ConfigStmt)
    (os : List ShapeObj) : Res ShapeState :=
  match loadConfig stmts with
  | .error e => .error e
  | .ok s => shapeRun fits toInt32 s os

/-! ### The example -/

/-- osmjs/js/config.js 16-79: the shapefiles. -/
def exampleFiles : List ConfigStmt :=
  [.shapefile "natural_pois" [.type "point", .column "id" "string" (some 12), .column "type" "string" (some 32),
     .column "name" "string" (some 32)],
   .shapefile "roads" [.type "line", .column "id" "integer" (some 10), .column "type" "string" (some 32),
     .column "name" "string" (some 32), .column "ref" "string" (some 16), .column "oneway" "bool" none,
     .column "maxspeed" "integer" (some 3)],
   .shapefile "cycleways" [.type "line", .column "id" "integer" (some 10), .column "name" "string" (some 32)],
   .shapefile "railways" [.type "line", .column "id" "integer" (some 10), .column "name" "string" (some 32)],
   .shapefile "waterways" [.type "line", .column "id" "integer" (some 10), .column "type" "string" (some 32),
     .column "name" "string" (some 32)],
   .shapefile "powerlines" [.type "line", .column "id" "integer" (some 10), .column "name" "string" (some 32)],
   .shapefile "boundaries" [.type "polygon", .column "id" "integer" (some 10), .column "level" "integer" (some 2),
     .column "name" "string" (some 32)],
   .shapefile "protected_areas" [.type "polygon", .column "id" "integer" (some 10), .column "type" "string" (some 32),
     .column "name" "string" (some 32)],
   .shapefile "landuse" [.type "polygon", .column "id" "integer" (some 10), .column "type" "string" (some 32),
     .column "name" "string" (some 32)],
   .shapefile "water" [.type "polygon", .column "id" "integer" (some 10), .column "type" "string" (some 32),
     .column "name" "string" (some 32)],
   .shapefile "glaciers" [.type "polygon", .column "id" "integer" (some 10), .column "name" "string" (some 32)]]

/-- osmjs/js/config.js 83-146: the rules. -/
def exampleRules : List ConfigStmt :=
  [.rule .node "natural" (.text "tree|peak|spring")
     [.output "natural_pois", .attr "type" (some "natural"), .attr "name" none],
   .rule .way "waterway" (.text "stream|river|ditch|canal|drain")
     [.output "waterways", .attr "type" (some "waterway"), .attr "name" none],
   .rule .way "highway" (.text "motorway|trunk|primary|secondary")
     [.output "roads", .attr "type" (some "highway"), .attr "ref" none, .attr "name" none, .attr "oneway" none,
      .attr "maxspeed" none],
   .rule .way "highway" (.text "cycleway") [.output "cycleways", .attr "name" none],
   .rule .way "railway" (.text "rail") [.output "railways", .attr "name" none],
   .rule .way "power" (.text "line") [.output "powerlines", .attr "name" none],
   .rule .area "boundary" (.text "administrative")
     [.output "boundaries", .attr "level" (some "admin_level"), .attr "name" none],
   .rule .area "boundary" (.text "national_park|national_forest|protected_area")
     [.output "protected_areas", .attr "type" (some "boundary"), .attr "name" none],
   .rule .area "landuse" (.text ("forest|grass|residential|farm|meadow|farmland|industrial|farmyard|cemetery|commercial|" ++
      "quarry|orchard|vineyard|allotments|retail|construction|recreation_ground|village_green"))
     [.output "landuse", .attr "type" (some "landuse"), .attr "name" none],
   .rule .area "natural" (.text "water") [.output "water", .attr "type" (some "natural"), .attr "name" none],
   .rule .area "landuse" (.text "reservoir") [.output "water", .attr "type" (some "landuse"), .attr "name" none],
   .rule .area "waterway" (.text "riverbank") [.output "water", .attr "type" (some "waterway"), .attr "name" none],
   .rule .area "natural" (.text "glacier") [.output "glaciers", .attr "name" none]]

/-- osmjs/js/config.js. (lines 16-146) -/
def exampleConfig : List ConfigStmt := exampleFiles ++ exampleRules

end Osmium

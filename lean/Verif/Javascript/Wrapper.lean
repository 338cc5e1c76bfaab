import Verif.Javascript.UnicodeProps
import Verif.Geometry.Model
import Verif.Time.Model

/-
C80: what a script sees of OSM objects, javascript/wrapper/osm.hpp, geometry.hpp and position.hpp.
Numbers of scripts are doubles, modelled as rational numbers as in `Verif.Float`.  How long the wrapped
C++ objects live is the subject of Lifetime.lean.
-/
namespace Osmium
open Text

/-- The classes of geometry objects a script can get (javascript/wrapper/geometry.hpp 47-216).  A
multipolygon is given by its rings. -/
inductive JsGeom
  | null
  | point (p : Position)
  | line (g : FromWay)
  | polygon (g : FromWay)
  | multi (polys : List (List Position × List (List Position)))

/-- Values of a script; the last ones are wrapped C++ objects. (V8; what the functions of
javascript/wrapper/osm.hpp return) (lines 42-330) -/
inductive JsVal
  | undefined
  | bool (b : Bool)
  | num (q : ℚ)
  | str (s : JsString)
  | arr (l : List JsVal)
  | tags (t : TagList)
  | nodes (l : List WayNode)
  | members (l : List Member)
  | member (m : Member)
  | geom (g : JsGeom)

/-- `v8::Number::New` of an integer: converted to double. (V8; called in
javascript/wrapper/osm.hpp 83-300) -/
def jsNumber (n : Int) : JsVal := .num (fl n)

/-- `v8::Integer::New`: converted to `int32_t`. (V8; called in javascript/wrapper/osm.hpp 95, 152, 183, 191) -/
def jsInteger (n : Int) : JsVal := .num (wrapS32 n)

/-- `v8::String::New(const char*)`.  (V8 puts replacement characters for what is not UTF-8; this is not
modelled.) (V8; called in javascript/wrapper/osm.hpp) (lines 125, 187, 301) -/
def v8New (b : List UInt8) : JsString := ((decodeUtf8 (cString b)).getD []).flatMap utf16Char

/-- The bytes of a text. (helper for statements and proofs, no counterpart in /repo) -/
def textBytes (s : String) : List UInt8 := s.toList.flatMap String.utf8EncodeChar

/-- javascript/wrapper/position.hpp 39-45 `to_array`. -/
def positionToArray (p : Position) : JsVal := .arr [.num p.lon, .num p.lat]

/-! ### Tags -/

/-- The property names that V8 treats as indexes of an array. (V8: decides between the named and
indexed handlers set in javascript/wrapper/osm.hpp 95-105) -/
def isArrayIndex (key : JsString) : Bool :=
  match decodeUtf16 key with
  | none => false
  | some cs => cs ≠ [] && cs.all isDigit && natDec (digitsVal 0 cs) = cs && digitsVal 0 cs < 4294967295

/-- osm/tag_list.hpp 95-102 `get_value_by_key` with a key given as bytes. -/
def valueByKeyBytes : TagList → List UInt8 → Option String
  | [], _ => none
  | t :: ts, k => if textBytes t.key = k then some t.value else valueByKeyBytes ts k

/-- javascript/wrapper/osm.hpp 45-52 `OSMTagList::get_value_by_key` (`max_utf16_length_key` is 512,
osm/tag.hpp 41-42). -/
def jsTagGetter (tags : TagList) (property : JsString) : Res JsVal :=
  match v8ToUtf8 512 property with
  | .error e => .error e
  | .ok key =>
    match valueByKeyBytes tags key with
    | some value => (utf8ToV8 512 (textBytes value)).map .str
    | none => .ok .undefined

/-- `tags[property]`: javascript/wrapper/osm.hpp 69-75 registers a handler for names; V8 does not ask it
for names that are indexes, and there is no handler for these. -/
def jsTag (tags : TagList) (property : JsString) : Res JsVal :=
  if isArrayIndex property then .ok .undefined else jsTagGetter tags property

/-- javascript/wrapper/osm.hpp 54-65 `enumerate_tag_keys`: what `for (key in tags)` runs through. -/
def jsTagKeys : TagList → Res (List JsString)
  | [] => .ok []
  | t :: ts =>
    match utf8ToV8 512 (textBytes t.key) with
    | .error e => .error e
    | .ok k => (jsTagKeys ts).map (k :: ·)

/-! ### Lists -/

/-- javascript/wrapper/osm.hpp 82-84 `OSMWayNodeList::length`, 158-160 of members. -/
def jsLength {α : Type} (l : List α) : JsVal := jsNumber l.length

/-- osm/way_node_list.hpp 103-109 and osm/relation_member_list.hpp 49-55 `operator[](int)` of an
`uint32_t` index: outside of the vector it is undefined. -/
def listAt {α : Type} (l : List α) (index : Nat) : Res α :=
  if wrapS32 index < 0 then .error .ub
  else match l[(wrapS32 index).toNat]? with
    | none => .error .ub
    | some a => .ok a

/-- javascript/wrapper/osm.hpp 86-88 `get_node_id`: `nodes[index]`. -/
def jsNodeAt (l : List WayNode) (index : Nat) : Res JsVal := (listAt l index).map fun n => jsNumber n.ref

/-- javascript/wrapper/osm.hpp 143-145 `get_member`: `members[index]`. -/
def jsMemberAt (l : List Member) (index : Nat) : Res JsVal := (listAt l index).map .member

/-- javascript/wrapper/osm.hpp 90-99 `enumerate_nodes`, 147-156 `enumerate_members`: the indexes that
`for (i in list)` runs through. -/
def jsIndexes {α : Type} (l : List α) : List JsVal := (List.range l.length).map fun (i : Nat) => jsInteger i

/-- javascript/wrapper/osm.hpp 115-139 `OSMRelationMember`: the properties of a member.  Other names are
undefined. -/
def jsMemberProp (m : Member) (name : String) : Res JsVal :=
  if name = "type" then .ok (.str (v8New (textBytes (String.singleton m.type))))
  else if name = "ref" then .ok (jsNumber m.ref)
  else if name = "role" then (utf8ToV8 512 (textBytes m.role)).map .str
  else .ok .undefined

/-! ### Objects -/

/-- javascript/wrapper/osm.hpp 176-222 `OSMObject`: the properties of all objects. -/
def jsObjectProp (o : Obj) (name : String) : Res JsVal :=
  if name = "id" then .ok (jsNumber o.id)
  else if name = "version" then .ok (jsInteger o.version)
  else if name = "timestamp" then .ok (.str (v8New ((Time.toIso o.timestamp).flatMap String.utf8EncodeChar)))
  else if name = "uid" then .ok (jsInteger o.uid)
  else if name = "user" then (utf8ToV8 512 (textBytes o.user)).map .str
  else if name = "changeset" then .ok (jsNumber o.changeset)
  else if name = "tags" then .ok (.tags o.tags)
  else if name = "visible" then .ok (.bool o.visible)
  else .ok .undefined

/-- javascript/wrapper/osm.hpp 224-236 `OSMNode`. -/
def jsNodeProp (n : Node) (name : String) : Res JsVal :=
  if name = "geom" then .ok (.geom (.point n.position)) else jsObjectProp n.obj name

/-- javascript/wrapper/osm.hpp 244-262 `geom` and `reverse_geom`. -/
def jsWayLine (w : Way) (reverse : Bool) : JsGeom :=
  if wayNodesHasPosition w.nodes then .line (LineString.new w.nodes reverse w.obj.id) else .null

/-- javascript/wrapper/osm.hpp 264-272 `polygon_geom`. -/
def jsWayPolygon (w : Way) : Res JsGeom :=
  if wayNodesHasPosition w.nodes then
    match wayNodesIsClosed w.nodes with
    | none => .error .ub
    | some true => (Polygon.new w.nodes false w.obj.id).map .polygon
    | some false => .ok .null
  else .ok .null

/-- javascript/wrapper/osm.hpp 238-282 `OSMWay`. -/
def jsWayProp (w : Way) (name : String) : Res JsVal :=
  if name = "nodes" then .ok (.nodes w.nodes)
  else if name = "geom" then .ok (.geom (jsWayLine w false))
  else if name = "reverse_geom" then .ok (.geom (jsWayLine w true))
  else if name = "polygon_geom" then (jsWayPolygon w).map .geom
  else jsObjectProp w.obj name

/-- javascript/wrapper/osm.hpp 284-295 `OSMRelation`. -/
def jsRelationProp (r : Relation) (name : String) : Res JsVal :=
  if name = "members" then .ok (.members r.members) else jsObjectProp r.obj name

/-- javascript/wrapper/osm.hpp 297-315 `OSMArea`.  `geom` has the rings of the area's geometry (that it
exists is the subject of the multipolygon model). -/
def jsAreaProp (o : Obj) (polys : List (List Position × List (List Position))) (name : String) : Res JsVal :=
  if name = "from" then .ok (.str (v8New (textBytes (if areaFromWay o.id then "way" else "relation"))))
  else if name = "geom" then .ok (.geom (.multi polys))
  else jsObjectProp o name

/-! ### Geometries -/

/-- javascript/wrapper/geometry.hpp 130-138, 158-166: one of the two loops that fill the array; `max` is
an `unsigned int`. -/
def fillArray (reverse : Bool) (nodes : List WayNode) (max : Nat) : List Nat → List JsVal → Res (List JsVal)
  | [], a => .ok a
  | i :: is, a =>
    match nodes[i]? with
    | none => .error .ub
    | some n => fillArray reverse nodes max is (a.set (if reverse then max - i else i) (positionToArray n.position))

/-- javascript/wrapper/geometry.hpp 125-140 `GeometryLineString::to_array`, 151-168 for polygons.  For an
empty list `max` is 2^32-1 and the first access is undefined. -/
def nodesToArray (g : FromWay) : Res (List JsVal) :=
  let max := (wrapU32 ((g.nodes.length : Int) - 1)).toNat
  fillArray g.reverse g.nodes max (List.range (max + 1)) (List.replicate g.nodes.length .undefined)

/-- javascript/wrapper/geometry.hpp 179-191 `ring_as_array`. -/
def ringAsArray (r : List Position) : JsVal := .arr (r.map fun p => .arr [.num p.lon, .num p.lat])

/-- javascript/wrapper/geometry.hpp 102-108: the properties `lon` and `lat` of points; the other geometries
do not have them. -/
def jsGeomProp (g : JsGeom) (name : String) : JsVal :=
  match g with
  | .point p => if name = "lon" then .num p.lon else if name = "lat" then .num p.lat else .undefined
  | _ => .undefined

/-- `toArray()`: javascript/wrapper/geometry.hpp 110-112 (points), 125-140, 151-168, 193-209 (the array of a
polygon is made too short and grows when elements are set); `undefined` for the null geometry (88-98). -/
def jsToArray : JsGeom → Res JsVal
  | .null => .ok .undefined
  | .point p => .ok (positionToArray p)
  | .line g => (nodesToArray g).map .arr
  | .polygon g => (nodesToArray g).map fun a => .arr [.arr a]
  | .multi ps => .ok (.arr (ps.map fun p => .arr (ringAsArray p.1 :: p.2.map ringAsArray)))

/-- javascript/wrapper/geometry.hpp 49-57 `to_wkt`, for all but multipolygons (which GEOS writes). -/
def jsToWkt (srid : Bool) : JsGeom → Option JsVal
  | .null => some .undefined
  | .point p => some (.str (v8New ((pointWkt p srid).flatMap String.utf8EncodeChar)))
  | .line g => some (.str (v8New ((lineWkt g srid).flatMap String.utf8EncodeChar)))
  | .polygon g => some (.str (v8New ((polygonWkt g srid).flatMap String.utf8EncodeChar)))
  | .multi _ => none

/-- javascript/wrapper/geometry.hpp 59-67 `to_wkb`. -/
def jsToWkb (srid : Bool) : JsGeom → Option JsVal
  | .null => some .undefined
  | .point p => some (.str (v8New (pointWkb p srid)))
  | .line g => some (.str (v8New (lineWkb g srid)))
  | .polygon g => some (.str (v8New (polygonWkb g srid)))
  | .multi _ => none

/-- javascript/wrapper/geometry.hpp 69-77 `to_hexwkb`. -/
def jsToHexWkb (srid : Bool) : JsGeom → Option JsVal
  | .null => some .undefined
  | .point p => some (.str (v8New ((pointHexWkb p srid).flatMap String.utf8EncodeChar)))
  | .line g => some (.str (v8New ((lineHexWkb g srid).flatMap String.utf8EncodeChar)))
  | .polygon g => some (.str (v8New ((polygonHexWkb g srid).flatMap String.utf8EncodeChar)))
  | .multi _ => none

end Osmium

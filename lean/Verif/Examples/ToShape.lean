import Verif.Export.Table
import Verif.Handler.Coordinates
import Verif.Geometry.Model

/-
The example program osmium_toshape: post boxes and roads of a file as shapefiles.
-/
namespace Osmium

/-- The text a `const char*` to the beginning of a string stands for: it ends at a zero.
(examples/osmium_toshape.cpp 57, 58, 63, 79) -/
def cText (v : String) : List Char := v.toList.takeWhile (· ≠ '\x00')

/-- The text in bytes. (helper, for the texts in examples/osmium_toshape.cpp 65, 85) -/
def cBytes (v : String) : List UInt8 := utf8Bytes (cText v)
where
  /-- UTF-8. -/
  utf8Bytes (cs : List Char) : List UInt8 := cs.flatMap String.utf8EncodeChar

/-- A shape of type `type` with the coordinates given to Shapelib (geometry/shplib.hpp 49-53, 92-100):
`ident` is any function of the coordinates, `SHPCreateSimpleObject` makes one part of a line and none of a
point. -/
def shapeOf (ident : ShpObject → Nat) (type : ShpType) (o : ShpObject) : ShpShape :=
  ⟨type, o.parts.length, o.xs.length, ident o⟩

/-- geometry/shplib.hpp 49-53 `create_shp_object(Point)`. -/
def pointObject (p : Position) : ShpObject := ⟨[], [p.lon], [p.lat]⟩

/-- export/shapefile.hpp 198-279: `add_geometry`, then `add_attribute` for some fields. -/
def addRow (fits : DbfField → DbfValue → Bool) (t : ShpTable) (shape : ShpShape) (attrs : List (Nat × DbfValue)) :
    Res ShpTable :=
  t.run fits (.geometry shape :: attrs.map fun a => .attr a.1 a.2)

/-- `catch (Osmium::Geometry::IllegalGeometry)`: the exception is only thrown before anything is changed.
(examples/osmium_toshape.cpp 67, 86) -/
def ignoreIllegal (t : ShpTable) : Res ShpTable → Res ShpTable
  | .error (.exn "IllegalGeometry") => .ok t
  | r => r

/-- examples/osmium_toshape.cpp 55-71 `node`, after the call of the other handler: the file of points. -/
def toshapeNode (fits : DbfField → DbfValue → Bool) (ident : ShpObject → Nat) (t : ShpTable) (n : Node) :
    Res ShpTable :=
  match TagList.getValueByKey n.obj.tags "amenity" with
  | none => .ok t
  | some amenity =>
    if cText amenity = "post_box".toList then
      match TagList.getValueByKey n.obj.tags "operator" with
      | none =>
        ignoreIllegal t (addRow fits t (shapeOf ident .point (pointObject n.position)) [(0, .double (fl n.obj.id))])
      | some op =>
        match truncateAttribute 30 (cBytes op) with
        | .error e => .error e
        | .ok b => ignoreIllegal t (addRow fits t (shapeOf ident .point (pointObject n.position))
            [(0, .double (fl n.obj.id)), (1, .string b)])
    else .ok t

/-- examples/osmium_toshape.cpp 77-90 `way`, after the call of the other handler: the file of lines. -/
def toshapeWay (fits : DbfField → DbfValue → Bool) (ident : ShpObject → Nat) (t : ShpTable) (w : Way) :
    Res ShpTable :=
  match TagList.getValueByKey w.obj.tags "highway" with
  | none => .ok t
  | some highway =>
    ignoreIllegal t (match createLineOrPolygon (LineString.new w.nodes false w.obj.id) with
      | .error e => .error e
      | .ok o =>
        match truncateAttribute 30 (cBytes highway) with
        | .error e => .error e
        | .ok b => addRow fits t (shapeOf ident .arc o) [(0, .double (fl w.obj.id)), (1, .string b)])

/-- examples/osmium_toshape.cpp 36-44 constructor: the two shapefiles with their fields. -/
def toshapeNew (fits : DbfField → DbfValue → Bool) : Res (ShpTable × ShpTable) := do
  let p ← (ShpTable.new .point).run fits [.field "id" "double" 12 0, .field "operator" "string" 30 0]
  let l ← (ShpTable.new .arc).run fits [.field "id" "double" 12 0, .field "type" "string" 30 0]
  return (p, l)

/-- The effect of a call (with the argument as the other handler left it) on the shapefiles.
(examples/osmium_toshape.cpp 55-90) -/
def toshapeTables (fits : DbfField → DbfValue → Bool) (ident : ShpObject → Nat) (s : ShpTable × ShpTable) :
    Cb → Res (ShpTable × ShpTable)
  | .obj (.node n) => (toshapeNode fits ident s.1 n).map (·, s.2)
  | .obj (.way w) => (toshapeWay fits ident s.2 w).map (s.1, ·)
  | _ => .ok s

/-- examples/osmium_toshape.cpp 51-90: the calls; each is first passed on to the handler for coordinates.  (That
handler does nothing for `init` and the ends of blocks.) -/
def toshapeRun {S T : Type} (pos : IdStore S Position) (neg : IdStore T Position)
    (fits : DbfField → DbfValue → Bool) (ident : ShpObject → Nat) :
    S × T → ShpTable × ShpTable → List Cb → Res (ShpTable × ShpTable)
  | _, s, [] => .ok s
  | c, s, call :: calls =>
    match cfwStep pos neg c call with
    | .error e => .error e
    | .ok (c, call) =>
      match toshapeTables fits ident s call with
      | .error e => .error e
      | .ok s => toshapeRun pos neg fits ident c s calls

/-- examples/osmium_toshape.cpp 95-106 `main`; exceptions are not caught there. -/
def toshapeMain {S T : Type} (pos : IdStore S Position) (neg : IdStore T Position)
    (fits : DbfField → DbfValue → Bool) (ident : ShpObject → Nat) (calls : List Cb) : Res (ShpTable × ShpTable) :=
  match toshapeNew fits with
  | .error e => .error e
  | .ok s => toshapeRun pos neg fits ident (pos.empty, neg.empty) s calls

end Osmium

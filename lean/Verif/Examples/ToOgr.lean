import Verif.Examples.ToShape
import Verif.Tags.Model

/-
The example programs osmium_to_postgis and osmium_toogr: features made with the OGR library.
-/
namespace Osmium

/-- Geometries given to the library. (geometry/ogr.hpp 45-68) -/
inductive OgrGeometry where
  | point (x y : ℚ)
  | line (points : List (ℚ × ℚ))
deriving DecidableEq

/-- Values of fields given to the library: `SetField` with a double or with a `const char*` that can be NULL.
(examples/osmium_toogr.cpp 134-135, 170-171, examples/osmium_to_postgis.cpp 103-104) -/
inductive OgrValue where
  | real (q : ℚ)
  | text (s : Option (List Char))
deriving DecidableEq

/-- A feature given to the library. (`OGRLayer::CreateFeature`, examples/osmium_toogr.cpp 131-137) -/
structure OgrFeature where
  geometry : OgrGeometry
  fields : List (String × OgrValue)
deriving DecidableEq

/-- geometry/ogr.hpp 45-47 `create_ogr_geometry(Point)`. -/
def ogrPoint (p : Position) : OgrGeometry := .point p.lon p.lat

/-! ### osmium_to_postgis -/

/-- What is done with the layer. (examples/osmium_to_postgis.cpp 81, 106, 121) -/
inductive PgOp where
  | start
  | create (f : OgrFeature)
  | commit
deriving DecidableEq

/-- examples/osmium_to_postgis.cpp 45, 83-84: the filter. -/
def pgFilter : KeyFilter := ((KeyFilter.new true).add false "created_by").add false "odbl"

/-- examples/osmium_to_postgis.cpp 92-118 `node`: the feature for the node, if there is one.  (Nothing throws
`IllegalGeometry` for points.) -/
def pgNode (n : Node) : Option OgrFeature :=
  if n.obj.tags.isEmpty then none
  else
    let tags := filterAndAccumulate n.obj.tags pgFilter.apply [] hstoreOp.apply
    if tags = [] then none
    else some ⟨ogrPoint n.position, [("id", .text (some (Text.intDec n.obj.id))), ("tags", .text (some tags))]⟩

/-- examples/osmium_to_postgis.cpp 92-122: the methods of the handler; `accepts` tells for which features
`CreateFeature` succeeds, otherwise the program ends. -/
def pgStep (accepts : OgrFeature → Bool) : Cb → Res (List PgOp)
  | .obj (.node n) =>
    match pgNode n with
    | none => .ok []
    | some f => if accepts f then .ok [.create f] else .error (.exn "exit(1)")
  | .after .node => .ok [.commit]
  | _ => .ok []

/-- All calls. (examples/osmium_to_postgis.cpp 92-122) -/
def pgRun (accepts : OgrFeature → Bool) : List Cb → Res (List PgOp)
  | [] => .ok []
  | c :: cs =>
    match pgStep accepts c with
    | .error e => .error e
    | .ok a =>
      match pgRun accepts cs with
      | .error e => .error e
      | .ok b => .ok (a ++ b)

/-- examples/osmium_to_postgis.cpp 42-85 (if the database can be opened and the table made), 177-179. -/
def pgMain (accepts : OgrFeature → Bool) (calls : List Cb) : Res (List PgOp) :=
  match pgRun accepts calls with
  | .error e => .error e
  | .ok ops => .ok (.start :: ops)

/-! ### osmium_toogr -/

/-- examples/osmium_toogr.cpp 126-148 `node`, after the call of the other handler: the feature for the layer of
points. -/
def toogrNode (n : Node) : Option OgrFeature :=
  match TagList.getValueByKey n.obj.tags "amenity" with
  | none => none
  | some amenity =>
    if cText amenity = "post_box".toList then
      some ⟨ogrPoint n.position, [("id", .real (fl n.obj.id)),
        ("operator", .text ((TagList.getValueByKey n.obj.tags "operator").map cText))]⟩
    else none

/-- examples/osmium_toogr.cpp 162-184 `way`, after the call of the other handler: the feature for the layer of
lines.  (Nothing throws `IllegalGeometry` here.) -/
def toogrWay (w : Way) : Option OgrFeature :=
  match TagList.getValueByKey w.obj.tags "highway" with
  | none => none
  | some highway => some ⟨.line (ogrLine (LineString.new w.nodes false w.obj.id)),
      [("id", .real (fl w.obj.id)), ("type", .text (some (cText highway)))]⟩

/-- A new feature in a layer; the program ends if the library refuses it.
(examples/osmium_toogr.cpp 137-140, 173-176) -/
def createFeature (accepts : OgrFeature → Bool) (layer : List OgrFeature) : Option OgrFeature → Res (List OgrFeature)
  | none => .ok layer
  | some f => if accepts f then .ok (layer ++ [f]) else .error (.exn "exit(1)")

/-- The effect of a call (with the argument as the other handler left it) on the layers.
(examples/osmium_toogr.cpp 124-184) -/
def toogrStep (accepts : OgrFeature → Bool) (s : List OgrFeature × List OgrFeature) :
    Cb → Res (List OgrFeature × List OgrFeature)
  | .obj (.node n) => (createFeature accepts s.1 (toogrNode n)).map (·, s.2)
  | .obj (.way w) => (createFeature accepts s.2 (toogrWay w)).map (s.1, ·)
  | _ => .ok s

/-- examples/osmium_toogr.cpp 120-184: the calls; each is first passed on to the handler for coordinates. -/
def toogrRun {S T : Type} (pos : IdStore S Position) (neg : IdStore T Position) (accepts : OgrFeature → Bool) :
    S × T → List OgrFeature × List OgrFeature → List Cb → Res (List OgrFeature × List OgrFeature)
  | _, s, [] => .ok s
  | c, s, call :: calls =>
    match cfwStep pos neg c call with
    | .error e => .error e
    | .ok (c, call) =>
      match toogrStep accepts s call with
      | .error e => .error e
      | .ok s => toogrRun pos neg accepts c s calls

/-- examples/osmium_toogr.cpp 42-112 (if the layers and fields can be made), 245-247. -/
def toogrMain {S T : Type} (pos : IdStore S Position) (neg : IdStore T Position) (accepts : OgrFeature → Bool)
    (calls : List Cb) : Res (List OgrFeature × List OgrFeature) :=
  toogrRun pos neg accepts (pos.empty, neg.empty) ([], []) calls

end Osmium

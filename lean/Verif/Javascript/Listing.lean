import Verif.Javascript.Scripts
import Verif.Multipolygon.Pipeline

/-
C115: the example scripts objects.js and objects_2pass.js of osmjs, which list all objects.

What is printed is modelled as bytes.  `num` is what V8 makes of a number that is not a text (`ToString`).
-/
namespace Osmium
open Text

/-- `ToString` of the values that occur here. (V8) (used in osmjs/js/objects.js 11-46) -/
def jsShow (num : ℚ → List Char) : JsVal → JsString
  | .str s => s
  | .num q => jsLit (num q)
  | .bool true => jsLit "true".toList
  | .bool false => jsLit "false".toList
  | _ => jsLit "undefined".toList

/-- `a + ' ' + b + ' ' + ...`. (V8) (used in osmjs/js/objects.js 11-46) -/
def spaced : List JsString → JsString
  | [] => []
  | [s] => s
  | s :: ss => s ++ jsLit [' '] ++ spaced ss

/-- javascript/handler.hpp 114-123 `print` with one argument: the bytes on standard output. -/
def printText (out : List UInt8) (s : JsString) : Res (List UInt8) :=
  (v8ToStream s).map fun b => out ++ b ++ [10]

/-- The values of some properties as texts. (V8; osmjs/js/objects.js 16, 23, 33) -/
def shownProps (num : ℚ → List Char) (prop : String → Res JsVal) : List String → Res (List JsString)
  | [] => .ok []
  | name :: names => (prop name).bind fun v => (shownProps num prop names).map (jsShow num v :: ·)

/-- The properties that all objects have (osmjs/js/objects.js 16, 23, 33). -/
def listedProps : List String := ["id", "version", "timestamp", "uid", "user", "changeset"]

/-- osmjs/js/objects.js 17-19, 24-26, 34-36: one tag. -/
def listTag (num : ℚ → List Char) (tags : TagList) (out : List UInt8) (key : JsString) : Res (List UInt8) :=
  (jsTag tags key).bind fun v => printText out (jsLit [' '] ++ key ++ jsLit ['='] ++ jsShow num v)

/-- osmjs/js/objects.js 17-19, 24-26, 34-36: the loop over the tags. -/
def listTags (num : ℚ → List Char) (tags : TagList) (out : List UInt8) : Res (List UInt8) :=
  (jsTagKeys tags).bind fun keys => callChain (listTag num tags) out keys

/-- osmjs/js/objects.js 16: the line for a node; `ps` are the properties that all objects have. -/
def nodeLine (num : ℚ → List Char) (ps : List JsString) (g : JsGeom) : JsString :=
  spaced (jsLit "node".toList :: ps ++
    [jsShow num (jsGeomProp g "lon"), jsShow num (jsGeomProp g "lat"),
     jsShow num ((jsToWkt false g).getD .undefined),
     jsLit ['['] ++ jsShow num ((jsToHexWkb false g).getD .undefined) ++ jsLit [']']])

/-- osmjs/js/objects.js 15-20: the callback `node`. -/
def listNode (num : ℚ → List Char) (out : List UInt8) (n : Node) : Res (List UInt8) :=
  (shownProps num (jsNodeProp n) listedProps).bind fun ps =>
    (printText out (nodeLine num ps (.point n.position))).bind fun out => listTags num n.obj.tags out

/-- osmjs/js/objects.js 28: one node of a way. -/
def listRef (num : ℚ → List Char) (nodes : List WayNode) (out : List UInt8) (i : Nat) : Res (List UInt8) :=
  (jsNodeAt nodes i).bind fun v => printText out (jsLit " ref ".toList ++ jsShow num v)

/-- osmjs/js/objects.js 22-30: the callback `way`. -/
def listWay (num : ℚ → List Char) (out : List UInt8) (w : Way) : Res (List UInt8) :=
  (shownProps num (jsWayProp w) listedProps).bind fun ps =>
    (printText out (spaced (jsLit "way".toList :: ps ++
      [jsShow num ((jsToWkt false (jsWayLine w false)).getD .undefined)]))).bind fun out =>
      (listTags num w.obj.tags out).bind fun out => callChain (listRef num w.nodes) out (List.range w.nodes.length)

/-- osmjs/js/objects.js 38-39: one member of a relation. -/
def listMember (num : ℚ → List Char) (members : List Member) (out : List UInt8) (i : Nat) : Res (List UInt8) :=
  (jsMemberAt members i).bind fun
    | .member m => (shownProps num (jsMemberProp m) ["type", "ref", "role"]).bind fun ps =>
        printText out (jsLit [' '] ++ spaced (jsLit "member".toList :: ps))
    | _ => .error .ub

/-- osmjs/js/objects.js 32-41: the callback `relation`. -/
def listRelation (num : ℚ → List Char) (out : List UInt8) (r : Relation) : Res (List UInt8) :=
  (shownProps num (jsRelationProp r) listedProps).bind fun ps =>
    (printText out (spaced (jsLit "relation".toList :: ps))).bind fun out =>
      (listTags num r.obj.tags out).bind fun out =>
        callChain (listMember num r.members) out (List.range r.members.length)

/-- osmjs/js/objects_2pass.js 43-48: the callback `area`. -/
def listArea (num : ℚ → List Char) (out : List UInt8) (a : Area) : Res (List UInt8) :=
  (shownProps num (jsAreaProp a.obj []) ["from", "id", "version", "timestamp", "uid", "changeset"]).bind fun ps =>
    (printText out (spaced (jsLit "area".toList :: jsLit "from".toList :: ps))).bind fun out =>
      listTags num a.obj.tags out

/-- The callbacks of osmjs/js/objects.js for the calls of a handler (javascript/handler.hpp 274-380). -/
def listCall (num : ℚ → List Char) (out : List UInt8) : Cb → Res (List UInt8)
  | .init _ => printText out (jsLit "Start!".toList)
  | .obj (.node n) => listNode num out n
  | .obj (.way w) => listWay num out w
  | .obj (.relation r) => listRelation num out r
  | .final => printText out (jsLit "End!".toList)
  | _ => .ok out

/-- The callbacks of osmjs/js/objects_2pass.js, which are the same but for areas. (lines 11-53) -/
def listWholeCall (num : ℚ → List Char) (out : List UInt8) : WholeCall → Res (List UInt8)
  | .call c => listCall num out c
  | .area a _ => listArea num out a

/-- `osmjs -l ... -j objects.js`: each call goes to the handler for coordinates and then to the script.
(osmjs/osmjs.cpp 255-260; handler/sequence.hpp; handler/coordinates_for_ways.hpp 50-76) -/
def listRun {S T : Type} (pos : IdStore S Position) (neg : IdStore T Position) (num : ℚ → List Char) :
    S × T → List UInt8 → List Cb → Res (List UInt8)
  | _, out, [] => .ok out
  | c, out, call :: calls =>
    match cfwStep pos neg c call with
    | .error e => .error e
    | .ok (c, call) =>
      match listCall num out call with
      | .error e => .error e
      | .ok out => listRun pos neg num c out calls

/-- `osmjs -2 -m -l ... -j objects_2pass.js`: the second pass; `s` is the assembler after the first one
(osmjs/osmjs.cpp 236-254).  Simplification: what is printed before an exception is left out. -/
def listAreas {S T : Type} (env : WholeEnv) (pos : IdStore S Position) (neg : IdStore T Position) (s : Asm)
    (num : ℚ → List Char) (calls : List Cb) : Res (List UInt8) :=
  match secondPass env pos neg s calls with
  | .error e => .error e
  | .ok cs => callChain (listWholeCall num) [] cs

end Osmium

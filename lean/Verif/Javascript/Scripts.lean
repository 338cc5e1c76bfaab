import Verif.Javascript.Osm2shape

/-
C111: the example scripts of osmjs that count and list objects: osmjs/js/count.js, osm2csv.js and time.js.

A callback is a function on the variables of the script.  Exceptions of C++ (`Fail`) end the program, see
Wrapper.lean.  What is printed on the screen is modelled for time.js only.
-/
namespace Osmium
open Text

/-- `ToString` of the values `tags[key]` can have. (V8) (used in osmjs/js/osm2csv.js 11-20) -/
def jsToText : JsVal → JsString
  | .str s => s
  | _ => jsLit "undefined".toList

/-! ### count.js -/

/-- The values in the objects `keys_counter` and `tags_counter` (osmjs/js/count.js 11-12).  Numbers are exact up
to 2^53, which is not modelled. -/
inductive JsCount
  | num (n : Nat)
  | nan
deriving DecidableEq, Repr

/-- osmjs/js/count.js 21-25, if the object has the property: `NaN` is false. -/
def JsCount.next : JsCount → JsCount
  | .num n => .num (n + 1)
  | .nan => .num 1

/-- The name `__proto__`. (V8) (used in osmjs/js/count.js 11-53) -/
def protoName : JsString := jsLit "__proto__".toList

/-- The names of the functions every object inherits. (V8) (used in osmjs/js/count.js 11-53) -/
def inheritedUnits : List JsString := inheritedNames.map fun n => jsLit n.toList

/-- osmjs/js/count.js 21-25, 29-33.  What every object inherits from `Object.prototype` is a function, so it is
true, and one more than a function is `NaN`.  `__proto__` is an object, and assigning a number to it has no
effect. (V8) -/
def countUp : List (JsString × JsCount) → JsString → List (JsString × JsCount)
  | [], k =>
    if k = protoName then []
    else if k ∈ inheritedUnits then [(k, .nan)]
    else [(k, .num 1)]
  | (k', c) :: l, k => if k' = k then (k', c.next) :: l else (k', c) :: countUp l k

/-- The variables (osmjs/js/count.js 11-12). -/
structure Counters where
  keys : List (JsString × JsCount)
  tags : List (JsString × JsCount)
deriving DecidableEq

/-- osmjs/js/count.js 19-35: the body of the loop in the callback `node`. -/
def countTag (tags : TagList) (s : Counters) (key : JsString) : Res Counters :=
  match jsTag tags key with
  | .error e => .error e
  | .ok value => .ok ⟨countUp s.keys key, countUp s.tags (key ++ jsLit ['\t'] ++ jsToText value)⟩

/-- osmjs/js/count.js 18-36: the callback `node`. -/
def countNode (s : Counters) (tags : TagList) : Res Counters :=
  match jsTagKeys tags with
  | .error e => .error e
  | .ok keys => callChain (countTag tags) s keys

/-- `ToString` of a counter. (V8) (used in osmjs/js/count.js 11-53) -/
def JsCount.text : JsCount → JsString
  | .num n => jsLit (natDec n)
  | .nan => jsLit "NaN".toList

/-- osmjs/js/count.js 39-43, 45-49: one of the files written in the callback `end`.  (V8 enumerates names that are
numbers first; this is not modelled.) -/
def countFile (t : List (JsString × JsCount)) : CsvFile × Option Fail :=
  csvRun CsvFile.new (t.map (fun p => .print [p.1, p.2.text]) ++ [.close])

/-- The two files stats-keys-nodes.csv and stats-tags-nodes.csv after a file with these nodes (osmjs/js/count.js
11-53).  If the first cannot be written, `end` is left with an exception of C++. -/
def countScript (nodes : List TagList) : Res (CsvFile × CsvFile) :=
  match callChain countNode ⟨[], []⟩ nodes with
  | .error e => .error e
  | .ok s =>
    match countFile s.keys, countFile s.tags with
    | (k, none), (t, none) => .ok (k, t)
    | (_, some e), _ => .error e
    | _, (_, some e) => .error e

/-! ### osm2csv.js -/

/-- osmjs/js/osm2csv.js 13-15: the arguments of `print` in the callback `node`, for ids up to 2^53, which are exact
(see `idAttr`). -/
def osm2csvArgs (n : Int × TagList) : Res (List JsString) :=
  match jsTag n.2 (jsLit "name".toList), jsTag n.2 (jsLit "note".toList) with
  | .ok name, .ok note => .ok [jsLit (intDec n.1), jsToText name, jsToText note]
  | .error e, _ => .error e
  | _, .error e => .error e

/-- osmjs/js/osm2csv.js 13-15: the callback `node`. -/
def osm2csvNode (f : CsvFile) (n : Int × TagList) : Res CsvFile :=
  match osm2csvArgs n with
  | .error e => .error e
  | .ok args =>
    match csvPrint f args with
    | (f, none) => .ok f
    | (_, some e) => .error e

/-- osmjs/js/osm2csv.js: the file out.csv after a file with these nodes. (lines 11-20) -/
def osm2csv (nodes : List (Int × TagList)) : Res CsvFile :=
  match callChain osm2csvNode CsvFile.new nodes with
  | .error e => .error e
  | .ok f => .ok (csvClose f)

/-! ### time.js -/

/-- The variables of osmjs/js/time.js 3 and the lines printed so far. -/
structure TimeVars where
  nodes : Nat
  ways : Nat
  relations : Nat
  out : List String
deriving DecidableEq

/-- osmjs/js/time.js 5-24: the callbacks for objects. -/
def timeObject (s : TimeVars) : ObjType → TimeVars
  | .node => { s with nodes := s.nodes + 1 }
  | .way => { s with ways := s.ways + 1, out := if s.ways = 0 then s.out ++ ["first way"] else s.out }
  | .relation =>
    { s with relations := s.relations + 1, out := if s.relations = 0 then s.out ++ ["first relation"] else s.out }
  | _ => s

/-- osmjs/js/time.js 26-28: the callback `end`. -/
def timeEnd (s : TimeVars) : List String :=
  s.out ++ ["nodes: " ++ String.ofList (natDec s.nodes) ++ "  ways: " ++ String.ofList (natDec s.ways) ++
    "  relations: " ++ String.ofList (natDec s.relations)]

/-- osmjs/js/time.js: what is printed for a file with objects of these types. (lines 3-29) -/
def timeScript (types : List ObjType) : List String := timeEnd (types.foldl timeObject ⟨0, 0, 0, []⟩)

end Osmium

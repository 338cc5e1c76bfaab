import Verif.Examples.ToOgr
import Verif.Examples.Areas
import Verif.Examples.ConvertMain
import Verif.Relations.Usage

/-
C122: the programs osmium_toogr, osmium_to_postgis and osmium_toogr2 as a whole: their arguments, everything they ask of
the OGR library, and how they end.
-/
namespace Osmium
open Text

/-- Kinds of layers. (examples/osmium_toogr.cpp 61, 88, examples/osmium_toogr2.cpp 58) -/
inductive OgrKind
  | point
  | line
  | multipolygon
deriving DecidableEq, Repr

/-- Types of fields. (examples/osmium_toogr.cpp 67, 75, 94, 102, examples/osmium_toogr2.cpp 64) -/
inductive OgrType
  | integer
  | real
  | string
deriving DecidableEq, Repr

/-- What the programs ask of the library.  All layers are made for WGS84.  Simplification: registering drivers and
setting options of drivers are left out. (examples/osmium_toogr.cpp 47-115, 137, 173, examples/osmium_to_postgis.cpp 49-88,
106, 121, examples/osmium_toogr2.cpp 43-74, 91) -/
inductive OgrReq
  | driver (name : List Char)
  | source (name : List Char) (options : List String)
  | sql (command : String)
  | openLayer (name : String)
  | layer (name : String) (kind : OgrKind)
  | field (layer name : String) (type : OgrType) (width : Nat)
  | start (layer : String)
  | feature (layer : String) (f : OgrFeature)
  | area (layer : String) (f : OgrArea)
  | commit (layer : String)
  | close
deriving DecidableEq

/-- Whether the programs look at the result. (examples/osmium_to_postgis.cpp 64-71, 81, 121 and the destructors do not) -/
def OgrReq.checked : OgrReq → Bool
  | .sql _ => false
  | .start _ => false
  | .commit _ => false
  | .close => false
  | _ => true

/-- The library: whether it does what it is asked to, after all that was asked before. (the OGR library, used by
examples/osmium_toogr.cpp 42-184) -/
abbrev OgrLib := List OgrReq → OgrReq → Bool

/-- Requests one after the other, `exit(1)` if one is refused: all that was asked, and whether the program goes on.
(examples/osmium_toogr.cpp 47-108, 137-140, examples/osmium_to_postgis.cpp 49-81, examples/osmium_toogr2.cpp 43-70) -/
def ogrAsk (lib : OgrLib) (asked : List OgrReq) : List OgrReq → List OgrReq × Bool
  | [] => (asked, true)
  | r :: rs => if r.checked && !lib asked r then (asked ++ [r], false) else ogrAsk lib (asked ++ [r]) rs

/-- The calls of the reader; `step` is the handler. (examples/osmium_toogr.cpp 120-184, 247) -/
def ogrCalls {σ γ : Type} (lib : OgrLib) (step : σ → γ → Res (σ × List OgrReq)) :
    σ → List OgrReq → List γ → Res (List OgrReq × Bool)
  | _, asked, [] => .ok (asked, true)
  | s, asked, c :: cs =>
    (step s c).bind fun p =>
      if (ogrAsk lib asked p.2).2 then ogrCalls lib step p.1 (ogrAsk lib asked p.2).1 cs
      else .ok ((ogrAsk lib asked p.2).1, false)

/-- How a program ends: the status (none after an exception nobody catches), what it printed to standard output, and all
it has asked of the library. (examples/osmium_toogr.cpp 203-250) -/
structure OgrEnd where
  status : Option Nat
  out : List Char
  asked : List OgrReq
deriving DecidableEq

/-- The handler is made, all calls, and the destructor of the handler at the end of `main` (it is not called by `exit`, nor
after an exception that nobody catches).
(examples/osmium_toogr.cpp 246-249, examples/osmium_to_postgis.cpp 178-181, examples/osmium_toogr2.cpp 122-142) -/
def ogrRun {σ γ : Type} (lib : OgrLib) (setup : List OgrReq) (step : σ → γ → Res (σ × List OgrReq)) (s : σ)
    (calls : List γ) (ended : ParseEnd) : Res OgrEnd :=
  if (ogrAsk lib [] setup).2 then
    (ogrCalls lib step s (ogrAsk lib [] setup).1 calls).map fun p =>
      if p.2 then
        if ended = .returned then ⟨some 0, [], p.1 ++ [.close]⟩ else ⟨none, [], p.1⟩
      else ⟨some 1, [], p.1⟩
  else .ok ⟨some 1, [], (ogrAsk lib [] setup).1⟩

/-! ### osmium_toogr -/

/-- What getopt_long returns, one after the other (examples/osmium_toogr.cpp 212-229); `bad` is any other value ('?'). -/
inductive ToogrOpt
  | help
  | format (f : List Char)
  | bad
deriving DecidableEq, Repr

/-- examples/osmium_toogr.cpp 210-229: the loop; the name of the format, or the argument of `exit`. -/
def toogrOptions (f : List Char) : List ToogrOpt → Except Nat (List Char)
  | [] => .ok f
  | .help :: _ => .error 0
  | .format f :: os => toogrOptions f os
  | .bad :: _ => .error 1

/-- examples/osmium_toogr.cpp 231-243: the names of the files. -/
def toogrNames : List (List Char) → Option (List Char × List Char)
  | [] => some ("-".toList, "ogr_out".toList)
  | [i] => some (i, "ogr_out".toList)
  | [i, o] => some (i, o)
  | _ => none

/-- examples/osmium_toogr.cpp 194-201 `print_help`. -/
def toogrHelp : List Char :=
  ("osmium_toogr [OPTIONS] [INFILE [OUTFILE]]\n\nIf INFILE is not given stdin is assumed.\n" ++
   "If OUTFILE is not given 'ogr_out' is used.\n\nOptions:\n  -h, --help           This help message\n" ++
   "  -f, --format=FORMAT  Output OGR format (Default: 'SQLite')\n").toList

/-- examples/osmium_toogr.cpp 42-112: the constructor of the handler. -/
def toogrSetup (driver file : List Char) : List OgrReq :=
  [.driver driver, .source file ["SPATIALITE=TRUE"],
   .layer "postboxes" .point, .field "postboxes" "id" .real 10, .field "postboxes" "operator" .string 30,
   .layer "roads" .line, .field "roads" "id" .real 10, .field "roads" "type" .string 30]

/-- The feature for a call, after the handler for coordinates. (examples/osmium_toogr.cpp 126-148, 163-184) -/
def toogrReqs : Cb → List OgrReq
  | .obj (.node n) => (toogrNode n).toList.map (.feature "postboxes")
  | .obj (.way w) => (toogrWay w).toList.map (.feature "roads")
  | _ => []

/-- A call. (examples/osmium_toogr.cpp 120-184) -/
def toogrCall {S T : Type} (pos : IdStore S Position) (neg : IdStore T Position) (c : S × T) (call : Cb) :
    Res ((S × T) × List OgrReq) :=
  (cfwStep pos neg c call).map fun p => (p.1, toogrReqs p.2)

/-- examples/osmium_toogr.cpp 203-250 `main`; `read` is what the reader does with a file. -/
def toogrProgram {S T : Type} (lib : OgrLib) (pos : IdStore S Position) (neg : IdStore T Position)
    (read : FileInfo → List Cb × ParseEnd) (opts : List ToogrOpt) (args : List (List Char)) : Res OgrEnd :=
  match toogrOptions "SQLite".toList opts with
  | .error n => .ok ⟨some n, if n = 0 then toogrHelp else [], []⟩
  | .ok driver =>
    match toogrNames args with
    | none => .ok ⟨some 1, [], []⟩
    | some (i, o) =>
      ogrRun lib (toogrSetup driver o) (toogrCall pos neg) (pos.empty, neg.empty) (read (FileInfo.ofName i)).1
        (read (FileInfo.ofName i)).2

/-! ### osmium_to_postgis -/

/-- What getopt_long returns (examples/osmium_to_postgis.cpp 142-159). -/
inductive PgOpt
  | debug
  | help
  | bad
deriving DecidableEq, Repr

/-- examples/osmium_to_postgis.cpp 140-159: the variable `debug`, or the argument of `exit`. -/
def pgOptions (debug : Bool) : List PgOpt → Except Nat Bool
  | [] => .ok debug
  | .debug :: os => pgOptions true os
  | .help :: _ => .error 0
  | .bad :: _ => .error 1

/-- examples/osmium_to_postgis.cpp 128-133 `print_help`. -/
def pgHelp : List Char :=
  ("osmium_to_postgis [OPTIONS] INFILE DATABASE\n\n\nOptions:\n  -h, --help           This help message\n" ++
   "  -d, --debug          Enable debugging output\n").toList

/-- examples/osmium_to_postgis.cpp 42-85: the constructor of the handler. -/
def pgSetup (database : List Char) : List OgrReq :=
  [.driver "PostgreSQL".toList, .source database [], .sql "CREATE TABLE nodes (id VARCHAR, tags hstore);",
   .sql "SELECT AddGeometryColumn('nodes', 'geom', 4326, 'POINT', 2);", .openLayer "nodes", .start "nodes"]

/-- A call. (examples/osmium_to_postgis.cpp 92-122) -/
def pgCall (u : Unit) : Cb → Res (Unit × List OgrReq)
  | .obj (.node n) => .ok (u, (pgNode n).toList.map (.feature "nodes"))
  | .after .node => .ok (u, [.commit "nodes"])
  | _ => .ok (u, [])

/-- examples/osmium_to_postgis.cpp 135-181 `main`. -/
def pgProgram (lib : OgrLib) (read : FileInfo → List Cb × ParseEnd) (opts : List PgOpt) (args : List (List Char)) :
    Res OgrEnd :=
  match pgOptions false opts with
  | .error n => .ok ⟨some n, if n = 0 then pgHelp else [], []⟩
  | .ok debug =>
    match args with
    | [file, name] =>
      let database := "PG:dbname=".toList ++ name
      let out := if debug then "Reading file '".toList ++ file ++ "'\nOpening database '".toList ++ database ++ "'\n".toList
        else []
      (ogrRun lib (pgSetup database) pgCall () (read (FileInfo.ofName file)).1
        (read (FileInfo.ofName file)).2).map fun e => { e with out := out }
    | _ => .ok ⟨some 1, [], []⟩

/-! ### osmium_toogr2 -/

/-- examples/osmium_toogr2.cpp 42-71: the constructor of the handler. -/
def toogr2Setup : List OgrReq :=
  [.driver "SQLite".toList, .source "ogr_out.sqlite".toList ["SPATIALITE=TRUE"], .layer "areas" .multipolygon,
   .field "areas" "id" .integer 10]

/-- A call of the handler behind the assembler. (examples/osmium_toogr2.cpp 78-101) -/
def toogr2Call (u : Unit) : WholeCall → Res (Unit × List OgrReq)
  | .area a g => (toogr2Area a g).map fun f => (u, f.toList.map (.area "areas"))
  | .call _ => .ok (u, [])

/-- examples/osmium_toogr2.cpp 109-144 `main`: `s` is the assembler after the first pass, `read` what the reader does
with the file in the first and in the second pass.  Simplifications: if something throws an exception while an area is made,
only that is the result; what the assembler prints to standard output (assembler.hpp 83-117 and `used_memory`) is
left out; it is in `toogr2Stdout` (Multipolygon/Messages). -/
def toogr2Program {S T : Type} (lib : OgrLib) (env : WholeEnv) (pos : IdStore S Position) (neg : IdStore T Position)
    (s : Asm) (read1 read2 : FileInfo → List Cb × ParseEnd) (args : List (List Char)) : Res OgrEnd :=
  match args with
  | [file] =>
    if (ogrAsk lib [] toogr2Setup).2 ∧ (read1 (FileInfo.ofName file)).2 ≠ .returned then
      .ok ⟨none, [], (ogrAsk lib [] toogr2Setup).1⟩
    else if (ogrAsk lib [] toogr2Setup).2 then
      (secondPass env pos neg s (read2 (FileInfo.ofName file)).1).bind fun cs =>
        ogrRun lib toogr2Setup toogr2Call () cs (read2 (FileInfo.ofName file)).2
    else .ok ⟨some 1, [], (ogrAsk lib [] toogr2Setup).1⟩
  | _ => .ok ⟨some 1, [], []⟩

end Osmium

import Verif.Examples.ConvertMainProps
import Verif.Examples.AreasProps
import Verif.Examples.RelationMembersProps
import Verif.Multipolygon.Messages
import Verif.Pbf.SkipProps
import Verif.Pbf.Pieces

/-
C129: the example programs that read their file twice (osmium_mpdump, osmium_toogr2, osmium_relation_members), from the
name of the file to the end of the program.
-/
namespace Osmium
open Spec

/-- Where data comes from: files (as they are, and what `zcat` or `bzcat` write for a name), what `curl` writes for a name,
and standard input, `none` after it was closed. (the operating system, called in osmfile.hpp 309-408) -/
structure Sources where
  files : List Char → Option FileData
  unpacked : FileEncoding → List Char → FileData
  web : List Char → FileData
  stdin : Option FileData

/-- osmium.hpp 54-77 `read`: the reader is chosen by the encoding; `skip` are the types for which the class of the handler
inherits the empty callback, `h` is where it throws `StopReading`.  Data in one format cannot be read as the other. -/
def FileData.readBy (c : PbfCodec) (ft : FileType) (pbf : Bool) (skip : ObjType → Bool) (h : Stops) (chunks : Nat → Nat) :
    FileData → List Cb × ParseEnd
  | .xml evs => if pbf then ([], .threw (.exn "cannot parse")) else xmlParse ft h ⟨evs, none⟩
  | .pbf data => if pbf then pbfParseFor skip c ft h ⟨data, chunks⟩ else ([], .threw (.exn "cannot parse"))

/-- Whether a file is read from standard input. (osmfile.hpp 354-369 and 398-408) -/
def FileInfo.fromStd (f : FileInfo) : Bool :=
  decide (f.filename = []) && !(decide (f.encoding = .xmlgz) || decide (f.encoding = .xmlbz2))

/-- osmfile.hpp 661-663 `open_for_input` with 354-369, 398-408, 309-346, and the first `read` on the descriptor
(input/pbf.hpp 395-399, input/xml.hpp 83-87), which fails if standard input has been closed. -/
def Sources.input (w : Sources) (f : FileInfo) : Except Fail FileData :=
  if f.encoding = .xmlgz ∨ f.encoding = .xmlbz2 then .ok (w.unpacked f.encoding f.filename)
  else if fileProtocol f.filename = "http".toList ∨ fileProtocol f.filename = "https".toList then .ok (w.web f.filename)
  else if f.filename = [] then
    match w.stdin with
    | some x => .ok x
    | none => .error (.exn "read error")
  else
    match w.files f.filename with
    | some x => .ok x
    | none => .error (.exn "Open failed")

/-- osmium.hpp 54-77 `read`.  When `parse` returns, the reader is deleted with its copy of the `OSMFile`, which closes the
descriptor, for standard input descriptor 0 (osmfile.hpp 238-250, 503-509). -/
def Sources.readOnce (w : Sources) (c : PbfCodec) (f : FileInfo) (skip : ObjType → Bool) (h : Stops) (chunks : Nat → Nat) :
    (List Cb × ParseEnd) × Sources :=
  match w.input f with
  | .error e => (([], .threw e), w)
  | .ok x => (x.readBy c f.type (decide (f.encoding = .pbf)) skip h chunks, if f.fromStd then { w with stdin := none } else w)

/-- relations/assembler.hpp 319-342 `HandlerPass1`: the base class has the callbacks for nodes and ways ... -/
def pass1Skips : ObjType → Bool
  | .node | .way => true
  | _ => false

/-- ... and `after_relations` throws `StopReading`. (relations/assembler.hpp 337-340) -/
def pass1Stops : Stops := fun done => decide (done.getLast? = some (.after .relation))

/-- How a program ends: with a message about its arguments and `exit(1)`; by an exception or `exit(1)`, after these
calls in the two passes; or with `main` done and this result. (used by examples/osmium_mpdump.cpp 55-89) -/
inductive Ran (β : Type)
  | usage
  | failed (first second : List Cb)
  | done (out : β)

/-- `main` of the programs with two passes (examples/osmium_mpdump.cpp 55-89, osmium_toogr2.cpp 110-145,
osmium_relation_members.cpp 88-109): `work` is what they do with the calls of the first pass, the assembler and the calls of
the second pass.  `std::sort` after the first pass makes some sorted vector, so there can be several results.  When `work`
ends with an exception, the calls of the second pass end somewhere. -/
def TwoPass {β : Type} (cfg : AsmCfg) (work : List Cb → Asm → List Cb → Res β) (c : PbfCodec) (ch1 ch2 : Nat → Nat) (w : Sources) :
    List (List Char) → Ran β → Prop
  | [name], r =>
    match w.readOnce c (FileInfo.ofName name) pass1Skips pass1Stops ch1 with
    | ((cs1, .threw _), _) => r = .failed cs1 []
    | ((cs1, .returned), w1) =>
      ∃ s, Asm.AfterPass1 cfg cs1 s ∧
        match w1.readOnce c (FileInfo.ofName name) (fun _ => false) (fun _ => false) ch2 with
        | ((cs2, .threw _), _) => ∃ k, r = .failed cs1 (cs2.take k)
        | ((cs2, .returned), _) =>
          match work cs1 s cs2 with
          | .ok out => r = .done out
          | .error _ => ∃ k, r = .failed cs1 (cs2.take k)
  | _, r => r = .usage

/-- examples/osmium_mpdump.cpp 78-86: the lines on standard output, for the calls of the first pass, the assembler after it,
and the calls of the second one. -/
def mpdumpWork {S T : Type} (wkt : List (Coords × List Coords) → List Char) (env : WholeEnv) (pos : IdStore S Position)
    (neg : IdStore T Position) (cs1 : List Cb) (s : Asm) (cs2 : List Cb) : Res (List Line) :=
  match cfwRun pos neg (pos.empty, neg.empty) cs2 with
  | .error e => .error e
  | .ok out =>
    match noisyPass2 1 s out with
    | .error e => .error e
    | .ok p => (mpdumpNoise wkt env p.2).map fun ls => pass1Lines 1 cs1 ++ ls

/-- examples/osmium_toogr2.cpp 134-142: standard output, and the features the library is given; `early` as for
`toogr2Stdout`. -/
def toogr2Work {S T : Type} (early : Bool) (z : TypeSizes) (accepts : OgrArea → Bool) (env : WholeEnv)
    (pos : IdStore S Position) (neg : IdStore T Position) (cs1 : List Cb) (s : Asm) (cs2 : List Cb) :
    Res (List Char × List OgrArea) :=
  match toogr2Main accepts env pos neg s cs2 with
  | .error e => .error e
  | .ok features =>
    match cfwRun pos neg (pos.empty, neg.empty) cs2 with
    | .error e => .error e
    | .ok out =>
      match noisyPass2 1 s out with
      | .error e => .error e
      | .ok p => .ok (asWritten (pass1Lines 1 cs1) ++
          (if early then txt "Used memory: " ++ s.usedText z else s.usedText z ++ txt "Used memory: ") ++
          Text.natDec (s.usedMemory z / (1024 * 1024)) ++ txt " MB\n" ++ asWritten (linesOf p.2), features)

/-- examples/osmium_relation_members.cpp 101-106: standard output; `early` as for `toogr2Stdout`. -/
def membersWork (early : Bool) (z : TypeSizes) (_cs1 : List Cb) (s : Asm) (cs2 : List Cb) : Res (List Char) :=
  match membersPass2 s cs2 with
  | .error e => .error e
  | .ok p => .ok (txt "First pass (reading relations)...\n" ++
      (if early then txt "Used memory: " ++ s.usedText z else s.usedText z ++ txt "Used memory: ") ++
      Text.natDec (s.usedMemory z / (1024 * 1024)) ++ txt " MB\n" ++
      txt "Second pass (reading members)...\n" ++ asWritten p.2)

/-- examples/osmium_mpdump.cpp 55-89 `main`. -/
def mpdumpProgram {S T : Type} (wkt : List (Coords × List Coords) → List Char) (env : WholeEnv) (pos : IdStore S Position)
    (neg : IdStore T Position) : PbfCodec → (Nat → Nat) → (Nat → Nat) → Sources → List (List Char) → Ran (List Line) → Prop :=
  TwoPass mpCfg (mpdumpWork wkt env pos neg)

/-- examples/osmium_toogr2.cpp 110-145 `main`.  Simplification: the library has made the data source and the layer (that is in
`toogr2Program`, C122), and opens no file between the passes. -/
def toogr2TwoPass {S T : Type} (early : Bool) (z : TypeSizes) (accepts : OgrArea → Bool) (env : WholeEnv)
    (pos : IdStore S Position) (neg : IdStore T Position) :
    PbfCodec → (Nat → Nat) → (Nat → Nat) → Sources → List (List Char) → Ran (List Char × List OgrArea) → Prop :=
  TwoPass mpCfg (toogr2Work early z accepts env pos neg)

/-- examples/osmium_relation_members.cpp 88-109 `main`. -/
def membersProgram (early : Bool) (z : TypeSizes) :
    PbfCodec → (Nat → Nat) → (Nat → Nat) → Sources → List (List Char) → Ran (List Char) → Prop :=
  TwoPass membersCfg (membersWork early z)

end Osmium

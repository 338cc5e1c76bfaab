import Verif.Examples.TwoPass
import Verif.Examples.Small
import Verif.Examples.Versions
import Verif.Examples.DebugMain

/-
C131: example programs that read each file once (osmium_find_bbox, osmium_time, osmium_debug, osmium_store_and_debug), from
their arguments to their end.
-/
namespace Osmium

/-- `main` of the programs with one argument (examples/osmium_find_bbox.cpp 19-36, osmium_time.cpp 58-80,
osmium_debug.cpp 24-42): `skip` and `h` are those of the handler, `work` is what the program has printed when it ends. -/
def onePass {β : Type} (skip : ObjType → Bool) (h : Stops) (work : List Cb → β) (c : PbfCodec) (ch : Nat → Nat) (w : Sources) :
    List (List Char) → Ran β
  | [name] =>
    match w.readOnce c (FileInfo.ofName name) skip h ch with
    | ((cs, .threw _), _) => .failed cs []
    | ((cs, .returned), _) => .done (work cs)
  | _ => .usage

/-- handler/find_bbox.hpp 34-58: the base class has the callbacks for ways and relations ... -/
def bboxSkips : ObjType → Bool
  | .way | .relation => true
  | _ => false

/-- ... and `after_nodes` throws `StopReading`. (handler/find_bbox.hpp 49-51) -/
def bboxStops : Stops := fun done => decide (done.getLast? = some (.after .node))

/-- examples/osmium_find_bbox.cpp 19-36 `main`: the line printed. -/
def findBboxProgram : PbfCodec → (Nat → Nat) → Sources → List (List Char) → Ran Line :=
  onePass bboxSkips bboxStops findBboxMain

/-- examples/osmium_time.cpp 58-80 `main`: the lines printed, without those about the time used. -/
def timeProgram : PbfCodec → (Nat → Nat) → Sources → List (List Char) → Ran (List Line) :=
  onePass (fun _ => false) (fun _ => false) timeMain

/-- examples/osmium_debug.cpp 24-42 `main`: standard output. -/
def debugProgram (bt : Bounds → Line) (endtime : Bool) : PbfCodec → (Nat → Nat) → Sources → List (List Char) → Ran (List Char) :=
  onePass (fun _ => false) (fun _ => false) fun cs => osmiumDebug bt endtime (cs, .returned)

/-- examples/osmium_store_and_debug.cpp 17-35 `main`: first the file with the changes is read, then the OSM file. -/
def storeDebugProgram (bt : Bounds → Line) (c : PbfCodec) (ch1 ch2 : Nat → Nat) (w : Sources) :
    List (List Char) → Ran (List Char)
  | [changes, file] =>
    match w.readOnce c (FileInfo.ofName changes) (fun _ => false) (fun _ => false) ch1 with
    | ((cs1, .threw _), _) => .failed cs1 []
    | ((cs1, .returned), w1) =>
      match w1.readOnce c (FileInfo.ofName file) (fun _ => false) (fun _ => false) ch2 with
      | ((cs2, .threw _), _) => .failed cs1 cs2
      | ((cs2, .returned), _) =>
        match storeDebugMain bt cs1 cs2 with
        | .ok out => .done out
        | .error _ => .failed cs1 cs2
  | _ => .usage

end Osmium

import Verif.Examples.NumberG
import Verif.Handler.Bbox
import Verif.Handler.Debug
import Verif.Geometry.Model

/-
The example programs osmium_find_bbox and osmium_time.
-/
namespace Osmium
open Text

/-- examples/osmium_find_bbox.cpp 30-33: the line printed; the precision of the stream is the default of 6 digits. -/
def bboxLine (b : Bounds) : Line :=
  txt "minlon=" ++ fmtG 5 b.bottomLeft.lon ++ txt " minlat=" ++ fmtG 5 b.bottomLeft.lat ++
    txt " maxlon=" ++ fmtG 5 b.topRight.lon ++ txt " maxlat=" ++ fmtG 5 b.topRight.lat

/-- examples/osmium_find_bbox.cpp 17-36 `main`, for the calls for a file. -/
def findBboxMain (calls : List Cb) : Line := bboxLine (readWith findBbox Bounds.empty calls)

/-- The counters of `MyTimerHandler`. (examples/osmium_time.cpp 48-50) -/
structure TimeCounts where
  nodes : Nat
  ways : Nat
  relations : Nat
deriving DecidableEq, Repr

/-- `++` on a `uint64_t`. (examples/osmium_time.cpp 33-43) -/
def inc64 (n : Nat) : Nat := (n + 1) % 18446744073709551616

/-- examples/osmium_time.cpp 29-46: the methods of `MyTimerHandler`, and the lines they print. -/
def timeStep (c : TimeCounts) : Cb → TimeCounts × List Line
  | .obj (.node _) => ({ c with nodes := inc64 c.nodes }, [])
  | .obj (.way _) => ({ c with ways := inc64 c.ways }, [])
  | .obj (.relation _) => ({ c with relations := inc64 c.relations }, [])
  | .final => (c, [txt "nodes: " ++ natDec c.nodes ++ txt "  ways: " ++ natDec c.ways ++ txt "  relations: " ++
      natDec c.relations])
  | _ => (c, [])

/-- All calls. (examples/osmium_time.cpp 29-46) -/
def timeRun : TimeCounts → List Cb → List Line
  | _, [] => []
  | c, call :: calls => (timeStep c call).2 ++ timeRun (timeStep c call).1 calls

/-- examples/osmium_time.cpp 55-81 `main` without the lines about the time used. -/
def timeMain (calls : List Cb) : List Line := timeRun ⟨0, 0, 0⟩ calls

end Osmium

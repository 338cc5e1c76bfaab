import Verif.Convert.Chain
import Verif.Handler.History
import Verif.Handler.Debug
import Verif.Storage.ObjectStore

/-
The example programs osmium_range_from_history and osmium_store_and_debug.
-/
namespace Osmium

/-- examples/osmium_range_from_history.cpp 21-36 `main`: the file written.  `lo` and `hi` are the results of the two
calls of `time(0)` (line 31), which need not be the same; `ft` and `ft'` are the types of the two files. -/
def rangeMain (lib : PbfLib) (c : PbfCodec) (compress : Bool) (ft ft' : FileType) (gen : String) (chunks : Nat → Nat)
    (lo hi : Int) (fmt : Fmt) (f : FileData) : Res FileData :=
  convert (rangeRun lo hi (endTimeRun EndTimeState.new (f.read c ft chunks).1), (f.read c ft chunks).2)
    (writeAs lib c compress ft' gen fmt)

/-- include/osmium/storage/objectstore.hpp 62-80: the store is given every object that is read from the change file. -/
def storedObjs (changes : List Cb) : List OsmObj := changes.filterMap fun | .obj o => some o | _ => none

/-- examples/osmium_store_and_debug.cpp 17-35 `main`: the text written, for the calls made for the change file and
those made for the OSM file.  (An id that has no absolute value is undefined behaviour.) -/
def storeDebugMain (bt : Bounds → Line) (changes file : List Cb) : Res (List Char) :=
  match ObjStore.empty.insertAll (storedObjs changes) with
  | none => .error .ub
  | some s =>
    match applyRun (Meta.new false) s file with
    | none => .error .ub
    | some calls => .ok (debugText bt false calls)

end Osmium

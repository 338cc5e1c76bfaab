/-
osmfile.hpp: the kinds of OSM files.
-/
namespace Osmium

/-- osmfile.hpp:186-205 the three instances of class `OSMFile::FileType` (compared by address). -/
inductive FileType
  | osm | history | change
deriving DecidableEq, Repr

/-- osmfile.hpp:186-205 `suffix()`. -/
def FileType.suffix : FileType → String
  | .osm => ".osm" | .history => ".osh" | .change => ".osc"

/-- osmfile.hpp:186-205 `has_multiple_object_versions()`. -/
def FileType.multi : FileType → Bool
  | .osm => false | .history => true | .change => true

end Osmium

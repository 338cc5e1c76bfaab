import Verif.Geometry.Model
import Verif.Examples.NumberG

/-
C121: positions, bounding boxes and tags written to a stream with `<<`.
-/
namespace Osmium
open Text

/-- osm/position.hpp 159-162 `operator<<`, with the precision `d + 1` of the stream (`d = 5` if it was not changed). -/
def positionText (d : Nat) (p : Position) : List Char :=
  '(' :: fmtG d p.lon ++ ',' :: fmtG d p.lat ++ [')']

/-- osm/bounds.hpp 78-82 `operator<<`, with the precision `d + 1` of the stream. -/
def boundsText (d : Nat) (b : Bounds) : List Char :=
  '(' :: fmtG d b.bottomLeft.lon ++ ',' :: fmtG d b.bottomLeft.lat ++ ',' :: fmtG d b.topRight.lon ++
    ',' :: fmtG d b.topRight.lat ++ [')']

/-- osm/tag_ostream.hpp 33-36 `operator<<`. -/
def printedTag (t : Tag) : List Char := t.key.toList ++ '=' :: t.value.toList

end Osmium

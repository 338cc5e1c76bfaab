import Verif.Osm.Model
import Verif.Time.Model
/-
Model of the setters of class `Object` that take text (osm/object.hpp, osm/types.hpp).
-/
namespace Osmium

/-- The exceptions thrown by the setters. (osm/object.hpp 165-192: std::invalid_argument, std::length_error) -/
inductive AttrError
  | invalidTimestamp   -- std::invalid_argument
  | userTooLong        -- std::length_error
deriving DecidableEq, Repr

/-- osm/types.hpp:56-58 `string_to_osm_object_id_t`. -/
def strToId (s : String) : Int := Text.atoll s.toList
/-- osm/types.hpp:60-62 `string_to_osm_version_t`: `long` converted to `uint32_t`. -/
def strToVersion (s : String) : Int := wrapU32 (Text.atoll s.toList)
/-- osm/types.hpp:64-66 `string_to_osm_changeset_id_t`: `long` converted to `int32_t`. -/
def strToChangeset (s : String) : Int := wrapS32 (Text.atoll s.toList)
/-- osm/types.hpp:68-70 `string_to_osm_user_id_t`: `long` converted to `int32_t`. -/
def strToUid (s : String) : Int := wrapS32 (Text.atoll s.toList)

namespace Obj

/-- osm/object.hpp:169-172 `timestamp(const char*)`. -/
def setTimestampText (o : Obj) (s : String) : Obj × Option AttrError :=
  match Time.parseIso s.toList with
  | none => (o, some .invalidTimestamp)
  | some t => ({ o with timestamp := t }, none)

/-- osm/object.hpp:187-193 `user(const char*)`. -/
def setUser (o : Obj) (s : String) : Obj × Option AttrError :=
  if s.utf8ByteSize > maxLength then (o, some .userTooLong) else ({ o with user := s }, none)

/-- osm/object.hpp:219-226 `visible(const char*)`. -/
def setVisibleText (o : Obj) (s : String) : Obj :=
  if s == "false" then { o with visible := false } else { o with visible := true }

/-- osm/object.hpp:235-251 `set_attribute`; the object afterwards and the exception thrown. -/
def setAttribute (o : Obj) (attr value : String) : Obj × Option AttrError :=
  if attr == "id" then ({ o with id := strToId value }, none)
  else if attr == "version" then ({ o with version := strToVersion value }, none)
  else if attr == "changeset" then ({ o with changeset := strToChangeset value }, none)
  else if attr == "timestamp" then o.setTimestampText value
  else if attr == "uid" then ({ o with uid := strToUid value }, none)
  else if attr == "user" then o.setUser value
  else if attr == "visible" then (o.setVisibleText value, none)
  else (o, none)

end Obj
end Osmium

import Verif.Common.Res
import Verif.File.Types
import Mathlib.Data.List.Basic

/-
C49, C50: model of the names, types and encodings of OSM files (osmfile.hpp).  Strings are lists of
characters.
-/
namespace Osmium

/-- osmfile.hpp 214-282 class `FileEncoding`. -/
inductive FileEncoding
  | pbf | xml | xmlgz | xmlbz2
deriving DecidableEq, Repr

/-- osmfile.hpp 251-278. -/
def FileEncoding.suffix : FileEncoding → List Char
  | .pbf => ".pbf".toList
  | .xml => []
  | .xmlgz => ".gz".toList
  | .xmlbz2 => ".bz2".toList

/-- `std::string::find_first_of(c, pos)`; `none` is `npos`. (called in osmfile.hpp 411, 444, 457,
652) -/
def findFirstOf (s : List Char) (c : Char) (pos : Nat) : Option Nat :=
  ((s.drop pos).findIdx? (fun d => d == c)).map (fun k => k + pos)

/-- `std::string::find_last_of(c)`; `none` is `npos`. (called in osmfile.hpp 451) -/
def findLastOf (s : List Char) (c : Char) : Option Nat :=
  (s.reverse.findIdx? (fun d => d == c)).map (fun k => s.length - 1 - k)

/-- The attributes of class `OSMFile` that are not related to the open file. (osmfile.hpp 285-291: `m_type`, `m_encoding`, `m_filename`) -/
structure FileInfo where
  type : FileType
  encoding : FileEncoding
  filename : List Char
deriving DecidableEq, Repr

/-- `m_filename.substr(0, m_filename.find_first_of(':'))` (osmfile.hpp 408, 446): everything if there
is no colon. -/
def fileProtocol (name : List Char) : List Char :=
  match findFirstOf name ':' 0 with
  | some n => name.take n
  | none => name

/-- osmfile.hpp 462-499 `set_type_and_encoding`, with 560-563 `default_settings_for_file`. -/
def typeAndEncoding (suffix : List Char) : FileType × FileEncoding :=
  if suffix = "pbf".toList ∨ suffix = "osm.pbf".toList then (.osm, .pbf)
  else if suffix = "osm".toList then (.osm, .xml)
  else if suffix = "osm.bz2".toList then (.osm, .xmlbz2)
  else if suffix = "osm.gz".toList then (.osm, .xmlgz)
  else if suffix = "osh.pbf".toList then (.history, .pbf)
  else if suffix = "osh".toList then (.history, .xml)
  else if suffix = "osh.bz2".toList then (.history, .xmlbz2)
  else if suffix = "osh.gz".toList then (.history, .xmlgz)
  else if suffix = "osc".toList then (.change, .xml)
  else if suffix = "osc.bz2".toList then (.change, .xmlbz2)
  else if suffix = "osc.gz".toList then (.change, .xmlgz)
  else (.osm, .pbf)

/-- osmfile.hpp 451-458: `filename.substr(filename.find_first_of('.', n)+1)`, where `npos + 1` is 0. -/
def fileSuffix (name : List Char) : List Char :=
  let n := match findLastOf name '/' with
    | none => 0
    | some n => n + 1
  match findFirstOf name '.' n with
  | some k => name.drop (k + 1)
  | none => name

/-- osmfile.hpp 429-460 the constructor of `OSMFile`. -/
def FileInfo.ofName (name : List Char) : FileInfo :=
  if name = [] ∨ name = "-".toList then ⟨.osm, .pbf, []⟩
  else if fileProtocol name = "http".toList ∨ fileProtocol name = "https".toList then ⟨.osm, .xml, name⟩
  else ⟨(typeAndEncoding (fileSuffix name)).1, (typeAndEncoding (fileSuffix name)).2, name⟩

/-- osmfile.hpp 597-608 `type(const std::string&)`. -/
def FileInfo.setType (f : FileInfo) (t : List Char) : Res FileInfo :=
  if t = "osm".toList then .ok { f with type := .osm }
  else if t = "history".toList ∨ t = "osh".toList then .ok { f with type := .history }
  else if t = "change".toList ∨ t = "osc".toList then .ok { f with type := .change }
  else .error (.exn "Unknown OSM file type")

/-- osmfile.hpp 623-636 `encoding(const std::string&)`. -/
def FileInfo.setEncoding (f : FileInfo) (e : List Char) : Res FileInfo :=
  if e = "pbf".toList then .ok { f with encoding := .pbf }
  else if e = "xml".toList then .ok { f with encoding := .xml }
  else if e = "xmlgz".toList ∨ e = "gz".toList then .ok { f with encoding := .xmlgz }
  else if e = "xmlbz2".toList ∨ e = "bz2".toList then .ok { f with encoding := .xmlbz2 }
  else .error (.exn "Unknown OSM file encoding")

/-- osmfile.hpp 638-645 `filename(const std::string&)`. -/
def FileInfo.setFilename (f : FileInfo) (name : List Char) : FileInfo :=
  { f with filename := if name = "-".toList then [] else name }

/-- osmfile.hpp 651-653 `filename_without_suffix`. -/
def FileInfo.withoutSuffix (f : FileInfo) : List Char :=
  match findFirstOf f.filename '.' 0 with
  | some n => f.filename.take n
  | none => f.filename

/-- osmfile.hpp 655-659 `filename_with_default_suffix`. -/
def FileInfo.withDefaultSuffix (f : FileInfo) : List Char :=
  f.withoutSuffix ++ (f.type.suffix.toList ++ f.encoding.suffix)

end Osmium

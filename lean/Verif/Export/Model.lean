import Verif.Common.Res
import Verif.Common.Num

/-
C58, C59: shapefiles (export/shapefile.hpp).  Shapelib itself is not modelled: its functions are taken to
succeed (except where said otherwise) and to store what they are given.
-/
namespace Osmium

/-! ### Attribute values -/

/-- `dest[j]`: outside of the array the behaviour is undefined. (export/shapefile.hpp 264-276) -/
def destAt (dest : List UInt8) (j : Int) : Res UInt8 :=
  if j < 0 then .error .ub
  else match dest[j.toNat]? with
    | none => .error .ub
    | some b => .ok b

/-- The C string in a buffer. (how Shapelib reads the `char*` of export/shapefile.hpp 249) -/
def cString (dest : List UInt8) : List UInt8 := dest.takeWhile (· ≠ 0)

/-- export/shapefile.hpp 268-277: the cut at the end of the buffer. -/
def cutUtf8 (dest : List UInt8) : Res (List UInt8) :=
  let i : Int := (dest.length : Int) - 1
  match destAt dest i with
  | .error e => .error e
  | .ok b =>
    if b &&& 128 ≠ 0 then
      if b &&& 64 ≠ 0 then .ok (dest.set i.toNat 0)
      else
        match destAt dest (i - 1) with
        | .error e => .error e
        | .ok b1 =>
          if b1 &&& 224 = 224 then .ok (dest.set (i - 1).toNat 0)
          else
            match destAt dest (i - 2) with
            | .error e => .error e
            | .ok b2 => if b2 &&& 240 = 240 then .ok (dest.set (i - 2).toNat 0) else .ok dest
    else .ok dest

/-- export/shapefile.hpp 263-279 `add_attribute_with_truncate`: the string that is given to
`add_attribute`, for a field width between 0 and 255 (`Field` allows negative widths too: undefined
behaviour).  `strncpy` copies at most `width` bytes and fills the rest with zeros. -/
def truncateAttribute (width : Nat) (value : List UInt8) : Res (List UInt8) :=
  let dest := value.take width ++ List.replicate (width - value.length) 0
  match cutUtf8 dest with
  | .error e => .error e
  | .ok dest => .ok (cString dest)

/-! ### Files -/

/-- `DBFFieldType` (Shapelib). (used in export/shapefile.hpp 63-100 and 158-176) -/
inductive DbfType where
  | string | integer | double | logical
deriving DecidableEq, Repr

/-- export/shapefile.hpp 63-102 class `Field`. -/
structure DbfField where
  name : String
  type : DbfType
  width : Int
  decimals : Int
deriving DecidableEq, Repr

/-- export/shapefile.hpp 67-77 constructor. -/
def DbfField.new (name : String) (type : DbfType) (width decimals : Int) : Res DbfField :=
  if name = "" ∨ name.utf8ByteSize > 11 then
    .error (.exn "field name must be between 1 and 11 characters long")
  else if width > 255 then .error (.exn "field width must not exceed 255 characters")
  else .ok ⟨name, type, width, decimals⟩

/-- export/shapefile.hpp 153-177 `add_field` with the type as text: the field that is added. -/
def DbfField.ofText (name type : String) (width decimals : Int) : Res DbfField :=
  if type = "string" then DbfField.new name .string width 0
  else if type = "integer" then DbfField.new name .integer width 0
  else if type = "double" then DbfField.new name .double width decimals
  else if type = "bool" then DbfField.new name .logical 1 0
  else .error (.exn ("Unknown field type:" ++ type))

/-- ShpShape types (Shapelib). (used in export/shapefile.hpp 435-490) -/
inductive ShpType where
  | null | point | arc | polygon | multipoint | pointZ | arcZ | polygonZ | multipointZ
  | pointM | arcM | polygonM | multipointM | multipatch
deriving DecidableEq, Repr

/-- A shape, as far as its size and identity matter here. (`SHPObject`, export/shapefile.hpp
196-218) -/
structure ShpShape where
  type : ShpType
  parts : Nat
  vertices : Nat
  ident : Nat := 0
deriving DecidableEq, Repr

/-- export/shapefile.hpp 385-428 `length_on_disk`. -/
def ShpShape.lengthOnDisk (s : ShpShape) : Nat :=
  let recordHeader := 8
  let typeField := 4
  let numPoints := 4
  let numParts := 4
  let box := 32
  let range := 16
  let coordinate := 8
  let partIndex := 4
  match s.type with
  | .null => recordHeader + typeField
  | .point => recordHeader + typeField + 2 * coordinate
  | .multipoint => recordHeader + typeField + box + numPoints + s.vertices * 2 * coordinate
  | .arc | .polygon => recordHeader + typeField + box + numParts + s.parts * partIndex + numPoints + s.vertices * 2 * coordinate
  | .pointM => recordHeader + typeField + 3 * coordinate
  | .multipointM => recordHeader + typeField + box + range + numPoints + s.vertices * 3 * coordinate
  | .arcM | .polygonM => recordHeader + typeField + box + range + numParts + s.parts * partIndex + numPoints + s.vertices * 3 * coordinate
  | .pointZ => recordHeader + typeField + 4 * coordinate
  | .multipointZ => recordHeader + typeField + box + 2 * range + numPoints + s.vertices * 4 * coordinate
  | .arcZ | .polygonZ => recordHeader + typeField + box + 2 * range + numParts + s.parts * partIndex + numPoints + s.vertices * 4 * coordinate
  | .multipatch => recordHeader + typeField + box + 2 * range + numParts + s.parts * 2 * partIndex + numPoints + s.vertices * 4 * coordinate

/-- What Shapelib has been told to write into one set of files (.shp, .shx, .dbf).
(export/shapefile.hpp 344-380) -/
structure ShpFile where
  fields : List DbfField
  shapes : List ShpShape
deriving DecidableEq, Repr

/-- export/shapefile.hpp 38-333 class `Shapefile`: `files` are those closed already; `cur` is open. -/
structure ShapefileObj where
  type : ShpType
  fields : List DbfField
  sequenceNumber : Nat
  recordLength : Int
  shpBytes : Int
  dbfBytes : Int
  files : List ShpFile
  cur : ShpFile
deriving DecidableEq, Repr

/-- export/shapefile.hpp 50 -/
def maxFileSize : Int := 2147483647

/-- export/shapefile.hpp 339-378 `open`; the fields are added to the new file. -/
def ShapefileObj.open_ (s : ShapefileObj) : ShapefileObj :=
  { s with cur := ⟨s.fields, []⟩, shpBytes := 100, dbfBytes := wrapU32 (33 + 32 * s.fields.length) }

/-- export/shapefile.hpp 291-303 constructor. -/
def ShapefileObj.new (type : ShpType) : ShapefileObj :=
  ShapefileObj.open_ ⟨type, [], 0, 1, 0, 0, [], ⟨[], []⟩⟩

/-- export/shapefile.hpp 124-136 `add_field` (`DBFAddField` gives the number of the field). -/
def ShapefileObj.addField (s : ShapefileObj) (f : DbfField) : Res ShapefileObj :=
  if s.fields.length < 2047 then
    .ok { s with
      cur := { s.cur with fields := s.cur.fields ++ [f] }
      fields := s.fields ++ [f]
      dbfBytes := wrapU32 (s.dbfBytes + 32)
      recordLength := wrapU32 (s.recordLength + f.width) }
  else .error (.exn "Too many fields in the shapefile.")

/-- export/shapefile.hpp 202-203, 209-210: count a shape; the sums are `unsigned int`. -/
def ShapefileObj.count (s : ShapefileObj) (shape : ShpShape) : ShapefileObj :=
  { s with dbfBytes := wrapU32 (s.dbfBytes + s.recordLength), shpBytes := wrapU32 (s.shpBytes + shape.lengthOnDisk) }

/-- export/shapefile.hpp 110-119 `close` and the next `open` (206-208). -/
def ShapefileObj.nextFile (s : ShapefileObj) : ShapefileObj :=
  ShapefileObj.open_ { s with files := s.files ++ [s.cur], sequenceNumber := s.sequenceNumber + 1 }

/-- export/shapefile.hpp 198-218 `add_geometry`. -/
def ShapefileObj.addGeometry (s : ShapefileObj) (shape : ShpShape) : Res ShapefileObj :=
  if shape.type ≠ s.type then .error (.exn "IllegalGeometry")
  else
    let s := s.count shape
    let s := if s.dbfBytes > maxFileSize ∨ s.shpBytes > maxFileSize then (s.nextFile).count shape else s
    .ok { s with cur := { s.cur with shapes := s.cur.shapes ++ [shape] } }

end Osmium

import Verif.Export.Table
import Verif.Javascript.UnicodeProps

/-
C84: files written by scripts, javascript/wrapper/export_csv.hpp and export_shapefile.hpp.
-/
namespace Osmium
open Text

/-! ### Text files -/

/-- A file opened by `Osmium.Output.CSV.open` (export/csv.hpp 31-50): what has been written, and whether it
is still open.  (The file can be opened and written; that buffers are written to the disk later does not
matter here.) -/
structure CsvFile where
  out : List UInt8
  isOpen : Bool
deriving DecidableEq, Repr

/-- export/csv.hpp 37-39 constructor: a new, empty file. -/
def CsvFile.new : CsvFile := ⟨[], true⟩

/-- `out << ...` of an `std::ofstream`: after `close` nothing is written. (`out` in export/csv.hpp 35, used in
javascript/wrapper/export_csv.hpp 49-58) -/
def CsvFile.write (f : CsvFile) (b : List UInt8) : CsvFile :=
  if f.isOpen then { f with out := f.out ++ b } else f

/-- javascript/wrapper/export_csv.hpp 50-56: the loop over the arguments from number `i` on (given as
what `v8_String_to_ostream` makes of them).  An exception leaves in the file what has been written before. -/
def csvArgs (f : CsvFile) : Nat → List (Res (List UInt8)) → CsvFile × Option Fail
  | _, [] => (f, none)
  | i, .error e :: _ => (if i ≠ 0 then f.write [9] else f, some e)
  | i, .ok b :: as => csvArgs ((if i ≠ 0 then f.write [9] else f).write b) (i + 1) as

/-- javascript/wrapper/export_csv.hpp 49-59 `print` (the arguments are the texts that `ToString` makes of them). -/
def csvPrint (f : CsvFile) (args : List JsString) : CsvFile × Option Fail :=
  match csvArgs f 0 (args.map v8ToStream) with
  | (f, none) => (f.write [10], none)
  | (f, some e) => (f, some e)

/-- javascript/wrapper/export_csv.hpp 61-65 `close`. -/
def csvClose (f : CsvFile) : CsvFile := { f with isOpen := false }

/-- What a script does with such a file. (part of a script, no counterpart in /repo) -/
inductive CsvCall
  | print (args : List JsString)
  | close

/-- A sequence of calls up to the first exception (which ends the script). (part of a script, no counterpart
in /repo) -/
def csvRun (f : CsvFile) : List CsvCall → CsvFile × Option Fail
  | [] => (f, none)
  | .close :: cs => csvRun (csvClose f) cs
  | .print args :: cs =>
    match csvPrint f args with
    | (f, none) => csvRun f cs
    | (f, some e) => (f, some e)

/-! ### Shapefiles -/

/-- What a script gives for a field: no such property; `undefined` or `null`; or a value, of which the
wrapper uses what V8 gives as `ToString` and `Int32Value`
(javascript/wrapper/export_shapefile.hpp 109-113, 67, 120). -/
inductive ScriptAttr
  | missing
  | empty
  | value (text : JsString) (int32 : Int)

/-- javascript/wrapper/export_shapefile.hpp 60-77 `add_string_attribute`: the text given to
`add_attribute`.  `Write` copies at most `max_dbf_field_length+1` units; ICU refuses a negative capacity;
the buffer is filled with zeros before and larger than the widest field. -/
def scriptString (width : Int) (text : JsString) : Res (List UInt8) :=
  if width < 0 then .error (.exn "UTF-16 to UTF-8 conversion failed")
  else
    match strToUTF8 width.toNat ((text.take 256).take (min 256 text.length)) with
    | (_, .invalidChar) => .error (.exn "UTF-16 to UTF-8 conversion failed")
    | (out, _) => .ok (cString out)

/-- `v8::String::Utf8Value`, as characters: what is not UTF-16 is replaced by U+FFFD. (V8; used in
javascript/wrapper/export_csv.hpp 43 and javascript/wrapper/export_shapefile.hpp 43, 79, 144, 147) -/
def utf8Value : JsString → List Char
  | [] => []
  | [u] => [if isLead u || isTrail u then '�' else Char.ofNat u.toNat]
  | u :: v :: us =>
    if isLead u && isTrail v then pairChar u v :: utf8Value us
    else (if isLead u || isTrail u then '�' else Char.ofNat u.toNat) :: utf8Value (v :: us)

/-- `!strncasecmp(s, t, 1)` for a text `t` of one letter. -/
def startsWithLetter (s : List Char) (upper lower : Char) : Bool :=
  s.head? = some upper || s.head? = some lower

/-- `atoi` (glibc: `strtol`, converted to `int`). (the C library; called in javascript/wrapper/export_shapefile.hpp
81) -/
def atoi (s : List Char) : Int := wrapS32 (atoll s)

/-- javascript/wrapper/export_shapefile.hpp 78-88 `add_logical_attribute`: the value added (the C string
ends at the first zero). -/
def scriptLogical (text : JsString) : DbfValue :=
  let str := (utf8Value text).takeWhile (· ≠ '\x00')
  if atoi str = 1 ∨ startsWithLetter str 'T' 't' ∨ startsWithLetter str 'Y' 'y' then .bool true
  else if str = ['0'] ∨ startsWithLetter str 'F' 'f' ∨ startsWithLetter str 'N' 'n' then .bool false
  else .null

/-- javascript/wrapper/export_shapefile.hpp 108-135: the value added for a field. -/
def scriptValue (f : DbfField) : ScriptAttr → Res DbfValue
  | .missing => .ok .null
  | .empty => .ok .null
  | .value text i =>
    match f.type with
    | .string => (scriptString f.width text).map .string
    | .integer => .ok (.int i)
    | .double => .error (.exn "fields of type double not implemented")
    | .logical => .ok (scriptLogical text)

/-- javascript/wrapper/export_shapefile.hpp 107-138: the loop over the fields, from number `n` on. -/
def scriptFields (fits : DbfField → DbfValue → Bool) (attrs : String → ScriptAttr) (t : ShpTable) :
    Nat → List DbfField → Res ShpTable
  | _, [] => .ok t
  | n, f :: fs =>
    match scriptValue f (attrs f.name) with
    | .error e => .error e
    | .ok v =>
      match t.step fits (.attr n v) with
      | .error e => .error e
      | .ok t => scriptFields fits attrs t (n + 1) fs

/-- javascript/wrapper/export_shapefile.hpp 97-140 and 159-175, the two functions `add`, for a geometry
and the properties of an object.  `none`: the geometry cannot be made into a shape
(`create_shp_object` throws `IllegalGeometry`).  The result of the first function is not used by the second
one. -/
def scriptAdd (fits : DbfField → DbfValue → Bool) (t : ShpTable) (geometry : Option ShpShape)
    (attrs : String → ScriptAttr) : Res (ShpTable × Int) :=
  match geometry with
  | none => .ok (t, 1)
  | some shape =>
    match t.step fits (.geometry shape) with
    | .error (.exn "IllegalGeometry") => .ok (t, 1)
    | .error e => .error e
    | .ok t =>
      match scriptFields fits attrs t 0 t.base.fields with
      | .error e => .error e
      | .ok t => .ok (t, 1)

/-- javascript/wrapper/export_shapefile.hpp 142-157 `add_field`: for each argument what `Utf8Value` and
`Int32Value` give. -/
def scriptAddField (fits : DbfField → DbfValue → Bool) (t : ShpTable) (args : List (String × Int)) :
    Res (ShpTable × Int) :=
  match args with
  | [name, type, width] => (t.step fits (.field name.1 type.1 width.2 0)).map (·, 1)
  | [name, type, width, decimals] => (t.step fits (.field name.1 type.1 width.2 decimals.2)).map (·, 1)
  | _ => .error (.exn "Wrong number of arguments to add_field method.")

/-- javascript/wrapper/export_shapefile.hpp 38-58 `open` with a file name and a type: the new file. -/
def scriptOpenShp (type : String) : Res ShpTable :=
  if type = "point" then .ok (ShpTable.new .point)
  else if type = "line" then .ok (ShpTable.new .arc)
  else if type = "polygon" then .ok (ShpTable.new .polygon)
  else .error (.exn "unknown shapefile type")

/-- What a script does with a shapefile. (part of a script, no counterpart in /repo) -/
inductive ShpCall
  | addField (args : List (String × Int))
  | add (geometry : Option ShpShape) (attrs : String → ScriptAttr)
  | close

/-- A sequence of calls without exception; after `close` (export/shapefile.hpp 110-119) the handles are
null, and adding something dereferences them.  (part of a script, no counterpart in /repo) -/
def shpRun (fits : DbfField → DbfValue → Bool) : ShpTable → Bool → List ShpCall → Res (ShpTable × List Int)
  | t, _, [] => .ok (t, [])
  | t, _, .close :: cs => shpRun fits t false cs
  | t, isOpen, .addField args :: cs =>
    if isOpen then
      match scriptAddField fits t args with
      | .error e => .error e
      | .ok (t, r) => (shpRun fits t isOpen cs).map fun p => (p.1, r :: p.2)
    else .error .ub
  | t, isOpen, .add geometry attrs :: cs =>
    if isOpen ∨ geometry = none then
      match scriptAdd fits t geometry attrs with
      | .error e => .error e
      | .ok (t, r) => (shpRun fits t isOpen cs).map fun p => (p.1, r :: p.2)
    else .error .ub

end Osmium

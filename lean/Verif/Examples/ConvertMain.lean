import Verif.Convert.Spec
import Verif.OsmFile.Props
import Mathlib.Logic.Function.Basic

/-
C98: the program osmium_convert: its options, the files it opens and what is in them when it ends
(examples/osmium_convert.cpp).  Standard output is not a terminal, so that the Progress handler prints nothing (C71).
-/
namespace Osmium

/-- What getopt_long returns, one after the other (examples/osmium_convert.cpp 53-75); `bad` is any other value ('?'). -/
inductive ConvOpt
  | debug
  | help
  | fromFormat (f : List Char)
  | toFormat (f : List Char)
  | bad
deriving DecidableEq, Repr

/-- The variables the options set. (examples/osmium_convert.cpp 48-51) -/
structure ConvVars where
  debug : Bool
  inputFormat : List Char
  outputFormat : List Char
deriving DecidableEq, Repr

/-- examples/osmium_convert.cpp 53-75: the loop, or the argument of `exit`. -/
def convOptions (v : ConvVars) : List ConvOpt → Except Nat ConvVars
  | [] => .ok v
  | .debug :: os => convOptions { v with debug := true } os
  | .help :: _ => .error 0
  | .fromFormat f :: os => convOptions { v with inputFormat := f } os
  | .toFormat f :: os => convOptions { v with outputFormat := f } os
  | .bad :: _ => .error 1

/-- osmfile.hpp 462-499 `set_type_and_encoding` on an `OSMFile`; it never throws. -/
def FileInfo.setTypeAndEncoding (f : FileInfo) (format : List Char) : FileInfo :=
  { f with type := (typeAndEncoding format).1, encoding := (typeAndEncoding format).2 }

/-- The programs and libraries that read and write the data.  `unpack` is what `zcat` and `bzcat` write for a file or for
a file that is not there, `pack` what `gzip` and `bzip2` write; `parse` the calls of the reader and how it ends, for PBF
or XML data; `store` what the output handler has written in the end or when it throws, and whether it throws. (used by
examples/osmium_convert.cpp 39-131) -/
structure ConvTools (α : Type) where
  empty : α
  unpack : FileEncoding → Option α → α
  pack : FileEncoding → α → α
  parse : FileType → Bool → α → List Cb × ParseEnd
  store : FileType → Bool → List Cb → α × Res Unit

/-- The files, what comes from standard input and what is written to standard output, what `curl` writes, and
which files can be opened for writing. (the operating system) (used by examples/osmium_convert.cpp 39-131) -/
structure Disk (α : Type) where
  files : List Char → Option α
  stdin : α
  stdout : Option α
  web : List Char → α
  writable : List Char → Bool

/-- How the program ends: by `exit` or the end of `main`, or because of an exception nobody catches (or SIGPIPE, if the
child process that should compress cannot open the file). (used by examples/osmium_convert.cpp 39-131) -/
inductive ConvEnd
  | exit (n : Nat)
  | aborted
deriving DecidableEq, Repr

/-- What is left when the program ends; `warnings` are the messages on standard error. (used by
examples/osmium_convert.cpp 39-131) -/
structure ConvResult (α : Type) where
  ended : ConvEnd
  warnings : List String
  disk : Disk α

/-- osmfile.hpp 661-663 `open_for_input` with 354-369, 398-408 and 309-346: the data the reader will get, `none` if an
exception is thrown. -/
def openInput {α : Type} (T : ConvTools α) (d : Disk α) (f : FileInfo) : Option α :=
  if f.encoding = .xmlgz ∨ f.encoding = .xmlbz2 then some (T.unpack f.encoding (d.files f.filename))
  else if fileProtocol f.filename = "http".toList ∨ fileProtocol f.filename = "https".toList then
    some (d.web f.filename)
  else if f.filename = [] then some d.stdin
  else d.files f.filename

/-- osmfile.hpp 665-667 `open_for_output` with 377-391 and 309-346: the file is empty, `none` if it cannot be opened.
(For a compressed file the child process opens it.  No file has the empty name.) -/
def openOutput {α : Type} (T : ConvTools α) (d : Disk α) (f : FileInfo) : Option (Disk α) :=
  if f.filename = [] ∧ ¬ (f.encoding = .xmlgz ∨ f.encoding = .xmlbz2) then some d
  else if f.filename ≠ [] ∧ d.writable f.filename then
    some { d with files := Function.update d.files f.filename (some T.empty) }
  else none

/-- What was written to the descriptor is in the file. (used by examples/osmium_convert.cpp 39-131) -/
def written {α : Type} (T : ConvTools α) (d : Disk α) (f : FileInfo) (x : α) : Disk α :=
  if f.encoding = .xmlgz ∨ f.encoding = .xmlbz2 then
    { d with files := Function.update d.files f.filename (some (T.pack f.encoding x)) }
  else if f.filename = [] then { d with stdout := some x }
  else { d with files := Function.update d.files f.filename (some x) }

/-- examples/osmium_convert.cpp 108-114. -/
def convWarnings (i o : FileType) : List String :=
  if i = .osm ∧ o = .history then ["Warning! You are converting from an OSM file without history information to one with history information.\nThis will almost certainly not do what you want!"]
  else if i = .history ∧ o = .osm then ["Warning! You are converting from an OSM file with history information to one without history information.\nThis will almost certainly not do what you want!"]
  else if i ≠ o then ["Warning! Source and destination are not of the same type."]
  else []

/-- examples/osmium_convert.cpp 116-128 and include/osmium.hpp 54-77. -/
def convRun {α : Type} (T : ConvTools α) (infile outfile : FileInfo) (d : Disk α) : ConvResult α :=
  let warn := convWarnings infile.type outfile.type
  match openOutput T d outfile with
  | none => ⟨.aborted, warn, d⟩
  | some d1 =>
    match openInput T d1 infile with
    | none => ⟨.aborted, warn, d1⟩
    | some x =>
      let r := T.parse infile.type (infile.encoding = .pbf) x
      let w := T.store outfile.type (outfile.encoding = .pbf) r.1
      let e : ConvEnd := match w.2, r.2 with
        | .ok _, .returned => .exit 0
        | _, _ => .aborted
      ⟨e, warn, written T d1 outfile w.1⟩

/-- The name of the input file and of the output file. (examples/osmium_convert.cpp 77-88) -/
def convNames : List (List Char) → Option (List Char × List Char)
  | [] => some ([], [])
  | [i] => some (i, [])
  | [i, o] => some (i, o)
  | _ => none

/-- examples/osmium_convert.cpp 40-131 `main`, with the options and the other arguments. -/
def convMain {α : Type} (T : ConvTools α) (opts : List ConvOpt) (args : List (List Char)) (d : Disk α) : ConvResult α :=
  match convOptions ⟨false, [], []⟩ opts with
  | .error n => ⟨.exit n, [], d⟩
  | .ok v =>
    match convNames args with
    | none => ⟨.exit 1, ["Usage"], d⟩
    | some (i, o) =>
      let infile := FileInfo.ofName i
      let infile := if v.inputFormat = [] then infile else infile.setTypeAndEncoding v.inputFormat
      let outfile := FileInfo.ofName o
      let outfile := if v.outputFormat = [] then outfile else outfile.setTypeAndEncoding v.outputFormat
      convRun T infile outfile d

end Osmium

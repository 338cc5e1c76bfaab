import Verif.Convert.Model
/-
Vocabulary for the conversion of files (C68).
-/
namespace Osmium

/-- The two encodings. -/
inductive Fmt
  | xml
  | pbf
deriving DecidableEq

/-- A file: an XML document or the bytes of a PBF file. -/
inductive FileData
  | xml (evs : List XEv)
  | pbf (data : Bytes)
deriving DecidableEq

/-- osmium.hpp:55-78 `read`: the reader is chosen by the encoding.  The handler never throws
`StopReading`; `chunks` is how the operating system splits up the data. -/
def FileData.read (c : PbfCodec) (ft : FileType) (chunks : Nat → Nat) : FileData → List Cb × ParseEnd
  | .xml evs => xmlParse ft (fun _ => false) ⟨evs, none⟩
  | .pbf data => pbfParse c ft (fun _ => false) ⟨data, chunks⟩

/-- output.hpp:92-100 `create_output`: the output handler is chosen by the encoding; PBF files with the
default settings. -/
def writeAs (lib : PbfLib) (c : PbfCodec) (compress : Bool) (ft : FileType) (gen : String) :
    Fmt → List Cb → Res FileData
  | .xml, cs => do return .xml (← xmlOut ft gen cs)
  | .pbf, cs => do return .pbf (← pbfOut lib c (PbfCfg.default ft.multi) compress ft gen cs)

/-- examples/osmium_convert.cpp:118-129: read a file, write what is read to another file of the same
type. -/
def convertFile (lib : PbfLib) (c : PbfCodec) (compress : Bool) (ft : FileType) (gen : String)
    (chunks : Nat → Nat) (fmt : Fmt) (f : FileData) : Res FileData :=
  convert (f.read c ft chunks) (writeAs lib c compress ft gen fmt)

namespace Spec

/-- The bounds are coordinates, and in order if they are defined. -/
structure MetaOk (m : Meta) : Prop where
  bl : m.bounds.bottomLeft.WF
  tr : m.bounds.topRight.WF
  order : m.bounds.defined = true →
    m.bounds.bottomLeft.x ≤ m.bounds.topRight.x ∧ m.bounds.bottomLeft.y ≤ m.bounds.topRight.y

/-- Whoever reads the file gets exactly these objects in this order, by the calls of the protocol, and
reading ends without exception. -/
def HasObjects (c : PbfCodec) (ft : FileType) (f : FileData) (os : List OsmObj) : Prop :=
  ∃ m, MetaOk m ∧ ∀ chunks, f.read c ft chunks = (protocol m os, .returned)

/-- What of an object the format keeps. -/
def keptIn (ft : FileType) : Fmt → OsmObj → OsmObj
  | .xml => xmlKept ft
  | .pbf => kept true ft.multi

/-- Objects that both formats can store: see C14 and C24. -/
structure Convertible (ft : FileType) (os : List OsmObj) : Prop where
  nonempty : os ≠ []
  xml : ∀ o ∈ os, XmlOk o
  pbf : ∀ o ∈ os, o.PbfOk
  strings : FewStrings true os
  stringsXml : FewStrings true (os.map (xmlKept ft))
  sorted : SortedByType os

/-- The file is converted to `g` without exception; if `g` is a PBF file, its blobs are not larger than
the format allows. -/
structure ConvertedTo (lib : PbfLib) (c : PbfCodec) (ft : FileType) (fmt : Fmt) (f g : FileData) :
    Prop where
  done : ∃ compress gen chunks, convertFile lib c compress ft gen chunks fmt f = .ok g ∧
    (fmt = .pbf → ∀ m os bs, f.read c ft chunks = (protocol m os, .returned) →
      pbfBlocks lib (PbfCfg.default ft.multi) os = .ok bs →
      ∀ b ∈ fileBlobs c (PbfCfg.default ft.multi) ft gen m bs, BlobFits c.toBlobCodec compress b.1 b.2)

/-- One conversion after the other, to the given formats. -/
inductive Conversions (lib : PbfLib) (c : PbfCodec) (ft : FileType) : List Fmt → FileData → FileData → Prop
  | nil (f : FileData) : Conversions lib c ft [] f f
  | step {fmt : Fmt} {fs : List Fmt} {f g h : FileData} (s : ConvertedTo lib c ft fmt f g)
      (t : Conversions lib c ft fs g h) : Conversions lib c ft (fmt :: fs) f h

end Spec
end Osmium

import Verif.File.Types
import Verif.Pbf.Blob
import Verif.Pbf.Writer
import Verif.Pbf.Reader
/-
Model of complete PBF files: header block, data blocks, and the main loop of the reader.
-/
namespace Osmium

/-- `OSMPBF::HeaderBlock`, as far as it is used; the bounding box is left, bottom, right, top.
(output/pbf.hpp 513-521 and 865-900, input/pbf.hpp 102-135) -/
structure HeaderMsg where
  features : List String
  program : Option String
  bbox : Option (Int × Int × Int × Int)
deriving DecidableEq, Repr

/-- The values fit into the fields of the message. (helper for statements and proofs, no
counterpart in /repo) -/
def HeaderMsg.InRange (h : HeaderMsg) : Prop :=
  match h.bbox with
  | none => True
  | some (l, b, r, t) => InS64 l ∧ InS64 b ∧ InS64 r ∧ InS64 t

/-- The library functions used for PBF files: those for blobs, and the serialisation of header and
data blocks.  Assumed: a message whose values fit into its fields is parsed to the same message
again. (protobuf and zlib, called in output/pbf.hpp 247-342 and input/pbf.hpp 94-104, 420-470) -/
structure PbfCodec extends BlobCodec where
  encHeader : HeaderMsg → Bytes
  decHeader : Bytes → Option HeaderMsg
  header_law : ∀ h, h.InRange → decHeader (encHeader h) = some h
  encBlock : PBlock → Bytes
  decBlock : Bytes → Option PBlock
  block_law : ∀ b, b.InRange → decBlock (encBlock b) = some b

/-! ### Writing -/

/-- output/pbf.hpp:865-896 `init`: the header block. -/
def headerMsg (cfg : PbfCfg) (ft : FileType) (generator : String) (m : Meta) : HeaderMsg :=
  { features := ["OsmSchema-V0.6"] ++ (if cfg.dense then ["DenseNodes"] else []) ++
      (if ft = .history then ["HistoricalInformation"] else [])
    program := some generator
    bbox := if m.bounds.defined then
        some (bboxCoord m.bounds.bottomLeft.x, bboxCoord m.bounds.bottomLeft.y,
          bboxCoord m.bounds.topRight.x, bboxCoord m.bounds.topRight.y)
      else none }

/-- A whole file: `init`, all objects, `final`.  (The blobs are written one by one as blocks get
complete; only the resulting bytes are modelled.) (output/pbf.hpp 865-995, all callbacks) -/
def pbfFile (lib : PbfLib) (c : PbfCodec) (cfg : PbfCfg) (compress : Bool) (ft : FileType)
    (generator : String) (m : Meta) (os : List OsmObj) : Res Bytes := do
  let blocks ← pbfBlocks lib cfg os
  storeBlobs c.toBlobCodec compress
    (("OSMHeader", c.encHeader (headerMsg cfg ft generator m)) ::
      blocks.map (fun b => ("OSMData", c.encBlock b)))

/-! ### Reading -/

/-- input/pbf.hpp:108-122 the loop over the required features: was there HistoricalInformation? -/
def checkFeatures : Bool → List String → Res Bool
  | has, [] => .ok has
  | has, f :: fs =>
    if f = "OsmSchema-V0.6" then checkFeatures has fs
    else if f = "DenseNodes" then checkFeatures has fs
    else if f = "HistoricalInformation" then checkFeatures true fs
    else .error (.exn ("Required feature not supported: " ++ f))

/-- input/pbf.hpp:124-130 the comparison with the expected file type. -/
def checkType (ft : FileType) (has : Bool) : Res Unit :=
  if ft = .osm ∧ has then .error (.exn "FileTypeOSMExpected")
  else if ft = .history ∧ ¬has then .error (.exn "FileTypeHistoryExpected")
  else .ok ()

/-- input/pbf.hpp:136-140: the bounding box; `/` truncates, and the `Position` constructor for
`int64_t` (osm/position.hpp:82-85) converts to `int32_t`. -/
def headerBounds (b : Bounds) : Option (Int × Int × Int × Int) → Bounds
  | none => b
  | some (l, bo, r, t) =>
    (b.extend ⟨wrapS32 (l.tdiv 100), wrapS32 (bo.tdiv 100)⟩).extend
      ⟨wrapS32 (r.tdiv 100), wrapS32 (t.tdiv 100)⟩

/-- input/pbf.hpp:107-141 an OSMHeader blob: the new metadata. -/
def readHeader (ft : FileType) (m : Meta) (h : HeaderMsg) : Res Meta := do
  let has ← checkFeatures false h.features
  checkType ft has
  return { m with generator := (h.program.getD m.generator), bounds := headerBounds m.bounds h.bbox }

/-- input/pbf.hpp:90-145 what happens for each blob: the callbacks, the metadata and the last object
type afterwards. -/
def parseBlobs (c : PbfCodec) (ft : FileType) : Meta → ObjType → List (String × Bytes) →
    Events × Meta × ObjType
  | m, last, [] => (⟨[], none⟩, m, last)
  | m, last, (t, d) :: bs =>
    if t = "OSMData" then
      match c.decBlock d with
      | none => (⟨[], some (.exn "Failed to parse PrimitiveBlock.")⟩, m, last)
      | some b =>
        let (e1, last1) := readGroups m b last b.groups
        let (e2, r) := parseBlobs c ft m last1 bs
        (e1.seq e2, r)
    else if t = "OSMHeader" then
      match c.decHeader d with
      | none => (⟨[], some (.exn "Failed to parse HeaderBlock.")⟩, m, last)
      | some h =>
        match readHeader ft m h with
        | .error e => (⟨[], some e⟩, m, last)
        | .ok m' => parseBlobs c ft m' last bs
    else parseBlobs c ft m last bs

/-- input/pbf.hpp:88-150 `parse`, with a handler that may throw `StopReading`.  A failure to read a
blob comes after all callbacks for the blobs before. -/
def pbfParse (c : PbfCodec) (ft : FileType) (h : Stops) (s : Input) : List Cb × ParseEnd :=
  let (bs, f) := readBlobs c.toBlobCodec s
  let (ev, m, last) := parseBlobs c ft (Meta.new ft.multi) .unknown bs
  parseFrame h (ev.seq ⟨[], f⟩) (afterAndBefore m last .unknown)

end Osmium

import Verif.Common.Num
/-
The protobuf messages of the PBF format, as far as Osmium uses them.  The serialisation of messages
to bytes is done by the protobuf library, which is not modelled (see DESIGN.md).  Numbers are
unbounded `Int`s; the writer applies the conversion to the type of the field explicitly.
-/
namespace Osmium

/-- `OSMPBF::Info`. (set in output/pbf.hpp 475-511) -/
structure PInfo where
  visible : Option Bool
  version : Int
  timestamp : Int
  changeset : Int
  uid : Int
  userSid : Int
deriving DecidableEq, Repr

/-- `OSMPBF::Node`. (set in output/pbf.hpp 600-616) -/
structure PNode where
  id : Int
  keys : List Int
  vals : List Int
  info : Option PInfo
  lon : Int
  lat : Int
deriving DecidableEq, Repr

/-- `OSMPBF::Way`. (set in output/pbf.hpp 674-697) -/
structure PWay where
  id : Int
  keys : List Int
  vals : List Int
  info : Option PInfo
  refs : List Int
deriving DecidableEq, Repr

/-- `OSMPBF::Relation::MemberType`. (set in output/pbf.hpp 699-725) -/
inductive PMemType
  | node | way | relation
deriving DecidableEq, Repr

/-- `OSMPBF::Relation`. (set in output/pbf.hpp 699-725) -/
structure PRel where
  id : Int
  keys : List Int
  vals : List Int
  info : Option PInfo
  rolesSid : List Int
  memids : List Int
  types : List PMemType
deriving DecidableEq, Repr

/-- `OSMPBF::DenseInfo`. (set in output/pbf.hpp 618-672) -/
structure PDenseInfo where
  version : List Int
  timestamp : List Int
  changeset : List Int
  uid : List Int
  userSid : List Int
  visible : List Bool
deriving DecidableEq, Repr

/-- A new `OSMPBF::DenseInfo`. (output/pbf.hpp 618-672) -/
def PDenseInfo.new : PDenseInfo := ⟨[], [], [], [], [], []⟩

/-- `OSMPBF::DenseNodes`. (set in output/pbf.hpp 618-672) -/
structure PDense where
  id : List Int
  lat : List Int
  lon : List Int
  keysVals : List Int
  info : Option PDenseInfo
deriving DecidableEq, Repr

/-- A new `OSMPBF::DenseNodes`. (output/pbf.hpp 618-672) -/
def PDense.new : PDense := ⟨[], [], [], [], none⟩

/-- `OSMPBF::PrimitiveGroup`. (output/pbf.hpp 156-158) -/
structure PGroup where
  nodes : List PNode
  dense : Option PDense
  ways : List PWay
  relations : List PRel
deriving DecidableEq, Repr

/-- A new `OSMPBF::PrimitiveGroup`. (output/pbf.hpp 156-158) -/
def PGroup.new : PGroup := ⟨[], none, [], []⟩

/-- `OSMPBF::PrimitiveBlock`. (output/pbf.hpp 150 and 526-560) -/
structure PBlock where
  strings : List String
  groups : List PGroup
  granularity : Int
  dateGranularity : Int
  latOffset : Int
  lonOffset : Int
deriving DecidableEq, Repr

/-! ### Ranges of the fields (types in osmformat.proto) -/

/-- The values fit into the fields of the message (types in osmformat.proto of OSM-binary; no counterpart in /repo). -/
def PInfo.InRange (i : PInfo) : Prop :=
  InS32 i.version ∧ InS64 i.timestamp ∧ InS64 i.changeset ∧ InS32 i.uid ∧ InU32 i.userSid

/-- The values fit into the fields of the message (types in osmformat.proto of OSM-binary; no counterpart in /repo). -/
def PNode.InRange (n : PNode) : Prop :=
  InS64 n.id ∧ (∀ x ∈ n.keys, InU32 x) ∧ (∀ x ∈ n.vals, InU32 x) ∧ (∀ i ∈ n.info, i.InRange) ∧
  InS64 n.lat ∧ InS64 n.lon

/-- The values fit into the fields of the message (types in osmformat.proto of OSM-binary; no counterpart in /repo). -/
def PWay.InRange (n : PWay) : Prop :=
  InS64 n.id ∧ (∀ x ∈ n.keys, InU32 x) ∧ (∀ x ∈ n.vals, InU32 x) ∧ (∀ i ∈ n.info, i.InRange) ∧
  (∀ x ∈ n.refs, InS64 x)

/-- The values fit into the fields of the message (types in osmformat.proto of OSM-binary; no counterpart in /repo). -/
def PRel.InRange (n : PRel) : Prop :=
  InS64 n.id ∧ (∀ x ∈ n.keys, InU32 x) ∧ (∀ x ∈ n.vals, InU32 x) ∧ (∀ i ∈ n.info, i.InRange) ∧
  (∀ x ∈ n.rolesSid, InS32 x) ∧ (∀ x ∈ n.memids, InS64 x)

/-- The values fit into the fields of the message (types in osmformat.proto of OSM-binary; no counterpart in /repo). -/
def PDenseInfo.InRange (i : PDenseInfo) : Prop :=
  (∀ x ∈ i.version, InS32 x) ∧ (∀ x ∈ i.timestamp, InS64 x) ∧ (∀ x ∈ i.changeset, InS64 x) ∧
  (∀ x ∈ i.uid, InS32 x) ∧ (∀ x ∈ i.userSid, InS32 x)

/-- The values fit into the fields of the message (types in osmformat.proto of OSM-binary; no counterpart in /repo). -/
def PDense.InRange (d : PDense) : Prop :=
  (∀ x ∈ d.id, InS64 x) ∧ (∀ x ∈ d.lat, InS64 x) ∧ (∀ x ∈ d.lon, InS64 x) ∧
  (∀ x ∈ d.keysVals, InS32 x) ∧ (∀ i ∈ d.info, i.InRange)

/-- The values fit into the fields of the message (types in osmformat.proto of OSM-binary; no counterpart in /repo). -/
def PGroup.InRange (g : PGroup) : Prop :=
  (∀ n ∈ g.nodes, n.InRange) ∧ (∀ d ∈ g.dense, d.InRange) ∧ (∀ w ∈ g.ways, w.InRange) ∧
  (∀ r ∈ g.relations, r.InRange)

/-- The values fit into the fields of the messages (types in osmformat.proto). (see
`PInfo.InRange`; no counterpart in /repo) -/
def PBlock.InRange (b : PBlock) : Prop :=
  (∀ g ∈ b.groups, g.InRange) ∧ InS32 b.granularity ∧ InS32 b.dateGranularity ∧
  InS64 b.latOffset ∧ InS64 b.lonOffset

end Osmium

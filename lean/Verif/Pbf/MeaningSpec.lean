import Verif.Pbf.Msg
import Verif.Input.Model
/-
What a data block of a PBF file means, after the description of the format (osmformat.proto), for any
block, by whatever program it was written: no reference to the model of the reader or the writer.
-/
namespace Osmium.Spec

/-- The string with this number. -/
def stringOf (b : PBlock) (i : Int) : Option String :=
  if i < 0 then none else b.strings[i.toNat]?

/-- Running totals: the values of a delta coded column. -/
def totals (start : Int) : List Int → List Int
  | [] => []
  | d :: ds => (start + d) :: totals (start + d) ds

/-- A coordinate in units of 100 nanodegrees, of a value in a block with this granularity and offset
(in nanodegrees). -/
def hundredNanos (granularity offset value : Int) : Int := (offset + granularity * value).tdiv 100

/-- The attributes of an object without metadata. -/
def NoMetadata (o : Obj) : Prop :=
  o.version = 0 ∧ o.changeset = 0 ∧ o.timestamp = 0 ∧ o.uid = -1 ∧ o.user = "" ∧ o.visible = true

/-- The attributes of an object as given by an `Info` message.  Times are in units of
`dateGranularity` milliseconds; an object is visible if nothing else is said. -/
structure InfoMeans (b : PBlock) (i : PInfo) (o : Obj) : Prop where
  version : o.version = i.version
  changeset : o.changeset = i.changeset
  timestamp : o.timestamp * 1000 = i.timestamp * b.dateGranularity
  uid : o.uid = i.uid
  user : stringOf b i.userSid = some o.user
  visible : o.visible = i.visible.getD true

/-- Id, metadata and tags of an object. -/
structure AttrsMean (b : PBlock) (id : Int) (info : Option PInfo) (keys vals : List Int) (o : Obj) : Prop where
  id : o.id = id
  info : match info with
    | none => NoMetadata o
    | some i => InfoMeans b i o
  endtime : o.endtime = 0
  keys : keys.map (stringOf b) = o.tags.map fun t => some t.key
  values : vals.map (stringOf b) = o.tags.map fun t => some t.value

/-- A node. -/
structure NodeMeans (b : PBlock) (p : PNode) (n : Node) : Prop where
  attrs : AttrsMean b p.id p.info p.keys p.vals n.obj
  x : n.position.x = hundredNanos b.granularity b.lonOffset p.lon
  y : n.position.y = hundredNanos b.granularity b.latOffset p.lat

/-- A way: references are delta coded, and have no positions. -/
structure WayMeans (b : PBlock) (p : PWay) (w : Way) : Prop where
  attrs : AttrsMean b p.id p.info p.keys p.vals w.obj
  refs : totals 0 p.refs = w.nodes.map WayNode.ref
  positions : ∀ n ∈ w.nodes, n.position = Position.undef

/-- The letter for a member type. -/
def letterOf : PMemType → Char
  | .node => 'n'
  | .way => 'w'
  | .relation => 'r'

/-- A relation: references are delta coded. -/
structure RelationMeans (b : PBlock) (p : PRel) (r : Relation) : Prop where
  attrs : AttrsMean b p.id p.info p.keys p.vals r.obj
  types : p.types.map letterOf = r.members.map Member.type
  refs : totals 0 p.memids = r.members.map Member.ref
  roles : p.rolesSid.map (stringOf b) = r.members.map fun m => some m.role

/-- The tags of dense nodes: key, value, key, value, ..., 0 for each node; nothing at all if no node
(or no further node) has tags. -/
inductive DenseTagsMean (b : PBlock) : List Int → List TagList → Prop
  | none (l : List TagList) : (∀ ts ∈ l, ts = []) → DenseTagsMean b [] l
  | done (rest : List Int) (l : List TagList) : DenseTagsMean b rest l → DenseTagsMean b (0 :: rest) ([] :: l)
  | tag (k v : Int) (t : Tag) (ts : TagList) (rest : List Int) (l : List TagList) : k ≠ 0 →
      stringOf b k = some t.key → stringOf b v = some t.value → DenseTagsMean b rest (ts :: l) →
      DenseTagsMean b (k :: v :: rest) ((t :: ts) :: l)

/-- The metadata of dense nodes: one column for each attribute, all but the versions and the visible
flags delta coded.  The column of visible flags may be missing. -/
structure DenseInfoMeans (b : PBlock) (i : PDenseInfo) (ns : List Node) : Prop where
  version : i.version = ns.map fun n => n.obj.version
  changeset : totals 0 i.changeset = ns.map fun n => n.obj.changeset
  timestamp : (totals 0 i.timestamp).map (· * b.dateGranularity) = ns.map fun n => n.obj.timestamp * 1000
  uid : totals 0 i.uid = ns.map fun n => n.obj.uid
  user : (totals 0 i.userSid).map (stringOf b) = ns.map fun n => some n.obj.user
  visible : i.visible = ns.map (fun n => n.obj.visible) ∨ (i.visible = [] ∧ ∀ n ∈ ns, n.obj.visible = true)

/-- Dense nodes. -/
structure DenseMeans (b : PBlock) (d : PDense) (ns : List Node) : Prop where
  id : totals 0 d.id = ns.map fun n => n.obj.id
  x : (totals 0 d.lon).map (hundredNanos b.granularity b.lonOffset) = ns.map fun n => n.position.x
  y : (totals 0 d.lat).map (hundredNanos b.granularity b.latOffset) = ns.map fun n => n.position.y
  tags : DenseTagsMean b d.keysVals (ns.map fun n => n.obj.tags)
  info : match d.info with
    | none => ∀ n ∈ ns, NoMetadata n.obj
    | some i => DenseInfoMeans b i ns
  endtime : ∀ n ∈ ns, n.obj.endtime = 0

/-- A list of messages stands for a list of objects of one kind. -/
inductive EachMeans {α β : Type} (means : α → β → Prop) : List α → List β → Prop
  | nil : EachMeans means [] []
  | cons (a : α) (b : β) (as : List α) (bs : List β) : means a b → EachMeans means as bs →
      EachMeans means (a :: as) (b :: bs)

/-- A group contains objects of one kind only. -/
inductive GroupMeans (b : PBlock) : PGroup → List OsmObj → Prop
  | dense (d : PDense) (ns : List Node) : DenseMeans b d ns →
      GroupMeans b ⟨[], some d, [], []⟩ (ns.map .node)
  | nodes (ps : List PNode) (ns : List Node) : ps ≠ [] → EachMeans (NodeMeans b) ps ns →
      GroupMeans b ⟨ps, none, [], []⟩ (ns.map .node)
  | ways (ps : List PWay) (ws : List Way) : ps ≠ [] → EachMeans (WayMeans b) ps ws →
      GroupMeans b ⟨[], none, ps, []⟩ (ws.map .way)
  | relations (ps : List PRel) (rs : List Relation) : ps ≠ [] → EachMeans (RelationMeans b) ps rs →
      GroupMeans b ⟨[], none, [], ps⟩ (rs.map .relation)

/-- The groups of a block, one after the other. -/
inductive GroupsMean (b : PBlock) : List PGroup → List OsmObj → Prop
  | nil : GroupsMean b [] []
  | cons (g : PGroup) (gs : List PGroup) (os rest : List OsmObj) : GroupMeans b g os →
      GroupsMean b gs rest → GroupsMean b (g :: gs) (os ++ rest)

/-! ### Ranges -/

/-- The block counts times in whole seconds; there are at most 2³¹ strings. -/
structure BlockFits (b : PBlock) : Prop where
  seconds : 0 < b.dateGranularity ∧ b.dateGranularity % 1000 = 0
  strings : b.strings.length ≤ 2147483648

/-- A coordinate value and its product with the granularity fit into 64 bits. -/
def CoordFits (b : PBlock) (v : Int) : Prop := InS64 v ∧ InS64 (v * b.granularity)

/-- All coordinates of a group fit into 64 bits. -/
def GroupFits (b : PBlock) (g : PGroup) : Prop :=
  (∀ p ∈ g.nodes, CoordFits b p.lon ∧ CoordFits b p.lat) ∧
  (∀ d ∈ g.dense, (∀ v ∈ totals 0 d.lon, CoordFits b v) ∧ ∀ v ∈ totals 0 d.lat, CoordFits b v)

/-- All numbers of an object fit into the variables for them, names are at most 1021 bytes long. -/
def ObjectFits (o : OsmObj) : Prop :=
  InS64 o.obj.id ∧ InU32 o.obj.version ∧ InS32 o.obj.changeset ∧ InS64 o.obj.timestamp ∧ InS32 o.obj.uid ∧
  o.obj.user.utf8ByteSize ≤ 1021 ∧
  match o with
  | .node n => InS32 n.position.x ∧ InS32 n.position.y
  | .way w => ∀ n ∈ w.nodes, InS64 n.ref
  | .relation r => ∀ m ∈ r.members, InS64 m.ref ∧ m.role.utf8ByteSize ≤ 1021

end Osmium.Spec

import Verif.Input.Model
import Verif.Pbf.Msg
/-
Model of input/pbf.hpp: the part that turns PrimitiveBlocks into callbacks.

Simplification: the handler has its own node(), way() and relation() methods, so the empty
specialisations (input/pbf.hpp:182-185, 220-223, 261-264, 314-317) are not chosen; for these see Pbf/Skip.lean.
-/
namespace Osmium

/-- `stringtable.s(i)`; an index out of range is undefined behaviour. (called in input/pbf.hpp
200-209, 238-247, 279-306, 347-370; the code uses the result as a C string, see `cutBlock` in Pbf/CStrings.lean) -/
def sidStr (tbl : List String) (i : Int) : Res String :=
  if i < 0 then .error .ub else Res.ofOption tbl[i.toNat]?

/-- osm/object.hpp:187-193 `user(const char*)` as used by the reader. -/
def readUser (s : String) : Res String :=
  if s.utf8ByteSize > maxLength then .error (.exn "user name too long") else .ok s

/-- input/pbf.hpp:197-206, 235-244, 276-285: id and metadata.  `m_date_factor` is the date
granularity divided by 1000 (98).  Values are converted to the types of the members of `Object`. -/
def readInfo (tbl : List String) (factor : Int) (o : Obj) : Option PInfo → Res Obj
  | none => .ok o
  | some i => do
    let ts ← Res.ofOption (chk64 (i.timestamp * factor))
    let s ← sidStr tbl i.userSid
    let u ← readUser s
    let o1 := { o with version := wrapU32 i.version, changeset := wrapS32 i.changeset,
                       timestamp := ts, uid := wrapS32 i.uid, user := u }
    match i.visible with
    | none => return o1
    | some v => return { o1 with visible := v }

/-- input/pbf.hpp:208-212, 246-250, 287-291: the tag loop; `vals(tag)` out of range is undefined
behaviour. -/
def readTags (tbl : List String) : List Int → List Int → TagList → Res TagList
  | [], _, acc => .ok acc
  | _ :: _, [], _ => .error .ub
  | k :: ks, v :: vs, acc => do
    let ks' ← sidStr tbl k
    let vs' ← sidStr tbl v
    readTags tbl ks vs (acc.add ks' vs')

/-- input/pbf.hpp:214-216: a coordinate, in `int64_t` arithmetic. -/
def readCoord (granularity offset x : Int) : Res Int := do
  let a ← Res.ofOption (chk64 (x * granularity))
  let b ← Res.ofOption (chk64 (a + offset))
  return b.tdiv 100

/-- `m_date_factor`, input/pbf.hpp:98. -/
def dateFactor (b : PBlock) : Int := b.dateGranularity.tdiv 1000

/-- input/pbf.hpp:190-216 the loop body of `parse_node_group`. -/
def readNode (b : PBlock) (p : PNode) : Res Node := do
  let o ← readInfo b.strings (dateFactor b) { Obj.new with id := p.id } p.info
  let tags ← readTags b.strings p.keys p.vals []
  let x ← readCoord b.granularity b.lonOffset p.lon
  let y ← readCoord b.granularity b.latOffset p.lat
  return ⟨{ o with tags := tags }, Position.ofInt64 x y⟩

/-- input/pbf.hpp:252-256: `uint64_t ref` accumulates, `add_node` converts it to `int64_t`. -/
def readRefs : Int → List Int → List WayNode
  | _, [] => []
  | ref, d :: ds =>
    let ref' := wrapU64 (ref + d)
    { ref := wrapS64 ref' } :: readRefs ref' ds

/-- input/pbf.hpp:228-256 the loop body of `parse_way_group`. -/
def readWay (b : PBlock) (p : PWay) : Res Way := do
  let o ← readInfo b.strings (dateFactor b) { Obj.new with id := p.id } p.info
  let tags ← readTags b.strings p.keys p.vals []
  return ⟨{ o with tags := tags }, readRefs 0 p.refs⟩

/-- input/pbf.hpp:295-306: the member type. -/
def memChar : PMemType → Char
  | .node => 'n'
  | .way => 'w'
  | .relation => 'r'

/-- input/pbf.hpp:293-309 the member loop; `types` determines the number of members. -/
def readMembers (tbl : List String) : Int → List PMemType → List Int → List Int → List Member →
    Res (List Member)
  | _, [], _, _, acc => .ok acc
  | ref, ty :: tys, d :: ds, s :: ss, acc => do
    let ref' := wrapU64 (ref + d)
    let role ← sidStr tbl s
    match addMember acc (memChar ty) (wrapS64 ref') role with
    | (_, true) => .error (.exn "role too long")
    | (acc', false) => readMembers tbl ref' tys ds ss acc'
  | _, _ :: _, _, _, _ => .error .ub

/-- input/pbf.hpp:269-309 the loop body of `parse_relation_group`. -/
def readRelation (b : PBlock) (p : PRel) : Res Relation := do
  let o ← readInfo b.strings (dateFactor b) { Obj.new with id := p.id } p.info
  let tags ← readTags b.strings p.keys p.vals []
  let ms ← readMembers b.strings 0 p.types p.memids p.rolesSid []
  return ⟨{ o with tags := tags }, ms⟩

/-- The variables of the loop in `parse_dense_node_group` (input/pbf.hpp:320-329).  The columns are
what remains of them from the position `entity` on (`keysVals`: from `last_dense_tag` on). -/
structure DenseState where
  id : Int
  lat : Int
  lon : Int
  uid : Int
  userSid : Int
  changeset : Int
  timestamp : Int
  lats : List Int
  lons : List Int
  versions : List Int
  timestamps : List Int
  changesets : List Int
  uids : List Int
  userSids : List Int
  visibles : List Bool
  keysVals : List Int

/-- Element `entity` of a column; out of range is undefined behaviour. (input/pbf.hpp 331-365:
`dense.id(entity)` etc.) -/
def pop {α : Type} : List α → Res (α × List α)
  | [] => .error .ub
  | x :: xs => .ok (x, xs)

/-- `acc += x` on an `int64_t`. (input/pbf.hpp 252, 305, 320-376) -/
def add64 (acc x : Int) : Res Int := Res.ofOption (chk64 (acc + x))

/-- input/pbf.hpp:360-373 the tag loop of `parse_dense_node_group`; the second result is the rest
of the keys_vals column. -/
def readDenseTags (tbl : List String) : List Int → TagList → Res (TagList × List Int)
  | [], acc => .ok (acc, [])
  | k :: rest, acc =>
    if k = 0 then .ok (acc, rest)
    else do
      let ks ← sidStr tbl k
      match rest with
      | [] => .error .ub
      | v :: rest' => do
        let vs ← sidStr tbl v
        readDenseTags tbl rest' (acc.add ks vs)

/-- input/pbf.hpp:339-354 the metadata part of the loop body of `parse_dense_node_group`.  The 64 bit number of the user
name becomes an `int` when it is looked up (352). -/
def readDenseInfo (tbl : List String) (factor : Int) (hasVisible : Bool) (o : Obj)
    (s : DenseState) : Res (Obj × DenseState) := do
  let (cs, css) ← pop s.changesets
  let (ts, tss) ← pop s.timestamps
  let (u, us) ← pop s.uids
  let (si, sis) ← pop s.userSids
  let (ve, ves) ← pop s.versions
  let changeset ← add64 s.changeset cs
  let timestamp ← add64 s.timestamp ts
  let uid ← add64 s.uid u
  let userSid ← add64 s.userSid si
  let t ← Res.ofOption (chk64 (timestamp * factor))
  let str ← sidStr tbl (wrapS32 userSid)
  let user ← readUser str
  let o1 := { o with version := wrapU32 ve, changeset := wrapS32 changeset, timestamp := t,
                     uid := wrapS32 uid, user := user }
  let s1 := { s with changeset := changeset, timestamp := timestamp, uid := uid,
                     userSid := userSid, changesets := css, timestamps := tss, uids := us,
                     userSids := sis, versions := ves }
  if hasVisible then do
    let (v, vs) ← pop s.visibles
    return ({ o1 with visible := v }, { s1 with visibles := vs })
  else return (o1, s1)

/-- input/pbf.hpp:333-375 the loop body of `parse_dense_node_group`. -/
def readDenseNode (b : PBlock) (hasInfo hasVisible : Bool) (did : Int) (s : DenseState) :
    Res (Node × DenseState) := do
  let id ← add64 s.id did
  let o := { Obj.new with id := id }
  let (o1, s1) ← if hasInfo then readDenseInfo b.strings (dateFactor b) hasVisible o s
    else pure (o, s)
  let (dlat, lats) ← pop s.lats
  let (dlon, lons) ← pop s.lons
  let lat ← add64 s.lat dlat
  let lon ← add64 s.lon dlon
  let x ← readCoord b.granularity b.lonOffset lon
  let y ← readCoord b.granularity b.latOffset lat
  let (tags, kv) ← readDenseTags b.strings s.keysVals []
  return (⟨{ o1 with tags := tags }, Position.ofInt64 x y⟩,
    { s1 with id := id, lat := lat, lon := lon, lats := lats, lons := lons, keysVals := kv })

/-- The callbacks of the loop in `parse_dense_node_group`. (input/pbf.hpp 331-380) -/
def readDenseLoop (b : PBlock) (hasInfo hasVisible : Bool) : List Int → DenseState → Events
  | [], _ => ⟨[], none⟩
  | d :: ds, s =>
    match readDenseNode b hasInfo hasVisible d s with
    | .error e => ⟨[], some e⟩
    | .ok (n, s') =>
      let r := readDenseLoop b hasInfo hasVisible ds s'
      ⟨.obj (.node n) :: r.calls, r.fail⟩

/-- input/pbf.hpp:319-377 `parse_dense_node_group`. -/
def readDense (b : PBlock) (d : PDense) : Events :=
  let i := d.info.getD .new
  readDenseLoop b d.info.isSome (!i.visible.isEmpty) d.id
    { id := 0, lat := 0, lon := 0, uid := 0, userSid := 0, changeset := 0, timestamp := 0,
      lats := d.lat, lons := d.lon, versions := i.version, timestamps := i.timestamp,
      changesets := i.changeset, uids := i.uid, userSids := i.userSid, visibles := i.visible,
      keysVals := d.keysVals }

/-- A loop that reads objects one after the other and calls the handler with each
(187-217, 225-258, 266-311). -/
def readEach {α : Type} (f : α → Res OsmObj) : List α → Events
  | [] => ⟨[], none⟩
  | a :: as =>
    match f a with
    | .error e => ⟨[], some e⟩
    | .ok o => let r := readEach f as; ⟨.obj o :: r.calls, r.fail⟩

/-- input/pbf.hpp:163-179 `parse_group`: the callbacks and the new `m_last_object_type`. -/
def readGroup (m : Meta) (last : ObjType) (b : PBlock) (g : PGroup) : Events × ObjType :=
  match g.dense with
  | some d => (Events.seq ⟨afterAndBefore m last .node, none⟩ (readDense b d), .node)
  | none =>
    if g.ways.length ≠ 0 then
      (Events.seq ⟨afterAndBefore m last .way, none⟩
        (readEach (fun p => do return .way (← readWay b p)) g.ways), .way)
    else if g.relations.length ≠ 0 then
      (Events.seq ⟨afterAndBefore m last .relation, none⟩
        (readEach (fun p => do return .relation (← readRelation b p)) g.relations), .relation)
    else if g.nodes.length ≠ 0 then
      (Events.seq ⟨afterAndBefore m last .node, none⟩
        (readEach (fun p => do return .node (← readNode b p)) g.nodes), .node)
    else (⟨[], some (.exn "Group of unknown type.")⟩, last)

/-- input/pbf.hpp:99-101 the loop over the groups. -/
def readGroups (m : Meta) (b : PBlock) : ObjType → List PGroup → Events × ObjType
  | last, [] => (⟨[], none⟩, last)
  | last, g :: gs =>
    let (e1, last1) := readGroup m last b g
    let (e2, last2) := readGroups m b last1 gs
    (e1.seq e2, last2)

/-- input/pbf.hpp:93-101 all data blocks of a file, one after the other. -/
def readBlocks (m : Meta) : ObjType → List PBlock → Events × ObjType
  | last, [] => (⟨[], none⟩, last)
  | last, b :: bs =>
    let (e1, last1) := readGroups m b last b.groups
    let (e2, last2) := readBlocks m last1 bs
    (e1.seq e2, last2)

end Osmium

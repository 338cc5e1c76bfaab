import Verif.Pbf.File
/-
Model of how the PBF reader leaves out objects nobody looks at: for a handler class that inherits `node`, `way` or
`relation` from the empty base class the overload of the parse function for members of this base class is taken, which
does nothing.  (C107)
-/
namespace Osmium

/-- `f` is empty if `skipped`: the overloads in input/pbf.hpp 181-183, 219-221, 260-262 and 313-315. -/
def unlessSkipped (skipped : Bool) (f : Events) : Events := if skipped then ⟨[], none⟩ else f

/-- input/pbf.hpp 163-179 `parse_group` for a handler that inherits the callbacks for the types in `skip`. -/
def readGroupFor (skip : ObjType → Bool) (m : Meta) (last : ObjType) (b : PBlock) (g : PGroup) : Events × ObjType :=
  match g.dense with
  | some d => (Events.seq ⟨afterAndBefore m last .node, none⟩ (unlessSkipped (skip .node) (readDense b d)), .node)
  | none =>
    if g.ways.length ≠ 0 then
      (Events.seq ⟨afterAndBefore m last .way, none⟩
        (unlessSkipped (skip .way) (readEach (fun p => do return .way (← readWay b p)) g.ways)), .way)
    else if g.relations.length ≠ 0 then
      (Events.seq ⟨afterAndBefore m last .relation, none⟩
        (unlessSkipped (skip .relation) (readEach (fun p => do return .relation (← readRelation b p)) g.relations)),
        .relation)
    else if g.nodes.length ≠ 0 then
      (Events.seq ⟨afterAndBefore m last .node, none⟩
        (unlessSkipped (skip .node) (readEach (fun p => do return .node (← readNode b p)) g.nodes)), .node)
    else (⟨[], some (.exn "Group of unknown type.")⟩, last)

/-- input/pbf.hpp 99-101 the loop over the groups. -/
def readGroupsFor (skip : ObjType → Bool) (m : Meta) (b : PBlock) : ObjType → List PGroup → Events × ObjType
  | last, [] => (⟨[], none⟩, last)
  | last, g :: gs =>
    let (e1, last1) := readGroupFor skip m last b g
    let (e2, last2) := readGroupsFor skip m b last1 gs
    (e1.seq e2, last2)

/-- input/pbf.hpp 90-145 what happens for each blob, see `parseBlobs`. -/
def parseBlobsFor (skip : ObjType → Bool) (c : PbfCodec) (ft : FileType) : Meta → ObjType → List (String × Bytes) →
    Events × Meta × ObjType
  | m, last, [] => (⟨[], none⟩, m, last)
  | m, last, (t, d) :: bs =>
    if t = "OSMData" then
      match c.decBlock d with
      | none => (⟨[], some (.exn "Failed to parse PrimitiveBlock.")⟩, m, last)
      | some b =>
        let (e1, last1) := readGroupsFor skip m b last b.groups
        let (e2, r) := parseBlobsFor skip c ft m last1 bs
        (e1.seq e2, r)
    else if t = "OSMHeader" then
      match c.decHeader d with
      | none => (⟨[], some (.exn "Failed to parse HeaderBlock.")⟩, m, last)
      | some h =>
        match readHeader ft m h with
        | .error e => (⟨[], some e⟩, m, last)
        | .ok m' => parseBlobsFor skip c ft m' last bs
    else parseBlobsFor skip c ft m last bs

/-- input/pbf.hpp 88-150 `parse` for such a handler. -/
def pbfParseFor (skip : ObjType → Bool) (c : PbfCodec) (ft : FileType) (h : Stops) (s : Input) : List Cb × ParseEnd :=
  let (bs, f) := readBlobs c.toBlobCodec s
  let (ev, m, last) := parseBlobsFor skip c ft (Meta.new ft.multi) .unknown bs
  parseFrame h (ev.seq ⟨[], f⟩) (afterAndBefore m last .unknown)

end Osmium

import Verif.Input.Model
import Verif.Float.Model
import Verif.Strings.Model
import Verif.Pbf.Msg
/-
Model of output/pbf.hpp: the part that turns objects into PrimitiveBlocks.
-/
namespace Osmium

/-- output/pbf.hpp:164-205 the settings of the writer (`m_use_compression` is in
`Verif.Pbf.Blob`). -/
structure PbfCfg where
  granularity : Int
  dateGranularity : Int
  dense : Bool
  metadata : Bool
  addVisible : Bool
deriving DecidableEq, Repr

/-- output/pbf.hpp:749-777 the settings after construction (100 and 1000 are the defaults of the
fields in osmformat.proto). -/
def PbfCfg.default (hasMultipleVersions : Bool) : PbfCfg := ⟨100, 1000, true, true, hasMultipleVersions⟩

/-- The parts of the libraries the writer depends on. (protobuf `ByteSize`, called in
output/pbf.hpp 577-590, and the order of the string table, utils/stringtable.hpp 136-150) -/
structure PbfLib where
  /-- order of the `multimap` in the string table -/
  sort : CountSort
  /-- `OSMPBF::Way::ByteSize` -/
  waySize : PWay → Nat
  /-- `OSMPBF::Relation::ByteSize` -/
  relSize : PRel → Nat

/-- output/pbf.hpp:149-232 the state of class `PBF`.  The groups of the block under construction:
`order` lists the groups allocated with `add_primitivegroup`, in order, by the pointer that points
to them; `nodes`, `ways`, `rels` are the groups `*pbf_nodes`, `*pbf_ways`, `*pbf_relations`, and
empty groups if the pointer is null.  `out` collects the blocks handed to `store_blob`. -/
structure Writer where
  cfg : PbfCfg
  order : List ObjType
  nodes : PGroup
  ways : PGroup
  rels : PGroup
  strings : StringTable
  dId : Int
  dLat : Int
  dLon : Int
  dTs : Int
  dCs : Int
  dUid : Int
  dUserSid : Int
  contents : Nat
  size : Nat
  out : List PBlock

/-- output/pbf.hpp:749-777 constructor. -/
def Writer.new (cfg : PbfCfg) : Writer :=
  { cfg := cfg, order := [], nodes := .new, ways := .new, rels := .new, strings := .empty,
    dId := 0, dLat := 0, dLon := 0, dTs := 0, dCs := 0, dUid := 0, dUserSid := 0,
    contents := 0, size := 0, out := [] }

/-! ### Conversions -/

/-- output/pbf.hpp:463-465 `lonlat2int(node->lon())`.  A granularity of 0 gives an infinite or
undefined double, whose conversion to `int64_t` is undefined behaviour, as is that of a value out
of range. -/
def lonlat2intC (cfg : PbfCfg) (x : Int) : Res Int :=
  if cfg.granularity = 0 then .error .ub else .ofOption (chk64 (lonlat2int cfg.granularity x))

/-- output/pbf.hpp:470-472 `timestamp2int`. -/
def timestamp2intC (cfg : PbfCfg) (t : Int) : Res Int :=
  if cfg.dateGranularity = 0 then .error .ub
  else .ofOption (chk64 (timestamp2int cfg.dateGranularity t))

/-! ### Objects -/

/-- output/pbf.hpp:484-488 the tag loop of `apply_common_info`. -/
def recordTags : StringTable → TagList → StringTable × List Int × List Int
  | t, [] => (t, [], [])
  | t, tag :: tags =>
    let (t1, k) := t.record tag.key
    let (t2, v) := t1.record tag.value
    let (t3, ks, vs) := recordTags t2 tags
    (t3, (k : Int) :: ks, (v : Int) :: vs)

/-- output/pbf.hpp:490-502 the metadata part of `apply_common_info`. -/
def recordInfo (cfg : PbfCfg) (t : StringTable) (o : Obj) : Res (StringTable × Option PInfo) :=
  if cfg.metadata then do
    let ts ← timestamp2intC cfg o.timestamp
    let (t1, sid) := t.record o.user
    return (t1, some
      { visible := if cfg.addVisible then some o.visible else none
        version := wrapS32 o.version
        timestamp := ts
        changeset := o.changeset
        uid := o.uid
        userSid := sid })
  else return (t, none)

/-- output/pbf.hpp:600-611 `write_node` (and 481-505 `apply_common_info`). -/
def Writer.writeNode (w : Writer) (n : Node) : Res Writer := do
  let (t1, ks, vs) := recordTags w.strings n.obj.tags
  let (t2, info) ← recordInfo w.cfg t1 n.obj
  let lon ← lonlat2intC w.cfg n.position.x
  let lat ← lonlat2intC w.cfg n.position.y
  let p : PNode := { id := n.obj.id, keys := ks, vals := vs, info := info, lon := lon, lat := lat }
  return { w with strings := t2, nodes := { w.nodes with nodes := w.nodes.nodes ++ [p] } }

/-- output/pbf.hpp:637-641 the tag loop of `write_dense_node`. -/
def recordTagsDense : StringTable → TagList → StringTable × List Int
  | t, [] => (t, [])
  | t, tag :: tags =>
    let (t1, k) := t.record tag.key
    let (t2, v) := t1.record tag.value
    let (t3, kvs) := recordTagsDense t2 tags
    (t3, (k : Int) :: (v : Int) :: kvs)

/-- output/pbf.hpp:644-666 the metadata part of `write_dense_node`; `uid`, `user_sid` and `version`
are 32-bit fields. -/
def Writer.denseInfo (w : Writer) (n : Node) (info : PDenseInfo) : Res (Writer × PDenseInfo) := do
  let ts ← timestamp2intC w.cfg n.obj.timestamp
  let (dts, dTs) ← Res.ofOption (deltaUpdate w.dTs ts)
  let (dcs, dCs) ← Res.ofOption (deltaUpdate w.dCs n.obj.changeset)
  let (duid, dUid) ← Res.ofOption (deltaUpdate w.dUid n.obj.uid)
  let (t, sid) := w.strings.record n.obj.user
  return ({ w with strings := t, dTs := dTs, dCs := dCs, dUid := dUid },
    { version := info.version ++ [wrapS32 n.obj.version]
      visible := if w.cfg.addVisible then info.visible ++ [n.obj.visible] else info.visible
      timestamp := info.timestamp ++ [dts]
      changeset := info.changeset ++ [dcs]
      uid := info.uid ++ [wrapS32 duid]
      userSid := info.userSid ++ [(sid : Int)] })

/-- output/pbf.hpp:618-667 `write_dense_node`. -/
def Writer.writeDenseNode (w : Writer) (n : Node) : Res Writer := do
  let d := w.nodes.dense.getD .new
  let (did, dId) ← Res.ofOption (deltaUpdate w.dId n.obj.id)
  let lon ← lonlat2intC w.cfg n.position.x
  let (dlon, dLon) ← Res.ofOption (deltaUpdate w.dLon lon)
  let lat ← lonlat2intC w.cfg n.position.y
  let (dlat, dLat) ← Res.ofOption (deltaUpdate w.dLat lat)
  let (t, kvs) := recordTagsDense w.strings n.obj.tags
  let w1 := { w with strings := t, dId := dId, dLon := dLon, dLat := dLat }
  let d1 := { d with id := d.id ++ [did], lon := d.lon ++ [dlon], lat := d.lat ++ [dlat],
                     keysVals := d.keysVals ++ kvs ++ [0] }
  if w.cfg.metadata then do
    let (w2, info) ← w1.denseInfo n (d1.info.getD .new)
    return { w2 with nodes := { w2.nodes with dense := some { d1 with info := some info } } }
  else
    return { w1 with nodes := { w1.nodes with dense := some d1 } }

/-- output/pbf.hpp:674-692 `write_way`.  `primitive_block_size` is a `uint32_t`. -/
def Writer.writeWay (lib : PbfLib) (w : Writer) (x : Way) : Res Writer := do
  let (t1, ks, vs) := recordTags w.strings x.obj.tags
  let (t2, info) ← recordInfo w.cfg t1 x.obj
  let refs ← Res.ofOption (deltaSeq 0 (x.nodes.map WayNode.ref))
  let p : PWay := { id := x.obj.id, keys := ks, vals := vs, info := info, refs := refs }
  return { w with strings := t2, ways := { w.ways with ways := w.ways.ways ++ [p] },
                  size := (w.size + lib.waySize p) % 4294967296 }

/-- output/pbf.hpp:721-733 the member type switch. -/
def memType (c : Char) : Option PMemType :=
  if c = 'n' then some .node else if c = 'w' then some .way
  else if c = 'r' then some .relation else none

/-- output/pbf.hpp:709-734 the member loop of `write_relation`: roles, memids and types added,
and whether it ended with an exception. -/
def writeMembers : StringTable → Int → List Member →
    Res (StringTable × List Int × List Int × List PMemType × Bool)
  | t, _, [] => .ok (t, [], [], [], false)
  | t, d, m :: ms => do
    let (t1, sid) := t.record m.role
    let (dd, d') ← Res.ofOption (deltaUpdate d m.ref)
    match memType m.type with
    | none => return (t1, [(sid : Int)], [dd], [], true)
    | some ty => do
      let (t2, sids, ids, tys, thrown) ← writeMembers t1 d' ms
      return (t2, (sid : Int) :: sids, dd :: ids, ty :: tys, thrown)

/-- output/pbf.hpp:699-738 `write_relation`; the `Bool` says whether
`runtime_error("Unknown relation member type")` was thrown.  The relation as filled in so far
stays in the group in this case. -/
def Writer.writeRelation (lib : PbfLib) (w : Writer) (x : Relation) : Res (Writer × Bool) := do
  let (t1, ks, vs) := recordTags w.strings x.obj.tags
  let (t2, info) ← recordInfo w.cfg t1 x.obj
  let (t3, sids, ids, tys, thrown) ← writeMembers t2 0 x.members
  let p : PRel := { id := x.obj.id, keys := ks, vals := vs, info := info, rolesSid := sids,
                    memids := ids, types := tys }
  let w1 := { w with strings := t3, rels := { w.rels with relations := w.rels.relations ++ [p] } }
  if thrown then return (w1, true)
  else return ({ w1 with size := (w.size + lib.relSize p) % 4294967296 }, false)

/-! ### Storing a block -/

/-- `string_table.map_string_id(sid)`; the parameter is a `uint16_t`. (utils/stringtable.hpp 164-170, called in
output/pbf.hpp 387-453) -/
def mapSid (t : StringTable) (sid : Int) : Res Int :=
  Res.ofOption ((t.mapId (wrapU16 sid).toNat).map Int.ofNat)

/-- output/pbf.hpp:443-446 first part of `map_common_string_ids`. -/
def mapInfo (t : StringTable) : Option PInfo → Res (Option PInfo)
  | none => .ok none
  | some i => do return some { i with userSid := ← mapSid t i.userSid }

/-- output/pbf.hpp:369-371 and 442-455. -/
def mapNode (t : StringTable) (n : PNode) : Res PNode := do
  let info ← mapInfo t n.info
  let ks ← n.keys.mapM (mapSid t)
  let vs ← n.vals.mapM (mapSid t)
  return { n with info := info, keys := ks, vals := vs }

/-- output/pbf.hpp:412-416 and 442-455. -/
def mapWay (t : StringTable) (n : PWay) : Res PWay := do
  let info ← mapInfo t n.info
  let ks ← n.keys.mapM (mapSid t)
  let vs ← n.vals.mapM (mapSid t)
  return { n with info := info, keys := ks, vals := vs }

/-- output/pbf.hpp:418-431 and 442-455. -/
def mapRel (t : StringTable) (n : PRel) : Res PRel := do
  let info ← mapInfo t n.info
  let ks ← n.keys.mapM (mapSid t)
  let vs ← n.vals.mapM (mapSid t)
  let rs ← n.rolesSid.mapM (mapSid t)
  return { n with info := info, keys := ks, vals := vs, rolesSid := rs }

/-- output/pbf.hpp:380-387: zeros (separators) are not mapped. -/
def mapKV (t : StringTable) (sid : Int) : Res Int :=
  if wrapU16 sid > 0 then mapSid t sid else .ok sid

/-- output/pbf.hpp:376-408 the dense nodes; user ids are mapped, then delta encoded as `uint32_t`
and assigned to a field of type `sint32`. -/
def mapDense (t : StringTable) (dUserSid : Int) (d : PDense) : Res PDense := do
  let kv ← d.keysVals.mapM (mapKV t)
  match d.info with
  | none => return { d with keysVals := kv }
  | some i => do
    let us ← i.userSid.mapM (mapSid t)
    return { d with keysVals := kv,
                    info := some { i with userSid := (deltaSeqU32 dUserSid us).map wrapS32 } }

/-- output/pbf.hpp:367-433 `map_string_ids` for one group (each group only contains objects of one
kind; the fields of the other kinds are empty). -/
def mapGroup (t : StringTable) (dUserSid : Int) (g : PGroup) : Res PGroup := do
  let ns ← g.nodes.mapM (mapNode t)
  let d ← match g.dense with
    | none => pure none
    | some d => do pure (some (← mapDense t dUserSid d))
  let ws ← g.ways.mapM (mapWay t)
  let rs ← g.relations.mapM (mapRel t)
  return { nodes := ns, dense := d, ways := ws, relations := rs }

/-- The group a pointer points to. (output/pbf.hpp 156-158 `pbf_nodes`, `pbf_ways`, `pbf_relations`) -/
def Writer.group (w : Writer) : ObjType → PGroup
  | .node => w.nodes
  | .way => w.ways
  | .relation => w.rels
  | _ => .new

/-- output/pbf.hpp:526-567 `store_primitive_block`.  (`m_delta_user_sid` after the mapping is not
kept, as it is cleared.) -/
def Writer.store (lib : PbfLib) (w : Writer) : Res Writer := do
  let (strs, st) := w.strings.store lib.sort
  let groups ← w.order.mapM (fun k => mapGroup st w.dUserSid (w.group k))
  let block : PBlock :=
    { strings := strs, groups := groups, granularity := w.cfg.granularity,
      dateGranularity := w.cfg.dateGranularity, latOffset := 0, lonOffset := 0 }
  return { cfg := w.cfg, order := [], nodes := .new, ways := .new, rels := .new,
           strings := st.clear, dId := 0, dLat := 0, dLon := 0, dTs := 0, dCs := 0, dUid := 0,
           dUserSid := 0, contents := 0, size := 0, out := w.out ++ [block] }

/-- output/pbf.hpp:122 `max_block_contents`. -/
def maxBlockContents : Nat := 8000
/-- `OSMPBF::max_uncompressed_blob_size` (32 MB, osmpbf.h). (used in output/pbf.hpp 223, 261, 580-583) -/
def maxUncompressedBlobSize : Nat := 33554432
/-- output/pbf.hpp:130, 580: `max_uncompressed_blob_size * buffer_fill_percent / 100`; the product is
computed in `uint32_t`, where it fits (3187671040). -/
def sizeLimit : Nat := maxUncompressedBlobSize * 95 / 100

/-- output/pbf.hpp:577-590 `check_block_contents_counter`; the counter is a `uint16_t`. -/
def Writer.check (lib : PbfLib) (w : Writer) : Res Writer := do
  let w1 ← if w.contents ≥ maxBlockContents then w.store lib
    else if w.size > sizeLimit then w.store lib
    else pure w
  return { w1 with contents := (w1.contents + 1) % 65536 }

/-- The groups allocated, after one more use of a pointer. (helper for statements and proofs, no
counterpart in /repo) -/
def addKind (order : List ObjType) (k : ObjType) : List ObjType :=
  if k ∈ order then order else order ++ [k]

/-- output/pbf.hpp:914-917, 938-941, 963-966: allocate the group if the pointer is null. -/
def Writer.alloc (w : Writer) (k : ObjType) : Writer :=
  { w with order := addKind w.order k }

/-- output/pbf.hpp:914-923, 938-946, 963-971: the parts of `node`, `way` and `relation` after the
call of `check_block_contents_counter`.  The `Bool` says whether an exception was thrown. -/
def Writer.put (lib : PbfLib) (w : Writer) (o : OsmObj) : Res (Writer × Bool) :=
  let w2 := w.alloc o.type
  match o with
  | .node n =>
    if w2.cfg.dense then do return (← w2.writeDenseNode n, false)
    else do return (← w2.writeNode n, false)
  | .way x => do return (← w2.writeWay lib x, false)
  | .relation r => w2.writeRelation lib r

/-- output/pbf.hpp:905-924 `node`, 931-947 `way`, 956-972 `relation`. -/
def Writer.write (lib : PbfLib) (w : Writer) (o : OsmObj) : Res (Writer × Bool) := do
  let w1 ← w.check lib
  w1.put lib o

/-- output/pbf.hpp:978-989 `final` (the file is closed afterwards). -/
def Writer.final (lib : PbfLib) (w : Writer) : Res Writer :=
  if w.contents > 0 then w.store lib else .ok w

/-- Writing a sequence of objects, each without exception, then `final`: the blocks written.
An exception is reported. (part of a program using the library, no counterpart in /repo) -/
def Writer.writeAll (lib : PbfLib) (w : Writer) : List OsmObj → Res Writer
  | [] => .ok w
  | o :: os => do
    let (w1, thrown) ← w.write lib o
    if thrown then .error (.exn "Unknown relation member type") else w1.writeAll lib os

/-- What a program can do with a writer between construction and `final`. (part of a program
using the library, no counterpart in /repo; the public methods of output/pbf.hpp 782-995) -/
inductive WOp
  | write (o : OsmObj)
  /-- output/pbf.hpp:783-855 the setters -/
  | set (cfg : PbfCfg)

/-- One operation.  An exception is caught by the program, which then goes on. (part of a program
using the library, no counterpart in /repo) -/
def Writer.step (lib : PbfLib) (w : Writer) : WOp → Res Writer
  | .write o => do return (← w.write lib o).1
  | .set cfg => .ok { w with cfg := cfg }

/-- A sequence of operations. (part of a program using the library, no counterpart in /repo) -/
def Writer.run (lib : PbfLib) (w : Writer) : List WOp → Res Writer
  | [] => .ok w
  | op :: ops => do (← w.step lib op).run lib ops

/-- The data blocks of a file: all objects written with the given settings, then `final`. (part
of a program using the library, no counterpart in /repo; output/pbf.hpp 865-995) -/
def pbfBlocks (lib : PbfLib) (cfg : PbfCfg) (os : List OsmObj) : Res (List PBlock) := do
  let w ← (Writer.new cfg).writeAll lib os
  let w' ← w.final lib
  return w'.out

end Osmium

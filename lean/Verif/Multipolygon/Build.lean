import Verif.Multipolygon.HoleProps
import Verif.Multipolygon.NestingProps
import Verif.Multipolygon.Tags
import Verif.Relations.FileProps

/-
C43, C63, C64: the model of the multipolygon builder as a whole and of the multipolygon assembler.
-/
namespace Osmium

/-- osm/area.hpp 58-63 class `Area` (without its geometry). -/
structure Area where
  obj : Obj
  nodes : List WayNode
deriving DecidableEq, Repr

/-- osm/area.hpp 79-84 constructor from a way. -/
def Area.ofWay (w : Way) : Res Area :=
  (Res.ofOption (areaIdOfWay w.obj.id)).map fun id => ⟨{ w.obj with id := id }, w.nodes⟩

/-- osm/area.hpp 71-76 constructor from a relation. -/
def Area.ofRelation (r : Relation) : Res Area :=
  (Res.ofOption (areaIdOfRelation r.obj.id)).map fun id => ⟨{ r.obj with id := id }, []⟩

/-- All that the builder asks from GEOS, as functions of the rings: whether one ring contains
another, whether the polygon made from outer ring `i` and its inner rings is valid (including the
treatment of touching inner rings, builder.hpp 802-860), and whether the multipolygon is. -/
structure BuildEnv extends RingEnv where
  contains : RingState → Bits
  polygonOk : RingState → Nat → Bool
  multiOk : RingState → Bool

/-- The ways of ring `i`, in the order of `RingInfo::ways`. (multipolygon/builder.hpp 524-545,
`rl->ways`) -/
def ringWays (s : RingState) (i : Nat) : List Way :=
  ((s.rings[i]?).getD []).filterMap fun k => (s.ways[k]?).map (·.way)

/-- multipolygon/builder.hpp 758-781 `handle_one_way_inner_ring`: the area added, if any; `rel` are
the tags of the new area. -/
def innerArea (rel : TagList) (s : RingState) (t : RingTree) (j : Nat) : Res (List Area) :=
  match ringWays s j with
  | [w] =>
    if untagged w.obj.tags then .ok []
    else if sameTags w.obj.tags rel then .ok []
    else
      match t.containedBy j with
      | none => .error .ub
      | some p =>
        match ringWays s p with
        | [pw] =>
          if sameTags w.obj.tags pw.obj.tags then .ok [] else (Area.ofWay w).map fun a => [a]
        | _ => (Area.ofWay w).map fun a => [a]
  | _ => .ok []

/-- multipolygon/builder.hpp 791-803 `handle_one_way_inner_rings`: the areas added for the rings
with the given numbers. -/
def innerAreas (rel : TagList) (s : RingState) (t : RingTree) : List Nat → Res (List Area)
  | [] => .ok []
  | j :: js =>
    if t.isInner j then
      match innerArea rel s t j with
      | .error e => .error e
      | .ok a => (innerAreas rel s t js).map fun as => a ++ as
    else innerAreas rel s t js

/-- multipolygon/builder.hpp 791-803: the result, the number of outer rings. -/
def outerCount (n : Nat) (t : RingTree) : Nat := (List.range n).countP fun j => !t.isInner j

/-- multipolygon/builder.hpp 920-944: tags of the area after looking at a way of an outer ring that
has `len` ways, of `count` outer rings. -/
def outerWayTags (count len : Nat) (area : TagList) (w : Way) : TagList :=
  if untagged w.obj.tags then area
  else if sameTags area w.obj.tags then area
  else if untagged area then (mergeTags area w.obj.tags).1
  else if count = 1 ∧ len = 1 then (mergeTags area w.obj.tags).1
  else area

/-- multipolygon/builder.hpp 876-946: the loop over the outer rings; `none` when a polygon is invalid
(exception InvalidRing). -/
def outerTags (env : BuildEnv) (s : RingState) (t : RingTree) (count : Nat) :
    List Nat → TagList → Option TagList
  | [], tags => some tags
  | i :: is, tags =>
    if t.isInner i then outerTags env s t count is tags
    else if !env.polygonOk s i then none
    else outerTags env s t count is
      ((ringWays s i).foldl (outerWayTags count (ringWays s i).length) tags)

/-- multipolygon/builder.hpp 308-324 `build`, with 867-972 `build_multipolygon`: the areas returned.
The exceptions of the builder are caught, the areas made before are returned.  `members` are the
members collected by the relations assembler. -/
def buildAreas (env : BuildEnv) (r : Relation) (members : List (Option Way)) : Res (List Area) :=
  match Area.ofRelation r with
  | .error e => .error e
  | .ok area =>
    let (ways, ts) := assembleWays env.repair members [] area.obj.timestamp
    match makeRings env.toRingEnv ways with
    | .error (.exn _) => .ok []
    | .error e => .error e
    | .ok s =>
      let n := s.rings.length
      let t := determineRings n (env.contains s)
      match innerAreas area.obj.tags s t (List.range n) with
      | .error e => .error e
      | .ok inner =>
        let count := outerCount n t
        match outerTags env s t count (List.range n) area.obj.tags with
        | none => .ok inner
        | some tags =>
          if count = 0 then .ok inner
          else if !env.multiOk s then .ok inner
          else .ok (inner ++ [⟨{ area.obj with timestamp := ts, tags := tags }, []⟩])

/-- multipolygon/assembler.hpp 47-48, 60-71, 78-86: the multipolygon assembler as a relations
assembler: only ways are looked at; `relation` and `keep_member`. -/
def mpCfg : AsmCfg where
  enabled t := decide (t = .way)
  accept r :=
    match r.obj.tags.getValueByKey "type" with
    | none => false
    | some v => v == "multipolygon" || v == "boundary"
  keep _ m := m.type == 'w'

/-- multipolygon/assembler.hpp 88-95 `way_not_in_any_relation`: the calls of `area`. -/
def wayArea (w : Way) : Res (List Area) :=
  match wayNodesIsClosed w.nodes with
  | none => .error .ub
  | some closed => if closed && decide (4 ≤ w.nodes.length) then (Area.ofWay w).map fun a => [a] else .ok []

/-- What the handler behind the assembler gets. (multipolygon/assembler.hpp 60-115) -/
inductive MpCall
  | area (a : Area)
  | call (c : Cb)
deriving DecidableEq

/-- A member as a way (builder.hpp 648 `static_pointer_cast`); other objects are never put into the
slots since only members of type way are kept. -/
def memberWay : Option OsmObj → Res (Option Way)
  | none => .ok none
  | some (.way w) => .ok (some w)
  | some _ => .error .ub

/-- `memberWay` for all members. (multipolygon/builder.hpp 655-665) -/
def memberWays : List (Option OsmObj) → Res (List (Option Way))
  | [] => .ok []
  | m :: ms =>
    match memberWay m with
    | .error e => .error e
    | .ok w => (memberWays ms).map fun ws => w :: ws

/-- multipolygon/assembler.hpp 88-120: the hooks (debug output is not modelled). -/
def mpHook (env : BuildEnv) : AsmEvent → Res (List MpCall)
  | .notInAny (.way w) => (wayArea w).map fun as => as.map .area
  | .notInAny _ => .ok []
  | .complete r ms =>
    match memberWays ms with
    | .error e => .error e
    | .ok ws => (buildAreas env r ws).map fun as => as.map .area
  | .allAvailable => .ok []
  | .next c => .ok [.call c]

/-- All calls, in order. (multipolygon/assembler.hpp 60-115, for all relations and ways) -/
def mpCalls (env : BuildEnv) : List AsmEvent → Res (List MpCall)
  | [] => .ok []
  | e :: es =>
    match mpHook env e with
    | .error f => .error f
    | .ok cs => (mpCalls env es).map fun rest => cs ++ rest

end Osmium

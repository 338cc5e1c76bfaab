import Verif.Common.Num
/-
Model of the basic OSM data types: include/osmium/osm/*.hpp
-/
namespace Osmium

/-! ## Position (osm/position.hpp) -/

/-- osm/position.hpp:62-137 class `Position`: two `int32_t` fixed point coordinates.
Coordinates are unbounded `Int`s here; `Position.WF` states the 32-bit range. -/
structure Position where
  x : Int
  y : Int
deriving DecidableEq, Repr, Inhabited

namespace Position

/-- osm/position.hpp:67 `invalid` = INT32_MAX. -/
def invalid : Int := 2147483647

/-- osm/position.hpp:72-75 default constructor: undefined position. -/
def undef : Position := ⟨invalid, invalid⟩

/-- osm/position.hpp:82-85 constructor from `int64_t`: truncates to `int32_t`. -/
def ofInt64 (x y : Int) : Position := ⟨wrapS32 x, wrapS32 y⟩

/-- osm/position.hpp:92-94 `defined()`. -/
def defined (p : Position) : Bool := p.x != invalid && p.y != invalid

/-- osm/position.hpp:142-144 `operator==`. -/
def eq (p q : Position) : Bool := p.x == q.x && p.y == q.y

/-- osm/position.hpp:151-157 `operator<`. -/
def lt (p q : Position) : Bool := if p.x == q.x then p.y < q.y else p.x < q.x

/-- Values representable in the two `int32_t` members. (osm/position.hpp 134-135) -/
def WF (p : Position) : Prop := InS32 p.x ∧ InS32 p.y

end Position

/-! ## Bounds (osm/bounds.hpp) -/

/-- osm/bounds.hpp:31-76 class `Bounds`. -/
structure Bounds where
  bottomLeft : Position
  topRight : Position
deriving DecidableEq, Repr

namespace Bounds

/-- osm/bounds.hpp:35-38 constructor. -/
def empty : Bounds := ⟨Position.undef, Position.undef⟩

/-- osm/bounds.hpp:40-51 `extend`. -/
def extend (b : Bounds) (p : Position) : Bounds :=
  if b.bottomLeft.defined then
    { bottomLeft :=
        { x := if p.x < b.bottomLeft.x then p.x else b.bottomLeft.x
          y := if p.y < b.bottomLeft.y then p.y else b.bottomLeft.y }
      topRight :=
        { x := if p.x > b.topRight.x then p.x else b.topRight.x
          y := if p.y > b.topRight.y then p.y else b.topRight.y } }
  else
    { bottomLeft := p, topRight := p }

/-- osm/bounds.hpp:53-55 `defined()`. -/
def defined (b : Bounds) : Bool := b.bottomLeft.defined

/-- A sequence of `extend` calls. (part of a program using the library, no counterpart in /repo;
osm/bounds.hpp `extend`) -/
def extendAll (b : Bounds) (ps : List Position) : Bounds := ps.foldl extend b

end Bounds

/-! ## Segments (osm/segment.hpp, osm/undirected_segment.hpp) -/

/-- osm/segment.hpp:34-64 class `Segment`. -/
structure Segment where
  first : Position
  second : Position
deriving DecidableEq, Repr

namespace Segment

/-- osm/segment.hpp:67-69 `operator==`. -/
def eq (a b : Segment) : Bool := a.first.eq b.first && a.second.eq b.second

/-- osm/undirected_segment.hpp:40-45 constructor of `UndirectedSegment`. -/
def mkUndirected (p1 p2 : Position) : Segment :=
  if p2.lt p1 then ⟨p2, p1⟩ else ⟨p1, p2⟩

/-- osm/undirected_segment.hpp:54-60 `operator<`. -/
def lt (a b : Segment) : Bool :=
  if a.first.eq b.first then a.second.lt b.second else a.first.lt b.first

end Segment

/-! ## Tags (osm/tag.hpp, osm/tag_list.hpp) -/

/-- osm/tag.hpp:37-66 class `Tag`.  Strings are Lean `String`s: byte sequences that are not
UTF-8 and embedded NUL characters (impossible in the C strings of the API) are not modelled. -/
structure Tag where
  key : String
  value : String
deriving DecidableEq, Repr

/-- osm/tag_list.hpp:41-108 class `TagList`: a `std::vector<Tag>`. -/
abbrev TagList := List Tag

namespace TagList

/-- osm/tag_list.hpp:91-93 `add`. -/
def add (l : TagList) (k v : String) : TagList := List.append l [⟨k, v⟩]

/-- osm/tag_list.hpp:59-61 `clear`. -/
def clear (_ : TagList) : TagList := []

/-- osm/tag_list.hpp:95-102 `get_value_by_key` (`none` is the null pointer). -/
def getValueByKey : TagList → String → Option String
  | [], _ => none
  | t :: ts, k => if t.key == k then some t.value else getValueByKey ts k

end TagList

/-! ## Objects (osm/object.hpp) -/

/-- osm/types.hpp:31-37 `osm_object_type_t`. -/
inductive ObjType
  | unknown | node | way | relation | area
deriving DecidableEq, Repr

/-- osm/object.hpp:296-305 the data members of class `Object`. -/
structure Obj where
  id : Int
  version : Int
  changeset : Int
  timestamp : Int
  endtime : Int
  uid : Int
  user : String
  visible : Bool
  tags : TagList
deriving DecidableEq, Repr

namespace Obj

/-- osm/object.hpp:267-277 default constructor. -/
def new : Obj :=
  { id := 0, version := 0, changeset := 0, timestamp := 0, endtime := 0, uid := -1,
    user := "", visible := true, tags := [] }

/-- osm/object.hpp:112-114 `user_is_anonymous`. -/
def userIsAnonymous (o : Obj) : Bool := o.uid == -1

/-- Values representable in the C++ members (osm/types.hpp:44-48; `time_t` is 64 bit). -/
structure WF (o : Obj) : Prop where
  id : InS64 o.id
  version : InU32 o.version
  changeset : InS32 o.changeset
  timestamp : InS64 o.timestamp
  uid : InS32 o.uid

end Obj

/-- `std::abs` on `int64_t`: undefined (`none`) for INT64_MIN. (called in osm/node.hpp 91, osm/way.hpp 117,
osm/relation.hpp 82) -/
def absI64 (x : Int) : Option Int := chk64 (if x < 0 then -x else x)

/-- `operator<` of Node (osm/node.hpp:87-93), Way (osm/way.hpp:113-119),
Relation (osm/relation.hpp:78-84) and Area (osm/area.hpp:137-143); all four are the same code.
`none` is undefined behaviour of `std::abs`. -/
def objLt (a b : Obj) : Option Bool :=
  if a.id == b.id then some (decide (a.version < b.version))
  else do
    let x ← absI64 a.id
    let y ← absI64 b.id
    return decide (x < y)

/-! ## Nodes, ways, relations -/

/-- osm/node.hpp class `Node`: an `Object` with a position. (lines 38-80) -/
structure Node where
  obj : Obj
  position : Position
deriving DecidableEq, Repr

/-- osm/node.hpp default constructor. (lines 46-49) -/
def Node.new : Node := ⟨Obj.new, Position.undef⟩

/-- osm/way_node.hpp:32-80 class `WayNode`. -/
structure WayNode where
  ref : Int
  position : Position := Position.undef
deriving DecidableEq, Repr

/-- osm/way_node.hpp:82-84 `operator<`: by ref only. -/
def WayNode.lt (a b : WayNode) : Bool := a.ref < b.ref
/-- osm/way_node.hpp:86-88 `operator==`: by ref only. -/
def WayNode.eq (a b : WayNode) : Bool := a.ref == b.ref
/-- osm/way_node.hpp:63-65 `has_position`. -/
def WayNode.hasPosition (a : WayNode) : Bool := a.position.defined

/-- osm/way_node_list.hpp:127-129 `is_closed`; calling `front()` on an empty vector is
undefined behaviour (`none`). -/
def wayNodesIsClosed (l : List WayNode) : Option Bool :=
  match l.head?, l.getLast? with
  | some f, some b => some (f.ref == b.ref)
  | _, _ => none

/-- osm/way_node_list.hpp:131-137 `has_position`: looks at the last node only. -/
def wayNodesHasPosition (l : List WayNode) : Bool :=
  match l.getLast? with
  | none => false
  | some b => b.hasPosition

/-- osm/way.hpp class `Way`. (lines 39-106) -/
structure Way where
  obj : Obj
  nodes : List WayNode
deriving DecidableEq, Repr

/-- osm/way.hpp constructor (the reserved size has no observable effect). (lines 45-53) -/
def Way.new : Way := ⟨Obj.new, []⟩

/-- osm/relation_member.hpp:35-100 class `RelationMember`. -/
structure Member where
  type : Char
  ref : Int
  role : String
deriving DecidableEq, Repr

/-- osm/relation_member.hpp:39-43 default constructor. -/
def Member.new : Member := ⟨'x', 0, ""⟩

/-- osm/relation_member.hpp:49 `max_length_role` and osm/object.hpp:54 `max_length_username`. -/
def maxLength : Nat := 255 * 4 + 1

/-- osm/relation_member.hpp:86-92 `role(const char*)`: throws `length_error` (`none`) if
`strlen(role)` is greater than the maximum. -/
def Member.setRole (m : Member) (role : String) : Option Member :=
  if role.utf8ByteSize > maxLength then none else some { m with role := role }

/-- osm/relation_member.hpp:64-75 `type_name`. -/
def Member.typeName (m : Member) : String :=
  if m.type = 'n' then "node" else if m.type = 'w' then "way"
  else if m.type = 'r' then "relation" else "unknown"

/-- osm/relation_member_list.hpp:76-86 `add_member`: the vector is resized first, then the
new last element is filled in place.  Result: the list afterwards and whether an exception
was thrown. -/
def addMember (l : List Member) (type : Char) (ref : Int) (role : String) : List Member × Bool :=
  let l1 := l ++ [Member.new]                               -- resize(size+1)
  let m : Member := { Member.new with type := type, ref := ref }  -- m->type(type); m->ref(ref)
  let l2 := l1.set (l1.length - 1) m
  match m.setRole role with
  | none => (l2, true)                                      -- m->role(role) throws
  | some m' => (l2.set (l2.length - 1) m', false)

/-- osm/relation.hpp class `Relation`. (lines 34-71) -/
structure Relation where
  obj : Obj
  members : List Member
deriving DecidableEq, Repr

/-- osm/relation.hpp default constructor. (lines 38-41) -/
def Relation.new : Relation := ⟨Obj.new, []⟩

/-- osm/relation.hpp:60-65 `get_member(unsigned)`: null pointer if out of range. -/
def Relation.getMember (r : Relation) (i : Nat) : Option Member :=
  if i < r.members.length then r.members[i]? else none

/-! ## Areas (osm/area.hpp) -/

/-- osm/area.hpp:41-44 `sgn`. -/
def sgn (x : Int) : Int := (if 0 < x then 1 else 0) - (if x < 0 then 1 else 0)

/-- osm/area.hpp:71-76 id of an Area made from a Relation; `none` is signed overflow. -/
def areaIdOfRelation (id : Int) : Option Int := do
  let d ← chk64 (id * 2)
  chk64 (d + sgn id)

/-- osm/area.hpp:79-84 id of an Area made from a Way; `none` is signed overflow. -/
def areaIdOfWay (id : Int) : Option Int := chk64 (id * 2)

/-- osm/area.hpp:116-118 `from_way`; `%` in C++ truncates. -/
def areaFromWay (areaId : Int) : Bool := areaId.tmod 2 == 0

/-- osm/area.hpp:121-123 `orig_id`; `/` in C++ truncates. -/
def areaOrigId (areaId : Int) : Int := areaId.tdiv 2

end Osmium

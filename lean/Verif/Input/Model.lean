import Verif.Osm.Model
import Verif.Common.Res
/-
Model of input.hpp: the base class of the readers, and the callbacks made on a handler.

All callbacks return `void`, so a handler can influence the reader only by throwing an exception
(and by keeping pointers, modelled separately in `Verif.Input.Heap`).  A reader is therefore
modelled by the sequence of callbacks it would make on a handler that never throws, together with
the failure that ends it, if any (`Events`); `deliver` runs such a sequence against a handler that
may throw `StopReading`.
-/
namespace Osmium

/-- A node, way or relation. (osm/node.hpp, osm/way.hpp, osm/relation.hpp) (osm/node.hpp 38-80, osm/way.hpp 39-106,
osm/relation.hpp 34-71) -/
inductive OsmObj
  | node (n : Node)
  | way (w : Way)
  | relation (r : Relation)
deriving DecidableEq, Repr

/-- The type of an object. (osm/node.hpp, osm/way.hpp, osm/relation.hpp: method `type`) (osm/node.hpp 60-62,
osm/way.hpp 68-70, osm/relation.hpp 52-54) -/
def OsmObj.type : OsmObj → ObjType
  | .node _ => .node
  | .way _ => .way
  | .relation _ => .relation

/-- The common attributes of an object. (base class in osm/object.hpp 60-260) -/
def OsmObj.obj : OsmObj → Obj
  | .node n => n.obj
  | .way w => w.obj
  | .relation r => r.obj

/-- osm/meta.hpp:33-70 class `Meta`. -/
structure Meta where
  bounds : Bounds
  generator : String
  multi : Bool
deriving DecidableEq, Repr

/-- osm/meta.hpp:37-48 constructors. -/
def Meta.new (multi : Bool) : Meta := ⟨Bounds.empty, "", multi⟩

/-- The methods of a handler (handler.hpp:69-117; `area` is never called by readers). -/
inductive Cb
  | init (m : Meta)
  | before (t : ObjType)
  | obj (o : OsmObj)
  | after (t : ObjType)
  | final
deriving DecidableEq, Repr

/-- A sequence of callbacks, and the failure at its end (if any). (what input.hpp 101-157 does
with its handler) -/
structure Events where
  calls : List Cb
  fail : Option Fail
deriving DecidableEq, Repr

/-- First `a`, then (unless `a` failed) `b`. (helper for statements and proofs, no counterpart in
/repo) -/
def Events.seq (a b : Events) : Events :=
  match a.fail with
  | some e => ⟨a.calls, some e⟩
  | none => ⟨a.calls ++ b.calls, b.fail⟩

/-- input.hpp:110-125 first switch of `call_after_and_before_on_handler`. -/
def afterCalls (m : Meta) : ObjType → List Cb
  | .unknown => [.init m]
  | .node => [.after .node]
  | .way => [.after .way]
  | .relation => [.after .relation]
  | .area => []

/-- input.hpp:126-138 second switch of `call_after_and_before_on_handler`. -/
def beforeCalls : ObjType → List Cb
  | .node => [.before .node]
  | .way => [.before .way]
  | .relation => [.before .relation]
  | _ => []

/-- input.hpp:108-141 `call_after_and_before_on_handler`: the callbacks made; afterwards
`m_last_object_type` is `cur` in any case. -/
def afterAndBefore (m : Meta) (last cur : ObjType) : List Cb :=
  if cur ≠ last then afterCalls m last ++ beforeCalls cur else []

/-- How a call of `parse()` ends. (`parse`, input/xml.hpp 68-112 and input/pbf.hpp 85-150) -/
inductive ParseEnd
  | returned
  | threw (e : Fail)
deriving DecidableEq, Repr

/-- A handler, as far as the readers are concerned: given all the calls made on it so far
(including the current one), does it throw `StopReading`? (THandler in input.hpp 77) -/
abbrev Stops := List Cb → Bool

/-- Make the calls one after the other until the handler throws (`true`). (input.hpp 101-157
together with the `catch` in input/xml.hpp 68-112 and input/pbf.hpp 85-150) -/
def deliver (h : Stops) : List Cb → List Cb → List Cb × Bool
  | done, [] => (done, false)
  | done, c :: cs => if h (done ++ [c]) then (done ++ [c], true) else deliver h (done ++ [c]) cs

/-- The common frame of `parse()` (input/pbf.hpp:89-150, input/xml.hpp:69-111): the body in a `try`
block that catches `StopReading`, then `call_final_on_handler()`.  `endCalls` are the calls at the
end of the `try` block.  Result: all calls made and how `parse` ended.  (An exception thrown by
`final` itself is not modelled.) -/
def parseFrame (h : Stops) (ev : Events) (endCalls : List Cb) : List Cb × ParseEnd :=
  match deliver h [] ev.calls with
  | (done, true) => (done ++ [.final], .returned)
  | (done, false) =>
    match ev.fail with
    | some e => (done, .threw e)
    | none =>
      match deliver h done endCalls with
      | (done', _) => (done' ++ [.final], .returned)

end Osmium

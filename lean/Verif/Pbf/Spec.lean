import Verif.Input.Model
import Mathlib.Data.Finset.Card
/-
Specification vocabulary for the PBF properties: what an object looks like after it has been written
to a PBF file and read again.  Nothing here refers to the PBF model.
-/
namespace Osmium.Spec

/-- What of the attributes of an object the format keeps.  `metadata`: metadata are written at all;
`visible`: the visible flag is written (files that can contain several versions of an object).
Everything else gets the value a new object has. -/
def keptAttrs (metadata visible : Bool) (o : Obj) : Obj :=
  if metadata then
    { id := o.id, version := o.version, changeset := o.changeset, timestamp := o.timestamp,
      uid := o.uid, user := o.user, visible := if visible then o.visible else true,
      tags := o.tags, endtime := 0 }
  else { Obj.new with id := o.id, tags := o.tags }

/-- What of an object the format keeps: nodes with their position; the node references of a way
without positions; the members of relations. -/
def kept (metadata visible : Bool) : OsmObj → OsmObj
  | .node n => .node ⟨keptAttrs metadata visible n.obj, n.position⟩
  | .way w => .way ⟨keptAttrs metadata visible w.obj,
      w.nodes.map (fun n => { ref := n.ref, position := Position.undef })⟩
  | .relation r => .relation ⟨keptAttrs metadata visible r.obj, r.members⟩

/-- The objects of type `t`, in order. -/
def ofType (t : ObjType) (os : List OsmObj) : List OsmObj := os.filter (fun o => o.type = t)

/-- The objects handed to the handler in a sequence of callbacks. -/
def objects (calls : List Cb) : List OsmObj := calls.filterMap (fun | .obj o => some o | _ => none)

/-- Position of a type in the usual order of files: nodes, ways, relations. -/
def rank : ObjType → Nat
  | .node => 0 | .way => 1 | .relation => 2 | _ => 3

/-- First all nodes, then all ways, then all relations. -/
def SortedByType (os : List OsmObj) : Prop := os.Pairwise (fun a b => rank a.type ≤ rank b.type)

/-- The strings stored for an object: keys and values of tags, the user name (if metadata are
written), the roles of the members. -/
def strings (metadata : Bool) (o : OsmObj) : List String :=
  o.obj.tags.flatMap (fun t => [t.key, t.value]) ++ (if metadata then [o.obj.user] else []) ++
    (match o with | .relation r => r.members.map Member.role | _ => [])

/-- Any 8000 consecutive objects have at most 65535 different strings. -/
def FewStrings (metadata : Bool) (os : List OsmObj) : Prop :=
  ∀ c, c <:+: os → c.length ≤ 8000 → (c.flatMap (strings metadata)).toFinset.card ≤ 65535

end Osmium.Spec

import Verif.Xml.Model
import Verif.Input.Model
import Verif.File.Types
import Verif.Time.Props
/-
Specification vocabulary for the XML properties.  Nothing here refers to the model of the XML reader
or writer, except for the type of events.
-/
namespace Osmium.Spec

/-- Reading events with the given elements open (innermost first): the elements open afterwards;
`none` if an end tag does not belong to the innermost open element, or if something comes after the
end of the root element. -/
def nest : List String → List XEv → Option (List String)
  | st, [] => some st
  | [], _ :: _ => none
  | s :: st, .start n _ :: es => nest (n :: s :: st) es
  | s :: st, .stop n :: es => if n = s then nest st es else none

/-- One root element, everything properly nested and closed. -/
def IsDocument : List XEv → Prop
  | .start n _ :: es => nest [n] es = some []
  | _ => False

/-- For each element, in document order: its name, and the names of the elements around it,
innermost first. -/
def enclosing : List String → List XEv → List (String × List String)
  | _, [] => []
  | st, .start n _ :: es => (n, st) :: enclosing (n :: st) es
  | st, .stop _ :: es => enclosing st.tail es

/-- The name of the element of an object. -/
def elementName : OsmObj → String
  | .node _ => "node"
  | .way _ => "way"
  | .relation _ => "relation"

/-- The elements of objects. -/
def isObjectElement (e : String × List String) : Bool :=
  e.1 = "node" || e.1 = "way" || e.1 = "relation"

/-- The section of a change file an object belongs to: deleted objects into `delete`, first versions
into `create`, all others into `modify`. -/
def section' (o : Obj) : String :=
  if o.visible then (if o.version = 1 then "create" else "modify") else "delete"

/-- What of the attributes of an object an XML file keeps: all but the end time; users only with a
positive user id (otherwise the object becomes anonymous, as a new object is); the visible flag if
the file can contain deleted objects. -/
def xmlKeptAttrs (ft : FileType) (o : Obj) : Obj :=
  { id := o.id, version := o.version, changeset := o.changeset, timestamp := o.timestamp,
    uid := if o.uid > 0 then o.uid else -1,
    user := if o.uid > 0 then o.user else "",
    visible := if ft = .osm then true else o.visible,
    tags := o.tags, endtime := 0 }

/-- What of an object an XML file keeps.  A position with one undefined coordinate is undefined. -/
def xmlKept (ft : FileType) : OsmObj → OsmObj
  | .node n => .node ⟨xmlKeptAttrs ft n.obj,
      if n.position.defined then n.position else Position.undef⟩
  | .way w => .way ⟨xmlKeptAttrs ft w.obj,
      w.nodes.map (fun n => { ref := n.ref, position := Position.undef })⟩
  | .relation r => .relation ⟨xmlKeptAttrs ft r.obj, r.members⟩

/-- The attributes have values of their C++ types; the timestamp is unset or in the years 0 to
9999; the user name is not too long for the reader. -/
structure XmlAttrsOk (o : Obj) : Prop where
  wf : o.WF
  timestamp : o.timestamp = 0 ∨ InIsoRange o.timestamp
  user : o.user.utf8ByteSize ≤ 1021

/-- The objects for which the round trip is claimed: attributes as above; coordinates and references
have values of their C++ types; members are nodes, ways or relations with a role that is not too
long. -/
def XmlOk : OsmObj → Prop
  | .node n => XmlAttrsOk n.obj ∧ n.position.WF
  | .way w => XmlAttrsOk w.obj ∧ ∀ n ∈ w.nodes, InS64 n.ref
  | .relation r => XmlAttrsOk r.obj ∧ ∀ m ∈ r.members,
      InS64 m.ref ∧ (m.type = 'n' ∨ m.type = 'w' ∨ m.type = 'r') ∧ m.role.utf8ByteSize ≤ 1021

end Osmium.Spec

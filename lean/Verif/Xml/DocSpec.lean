import Verif.Xml.Spec
/-
Specification vocabulary for C27: documents of the usual shape, and documents that differ in elements
with unknown names only.
-/
namespace Osmium.Spec

/-- The elements that stand for objects. -/
def IsObjName (n : String) : Prop := n = "node" ∨ n = "way" ∨ n = "relation"

/-- Any number of elements without children, one after the other. -/
inductive Leaves : List XEv → Prop
  | nil : Leaves []
  | cons (n : String) (as : XAttrs) (r : List XEv) : Leaves r → Leaves (.start n as :: .stop n :: r)

/-- The content of a document: objects, whose children have no children themselves, and any other
elements, nested in any way; but no second root element. -/
inductive Content : List XEv → Prop
  | nil : Content []
  | object (n : String) (as : XAttrs) (kids r : List XEv) : IsObjName n → Leaves kids → Content r →
      Content (.start n as :: kids ++ .stop n :: r)
  | other (n : String) (as : XAttrs) (inner r : List XEv) : ¬ IsObjName n → n ≠ "osm" →
      n ≠ "osmChange" → Content inner → Content r → Content (.start n as :: inner ++ .stop n :: r)

/-- A document of the usual shape. -/
def UsualDocument (evs : List XEv) : Prop :=
  ∃ n as inner, Content inner ∧ evs = .start n as :: inner ++ [.stop n]

/-- The children an object can have. -/
def KnownChild (object child : String) : Prop :=
  child = "tag" ∨ (object = "way" ∧ child = "nd") ∨ (object = "relation" ∧ child = "member")

/-- The second sequence of children is the first without those with unknown names. -/
inductive SameKids (object : String) : List XEv → List XEv → Prop
  | nil : SameKids object [] []
  | keep (n : String) (as : XAttrs) (a b : List XEv) : SameKids object a b →
      SameKids object (.start n as :: .stop n :: a) (.start n as :: .stop n :: b)
  | drop (n : String) (as : XAttrs) (a b : List XEv) : ¬ KnownChild object n → SameKids object a b →
      SameKids object (.start n as :: .stop n :: a) b

/-- The names the reader knows between objects. -/
def KnownTop (n : String) : Prop :=
  IsObjName n ∨ n = "bounds" ∨ n = "delete" ∨ n = "osm" ∨ n = "osmChange"

/-- The second content is the first without the tags of elements with unknown names (what is inside
of them stays), and without unknown children of objects. -/
inductive SameContent : List XEv → List XEv → Prop
  | nil : SameContent [] []
  | object (n : String) (as : XAttrs) (k k' r r' : List XEv) : IsObjName n → SameKids n k k' →
      SameContent r r' → SameContent (.start n as :: k ++ .stop n :: r) (.start n as :: k' ++ .stop n :: r')
  | keep (n : String) (as : XAttrs) (i i' r r' : List XEv) : ¬ IsObjName n → n ≠ "osm" →
      n ≠ "osmChange" → SameContent i i' → SameContent r r' →
      SameContent (.start n as :: i ++ .stop n :: r) (.start n as :: i' ++ .stop n :: r')
  | drop (n : String) (as : XAttrs) (i i' r r' : List XEv) : ¬ KnownTop n → SameContent i i' →
      SameContent r r' → SameContent (.start n as :: i ++ .stop n :: r) (i' ++ r')

/-- The attributes the reader converts to coordinates. -/
def isCoordinate (k : String) : Bool :=
  k = "lon" || k = "lat" || k = "minlon" || k = "minlat" || k = "maxlon" || k = "maxlat"

/-- The two documents have the same root element, and their content differs in elements with unknown
names only. -/
def SameButUnknown (a b : List XEv) : Prop :=
  ∃ n as i i', SameContent i i' ∧ a = .start n as :: i ++ [.stop n] ∧ b = .start n as :: i' ++ [.stop n]

end Osmium.Spec

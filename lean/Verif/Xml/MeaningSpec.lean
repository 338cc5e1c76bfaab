import Verif.Xml.DocSpec
import Verif.Time.ParseProps
import Verif.Pbf.MeaningSpec
/-
What an OSM XML document means, for any document of the format, by whatever program it was written: no
reference to the model of the reader or the writer, except for the type of events.
-/
namespace Osmium.Spec

/-! ### Values as text -/

/-- An integer: an optional sign and decimal digits. -/
def IntegerText (s : String) (n : Int) : Prop :=
  ∃ ds : List Char, ds ≠ [] ∧ (∀ c ∈ ds, Digit c) ∧
    (((s.toList = ds ∨ s.toList = '+' :: ds) ∧ n = decimal ds) ∨ (s.toList = '-' :: ds ∧ n = -(decimal ds : Int)))

/-- An exponent: nothing, or `e` or `E`, an optional sign and digits. -/
def ExponentText (s : List Char) (e : Int) : Prop :=
  (s = [] ∧ e = 0) ∨
  ∃ (c : Char) (sign ds : List Char), (c = 'e' ∨ c = 'E') ∧ (sign = [] ∨ sign = ['+'] ∨ sign = ['-']) ∧ ds ≠ [] ∧
    (∀ d ∈ ds, Digit d) ∧ s = c :: (sign ++ ds) ∧ e = (if sign = ['-'] then -1 else 1) * (decimal ds : Int)

/-- A coordinate in degrees: an optional sign, digits `a`, optionally a decimal point and more digits `b`, and
optionally an exponent. -/
def DegreesText (s : String) (v : ℚ) : Prop :=
  ∃ (sign a b ex : List Char) (e : Int), (sign = [] ∨ sign = ['+'] ∨ sign = ['-']) ∧ a ++ b ≠ [] ∧
    (∀ c ∈ a ++ b, Digit c) ∧ ExponentText ex e ∧
    (s.toList = sign ++ a ++ '.' :: b ++ ex ∨ (b = [] ∧ s.toList = sign ++ a ++ ex)) ∧
    v = (if sign = ['-'] then -1 else 1) * ((decimal (a ++ b) : ℚ) / 10 ^ b.length * (10 : ℚ) ^ e)

/-- The text is a coordinate whose nearest multiple of 100 nanodegrees is `x`.  (Coordinates within a
millionth of such a unit, 10^-13 degrees, of the middle between two multiples are left out.) -/
def CoordinateText (s : String) (x : Int) : Prop := ∃ v, DegreesText s v ∧ |v * 10000000 - x| ≤ 1 / 2 - 1 / 1000000

/-- A time. -/
def TimeText (s : String) (t : Int) : Prop := ∀ cal, IsCalendar cal → IsoText cal s.toList t

/-- A truth value. -/
def BoolText (s : String) (b : Bool) : Prop := (s = "true" ∧ b = true) ∨ (s = "false" ∧ b = false)

/-! ### Attributes -/

/-- The value of an attribute. -/
def attrOf (as : XAttrs) (name : String) : Option String := as.lookup name

/-- An element has at most one attribute of each name. -/
def UniqueNames (as : XAttrs) : Prop := (as.map Prod.fst).Nodup

instance (as : XAttrs) : Decidable (UniqueNames as) := inferInstanceAs (Decidable (List.Nodup _))

/-- The attribute says `v`; if it is missing the value is `dflt`. -/
def Says {α : Type} (as : XAttrs) (name : String) (text : String → α → Prop) (dflt v : α) : Prop :=
  match attrOf as name with
  | none => v = dflt
  | some s => text s v

/-- The common attributes of an object, in any order and mixed with any others.  Objects in a `delete`
section are not visible if nothing else is said. -/
structure AttrsSay (as : XAttrs) (deleted : Bool) (o : Obj) : Prop where
  unique : UniqueNames as
  id : Says as "id" IntegerText 0 o.id
  version : Says as "version" IntegerText 0 o.version
  changeset : Says as "changeset" IntegerText 0 o.changeset
  timestamp : Says as "timestamp" TimeText 0 o.timestamp
  uid : Says as "uid" IntegerText (-1) o.uid
  user : Says as "user" Eq "" o.user
  visible : Says as "visible" BoolText (!deleted) o.visible
  endtime : o.endtime = 0

/-- The word for a member type. -/
def TypeWord (s : String) (c : Char) : Prop :=
  (s = "node" ∧ c = 'n') ∨ (s = "way" ∧ c = 'w') ∨ (s = "relation" ∧ c = 'r')

/-- The children of an object: tags, node references of ways, members of relations, in any order, and any
others.  Missing attributes: an empty key, value or role, reference 0, member type `x`; without `ref` an
`nd` says nothing. -/
inductive KidsSay (object : String) : List XEv → TagList → List Int → List Member → Prop
  | nil : KidsSay object [] [] [] []
  | tag (as : XAttrs) (t : Tag) (r : List XEv) (ts : TagList) (ns : List Int) (ms : List Member) :
      UniqueNames as → Says as "k" Eq "" t.key → Says as "v" Eq "" t.value → KidsSay object r ts ns ms →
      KidsSay object (.start "tag" as :: .stop "tag" :: r) (t :: ts) ns ms
  | nd (as : XAttrs) (s : String) (n : Int) (r : List XEv) (ts : TagList) (ns : List Int) (ms : List Member) :
      object = "way" → UniqueNames as → attrOf as "ref" = some s → IntegerText s n → KidsSay object r ts ns ms →
      KidsSay object (.start "nd" as :: .stop "nd" :: r) ts (n :: ns) ms
  | emptyNd (as : XAttrs) (r : List XEv) (ts : TagList) (ns : List Int) (ms : List Member) :
      object = "way" → attrOf as "ref" = none → KidsSay object r ts ns ms →
      KidsSay object (.start "nd" as :: .stop "nd" :: r) ts ns ms
  | member (as : XAttrs) (m : Member) (r : List XEv) (ts : TagList) (ns : List Int)
      (ms : List Member) : object = "relation" → UniqueNames as →
      Says as "type" TypeWord 'x' m.type → Says as "ref" IntegerText 0 m.ref →
      Says as "role" Eq "" m.role → KidsSay object r ts ns ms →
      KidsSay object (.start "member" as :: .stop "member" :: r) ts ns (m :: ms)
  | other (n : String) (as : XAttrs) (r : List XEv) (ts : TagList) (ns : List Int) (ms : List Member) :
      ¬ KnownChild object n → KidsSay object r ts ns ms →
      KidsSay object (.start n as :: .stop n :: r) ts ns ms

/-- The element of an object. -/
def ObjectSays (deleted : Bool) (as : XAttrs) (kids : List XEv) : OsmObj → Prop
  | .node n => AttrsSay as deleted n.obj ∧
      Says as "lon" CoordinateText Position.undef.x n.position.x ∧
      Says as "lat" CoordinateText Position.undef.y n.position.y ∧ KidsSay "node" kids n.obj.tags [] []
  | .way w => AttrsSay as deleted w.obj ∧ attrOf as "lon" = none ∧ attrOf as "lat" = none ∧
      (∀ n ∈ w.nodes, n.position = Position.undef) ∧
      KidsSay "way" kids w.obj.tags (w.nodes.map WayNode.ref) []
  | .relation r => AttrsSay as deleted r.obj ∧ attrOf as "lon" = none ∧ attrOf as "lat" = none ∧
      KidsSay "relation" kids r.obj.tags [] r.members

/-! ### Documents -/

/-- What a document contains. -/
inductive Item
  | obj (o : OsmObj)
  | box (min max : Position)

/-- The content of a document, in and outside of `delete` sections: objects, bounds, sections, and any
other elements, which have no meaning themselves, but can contain objects. -/
inductive ContentSays : Bool → List XEv → List Item → Prop
  | nil (d : Bool) : ContentSays d [] []
  | object (d : Bool) (o : OsmObj) (as : XAttrs) (kids r : List XEv) (items : List Item) :
      ObjectSays d as kids o → ContentSays d r items →
      ContentSays d (.start (elementName o) as :: kids ++ .stop (elementName o) :: r) (.obj o :: items)
  | bounds (d : Bool) (as : XAttrs) (s1 s2 s3 s4 : String) (p q : Position) (r : List XEv) (items : List Item) :
      UniqueNames as → attrOf as "minlon" = some s1 → CoordinateText s1 p.x →
      attrOf as "minlat" = some s2 → CoordinateText s2 p.y → attrOf as "maxlon" = some s3 →
      CoordinateText s3 q.x → attrOf as "maxlat" = some s4 → CoordinateText s4 q.y → p.WF → q.WF →
      ContentSays d r items → ContentSays d (.start "bounds" as :: .stop "bounds" :: r) (.box p q :: items)
  | delete (as : XAttrs) (inner r : List XEv) (items items' : List Item) :
      ContentSays true inner items → ContentSays false r items' →
      ContentSays false (.start "delete" as :: inner ++ .stop "delete" :: r) (items ++ items')
  | other (d : Bool) (n : String) (as : XAttrs) (inner r : List XEv) (items items' : List Item) :
      ¬ KnownTop n → ContentSays d inner items → ContentSays d r items' →
      ContentSays d (.start n as :: inner ++ .stop n :: r) (items ++ items')

/-- A document: the root element with the version and the program that wrote it, and the content. -/
def DocumentSays (evs : List XEv) (generator : String) (items : List Item) : Prop :=
  ∃ n as inner, (n = "osm" ∨ n = "osmChange") ∧ UniqueNames as ∧
    (∀ v, attrOf as "version" = some v → v = "0.6") ∧ Says as "generator" Eq "" generator ∧
    ContentSays false inner items ∧ evs = .start n as :: inner ++ [.stop n]

/-- The objects in a document. -/
def objectsOf : List Item → List OsmObj
  | [] => []
  | .obj o :: r => o :: objectsOf r
  | .box _ _ :: r => objectsOf r

/-- The corners of the boxes before the first object. -/
def cornersBefore : List Item → List Position
  | .box p q :: r => p :: q :: cornersBefore r
  | _ => []

end Osmium.Spec

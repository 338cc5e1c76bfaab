import Verif.Osm.Model

/-
C52, C53: tag filters and the text forms of tag lists (tags/*.hpp).
-/
namespace Osmium

/-- tags/key_filter.hpp 36-64 class `KeyFilter`: rules (result, key) in the order added. -/
structure KeyFilter where
  rules : List (Bool × String)
  default : Bool

/-- tags/key_filter.hpp 57-60 constructor. -/
def KeyFilter.new (default : Bool) : KeyFilter := ⟨[], default⟩

/-- tags/key_filter.hpp 62-65 `add`. -/
def KeyFilter.add (f : KeyFilter) (result : Bool) (key : String) : KeyFilter :=
  { f with rules := f.rules ++ [(result, key)] }

/-- The loop of `KeyFilter::operator()`. (tags/key_filter.hpp 67-76) -/
def keyFilterLoop (t : Tag) (default : Bool) : List (Bool × String) → Bool
  | [] => default
  | (result, key) :: rules => if t.key = key then result else keyFilterLoop t default rules

/-- tags/key_filter.hpp 67-74 `operator()`. -/
def KeyFilter.apply (f : KeyFilter) (t : Tag) : Bool := keyFilterLoop t f.default f.rules

/-- tags/key_value_filter.hpp 36-66 class `KeyValueFilter`: rules (result, key, value). -/
structure KeyValueFilter where
  rules : List (Bool × String × String)
  default : Bool

/-- tags/key_value_filter.hpp 59-62 constructor. -/
def KeyValueFilter.new (default : Bool) : KeyValueFilter := ⟨[], default⟩

/-- tags/key_value_filter.hpp 41-45, 64-67 `add`; without a value the empty string is stored. -/
def KeyValueFilter.add (f : KeyValueFilter) (result : Bool) (key : String) (value : Option String) : KeyValueFilter :=
  { f with rules := f.rules ++ [(result, key, value.getD "")] }

/-- The loop of `KeyValueFilter::operator()`. (tags/key_value_filter.hpp 69-80) -/
def keyValueFilterLoop (t : Tag) (default : Bool) : List (Bool × String × String) → Bool
  | [] => default
  | (result, key, value) :: rules =>
    if t.key = key ∧ (value = "" ∨ t.value = value) then result else keyValueFilterLoop t default rules

/-- tags/key_value_filter.hpp 69-76 `operator()`. -/
def KeyValueFilter.apply (f : KeyValueFilter) (t : Tag) : Bool := keyValueFilterLoop t f.default f.rules

/-- tags/regex_filter.hpp 38-82 class `RegexFilter`, for any type of regular expressions with a
function that tells whether one matches a whole string; `none` is the empty expression. -/
structure RegexFilter (R : Type) where
  rules : List (Bool × R × Option R)
  default : Bool

/-- tags/regex_filter.hpp 70-77 `operator()`. -/
def regexFilterLoop {R : Type} (match_ : R → String → Bool) (t : Tag) (default : Bool) :
    List (Bool × R × Option R) → Bool
  | [] => default
  | (result, key, value) :: rules =>
    if match_ key t.key && (match value with | none => true | some v => match_ v t.value) then result
    else regexFilterLoop match_ t default rules

/-- The iterator `boost::filter_iterator` over a tag list: it skips the tags for which the filter gives
false. (tags/key_filter.hpp 55: typedef) -/
def filterIterate (p : Tag → Bool) : TagList → List Tag
  | [] => []
  | t :: ts => if p t then t :: filterIterate p ts else filterIterate p ts

/-- utils/filter_and_accumulate.hpp 37-43 `filter_and_accumulate`. -/
def filterAndAccumulate {A : Type} (tags : TagList) (p : Tag → Bool) (init : A) (op : A → Tag → A) : A :=
  (filterIterate p tags).foldl op init

/-- tags/to_string.hpp 40-92 class `TagToStringOp`. -/
structure TagToString where
  escape : List Char
  pre : List Char
  infix_ : List Char
  suffix : List Char
  join : List Char

/-- tags/to_string.hpp 82-89 `append_escaped_string` (the loop over a C string). -/
def appendEscaped (escape : List Char) (out : List Char) : List Char → List Char
  | [] => out
  | c :: cs => appendEscaped escape ((if c ∈ escape then out ++ ['\\'] else out) ++ [c]) cs

/-- tags/to_string.hpp 60-71 `operator()`. -/
def TagToString.apply (o : TagToString) (out : List Char) (t : Tag) : List Char :=
  let out := if out ≠ [] then out ++ o.join else out
  let out := out ++ o.pre
  let out := appendEscaped o.escape out t.key.toList
  let out := out ++ o.infix_
  let out := appendEscaped o.escape out t.value.toList
  out ++ o.suffix

/-- tags/to_string.hpp 97-106 `TagToKeyEqualsValueStringOp`. -/
def keyEqualsValueOp (join : List Char) : TagToString := ⟨[], [], ['='], [], join⟩

/-- tags/to_string.hpp 111-120 `TagToHStoreStringOp`. -/
def hstoreOp : TagToString := ⟨['\\', '"'], ['"'], ['"', '=', '>', '"'], ['"'], [',']⟩

/-- The text for a tag list, as made by `std::accumulate` or `filter_and_accumulate` from an empty
string. (utils/filter_and_accumulate.hpp 38-50) -/
def TagToString.all (o : TagToString) (tags : TagList) : List Char := tags.foldl o.apply []

end Osmium

import Verif.Javascript.ShapeExport
import Verif.Javascript.ScriptsProps

/-
C112: the shapefiles written by shape_export.js.
-/
namespace Osmium
open Spec Text

namespace Spec

/-- A text in a column. -/
def columnText (toInt32 : JsString → Int) (v : String) : ScriptAttr := .value (utf16 v.toList) (toInt32 (utf16 v.toList))

/-- The value of a tag in a column, empty if there is no such tag. -/
def columnTag (toInt32 : JsString → Int) (tags : TagList) (key : String) : ScriptAttr :=
  match firstValue tags key with
  | some v => columnText toInt32 v
  | none => .empty

/-- A number in a column. -/
def columnNumber (n : Int) : ScriptAttr := .value (utf16 (intDec n)) (wrapS32 n)

/-- The tags of points of interest. -/
def poiTags : List (String × String) := [("amenity", "restaurant"), ("amenity", "pub"), ("shop", "supermarket")]

/-- What is added to the points of interest for an object: one record for each of its tags that is in the list. -/
def poiRecords (toInt32 : JsString → Int) (o : ShapeObj) : List ShpCall :=
  if o.kind = .node then
    (o.tags.filter fun t => (t.key, t.value) ∈ poiTags).map fun t => .add o.geom fun column =>
      if column = "id" then columnNumber o.id else if column = "type" then columnText toInt32 t.value
      else if column = "name" then columnTag toInt32 o.tags "name" else .missing
  else []

/-- The direction of a road: 0 both, 1 forward, 2 backward. -/
def direction (tags : TagList) : Int :=
  if firstValue tags "oneway" ∈ [some "1", some "yes", some "true"] then 1
  else if firstValue tags "oneway" = some "-1" then 2
  else 0

/-- `v` is the number `ds`, with or without a unit for kilometres per hour. -/
def KmPerHour (v : String) (ds : List Char) : Prop :=
  ds ≠ [] ∧ (∀ c ∈ ds, isDigit c = true) ∧ ∃ unit ∈ ["", "kmh", "km/h", " ", " kmh", " km/h"], v.toList = ds ++ unit.toList

/-- The value for the speed of a road: the number in the tag, 0 if there is none. -/
def SpeedValue (toInt32 : JsString → Int) (tags : TagList) (a : ScriptAttr) : Prop :=
  (∃ v ds, firstValue tags "maxspeed" = some v ∧ KmPerHour v ds ∧ a = .value (utf16 ds) (toInt32 (utf16 ds))) ∨
  ((¬ ∃ v ds, firstValue tags "maxspeed" = some v ∧ KmPerHour v ds) ∧ a = columnNumber 0)

/-- What is added to the roads for an object: one record if it is a way with the tag `highway`. -/
def RoadRecords (toInt32 : JsString → Int) (o : ShapeObj) (calls : List ShpCall) : Prop :=
  if o.kind = .way ∧ ∃ v, firstValue o.tags "highway" = some v ∧ v ≠ "" then
    ∃ speed, SpeedValue toInt32 o.tags speed ∧ calls = [.add o.geom fun column =>
      if column = "id" then columnNumber o.id else if column = "type" then columnTag toInt32 o.tags "highway"
      else if column = "name" then columnTag toInt32 o.tags "name" else if column = "oneway" then columnNumber (direction o.tags)
      else if column = "maxspeed" then speed else .missing]
  else calls = []

open Classical in
/-- What is added to the areas for an object: one record if it is an area with the tag `landuse`. -/
noncomputable def landuseRecords (toInt32 : JsString → Int) (o : ShapeObj) : List ShpCall :=
  if o.kind = .area ∧ ∃ v, firstValue o.tags "landuse" = some v ∧ v ≠ "" then
    [.add o.geom fun column => if column = "id" then columnNumber o.id
      else if column = "type" then columnTag toInt32 o.tags "landuse" else .missing]
  else []

/-- Tags without repeated keys, numbers as keys, and names that every object of a script has. -/
def ExportTags (tags : TagList) : Prop :=
  (tags.map (·.key)).Nodup ∧ ∀ t ∈ tags, ScriptKey t.key ∧ OsmText t.value ∧ ¬ ObjectName t.key ∧ ¬ ObjectName t.value

end Spec

theorem idAttr_eq (n : Int) : idAttr n = columnNumber n := rfl

theorem jsTag_first {tags : TagList} (ht : ∀ t ∈ tags, OsmText t.value) {s : String} (hs : ScriptKey s) :
    jsTag tags (jsLit s.toList) = .ok (match firstValue tags s with
      | some v => jsText v
      | none => .undefined) := by
  rw [jsLit_eq, script_tag_partial tags s hs.1 hs.2 ht, jsTagValue_first]
  cases firstValue tags s <;> rfl

theorem tagAttr_first (toInt32 : JsString → Int) (tags : TagList) (s : String) :
    tagAttr toInt32 (match firstValue tags s with
      | some v => jsText v
      | none => .undefined) = columnTag toInt32 tags s := by
  unfold columnTag
  cases firstValue tags s with
  | none => rfl
  | some v => rfl

theorem not_object_units {s : String} (hs : ¬ ObjectName s) : utf16 s.toList ≠ protoName ∧ utf16 s.toList ∉ inheritedUnits := by
  constructor
  · intro e
    exact hs (Or.inl (String.toList_inj.1 (utf16_inj e)))
  · intro hm
    obtain ⟨n, hn, e⟩ := List.mem_map.1 hm
    exact hs (Or.inr (String.toList_inj.1 (utf16_inj e) ▸ hn))

theorem utf16_eq_lit (s t : String) : utf16 s.toList = jsLit t.toList ↔ s = t :=
  ⟨fun h => String.toList_inj.1 (utf16_inj h), fun h => by rw [h]; rfl⟩

theorem isNodeKey_iff {s : String} (hs : ¬ ObjectName s) : isNodeKey (utf16 s.toList) = true ↔ s = "amenity" ∨ s = "shop" := by
  obtain ⟨h1, h2⟩ := not_object_units hs
  unfold isNodeKey
  simp only [utf16_eq_lit, h1, h2, decide_false, Bool.or_false, Bool.or_eq_true, decide_eq_true_eq]

theorem nodeType_iff (fn : JsFunctions) (toInt32 : JsString → Int) {k v : String} (hk : k = "amenity" ∨ k = "shop")
    (hv : ¬ ObjectName v) : nodeType fn toInt32 (utf16 k.toList) (utf16 v.toList) =
      if (k, v) ∈ poiTags then some (columnText toInt32 v) else none := by
  obtain ⟨h1, h2⟩ := not_object_units hv
  have hi : inheritedValue fn (utf16 v.toList) = none := by
    unfold inheritedValue
    rw [if_neg h2, if_neg h1]
  unfold nodeType
  simp only [utf16_eq_lit, hi]
  rcases hk with rfl | rfl
  · rw [if_pos rfl]
    by_cases e1 : v = "restaurant"
    · subst e1
      rw [if_pos rfl, if_pos (by decide)]
      rfl
    · rw [if_neg e1]
      by_cases e2 : v = "pub"
      · subst e2
        rw [if_pos rfl, if_pos (by decide)]
        rfl
      · rw [if_neg e2, if_neg]
        simp [poiTags, e1, e2]
  · rw [if_neg (by decide), if_pos rfl]
    by_cases e1 : v = "supermarket"
    · subst e1
      rw [if_pos rfl, if_pos (by decide)]
      rfl
    · rw [if_neg e1, if_neg]
      simp [poiTags, e1]

theorem scriptKey_name : ScriptKey "name" := scriptKey_of_check (by decide)

theorem firstValue_of_nodup {tags : TagList} (hd : (tags.map (·.key)).Nodup) {t : Tag} (ht : t ∈ tags) :
    firstValue tags t.key = some t.value := by
  unfold firstValue
  induction tags with
  | nil => cases ht
  | cons u us ih =>
    rw [List.map_cons, List.nodup_cons] at hd
    rw [List.find?_cons]
    by_cases h : u.key = t.key
    · rcases List.mem_cons.1 ht with rfl | hm
      · simp
      · exact absurd (List.mem_map.2 ⟨t, hm, h.symm⟩) hd.1
    · rcases List.mem_cons.1 ht with rfl | hm
      · exact absurd rfl h
      · simp only [h, decide_false]
        exact ih hd.2 hm

theorem exportNode_calls (fits : DbfField → DbfValue → Bool) (fn : JsFunctions) (toInt32 : JsString → Int) (o : ShapeObj)
    (hk : o.kind = .node) (ht : ExportTags o.tags) (h : ShpTable × Bool) :
    exportNode fits fn toInt32 o h = callChain (shpCall fits) h (poiRecords toInt32 o) := by
  obtain ⟨hd, ht⟩ := ht
  unfold exportNode poiRecords
  rw [script_tag_keys o.tags fun t m => (ht t m).1.1, if_pos hk]
  simp only
  have hv : ∀ t ∈ o.tags, OsmText t.value := fun t m => (ht t m).2.1
  have gen : ∀ (l : TagList), (∀ t ∈ l, t ∈ o.tags) → ∀ h, callChain (exportTag fits fn toInt32 o) h (l.map fun t => utf16 t.key.toList) =
      callChain (shpCall fits) h ((l.filter fun t => (t.key, t.value) ∈ poiTags).map fun t => .add o.geom fun column =>
        if column = "id" then columnNumber o.id else if column = "type" then columnText toInt32 t.value
        else if column = "name" then columnTag toInt32 o.tags "name" else .missing) := by
    intro l
    induction l with
    | nil => intro _ h; rfl
    | cons t l ih =>
      intro hl h
      have hm := hl t List.mem_cons_self
      have ih := ih fun u hu => hl u (List.mem_cons_of_mem _ hu)
      obtain ⟨k1, -, k3, k4⟩ := ht t hm
      have hstep : exportTag fits fn toInt32 o h (utf16 t.key.toList) =
          if (t.key, t.value) ∈ poiTags then shpCall fits h (.add o.geom fun column =>
            if column = "id" then columnNumber o.id else if column = "type" then columnText toInt32 t.value
            else if column = "name" then columnTag toInt32 o.tags "name" else .missing)
          else .ok h := by
        unfold exportTag
        by_cases hn : t.key = "amenity" ∨ t.key = "shop"
        · rw [if_pos ((isNodeKey_iff k3).2 hn)]
          have e : jsTag o.tags (utf16 t.key.toList) = .ok (jsText t.value) := by
            have := jsTag_first hv k1
            rw [firstValue_of_nodup hd hm] at this
            exact this
          rw [e]
          simp only
          rw [show jsToText (jsText t.value) = utf16 t.value.toList from rfl, nodeType_iff fn toInt32 hn k4]
          by_cases hp : (t.key, t.value) ∈ poiTags
          · rw [if_pos hp, if_pos hp]
            simp only
            rw [jsTag_first hv scriptKey_name]
            simp only [tagAttr_first, idAttr_eq]
          · rw [if_neg hp, if_neg hp]
        · rw [if_neg (fun e => hn ((isNodeKey_iff k3).1 e)), if_neg]
          intro hp
          apply hn
          simp only [poiTags, List.mem_cons, Prod.mk.injEq, List.not_mem_nil, or_false] at hp
          rcases hp with hp | hp | hp
          · exact Or.inl hp.1
          · exact Or.inl hp.1
          · exact Or.inr hp.1
      rw [List.map_cons, callChain, hstep]
      by_cases hp : (t.key, t.value) ∈ poiTags
      · rw [if_pos hp, List.filter_cons_of_pos (by simpa using hp), List.map_cons, callChain]
        cases shpCall fits h _ with
        | error e => rfl
        | ok h' => exact ih h'
      · rw [if_neg hp, List.filter_cons_of_neg (by simpa using hp)]
        exact ih h
  exact gen o.tags (fun _ m => m) h

/-! ### Speeds -/

/-- A unit that is a digit. -/
def digitUnit (u : UInt16) : Bool := 48 ≤ u && u ≤ 57

theorem utf16_digit {c : Char} (h : isDigit c = true) : ∃ u : UInt16, utf16Char c = [u] ∧ digitUnit u = true := by
  simp only [isDigit, Bool.and_eq_true, decide_eq_true_eq] at h
  refine ⟨UInt16.ofNat c.toNat, if_pos (by omega), ?_⟩
  have e : (UInt16.ofNat c.toNat).toNat = c.toNat := UInt16.toNat_ofNat_of_lt' (by show _ < 65536; omega)
  simp only [digitUnit, Bool.and_eq_true, decide_eq_true_eq, UInt16.le_iff_toNat_le, e]
  exact h

theorem utf16_not_digit {c : Char} (h : isDigit c = false) : ∃ u us, utf16Char c = u :: us ∧ digitUnit u = false := by
  have hv : c.toNat < 55296 ∨ (57343 < c.toNat ∧ c.toNat < 1114112) := c.valid
  have hn : ¬ (48 ≤ c.toNat ∧ c.toNat ≤ 57) := by
    intro hd
    have : isDigit c = true := by simpa only [isDigit, Bool.and_eq_true, decide_eq_true_eq] using hd
    rw [this] at h; cases h
  have key : ∀ n : Nat, n < 65536 → ¬ (48 ≤ n ∧ n ≤ 57) → digitUnit (UInt16.ofNat n) = false := by
    intro n h1 h2
    have e : (UInt16.ofNat n).toNat = n := UInt16.toNat_ofNat_of_lt' (by show _ < 65536; omega)
    rw [← Bool.not_eq_true]
    simp only [digitUnit, Bool.and_eq_true, decide_eq_true_eq, UInt16.le_iff_toNat_le, e]
    exact h2
  unfold utf16Char
  by_cases hc : c.toNat < 0x10000
  · rw [if_pos hc]
    exact ⟨_, _, rfl, key _ hc hn⟩
  · rw [if_neg hc]
    exact ⟨_, _, rfl, key _ (by omega) (by omega)⟩

theorem digits_utf16 (cs : List Char) : (utf16 cs).takeWhile digitUnit = utf16 (cs.takeWhile isDigit) ∧
    (utf16 cs).dropWhile digitUnit = utf16 (cs.dropWhile isDigit) := by
  induction cs with
  | nil => exact ⟨rfl, rfl⟩
  | cons c cs ih =>
    have e : utf16 (c :: cs) = utf16Char c ++ utf16 cs := rfl
    cases hd : isDigit c with
    | true =>
      obtain ⟨u, h1, h2⟩ := utf16_digit hd
      rw [List.takeWhile_cons_of_pos hd, List.dropWhile_cons_of_pos hd, e, h1, List.singleton_append,
        List.takeWhile_cons_of_pos h2, List.dropWhile_cons_of_pos h2, ih.1, ih.2]
      exact ⟨by rw [show utf16 (c :: cs.takeWhile isDigit) = utf16Char c ++ utf16 (cs.takeWhile isDigit) from rfl, h1]; rfl, rfl⟩
    | false =>
      obtain ⟨u, us, h1, h2⟩ := utf16_not_digit hd
      have hd' : ¬ isDigit c = true := by simp [hd]
      have h2' : ¬ digitUnit u = true := by simp [h2]
      rw [List.takeWhile_cons_of_neg hd', List.dropWhile_cons_of_neg hd', e, h1, List.cons_append,
        List.takeWhile_cons_of_neg h2', List.dropWhile_cons_of_neg h2']
      exact ⟨rfl, rfl⟩

/-- The units of speeds. -/
def speedUnits : List String := ["", "kmh", "km/h", " ", " kmh", " km/h"]

theorem kmPerHour_iff (v : String) (ds : List Char) : KmPerHour v ds ↔
    ds = v.toList.takeWhile isDigit ∧ ds ≠ [] ∧ ∃ unit ∈ speedUnits, v.toList.dropWhile isDigit = unit.toList := by
  have hunits : ∀ unit ∈ speedUnits, unit.toList.takeWhile isDigit = [] ∧ unit.toList.dropWhile isDigit = unit.toList := by
    decide
  constructor
  · rintro ⟨h1, h2, unit, h3, h4⟩
    obtain ⟨u1, u2⟩ := hunits unit h3
    refine ⟨?_, h1, unit, h3, ?_⟩
    · rw [h4, List.takeWhile_append_of_pos h2, u1, List.append_nil]
    · rw [h4, List.dropWhile_append_of_pos h2, u2]
  · rintro ⟨rfl, h2, unit, h3, h4⟩
    refine ⟨h2, fun c hc => ?_, unit, h3, ?_⟩
    · have := List.all_takeWhile (p := isDigit) (l := v.toList)
      exact List.all_eq_true.1 this c hc
    · rw [← h4, List.takeWhile_append_dropWhile]

theorem speedDigits_text (v : String) :
    speedDigits (utf16 v.toList) = if v.toList.takeWhile isDigit = [] then none
      else if ∃ unit ∈ speedUnits, v.toList.dropWhile isDigit = unit.toList then some (utf16 (v.toList.takeWhile isDigit))
      else none := by
  obtain ⟨h1, h2⟩ := digits_utf16 v.toList
  unfold speedDigits
  simp only [show (fun u : UInt16 => (decide (48 ≤ u) && decide (u ≤ 57))) = digitUnit from rfl, h1, h2]
  have e1 : utf16 (v.toList.takeWhile isDigit) = [] ↔ v.toList.takeWhile isDigit = [] :=
    ⟨fun h => utf16_inj (b := []) h, fun h => by rw [h]; rfl⟩
  have e2 : utf16 (v.toList.dropWhile isDigit) ∈ speedUnits.map (fun t => jsLit t.toList) ↔
      ∃ unit ∈ speedUnits, v.toList.dropWhile isDigit = unit.toList := by
    rw [List.mem_map]
    constructor
    · rintro ⟨u, hu, e⟩
      exact ⟨u, hu, (utf16_inj e).symm⟩
    · rintro ⟨u, hu, e⟩
      exact ⟨u, hu, by rw [e]; rfl⟩
  by_cases hn : v.toList.takeWhile isDigit = []
  · rw [if_pos (e1.2 hn), if_pos hn]
  · rw [if_neg fun h => hn (e1.1 h), if_neg hn]
    by_cases hu : ∃ unit ∈ speedUnits, v.toList.dropWhile isDigit = unit.toList
    · rw [if_pos hu]; exact if_pos (e2.2 hu)
    · rw [if_neg hu]; exact if_neg fun h => hu (e2.1 h)

theorem maxspeedAttr_value (toInt32 : JsString → Int) (tags : TagList) :
    SpeedValue toInt32 tags (maxspeedAttr toInt32 (match firstValue tags "maxspeed" with
      | some v => jsText v
      | none => .undefined)) := by
  unfold SpeedValue
  cases hf : firstValue tags "maxspeed" with
  | none =>
    right
    exact ⟨by simp, rfl⟩
  | some v =>
    simp only
    show _ ∨ (_ ∧ (match speedDigits (utf16 v.toList) with
      | some ds => ScriptAttr.value ds (toInt32 ds)
      | none => idAttr 0) = _)
    rw [speedDigits_text]
    by_cases hn : v.toList.takeWhile isDigit = []
    · right
      rw [if_pos hn]
      refine ⟨?_, rfl⟩
      rintro ⟨w, ds, e, hk⟩
      cases e
      obtain ⟨h1, h2, -⟩ := (kmPerHour_iff _ _).1 hk
      exact h2 (h1.trans hn)
    · by_cases hu : ∃ unit ∈ speedUnits, v.toList.dropWhile isDigit = unit.toList
      · left
        refine ⟨v, _, rfl, (kmPerHour_iff _ _).2 ⟨rfl, hn, hu⟩, ?_⟩
        show (match speedDigits (utf16 v.toList) with
          | some ds => ScriptAttr.value ds (toInt32 ds)
          | none => idAttr 0) = _
        rw [speedDigits_text, if_neg hn, if_pos hu]
      · right
        rw [if_neg hn, if_neg hu]
        refine ⟨?_, rfl⟩
        rintro ⟨w, ds, e, hk⟩
        cases e
        exact hu ((kmPerHour_iff _ _).1 hk).2.2

/-! ### Ways and areas -/

theorem truthy_first (tags : TagList) (s : String) : jsTruthy (match firstValue tags s with
      | some v => jsText v
      | none => .undefined) = true ↔ ∃ v, firstValue tags s = some v ∧ v ≠ "" := by
  cases firstValue tags s with
  | none => simp [jsTruthy]
  | some v => simp only [jsTruthy_text]; simp

theorem onewayCode_first (tags : TagList) : (onewayCode (match firstValue tags "oneway" with
      | some v => jsText v
      | none => .undefined) : Int) = direction tags := by
  unfold onewayCode direction
  cases firstValue tags "oneway" with
  | none => rfl
  | some v =>
    simp only [jsEqText_text]
    by_cases h1 : v = "1"
    · simp [h1]
    by_cases h2 : v = "yes"
    · simp [h2]
    by_cases h3 : v = "true"
    · simp [h3]
    by_cases h4 : v = "-1"
    · simp [h4]
    · simp [h1, h2, h3, h4]

theorem exportWay_calls (fits : DbfField → DbfValue → Bool) (toInt32 : JsString → Int) (o : ShapeObj)
    (hk : o.kind = .way) (ht : ∀ t ∈ o.tags, OsmText t.value) (h : ShpTable × Bool) :
    ∃ calls, RoadRecords toInt32 o calls ∧ exportWay fits toInt32 o h = callChain (shpCall fits) h calls := by
  have k1 : ScriptKey "highway" := scriptKey_of_check (by decide)
  have k2 : ScriptKey "oneway" := scriptKey_of_check (by decide)
  have k3 : ScriptKey "maxspeed" := scriptKey_of_check (by decide)
  unfold exportWay RoadRecords
  rw [jsTag_first ht k1, jsTag_first ht k2, jsTag_first ht k3, jsTag_first ht scriptKey_name]
  simp only
  by_cases hh : ∃ v, firstValue o.tags "highway" = some v ∧ v ≠ ""
  · rw [if_pos ((truthy_first _ _).2 hh)]
    simp only [if_pos (And.intro hk hh)]
    refine ⟨_, ⟨_, maxspeedAttr_value toInt32 o.tags, rfl⟩, ?_⟩
    simp only [tagAttr_first, idAttr_eq, onewayCode_first]
    rw [callChain]
    cases shpCall fits h _ with
    | error e => rfl
    | ok h' => rfl
  · rw [if_neg (fun h => hh ((truthy_first _ _).1 h))]
    refine ⟨[], ?_, rfl⟩
    rw [if_neg (fun h => hh h.2)]

theorem exportArea_calls (fits : DbfField → DbfValue → Bool) (toInt32 : JsString → Int) (o : ShapeObj)
    (hk : o.kind = .area) (ht : ∀ t ∈ o.tags, OsmText t.value) (h : ShpTable × Bool) :
    exportArea fits toInt32 o h = callChain (shpCall fits) h (landuseRecords toInt32 o) := by
  have k1 : ScriptKey "landuse" := scriptKey_of_check (by decide)
  unfold exportArea landuseRecords
  rw [jsTag_first ht k1]
  simp only
  by_cases hh : ∃ v, firstValue o.tags "landuse" = some v ∧ v ≠ ""
  · rw [if_pos ((truthy_first _ _).2 hh), if_pos ⟨hk, hh⟩]
    simp only [tagAttr_first, idAttr_eq]
    rw [callChain]
    cases shpCall fits h _ with
    | error e => rfl
    | ok h' => rfl
  · rw [if_neg (fun h => hh ((truthy_first _ _).1 h)), if_neg fun h => hh h.2]
    rfl

/-! ### The whole run -/

theorem callChain_map {α β γ : Type} (f : α → γ → Res α) (g : β → γ) (a : α) (l : List β) :
    callChain (fun a b => f a (g b)) a l = callChain f a (l.map g) := by
  induction l generalizing a with
  | nil => rfl
  | cons b l ih =>
    simp only [List.map_cons, callChain]
    cases f a (g b) with
    | error e => rfl
    | ok a' => exact ih a'

theorem shpCalls_after {fits : DbfField → DbfValue → Bool} {t : ShpTable} {calls : List ShpCall} {h : ShpTable × Bool}
    (hc : ShpCall.close ∉ calls) (hr : callChain (shpCall fits) (t, true) calls = .ok h) :
    shpAfter fits t calls h.1 ∧ h.2 = true := by
  induction calls generalizing t with
  | nil => cases hr; exact ⟨⟨[], rfl⟩, rfl⟩
  | cons c cs ih =>
    simp only [List.mem_cons, not_or] at hc
    rw [callChain] at hr
    cases h1 : shpCall fits (t, true) c with
    | error e => rw [h1] at hr; cases hr
    | ok p =>
      rw [h1] at hr
      have hp : p = (p.1, true) := by rw [← shpCall_open (Ne.symm hc.1) h1]
      simp only at hr
      rw [hp] at hr
      obtain ⟨j1, j2⟩ := ih hc.2 hr
      exact ⟨shpAfter_cons (Ne.symm hc.1) (by rw [h1, ← hp]) j1, j2⟩

theorem export_file {fits : DbfField → DbfValue → Bool} {gtype : String} {columns : List ShapeColumn} {h0 h : ShpTable × Bool}
    {calls : List ShpCall} (hc : ShpCall.close ∉ calls) (ho : exportOpen fits gtype columns = .ok h0)
    (hr : callChain (shpCall fits) h0 calls = .ok h) :
    ∃ t0 fields, scriptOpenShp gtype = .ok t0 ∧ List.Forall₂ (fun c f => FieldOf (columnArgs c) f) columns fields ∧
      Rows t0.base.type fields calls (contents h.1) := by
  unfold exportOpen at ho
  cases ht : scriptOpenShp gtype with
  | error e => rw [ht] at ho; cases ho
  | ok t0 =>
    rw [ht] at ho
    simp only at ho
    rw [callChain_map (shpCall fits) (fun c => .addField (columnArgs c))] at ho
    have hall : callChain (shpCall fits) (t0, true) (columns.map (fun c => .addField (columnArgs c)) ++ calls) = .ok h := by
      rw [callChain_append, ho]
      exact hr
    obtain ⟨⟨rs, j1⟩, -⟩ := shpCalls_after (by simpa using hc) hall
    obtain ⟨h4, -⟩ := shapefile_of_script_partial fits _ t0 h.1 _ rs ht j1
    obtain ⟨fs, h5, h6⟩ := rows_fields _ _ _ h4
    exact ⟨t0, fs, rfl, h5, by simpa using h6⟩

theorem roadRecords_other {toInt32 : JsString → Int} {o : ShapeObj} (h : o.kind ≠ .way) : RoadRecords toInt32 o [] := by
  unfold RoadRecords
  rw [if_neg fun e => h e.1]

theorem exportObjects_calls (fits : DbfField → DbfValue → Bool) (fn : JsFunctions) (toInt32 : JsString → Int)
    (os : List ShapeObj) (ht : ∀ o ∈ os, ExportTags o.tags) (s s' : ExportFiles)
    (h : callChain (exportObject fits fn toInt32) s os = .ok s') :
    callChain (shpCall fits) s.pois (os.flatMap (poiRecords toInt32)) = .ok s'.pois ∧
    (∃ R, List.Forall₂ (RoadRecords toInt32) os R ∧ callChain (shpCall fits) s.roads R.flatten = .ok s'.roads) ∧
    callChain (shpCall fits) s.landuse (os.flatMap (landuseRecords toInt32)) = .ok s'.landuse := by
  induction os generalizing s with
  | nil => cases h; exact ⟨rfl, ⟨[], List.Forall₂.nil, rfl⟩, rfl⟩
  | cons o os ih =>
    have ho := ht o List.mem_cons_self
    have hv : ∀ t ∈ o.tags, OsmText t.value := fun t m => (ho.2 t m).2.1
    rw [callChain] at h
    cases hs : exportObject fits fn toInt32 s o with
    | error e => rw [hs] at h; cases h
    | ok s1 =>
      rw [hs] at h
      obtain ⟨i1, ⟨R, i2, i3⟩, i4⟩ := ih (fun u hu => ht u (List.mem_cons_of_mem _ hu)) s1 h
      have step : ∃ rc, RoadRecords toInt32 o rc ∧ callChain (shpCall fits) s.pois (poiRecords toInt32 o) = .ok s1.pois ∧
          callChain (shpCall fits) s.roads rc = .ok s1.roads ∧
          callChain (shpCall fits) s.landuse (landuseRecords toInt32 o) = .ok s1.landuse := by
        unfold exportObject at hs
        cases hk : o.kind with
        | node =>
          rw [hk] at hs
          simp only at hs
          have e := exportNode_calls fits fn toInt32 o hk ho s.pois
          cases hx : exportNode fits fn toInt32 o s.pois with
          | error e => rw [hx] at hs; cases hs
          | ok p =>
            rw [hx] at hs e
            cases hs
            refine ⟨[], roadRecords_other (by rw [hk]; decide), e.symm, rfl, ?_⟩
            rw [landuseRecords, if_neg (fun e => by rw [hk] at e; exact absurd e.1 (by decide))]
            rfl
        | way =>
          rw [hk] at hs
          simp only at hs
          obtain ⟨rc, r1, e⟩ := exportWay_calls fits toInt32 o hk hv s.roads
          cases hx : exportWay fits toInt32 o s.roads with
          | error e => rw [hx] at hs; cases hs
          | ok p =>
            rw [hx] at hs e
            cases hs
            refine ⟨rc, r1, ?_, e.symm, ?_⟩
            · rw [poiRecords, if_neg (by rw [hk]; decide)]
              rfl
            · rw [landuseRecords, if_neg (fun e => by rw [hk] at e; exact absurd e.1 (by decide))]
              rfl
        | area =>
          rw [hk] at hs
          simp only at hs
          have e := exportArea_calls fits toInt32 o hk hv s.landuse
          cases hx : exportArea fits toInt32 o s.landuse with
          | error e => rw [hx] at hs; cases hs
          | ok p =>
            rw [hx] at hs e
            cases hs
            refine ⟨[], roadRecords_other (by rw [hk]; decide), ?_, rfl, e.symm⟩
            rw [poiRecords, if_neg (by rw [hk]; decide)]
            rfl
      obtain ⟨rc, r1, r2, r3, r4⟩ := step
      refine ⟨?_, ⟨rc :: R, List.Forall₂.cons r1 i2, ?_⟩, ?_⟩
      · rw [List.flatMap_cons, callChain_append, r2]; exact i1
      · rw [List.flatten_cons, callChain_append, r3]; exact i3
      · rw [List.flatMap_cons, callChain_append, r4]; exact i4

theorem roadRecords_noclose {toInt32 : JsString → Int} {os : List ShapeObj} {R : List (List ShpCall)}
    (h : List.Forall₂ (RoadRecords toInt32) os R) : ShpCall.close ∉ R.flatten := by
  induction h with
  | nil => simp
  | cons hor _ ih =>
    rw [List.flatten_cons, List.mem_append, not_or]
    refine ⟨?_, ih⟩
    unfold RoadRecords at hor
    split at hor
    · obtain ⟨sp, -, e⟩ := hor
      rw [e]
      simp
    · rw [hor]; simp

/-- **C112 (partial: tags without repeated keys, keys that are numbers and names that every object of a script has, see
`shape_export_inherited`).**  After shape_export.js has run, the three files are closed.  The points of interest
contain one point for each tag of a node that is in the list, the roads one line for each way with the tag
`highway`, and the areas one polygon for each area with the tag `landuse`, in order, with the values described
above; what has no shape of the type of the file is left out. -/
theorem shape_export_records_partial (fits : DbfField → DbfValue → Bool) (fn : JsFunctions) (toInt32 : JsString → Int)
    (os : List ShapeObj) (ht : ∀ o ∈ os, ExportTags o.tags) (s : ExportFiles)
    (h : shapeExport fits fn toInt32 os = .ok s) :
    s.pois.2 = false ∧ s.roads.2 = false ∧ s.landuse.2 = false ∧
    (∃ fields, List.Forall₂ (fun c f => FieldOf (columnArgs c) f) poiColumns fields ∧
      Rows .point fields (os.flatMap (poiRecords toInt32)) (contents s.pois.1)) ∧
    (∃ fields R, List.Forall₂ (fun c f => FieldOf (columnArgs c) f) roadColumns fields ∧
      List.Forall₂ (RoadRecords toInt32) os R ∧ Rows .arc fields R.flatten (contents s.roads.1)) ∧
    (∃ fields, List.Forall₂ (fun c f => FieldOf (columnArgs c) f) landuseColumns fields ∧
      Rows .polygon fields (os.flatMap (landuseRecords toInt32)) (contents s.landuse.1)) := by
  unfold shapeExport at h
  cases hl : exportLoad fits with
  | error e => rw [hl] at h; cases h
  | ok s0 =>
    rw [hl] at h
    simp only at h
    cases hc : callChain (exportObject fits fn toInt32) s0 os with
    | error e => rw [hc] at h; cases h
    | ok s1 =>
      rw [hc] at h
      cases h
      obtain ⟨i1, ⟨R, i2, i3⟩, i4⟩ := exportObjects_calls fits fn toInt32 os ht s0 s1 hc
      unfold exportLoad at hl
      cases hp : exportOpen fits "point" poiColumns with
      | error e => rw [hp] at hl; cases hl
      | ok p =>
        rw [hp] at hl
        simp only at hl
        cases hr : exportOpen fits "line" roadColumns with
        | error e => rw [hr] at hl; cases hl
        | ok r =>
          rw [hr] at hl
          simp only at hl
          cases ha : exportOpen fits "polygon" landuseColumns with
          | error e => rw [ha] at hl; cases hl
          | ok a =>
            rw [ha] at hl
            cases hl
            refine ⟨rfl, rfl, rfl, ?_, ?_, ?_⟩
            · obtain ⟨t0, fs, e, h1, h2⟩ := export_file (by
                intro hm
                obtain ⟨o, -, hm⟩ := List.mem_flatMap.1 hm
                unfold poiRecords at hm
                split at hm
                · obtain ⟨t, -, e⟩ := List.mem_map.1 hm; cases e
                · cases hm) hp i1
              cases e
              exact ⟨fs, h1, h2⟩
            · obtain ⟨t0, fs, e, h1, h2⟩ := export_file (by
                exact roadRecords_noclose i2) hr i3
              cases e
              exact ⟨fs, R, h1, i2, h2⟩
            · obtain ⟨t0, fs, e, h1, h2⟩ := export_file (by
                intro hm
                obtain ⟨o, -, hm⟩ := List.mem_flatMap.1 hm
                unfold landuseRecords at hm
                split at hm
                · rcases List.mem_singleton.1 hm with e; cases e
                · cases hm) ha i4
              cases e
              exact ⟨fs, h1, h2⟩

/-- Some objects. (for the examples) -/
def exportObjs : List ShapeObj :=
  [⟨.node, 17, [⟨"amenity", "pub"⟩, ⟨"name", "Krone"⟩, ⟨"shop", "supermarket"⟩], some ⟨.point, 0, 1, 1⟩⟩,
   ⟨.node, 18, [⟨"amenity", "bench"⟩], some ⟨.point, 0, 1, 2⟩⟩,
   ⟨.way, 33, [⟨"highway", "primary"⟩, ⟨"maxspeed", "100 km/h"⟩, ⟨"oneway", "-1"⟩], some ⟨.arc, 1, 2, 3⟩⟩,
   ⟨.way, 34, [⟨"highway", "track"⟩], none⟩,
   ⟨.area, 66, [⟨"landuse", "forest"⟩], some ⟨.polygon, 1, 4, 5⟩⟩]

/-- The contents of one of the files. (for the examples) -/
def exportContents (file : ExportFiles → ShpTable × Bool) : Option (List (ShpShape × DbfRow)) :=
  (shapeExport (fun _ _ => true) ⟨fun _ => [], fun _ _ => none⟩ (fun s => if s = jsLit "100".toList then 100 else 0)
    exportObjs).toOption.map fun s => contents (file s).1

/-- The hypotheses of `shape_export_records_partial` can be met, and the files are not empty. -/
example : (∀ o ∈ exportObjs, ExportTags o.tags) ∧
    exportContents ExportFiles.pois = some
      [(⟨.point, 0, 1, 1⟩, [(0, .string (utf8 "17".toList)), (1, .string (utf8 "pub".toList)), (2, .string (utf8 "Krone".toList))]),
       (⟨.point, 0, 1, 1⟩, [(0, .string (utf8 "17".toList)), (1, .string (utf8 "supermarket".toList)), (2, .string (utf8 "Krone".toList))])] ∧
    exportContents ExportFiles.roads = some
      [(⟨.arc, 1, 2, 3⟩, [(0, .int 33), (1, .string (utf8 "primary".toList)), (2, .null), (3, .int 2), (4, .int 100)])] ∧
    exportContents ExportFiles.landuse = some
      [(⟨.polygon, 1, 4, 5⟩, [(0, .int 66), (1, .string (utf8 "forest".toList))])] := by
  refine ⟨fun o ho => ⟨?_, ?_⟩, by decide +kernel, by decide +kernel, by decide +kernel⟩
  · have : ∀ o ∈ exportObjs, (o.tags.map (·.key)).Nodup := by decide
    exact this o ho
  · have h1 : ∀ o ∈ exportObjs, ∀ t ∈ o.tags, (('\x00' ∉ t.key.toList ∧ t.key.toList.length ≤ 255) ∧
        t.key.toList.any (fun c => !isDigit c)) ∧ ('\x00' ∉ t.value.toList ∧ t.value.toList.length ≤ 255) := by decide +kernel
    have h2 : ∀ o ∈ exportObjs, ∀ t ∈ o.tags, (t.key ≠ "__proto__" ∧ t.key ∉ inheritedNames) ∧
        (t.value ≠ "__proto__" ∧ t.value ∉ inheritedNames) := by decide +kernel
    intro t ht
    obtain ⟨a, b⟩ := h1 o ho t ht
    obtain ⟨c, d⟩ := h2 o ho t ht
    exact ⟨scriptKey_of_check a, b, fun e => e.elim c.1 c.2, fun e => e.elim d.1 d.2⟩

/-- **C112, disagreement.**  A node with the tag `amenity=constructor`, or with the name of another function that
every object of a script has, becomes a point of interest, although it is not in the list. Its type is the source
text of the function. -/
theorem shape_export_inherited (fits : DbfField → DbfValue → Bool) (fn : JsFunctions) (toInt32 : JsString → Int)
    (id : Int) (geom : Option ShpShape) (value : String) (hv : value ∈ inheritedNames) (h : ShpTable × Bool) :
    poiRecords toInt32 ⟨.node, id, [⟨"amenity", value⟩], geom⟩ = [] ∧
    exportNode fits fn toInt32 ⟨.node, id, [⟨"amenity", value⟩], geom⟩ h = shpCall fits h (.add geom fun column =>
      if column = "id" then columnNumber id else if column = "type" then .value (fn.text (utf16 value.toList)) 0
      else if column = "name" then .empty else .missing) := by
  have hall : ∀ s ∈ inheritedNames, ('\x00' ∉ s.toList ∧ s.toList.length ≤ 255) ∧ s ≠ "restaurant" ∧ s ≠ "pub" ∧
      s ≠ "supermarket" := by decide
  obtain ⟨a, b1, b2, b3⟩ := hall value hv
  have hun : utf16 value.toList ∈ inheritedUnits := List.mem_map.2 ⟨value, hv, rfl⟩
  have ht : ∀ t ∈ [(⟨"amenity", value⟩ : Tag)], OsmText t.value := by
    intro t m; rw [List.mem_singleton.1 m]; exact a
  have hsk : ScriptKey "amenity" := scriptKey_of_check (by decide)
  refine ⟨by simp [poiRecords, poiTags, b1, b2, b3], ?_⟩
  have hkeys : jsTagKeys [(⟨"amenity", value⟩ : Tag)] = .ok [jsLit "amenity".toList] :=
    script_tag_keys _ fun t m => by rw [List.mem_singleton.1 m]; exact hsk.1
  have hty : nodeType fn toInt32 (jsLit "amenity".toList) (utf16 value.toList) =
      some (.value (fn.text (utf16 value.toList)) 0) := by
    unfold nodeType
    rw [if_pos rfl, if_neg (fun e => b1 ((utf16_eq_lit _ _).1 e)), if_neg (fun e => b2 ((utf16_eq_lit _ _).1 e))]
    unfold inheritedValue
    rw [if_pos hun]
  have e1 : firstValue [(⟨"amenity", value⟩ : Tag)] "amenity" = some value := rfl
  have e2 : firstValue [(⟨"amenity", value⟩ : Tag)] "name" = none := rfl
  unfold exportNode
  simp only
  rw [hkeys]
  simp only [callChain, exportTag]
  rw [if_pos (by decide +kernel), jsTag_first ht hsk, jsTag_first ht scriptKey_name, e1, e2]
  simp only
  rw [show jsToText (jsText value) = utf16 value.toList from rfl, hty]
  simp only [idAttr_eq, tagAttr]
  generalize shpCall fits h _ = r
  cases r <;> rfl

example : "constructor" ∈ inheritedNames := by decide

/-! ### The program comes to its end -/

theorem columnTag_good (toInt32 : JsString → Int) {tags : TagList} (ht : ∀ t ∈ tags, Storable t.value) (key : String) :
    AttrGood (columnTag toInt32 tags key) := by
  unfold columnTag
  cases hv : firstValue tags key with
  | none => intro text i e; cases e
  | some v =>
    unfold firstValue at hv
    cases hf : tags.find? fun t => decide (t.key = key) with
    | none => rw [hf] at hv; cases hv
    | some t =>
      rw [hf] at hv
      cases hv
      exact attrGood_text (ht t (List.mem_of_find?_eq_some hf)).2 _

theorem columnNumber_good (n : Int) : AttrGood (columnNumber n) :=
  attrGood_text (fun u hu => ascii_storable (intDec_ascii _) u (List.mem_of_getElem? hu)) _

theorem missing_good : AttrGood .missing := by intro text i e; cases e

theorem speedValue_good {toInt32 : JsString → Int} {tags : TagList} {a : ScriptAttr} (h : SpeedValue toInt32 tags a) :
    AttrGood a := by
  rcases h with ⟨v, ds, -, hk, rfl⟩ | ⟨-, rfl⟩
  · refine attrGood_text (fun u hu => ascii_storable (fun c hc => ?_) u (List.mem_of_getElem? hu)) _
    have := hk.2.1 c hc
    simp only [isDigit, Bool.and_eq_true, decide_eq_true_eq] at this
    have h9 : c.toNat ≤ '9'.toNat := this.2
    have : '9'.toNat = 57 := by decide
    omega
  · exact columnNumber_good 0

/-- An addition with values that can be stored. -/
def GoodAddition (c : ShpCall) : Prop := ∃ g attrs, c = .add g attrs ∧ ∀ k, AttrGood (attrs k)

theorem additions_ok {fits : DbfField → DbfValue → Bool} (hfits : ∀ f v, fits f v = true) (calls : List ShpCall)
    (hc : ∀ c ∈ calls, GoodAddition c) {h : ShpTable × Bool} (ho : h.2 = true) (hg : TableGood h.1) :
    ∃ h', callChain (shpCall fits) h calls = .ok h' ∧ h'.2 = true ∧ TableGood h'.1 := by
  induction calls generalizing h with
  | nil => exact ⟨h, rfl, ho, hg⟩
  | cons c cs ih =>
    obtain ⟨g, attrs, rfl, ha⟩ := hc c List.mem_cons_self
    obtain ⟨t, b⟩ := h
    cases ho
    obtain ⟨t1, h1, h2⟩ := shpCall_add_ok hfits hg g attrs ha
    rw [callChain, h1]
    exact ih (fun c hm => hc c (List.mem_cons_of_mem _ hm)) rfl h2

theorem poiRecords_good (toInt32 : JsString → Int) (o : ShapeObj) (ht : ∀ t ∈ o.tags, Storable t.value) :
    ∀ c ∈ poiRecords toInt32 o, GoodAddition c := by
  intro c hc
  unfold poiRecords at hc
  split at hc
  · obtain ⟨t, htm, rfl⟩ := List.mem_map.1 hc
    refine ⟨_, _, rfl, fun k => ?_⟩
    split
    · exact columnNumber_good _
    · split
      · exact attrGood_text (ht t (List.mem_filter.1 htm).1).2 _
      · split
        · exact columnTag_good _ ht _
        · exact missing_good
  · cases hc

theorem roadRecords_good {toInt32 : JsString → Int} {o : ShapeObj} (ht : ∀ t ∈ o.tags, Storable t.value)
    {calls : List ShpCall} (h : RoadRecords toInt32 o calls) : ∀ c ∈ calls, GoodAddition c := by
  intro c hc
  unfold RoadRecords at h
  split at h
  · obtain ⟨sp, hs, rfl⟩ := h
    rw [List.mem_singleton] at hc
    subst hc
    refine ⟨_, _, rfl, fun k => ?_⟩
    split
    · exact columnNumber_good _
    · split
      · exact columnTag_good _ ht _
      · split
        · exact columnTag_good _ ht _
        · split
          · exact columnNumber_good _
          · split
            · exact speedValue_good hs
            · exact missing_good
  · rw [h] at hc; cases hc

theorem landuseRecords_good (toInt32 : JsString → Int) (o : ShapeObj) (ht : ∀ t ∈ o.tags, Storable t.value) :
    ∀ c ∈ landuseRecords toInt32 o, GoodAddition c := by
  intro c hc
  unfold landuseRecords at hc
  split at hc
  · rw [List.mem_singleton] at hc
    subst hc
    refine ⟨_, _, rfl, fun k => ?_⟩
    split
    · exact columnNumber_good _
    · split
      · exact columnTag_good _ ht _
      · exact missing_good
  · cases hc

/-- The columns of the script can be made. -/
theorem exportOpen_ok (fits : DbfField → DbfValue → Bool) :
    (∃ h, exportOpen fits "point" poiColumns = .ok h ∧ h.2 = true ∧ TableGood h.1) ∧
    (∃ h, exportOpen fits "line" roadColumns = .ok h ∧ h.2 = true ∧ TableGood h.1) ∧
    (∃ h, exportOpen fits "polygon" landuseColumns = .ok h ∧ h.2 = true ∧ TableGood h.1) := by
  have gen : ∀ (gtype : String) (cols : List ShapeColumn) (calls : List FileCall), geometryType calls = gtype →
      columnsOf calls = cols → (∀ c ∈ calls, KnownTypes c) → GoodColumns calls →
      ∃ h, exportOpen fits gtype cols = .ok h ∧ h.2 = true ∧ TableGood h.1 := by
    intro gtype cols calls h1 h2 h3 h4
    obtain ⟨g, t, e1, e2, e3⟩ := openShape_ok (fits := fits) (f := ⟨"", gtype, cols, none⟩) h3 h4 h1.symm h2.symm
    unfold openShape at e1
    unfold exportOpen
    simp only at e1
    cases ho : scriptOpenShp gtype with
    | error e => rw [ho] at e1; cases e1
    | ok t0 =>
      rw [ho] at e1
      simp only at e1 ⊢
      cases hc : callChain (fun h c => shpCall fits h (.addField (columnArgs c))) (t0, true) cols with
      | error e => rw [hc] at e1; cases e1
      | ok h =>
        rw [hc] at e1
        cases e1
        cases e2
        exact ⟨_, rfl, rfl, e3⟩
  have known : ∀ t ∈ ["point", "line", "polygon"], KnownTypes (.type t) := by
    intro t ht; simpa [KnownTypes] using ht
  refine ⟨gen _ _ (.type "point" :: poiColumns.map fun c => .column c.name c.type c.size) rfl rfl ?_ ?_,
    gen _ _ (.type "line" :: roadColumns.map fun c => .column c.name c.type c.size) rfl rfl ?_ ?_,
    gen _ _ (.type "polygon" :: landuseColumns.map fun c => .column c.name c.type c.size) rfl rfl ?_ ?_⟩
  · simp [KnownTypes, poiColumns]
  · refine ⟨by decide, by decide, by decide⟩
  · simp [KnownTypes, roadColumns]
  · refine ⟨by decide, by decide, by decide⟩
  · simp [KnownTypes, landuseColumns]
  · refine ⟨by decide, by decide, by decide⟩

/-- **C112 (partial as above)** (the program comes to its end): if the library for shapefiles refuses no value
(`fits`, see `shape_export_fast_road`) and all texts can be stored, there is no exception. -/
theorem shape_export_succeeds_partial (fits : DbfField → DbfValue → Bool) (hfits : ∀ f v, fits f v = true)
    (fn : JsFunctions) (toInt32 : JsString → Int) (os : List ShapeObj) (ht : ∀ o ∈ os, ExportTags o.tags)
    (hs : ∀ o ∈ os, ∀ t ∈ o.tags, Storable t.value) : ∃ s, shapeExport fits fn toInt32 os = .ok s := by
  obtain ⟨⟨p, p1, p2, p3⟩, ⟨r, r1, r2, r3⟩, ⟨l, l1, l2, l3⟩⟩ := exportOpen_ok fits
  have hl : exportLoad fits = .ok ⟨p, r, l⟩ := by unfold exportLoad; rw [p1, r1, l1]
  let Good : ExportFiles → Prop := fun s => (s.pois.2 = true ∧ TableGood s.pois.1) ∧ (s.roads.2 = true ∧ TableGood s.roads.1) ∧
    (s.landuse.2 = true ∧ TableGood s.landuse.1)
  have gen : ∀ (os : List ShapeObj), (∀ o ∈ os, ExportTags o.tags) → (∀ o ∈ os, ∀ t ∈ o.tags, Storable t.value) →
      ∀ s, Good s → ∃ s', callChain (exportObject fits fn toInt32) s os = .ok s' := by
    intro os
    induction os with
    | nil => intro _ _ s _; exact ⟨s, rfl⟩
    | cons o os ih =>
      intro ht hs s hg
      have ho := ht o List.mem_cons_self
      have hv : ∀ t ∈ o.tags, OsmText t.value := fun t m => (ho.2 t m).2.1
      have hst := hs o List.mem_cons_self
      obtain ⟨⟨g1, g2⟩, ⟨g3, g4⟩, g5, g6⟩ := hg
      have : ∃ s1, exportObject fits fn toInt32 s o = .ok s1 ∧ Good s1 := by
        unfold exportObject
        cases hk : o.kind with
        | node =>
          simp only
          rw [exportNode_calls fits fn toInt32 o hk ho s.pois]
          obtain ⟨h', e, e2, e3⟩ := additions_ok hfits _ (poiRecords_good toInt32 o hst) g1 g2
          rw [e]
          exact ⟨_, rfl, ⟨e2, e3⟩, ⟨g3, g4⟩, g5, g6⟩
        | way =>
          simp only
          obtain ⟨rc, hr, er⟩ := exportWay_calls fits toInt32 o hk hv s.roads
          obtain ⟨h', e, e2, e3⟩ := additions_ok hfits _ (roadRecords_good hst hr) g3 g4
          rw [er, e]
          exact ⟨_, rfl, ⟨g1, g2⟩, ⟨e2, e3⟩, g5, g6⟩
        | area =>
          simp only
          rw [exportArea_calls fits toInt32 o hk hv s.landuse]
          obtain ⟨h', e, e2, e3⟩ := additions_ok hfits _ (landuseRecords_good toInt32 o hst) g5 g6
          rw [e]
          exact ⟨_, rfl, ⟨g1, g2⟩, ⟨g3, g4⟩, e2, e3⟩
      obtain ⟨s1, e1, hg1⟩ := this
      rw [callChain, e1]
      exact ih (fun o hm => ht o (List.mem_cons_of_mem _ hm)) (fun o hm => hs o (List.mem_cons_of_mem _ hm)) s1 hg1
  obtain ⟨s', e⟩ := gen os ht hs ⟨p, r, l⟩ ⟨⟨p2, p3⟩, ⟨r2, r3⟩, l2, l3⟩
  refine ⟨exportEnd s', ?_⟩
  unfold shapeExport
  rw [hl]
  simp only
  rw [e]
  rfl

example : ∀ o ∈ exportObjs, ∀ t ∈ o.tags, Storable t.value := by
  have : ∀ o ∈ exportObjs, ∀ t ∈ o.tags, (!t.value.toList.contains '\x00' && t.value.toList.length ≤ 255 &&
      ((utf16 t.value.toList)[255]? = none)) = true := by decide +kernel
  intro o ho t ht
  have := this o ho t ht
  simp only [Bool.and_eq_true, decide_eq_true_eq] at this
  refine ⟨⟨by simpa using this.1.1, this.1.2⟩, fun u hu => ?_⟩
  rw [this.2] at hu; cases hu

/-- Values that are not numbers with more digits than the column has: for others the library says that it has not
stored them. -/
def Spec.widthFits (f : DbfField) : DbfValue → Bool
  | .int n => decide (((intDec n).length : Int) ≤ f.width)
  | _ => true

/-- **C112, disagreement.**  One road with a speed of 1000 ends the program with an exception: the column has three
digits, and the library for shapefiles refuses the value.  (Nobody catches the exception in the callback.) -/
theorem shape_export_fast_road :
    ∃ o : ShapeObj, ∀ fn, ExportTags o.tags ∧ (∀ t ∈ o.tags, Storable t.value) ∧
      shapeExport widthFits fn (fun s => if s = utf16 "1000".toList then 1000 else 0) [o] =
        .error (.exn "Can't add value to field") := by
  refine ⟨⟨.way, 33, [⟨"highway", "primary"⟩, ⟨"maxspeed", "1000"⟩], some ⟨.arc, 1, 2, 3⟩⟩, fun fn => ⟨⟨by decide, ?_⟩, ?_, ?_⟩⟩
  · have h1 : ∀ t ∈ [(⟨"highway", "primary"⟩ : Tag), ⟨"maxspeed", "1000"⟩], ((('\x00' ∉ t.key.toList ∧ t.key.toList.length ≤ 255) ∧
        t.key.toList.any (fun c => !isDigit c)) ∧ ('\x00' ∉ t.value.toList ∧ t.value.toList.length ≤ 255)) ∧
        (t.key ≠ "__proto__" ∧ t.key ∉ inheritedNames) ∧ (t.value ≠ "__proto__" ∧ t.value ∉ inheritedNames) := by decide +kernel
    intro t ht
    obtain ⟨⟨a, b⟩, c, d⟩ := h1 t ht
    exact ⟨scriptKey_of_check a, b, fun e => e.elim c.1 c.2, fun e => e.elim d.1 d.2⟩
  · have : ∀ t ∈ [(⟨"highway", "primary"⟩ : Tag), ⟨"maxspeed", "1000"⟩], (!t.value.toList.contains '\x00' &&
        t.value.toList.length ≤ 255 && ((utf16 t.value.toList)[255]? = none)) = true := by decide +kernel
    intro t ht
    have := this t ht
    simp only [Bool.and_eq_true, decide_eq_true_eq] at this
    refine ⟨⟨by simpa using this.1.1, this.1.2⟩, fun u hu => ?_⟩
    rw [this.2] at hu; cases hu
  · have key : (match shapeExport widthFits ⟨fun _ => [], fun _ _ => none⟩
        (fun s => if s = utf16 "1000".toList then 1000 else 0)
        [⟨.way, 33, [⟨"highway", "primary"⟩, ⟨"maxspeed", "1000"⟩], some ⟨.arc, 1, 2, 3⟩⟩] with
      | .error (.exn m) => m == "Can't add value to field"
      | _ => false) = true := by decide +kernel
    have e : shapeExport widthFits fn (fun s => if s = utf16 "1000".toList then 1000 else 0)
        [⟨.way, 33, [⟨"highway", "primary"⟩, ⟨"maxspeed", "1000"⟩], some ⟨.arc, 1, 2, 3⟩⟩] =
      shapeExport widthFits ⟨fun _ => [], fun _ _ => none⟩ (fun s => if s = utf16 "1000".toList then 1000 else 0)
        [⟨.way, 33, [⟨"highway", "primary"⟩, ⟨"maxspeed", "1000"⟩], some ⟨.arc, 1, 2, 3⟩⟩] := by
      unfold shapeExport
      simp only [callChain, exportObject]
    rw [e]
    split at key
    · rename_i m hm
      rw [hm, eq_of_beq key]
    · cases key

end Osmium

import Verif.Javascript.Wrapper
import Verif.Geometry.Props
import Verif.Osm.Props
import Verif.Time.Props

/-
C80: what a script sees of OSM objects.
-/
namespace Osmium
open Spec Text

namespace Spec

/-- The text `s` as a value of a script. -/
def jsText (s : String) : JsVal := .str (utf16 s.toList)

/-- The value of the first tag with the key, as a script should see it. -/
def jsTagValue (tags : TagList) (key : List Char) : JsVal :=
  match tags.find? fun t => t.key.toList = key with
  | some t => jsText t.value
  | none => .undefined

/-- Texts that are allowed in OSM: up to 255 characters. -/
def OsmText (s : String) : Prop := '\x00' ∉ s.toList ∧ s.toList.length ≤ 255

/-- The decimal numbers below 2^32-1. -/
def IndexName (cs : List Char) : Prop := ∃ n : Nat, n < 4294967295 ∧ cs = natDec n

end Spec

/-! ### Texts and numbers -/

theorem textBytes_eq (s : String) : textBytes s = utf8 s.toList := rfl

theorem v8New_utf8 {cs : List Char} (h : '\x00' ∉ cs) : v8New (utf8 cs) = utf16 cs := by
  unfold v8New
  rw [cString_utf8 h, (decodeUtf8_iff _ _).2 rfl]
  rfl

theorem utf8ToV8_text (s : String) (h : OsmText s) : utf8ToV8 512 (textBytes s) = .ok (utf16 s.toList) :=
  (osm_texts_pass s.toList h.1 h.2).1

theorem jsNumber_exact {n : Int} (h : |n| ≤ 9007199254740992) : jsNumber n = .num n := by
  unfold jsNumber; rw [fl_int n h]

theorem jsInteger_exact {n : Int} (h : InS32 n) : jsInteger n = .num n := by
  unfold jsInteger; rw [wrapS32_of_in h]

theorem digit_not_nul {c : Char} (h : isDigit c = true) : c ≠ '\x00' := by
  rintro rfl; revert h; decide

theorem toIso_not_nul (t : Int) : '\x00' ∉ Time.toIso t := by
  unfold Time.toIso
  split
  · simp
  · dsimp only
    split
    · have hy : '\x00' ∉ intDec (Time.gmtime t).year := by
        unfold intDec
        split
        · intro h
          rcases List.mem_cons.1 h with h | h
          · revert h; decide
          · exact digit_not_nul (natDec_digits _ _ h) rfl
        · intro h; exact digit_not_nul (natDec_digits _ _ h) rfl
      have hd : ∀ n : Int, '\x00' ∉ Time.dec2 n := by
        intro n h
        rw [Time.dec2_eq_padded] at h
        exact digit_not_nul (padded_digits _ _ _ h) rfl
      have e1 : ¬ '\x00' = '-' := by decide
      have e2 : ¬ '\x00' = 'T' := by decide
      have e3 : ¬ '\x00' = ':' := by decide
      have e4 : ¬ '\x00' = 'Z' := by decide
      simp only [Time.isoText, List.mem_append, List.mem_cons, not_or, List.not_mem_nil, or_false]
      simp [hy, hd, e1, e2, e3, e4]
    · simp

/-- **C80 (partial: see `script_ids_collide`, `script_version_wraps`).**  The numbers of an object are exact,
for ids and changesets up to 2^53 and versions and user ids below 2^31; the other properties are those of the
object. -/
theorem script_object_partial (o : Obj) (hid : |o.id| ≤ 9007199254740992) (hc : |o.changeset| ≤ 9007199254740992)
    (hv : InS32 o.version) (hu : InS32 o.uid) (hn : OsmText o.user) (ht : o.timestamp ≠ 0)
    (hr : InIsoRange o.timestamp) :
    jsObjectProp o "id" = .ok (.num o.id) ∧ jsObjectProp o "version" = .ok (.num o.version) ∧
    jsObjectProp o "changeset" = .ok (.num o.changeset) ∧ jsObjectProp o "uid" = .ok (.num o.uid) ∧
    jsObjectProp o "user" = .ok (jsText o.user) ∧ jsObjectProp o "visible" = .ok (.bool o.visible) ∧
    jsObjectProp o "tags" = .ok (.tags o.tags) ∧
    (∃ cs, jsObjectProp o "timestamp" = .ok (.str (utf16 cs)) ∧ Time.parseIso cs = some o.timestamp) := by
  refine ⟨?_, ?_, ?_, ?_, ?_, ?_, ?_, Time.toIso o.timestamp, ?_, iso_roundtrip _ ht hr⟩
  · simp [jsObjectProp, jsNumber_exact hid]
  · simp [jsObjectProp, jsInteger_exact hv]
  · simp [jsObjectProp, jsNumber_exact hc]
  · simp [jsObjectProp, jsInteger_exact hu]
  · simp [jsObjectProp, utf8ToV8_text _ hn, Except.map, jsText]
  · simp [jsObjectProp]
  · simp [jsObjectProp]
  · have := v8New_utf8 (toIso_not_nul o.timestamp)
    unfold utf8 at this
    simp [jsObjectProp, this]

/-- An object that meets the hypotheses. -/
def scriptExample : Obj :=
  { Obj.new with id := 4711, version := 3, changeset := 99, uid := 17, user := "Jürgen 😀", timestamp := 1353000000,
                 tags := [⟨"name", "Köln"⟩, ⟨"5", "five"⟩, ⟨"highway", "primary"⟩] }

example : |scriptExample.id| ≤ 9007199254740992 ∧ |scriptExample.changeset| ≤ 9007199254740992 ∧
    InS32 scriptExample.version ∧ InS32 scriptExample.uid ∧ OsmText scriptExample.user ∧
    scriptExample.timestamp ≠ 0 ∧ InIsoRange scriptExample.timestamp := by
  refine ⟨by decide, by decide, ?_, ?_, ⟨by decide, by decide⟩, by decide, by unfold InIsoRange; decide⟩ <;> (unfold InS32; decide)

/-- **C80, disagreement.**  The ids 2^53 and 2^53+1 are the same number for a script. -/
theorem script_ids_collide :
    jsObjectProp { Obj.new with id := 9007199254740992 } "id" =
      jsObjectProp { Obj.new with id := 9007199254740993 } "id" := by
  have : fl ((9007199254740993 : Int) : ℚ) = fl ((9007199254740992 : Int) : ℚ) := by
    decide +kernel
  simp only [jsObjectProp, jsNumber, this]

/-- **C80, disagreement.**  Versions from 2^31, which are valid, are negative for a script. -/
theorem script_version_wraps (o : Obj) (h1 : 2147483648 ≤ o.version) (h2 : o.version < 4294967296) :
    jsObjectProp o "version" = .ok (.num ((o.version - 4294967296 : Int) : ℚ)) := by
  have : wrapS32 o.version = o.version - 4294967296 := by unfold wrapS32; omega
  simp only [jsObjectProp, jsInteger, this]
  rfl

/-- **C80.**  The user name in general: it is converted if it is shorter than 1024 units, otherwise there is
an exception. -/
theorem script_user (o : Obj) (s : JsVal) :
    jsObjectProp o "user" = .ok s ↔ (utf16 o.user.toList).length < 1024 ∧ s = jsText o.user := by
  have e : jsObjectProp o "user" = (utf8ToV8 512 (textBytes o.user)).map .str := by simp [jsObjectProp]
  rw [e]
  constructor
  · intro h
    cases hr : utf8ToV8 512 (textBytes o.user) with
    | error x => rw [hr] at h; simp [Except.map] at h
    | ok a =>
      rw [hr] at h
      obtain ⟨cs, h1, h2, rfl⟩ := (text_to_script_iff _ _ _).1 hr
      have := utf8_injective (a := o.user.toList) (b := cs) h1
      subst this
      simp only [Except.map, Except.ok.injEq] at h
      exact ⟨h2, h.symm⟩
  · rintro ⟨h, rfl⟩
    rw [(text_to_script_iff 512 (textBytes o.user) (utf16 o.user.toList)).2 ⟨_, rfl, h, rfl⟩]
    rfl

/-! ### Tags -/

theorem valueByKeyBytes_eq (tags : TagList) (k : List Char) :
    valueByKeyBytes tags (utf8 k) = (tags.find? fun t => t.key.toList = k).map (·.value) := by
  induction tags with
  | nil => rfl
  | cons t ts ih =>
    unfold valueByKeyBytes
    rw [List.find?_cons]
    by_cases h : t.key.toList = k
    · simp [textBytes_eq, h]
    · have : ¬ textBytes t.key = utf8 k := fun e => h (utf8_injective e)
      simp [h, this, ih]

theorem isArrayIndex_iff (cs : List Char) : isArrayIndex (utf16 cs) = true ↔ IndexName cs := by
  unfold isArrayIndex
  rw [decode_utf16]
  simp only [ne_eq, Bool.and_eq_true, decide_eq_true_eq, List.all_eq_true]
  constructor
  · rintro ⟨⟨⟨_, _⟩, h⟩, h2⟩
    exact ⟨_, h2, h.symm⟩
  · rintro ⟨n, hn, rfl⟩
    rw [digitsVal_natDec_self]
    obtain ⟨c, cs, e, _⟩ := natDec_cons n
    exact ⟨⟨⟨by simp [e], natDec_digits n⟩, rfl⟩, hn⟩

/-- **C80 (partial: see `script_index_keys` and `script_long_key`).**  `tags[key]` is the value of the first
tag with this key, or undefined if there is none, for all keys of OSM that are not indexes. -/
theorem script_tag_partial (tags : TagList) (key : String) (hk : OsmText key) (hi : ¬ IndexName key.toList)
    (hv : ∀ t ∈ tags, OsmText t.value) : jsTag tags (utf16 key.toList) = .ok (jsTagValue tags key.toList) := by
  unfold jsTag
  rw [if_neg (fun h => hi ((isArrayIndex_iff _).1 h))]
  unfold jsTagGetter
  rw [(osm_texts_pass key.toList hk.1 hk.2).2]
  simp only [valueByKeyBytes_eq, jsTagValue]
  cases hf : tags.find? (fun t => decide (t.key.toList = key.toList)) with
  | none => rfl
  | some t =>
    simp only [Option.map_some]
    rw [utf8ToV8_text _ (hv t (List.mem_of_find?_eq_some hf))]
    rfl

theorem not_index_of_letter {cs : List Char} {c : Char} (hc : c ∈ cs) (h : isDigit c = false) : ¬ IndexName cs := by
  rintro ⟨n, _, rfl⟩
  rw [natDec_digits n c hc] at h
  cases h

example : ∃ key : String, OsmText key ∧ ¬ IndexName key.toList ∧ (∀ t ∈ scriptExample.tags, OsmText t.value) ∧
    jsTagValue scriptExample.tags key.toList = jsText "Köln" := by
  refine ⟨"name", ⟨by decide, by decide⟩, not_index_of_letter (c := 'n') (by decide) (by decide), ?_, rfl⟩
  intro t ht
  simp only [scriptExample, List.mem_cons, List.not_mem_nil, or_false] at ht
  rcases ht with rfl | rfl | rfl <;> exact ⟨by decide, by decide⟩

/-- **C80.**  `for (key in tags)` runs through all keys in their order. -/
theorem script_tag_keys (tags : TagList) (hk : ∀ t ∈ tags, OsmText t.key) :
    jsTagKeys tags = .ok (tags.map fun t => utf16 t.key.toList) := by
  induction tags with
  | nil => rfl
  | cons t ts ih =>
    unfold jsTagKeys
    rw [utf8ToV8_text _ (hk t (by simp)), ih (fun u hu => hk u (List.mem_cons_of_mem _ hu))]
    rfl

/-- **C80 (partial: keys that are indexes).**  A script that runs through the tags and looks at the values
sees all tags, if no key occurs twice. -/
theorem script_sees_all_tags_partial (tags : TagList) (hd : (tags.map (·.key)).Nodup)
    (ht : ∀ t ∈ tags, OsmText t.key ∧ OsmText t.value ∧ ¬ IndexName t.key.toList) :
    ∃ keys, jsTagKeys tags = .ok keys ∧
      keys.map (fun k => (k, jsTag tags k)) =
        tags.map fun t => (utf16 t.key.toList, .ok (jsText t.value)) := by
  refine ⟨_, script_tag_keys tags fun t h => (ht t h).1, ?_⟩
  rw [List.map_map]
  apply List.map_congr_left
  intro t hm
  simp only [Function.comp_apply, Prod.mk.injEq, true_and]
  rw [script_tag_partial tags t.key (ht t hm).1 (ht t hm).2.2 fun u hu => (ht u hu).2.1]
  congr 1
  unfold jsTagValue
  have : tags.find? (fun u => decide (u.key.toList = t.key.toList)) = some t := by
    clear ht
    induction tags with
    | nil => simp at hm
    | cons u us ih =>
      rw [List.map_cons, List.nodup_cons] at hd
      rw [List.find?_cons]
      by_cases h : u.key.toList = t.key.toList
      · have hk : u.key = t.key := String.toList_inj.1 h
        rcases List.mem_cons.1 hm with rfl | hm
        · simp
        · exact absurd (List.mem_map.2 ⟨t, hm, hk.symm⟩) hd.1
      · rcases List.mem_cons.1 hm with rfl | hm
        · exact absurd rfl h
        · simp [h, ih hd.2 hm]
  rw [this]

/-- **C80, disagreement.**  A tag whose key is a number is in the list of keys, but its value is undefined
for the script. -/
theorem script_index_keys (tags : TagList) (n : Nat) (hn : n < 4294967295) :
    jsTag tags (utf16 (natDec n)) = .ok .undefined := by
  unfold jsTag
  rw [if_pos ((isArrayIndex_iff _).2 ⟨n, hn, rfl⟩)]

example : jsTagKeys scriptExample.tags = .ok [utf16 "name".toList, utf16 "5".toList, utf16 "highway".toList] ∧
    jsTag scriptExample.tags (utf16 "5".toList) = .ok .undefined ∧
    jsTagValue scriptExample.tags "5".toList = jsText "five" := by
  refine ⟨?_, script_index_keys _ 5 (by decide), rfl⟩
  refine (script_tag_keys _ ?_).trans rfl
  intro t ht
  simp only [scriptExample, List.mem_cons, List.not_mem_nil, or_false] at ht
  rcases ht with rfl | rfl | rfl <;> exact ⟨by decide, by decide⟩

/-- **C80, disagreement.**  A key that is longer than 1024 units finds the tag whose key is its beginning. -/
theorem script_long_key (tags : TagList) (as bs : List Char) (h0 : '\x00' ∉ as)
    (h1 : (utf16 as).length = 1024) (h2 : (utf8 as).length < 2048) :
    jsTagGetter tags (utf16 (as ++ bs)) = jsTagGetter tags (utf16 as) := by
  have e1 := text_from_script_cut 512 as bs h0 h1 h2
  have e2 := text_from_script_cut 512 as [] h0 h1 h2
  rw [List.append_nil] at e2
  unfold jsTagGetter
  rw [e1, e2]

/-! ### Lists of nodes and members -/

/-- **C80 (partial: indexes outside of the list, `script_list_out_of_range`).**  `nodes[i]` and `members[i]`
are the ids of the nodes and the members. -/
theorem script_lists_partial (nodes : List WayNode) (members : List Member) (i : Nat) (hi : i < 2147483648) :
    (∀ n, nodes[i]? = some n → |n.ref| ≤ 9007199254740992 → jsNodeAt nodes i = .ok (.num n.ref)) ∧
    (∀ m, members[i]? = some m → jsMemberAt members i = .ok (.member m)) := by
  have hw : wrapS32 (i : Int) = i := wrapS32_of_in (by unfold InS32; omega)
  refine ⟨?_, ?_⟩
  · intro n h hr
    unfold jsNodeAt listAt
    rw [hw, if_neg (by omega), Int.toNat_natCast, h]
    simp [Except.map, jsNumber_exact hr]
  · intro m h
    unfold jsMemberAt listAt
    rw [hw, if_neg (by omega), Int.toNat_natCast, h]
    rfl

/-- **C80.**  `length` and the indexes of `for (i in list)`. -/
theorem script_list_indexes {α : Type} (l : List α) (h : l.length ≤ 2147483648) :
    jsLength l = .num (l.length : Int) ∧ jsIndexes l = (List.range l.length).map fun (i : Nat) => .num ((i : Int) : ℚ) := by
  refine ⟨jsNumber_exact (by rw [abs_of_nonneg (by omega)]; omega), ?_⟩
  unfold jsIndexes
  apply List.map_congr_left
  intro i hi
  rw [List.mem_range] at hi
  exact jsInteger_exact (by unfold InS32; omega)

/-- **C80, disagreement.**  An index that is too large is undefined behaviour, not undefined as in
JavaScript. -/
theorem script_list_out_of_range (nodes : List WayNode) (members : List Member) (i : Nat)
    (hi : i < 4294967296) :
    (nodes.length ≤ i → nodes.length ≤ 2147483648 → jsNodeAt nodes i = .error .ub) ∧
    (members.length ≤ i → members.length ≤ 2147483648 → jsMemberAt members i = .error .ub) := by
  have key : ∀ {α : Type} (l : List α), l.length ≤ i → l.length ≤ 2147483648 → listAt l i = .error .ub := by
    intro α l h1 h2
    unfold listAt
    split
    · rfl
    · rename_i hw
      have : l[(wrapS32 (i : Int)).toNat]? = none := by
        rw [List.getElem?_eq_none_iff]
        unfold wrapS32 at *
        omega
      rw [this]
  exact ⟨fun h h2 => by unfold jsNodeAt; rw [key _ h h2]; rfl, fun h h2 => by unfold jsMemberAt; rw [key _ h h2]; rfl⟩

/-- **C80.**  The properties of a member. -/
theorem script_member (m : Member) (ht : m.type = 'n' ∨ m.type = 'w' ∨ m.type = 'r')
    (hr : |m.ref| ≤ 9007199254740992) (hl : OsmText m.role) :
    jsMemberProp m "type" = .ok (jsText (String.singleton m.type)) ∧ jsMemberProp m "ref" = .ok (.num m.ref) ∧
    jsMemberProp m "role" = .ok (jsText m.role) := by
  refine ⟨?_, by simp [jsMemberProp, jsNumber_exact hr], by simp [jsMemberProp, utf8ToV8_text _ hl, Except.map, jsText]⟩
  have : v8New (textBytes (String.singleton m.type)) = utf16 (String.singleton m.type).toList := by
    rw [textBytes_eq]
    apply v8New_utf8
    rcases ht with h | h | h <;> rw [h] <;> decide
  simp [jsMemberProp, this, jsText]

example : ∃ m : Member, (m.type = 'n' ∨ m.type = 'w' ∨ m.type = 'r') ∧ |m.ref| ≤ 9007199254740992 ∧ OsmText m.role :=
  ⟨⟨'w', -5, "äußerer"⟩, by decide, by decide, by decide, by decide⟩

/-! ### Areas -/

/-- **C80.**  `from` of an area says what it was made from. -/
theorem script_area_from (o : Obj) (polys : List (List Position × List (List Position))) :
    (∀ id, areaIdOfWay id = some o.id → jsAreaProp o polys "from" = .ok (jsText "way")) ∧
    (∀ id, id ≠ 0 → areaIdOfRelation id = some o.id → jsAreaProp o polys "from" = .ok (jsText "relation")) := by
  have e1 : v8New (textBytes "way") = utf16 "way".toList := v8New_utf8 (by decide)
  have e2 : v8New (textBytes "relation") = utf16 "relation".toList := v8New_utf8 (by decide)
  refine ⟨?_, ?_⟩
  · intro id h
    simp [jsAreaProp, (area_from_way_origin id _ h).1, e1, jsText]
  · intro id h0 h
    simp [jsAreaProp, (area_from_relation_origin_partial id _ h0 h).1, e2, jsText]

example : areaIdOfRelation (-7) = some (-15) ∧ areaIdOfWay 7 = some 14 := by decide

/-! ### Geometries -/

theorem fillArray_spec (r : Bool) (nodes : List WayNode) :
    ∀ (m k : Nat) (a : List JsVal), k + m = nodes.length → a.length = nodes.length →
      ∃ b, fillArray r nodes (nodes.length - 1) (List.range' k m) a = .ok b ∧ b.length = nodes.length ∧
        ∀ j < nodes.length, b[j]? =
          if k ≤ (if r then nodes.length - 1 - j else j) then
            (nodes.map fun n => positionToArray n.position)[if r then nodes.length - 1 - j else j]?
          else a[j]? := by
  intro m
  induction m with
  | zero =>
    intro k a hk ha
    refine ⟨a, rfl, ha, fun j hj => ?_⟩
    rw [if_neg]
    split <;> omega
  | succ m ih =>
    intro k a hk ha
    have hlt : k < nodes.length := by omega
    have hget : nodes[k]? = some nodes[k] := List.getElem?_eq_getElem hlt
    rw [List.range'_succ]
    unfold fillArray
    rw [hget]
    obtain ⟨b, h1, h2, h3⟩ := ih (k + 1)
      (a.set (if r then nodes.length - 1 - k else k) (positionToArray nodes[k].position)) (by omega) (by simp [ha])
    refine ⟨b, h1, h2, fun j hj => ?_⟩
    rw [h3 j hj, List.getElem?_set]
    cases r with
    | false =>
      simp only [Bool.false_eq_true, if_false]
      by_cases hjk : k = j
      · subst hjk
        simp [ha, hlt]
      · by_cases h4 : k ≤ j
        · rw [if_pos (by omega), if_pos h4]
        · rw [if_neg (by omega), if_neg h4, if_neg hjk]
    | true =>
      simp only [if_true]
      by_cases hjk : nodes.length - 1 - k = j
      · subst hjk
        have e : nodes.length - 1 - (nodes.length - 1 - k) = k := by omega
        simp only [e]
        rw [if_neg (by omega), if_pos trivial, if_pos (by omega), if_pos (Nat.le_refl k)]
        simp [hlt]
      · by_cases h4 : k ≤ nodes.length - 1 - j
        · rw [if_pos (by omega), if_pos h4]
        · rw [if_neg (by omega), if_neg h4, if_neg hjk]

/-- A position as a script should see it. -/
def Spec.jsLonLat (p : Position) : JsVal := .arr [.num (xy p).1, .num (xy p).2]

/-- **C80.**  The array of a line or of the ring of a polygon has the positions of the nodes in the direction
wanted. -/
theorem nodes_to_array (g : FromWay) (hne : g.nodes ≠ []) (hl : g.nodes.length < 4294967296) :
    nodesToArray g = .ok ((inDirection g.reverse g.nodes).map jsLonLat) := by
  have hpos : 0 < g.nodes.length := List.length_pos_iff.2 hne
  have hm : (wrapU32 ((g.nodes.length : Int) - 1)).toNat = g.nodes.length - 1 := by unfold wrapU32; omega
  unfold nodesToArray
  rw [hm]
  obtain ⟨b, h1, h2, h3⟩ := fillArray_spec g.reverse g.nodes g.nodes.length 0
    (List.replicate g.nodes.length .undefined) (by omega) (by simp)
  have e : g.nodes.length - 1 + 1 = g.nodes.length := by omega
  simp only [e, List.range_eq_range', h1]
  congr 1
  apply List.ext_getElem?
  intro j
  by_cases hj : j < g.nodes.length
  · rw [h3 j hj, if_pos (Nat.zero_le _)]
    unfold inDirection
    cases g.reverse with
    | false => simp [positionToArray, jsLonLat, Position.lon, Position.lat, xy, Function.comp_def]
    | true =>
      simp only [if_true]
      rw [← List.map_reverse, List.map_map, List.getElem?_map, List.getElem?_map, List.getElem?_reverse hj]
      rfl
  · rw [List.getElem?_eq_none (by omega), List.getElem?_eq_none]
    unfold inDirection
    split <;> simp <;> omega

/-- **C80.**  `way.geom.toArray()` and `way.reverse_geom.toArray()` are the positions of the nodes forwards and
backwards; `way.polygon_geom.toArray()` has one ring.  Without positions, or for the polygon if the way is not
closed, the value is undefined. -/
theorem script_way_arrays (w : Way) (hl : w.nodes.length < 4294967296) :
    (wayNodesHasPosition w.nodes = true →
      jsToArray (jsWayLine w false) = .ok (.arr ((w.nodes.map (·.position)).map jsLonLat)) ∧
      jsToArray (jsWayLine w true) = .ok (.arr ((w.nodes.map (·.position)).reverse.map jsLonLat)) ∧
      (∀ f l, w.nodes.head? = some f → w.nodes.getLast? = some l →
        (f.ref = l.ref → ∃ g, jsWayPolygon w = .ok g ∧
          jsToArray g = .ok (.arr [.arr ((w.nodes.map (·.position)).map jsLonLat)])) ∧
        (f.ref ≠ l.ref → ∃ g, jsWayPolygon w = .ok g ∧ jsToArray g = .ok .undefined))) ∧
    (wayNodesHasPosition w.nodes = false → jsToArray (jsWayLine w false) = .ok .undefined ∧
      jsToArray (jsWayLine w true) = .ok .undefined ∧ ∃ g, jsWayPolygon w = .ok g ∧ jsToArray g = .ok .undefined) := by
  refine ⟨fun h => ?_, fun h => ?_⟩
  · have hne : w.nodes ≠ [] := by
      rintro e
      rw [e] at h
      cases h
    refine ⟨?_, ?_, fun f l hf hla => ⟨fun he => ?_, fun he => ?_⟩⟩
    · simp only [jsWayLine, h, if_true, jsToArray, LineString.new]
      rw [nodes_to_array ⟨w.obj.id, w.nodes, false⟩ hne hl]
      rfl
    · simp only [jsWayLine, h, if_true, jsToArray, LineString.new]
      rw [nodes_to_array ⟨w.obj.id, w.nodes, true⟩ hne hl]
      rfl
    · refine ⟨.polygon ⟨w.obj.id, w.nodes, false⟩, ?_, ?_⟩
      · simp only [jsWayPolygon, h, if_true]
        rw [(polygon_from_way w.nodes false w.obj.id).2.1 f l hf hla he]
        simp [wayNodesIsClosed, hf, hla, he, Except.map]
      · simp only [jsToArray]
        rw [nodes_to_array ⟨w.obj.id, w.nodes, false⟩ hne hl]
        rfl
    · refine ⟨.null, ?_, rfl⟩
      have : (f.ref == l.ref) = false := by simpa using he
      simp [jsWayPolygon, h, wayNodesIsClosed, hf, hla, this]
  · refine ⟨by simp [jsWayLine, h, jsToArray], by simp [jsWayLine, h, jsToArray], .null, by simp [jsWayPolygon, h], rfl⟩

example : wayNodesHasPosition exampleTriangle = true := by decide

/-- **C80.**  What is special to the kinds of objects.  A node has a point with its longitude and latitude; a way has
its nodes and a line in both directions; a relation has its members; an area has the rings of each polygon, the outer
ring first.  All have the common properties of objects. -/
theorem script_kinds (n : Node) (w : Way) (r : Relation) (o : Obj)
    (polys : List (List Position × List (List Position))) :
    (∃ g, jsNodeProp n "geom" = .ok (.geom g) ∧ jsGeomProp g "lon" = .num (xy n.position).1 ∧
      jsGeomProp g "lat" = .num (xy n.position).2 ∧ jsToArray g = .ok (jsLonLat n.position)) ∧
    jsWayProp w "nodes" = .ok (.nodes w.nodes) ∧
    (w.nodes.length < 4294967296 → wayNodesHasPosition w.nodes = true →
      (∃ g, jsWayProp w "geom" = .ok (.geom g) ∧
        jsToArray g = .ok (.arr ((w.nodes.map (·.position)).map jsLonLat))) ∧
      ∃ g, jsWayProp w "reverse_geom" = .ok (.geom g) ∧
        jsToArray g = .ok (.arr ((w.nodes.map (·.position)).reverse.map jsLonLat))) ∧
    jsRelationProp r "members" = .ok (.members r.members) ∧
    (∃ g, jsAreaProp o polys "geom" = .ok (.geom g) ∧
      jsToArray g = .ok (.arr (polys.map fun p =>
        .arr (.arr (p.1.map jsLonLat) :: p.2.map fun i => .arr (i.map jsLonLat))))) ∧
    ∀ name ∈ ["id", "version", "timestamp", "uid", "user", "changeset", "tags", "visible"],
      jsNodeProp n name = jsObjectProp n.obj name ∧ jsWayProp w name = jsObjectProp w.obj name ∧
      jsRelationProp r name = jsObjectProp r.obj name ∧ jsAreaProp o polys name = jsObjectProp o name := by
  refine ⟨⟨.point n.position, by simp [jsNodeProp], ?_, ?_, ?_⟩, by simp [jsWayProp], ?_, by simp [jsRelationProp],
    ⟨.multi polys, by simp [jsAreaProp], ?_⟩, ?_⟩
  · simp [jsGeomProp, Position.lon, xy]
  · simp [jsGeomProp, Position.lat, xy]
  · simp [jsToArray, positionToArray, jsLonLat, Position.lon, Position.lat, xy]
  · intro hl hp
    have := (script_way_arrays w hl).1 hp
    exact ⟨⟨jsWayLine w false, by simp [jsWayProp], this.1⟩, ⟨jsWayLine w true, by simp [jsWayProp], this.2.1⟩⟩
  · have e : ∀ l : List Position, ringAsArray l = .arr (l.map jsLonLat) := fun l => rfl
    simp [jsToArray, e]
  · intro name hn
    simp only [List.mem_cons, List.not_mem_nil, or_false] at hn
    rcases hn with rfl | rfl | rfl | rfl | rfl | rfl | rfl | rfl <;>
      simp [jsNodeProp, jsWayProp, jsRelationProp, jsAreaProp]

theorem mem_intersperse_flatten {sep : List Char} {c : Char} :
    ∀ {l : List (List Char)}, c ∈ (l.intersperse sep).flatten → c ∈ sep ∨ ∃ s ∈ l, c ∈ s := by
  intro l h
  obtain ⟨s, hs, hc⟩ := List.mem_flatten.1 h
  induction l with
  | nil => simp at hs
  | cons a l ih =>
    cases l with
    | nil =>
      simp only [List.intersperse_single, List.mem_cons, List.not_mem_nil, or_false] at hs
      exact .inr ⟨a, by simp, hs ▸ hc⟩
    | cons b l =>
      rw [List.intersperse_cons₂] at hs
      rcases List.mem_cons.1 hs with rfl | hs
      · exact .inr ⟨_, by simp, hc⟩
      · rcases List.mem_cons.1 hs with rfl | hs
        · exact .inl hc
        · rcases ih (List.mem_flatten.2 ⟨s, hs, hc⟩) hs with h | ⟨t, ht, h⟩
          · exact .inl h
          · exact .inr ⟨t, List.mem_cons_of_mem _ ht, h⟩

theorem lonLatText_not_nul (p : Position) : '\x00' ∉ lonLatText p := by
  intro h
  unfold lonLatText at h
  rcases List.mem_append.1 h with h | h
  · exact absurd (fmtG10_chars _ _ h) (by decide)
  · rcases List.mem_cons.1 h with h | h
    · revert h; decide
    · exact absurd (fmtG10_chars _ _ h) (by decide)

theorem list_not_nul (ps : List Position) : '\x00' ∉ ((ps.map lonLatText).intersperse [',']).flatten := by
  intro h
  rcases mem_intersperse_flatten h with h | ⟨s, hs, h⟩
  · revert h; decide
  · obtain ⟨p, _, rfl⟩ := List.mem_map.1 hs
    exact lonLatText_not_nul p h

theorem wkt_not_nul (p : Position) (g : FromWay) (srid : Bool) :
    '\x00' ∉ pointWkt p srid ∧ '\x00' ∉ lineWkt g srid ∧ '\x00' ∉ polygonWkt g srid := by
  obtain ⟨e1, e2, e3⟩ := wkt_text p g srid
  have hs : '\x00' ∉ (if srid then "SRID=4326;".toList else []) := by cases srid <;> decide
  rw [e1, e2, e3]
  refine ⟨?_, ?_, ?_⟩
  · simp only [List.mem_append, not_or]
    exact ⟨⟨⟨hs, by decide⟩, lonLatText_not_nul p⟩, by decide⟩
  · simp only [List.mem_append, not_or]
    exact ⟨⟨⟨hs, by decide⟩, list_not_nul _⟩, by decide⟩
  · simp only [List.mem_append, not_or]
    exact ⟨⟨⟨hs, by decide⟩, list_not_nul _⟩, by decide⟩

/-- **C80.**  `toWKT()` gives the script a text that describes the geometry. -/
theorem script_wkt (p : Position) (hp : p.WF) (g : FromWay) (hg : NodesWF g.nodes) (hne : g.nodes ≠ []) (srid : Bool) :
    (∃ cs, jsToWkt srid (.point p) = some (.str (utf16 cs)) ∧ wktDecode cs = some (srid, .point (degrees p))) ∧
    (∃ cs, jsToWkt srid (.line g) = some (.str (utf16 cs)) ∧
      wktDecode cs = some (srid, .line ((inDirection g.reverse g.nodes).map degrees))) ∧
    (∃ cs, jsToWkt srid (.polygon g) = some (.str (utf16 cs)) ∧
      wktDecode cs = some (srid, .polygon [(inDirection false g.nodes).map degrees])) := by
  obtain ⟨n1, n2, n3⟩ := wkt_not_nul p g srid
  refine ⟨⟨_, ?_, point_wkt_decodes p hp srid⟩, ⟨_, ?_, line_wkt_decodes g hg hne srid⟩,
    ⟨_, ?_, polygon_wkt_decodes g hg hne srid⟩⟩
  · simp only [jsToWkt]; exact congrArg (fun x => some (JsVal.str x)) (v8New_utf8 n1)
  · simp only [jsToWkt]; exact congrArg (fun x => some (JsVal.str x)) (v8New_utf8 n2)
  · simp only [jsToWkt]; exact congrArg (fun x => some (JsVal.str x)) (v8New_utf8 n3)

theorem hexDump_not_nul (b : List UInt8) : '\x00' ∉ hexDump b := by
  intro h
  unfold hexDump at h
  obtain ⟨x, _, hx⟩ := List.mem_flatMap.1 h
  have key : ∀ n < 16, hexDigit n ≠ '\x00' := by decide
  have := x.toNat_lt
  simp only [List.mem_cons, List.not_mem_nil, or_false] at hx
  rcases hx with hx | hx
  · exact key (x.toNat / 16) (by omega) hx.symm
  · exact key (x.toNat % 16) (by omega) hx.symm

/-- **C80.**  `toHexWKB()` gives the script the hex dump of bytes that describe the geometry. -/
theorem script_hexwkb (p : Position) (hp : p.WF) (g : FromWay) (hg : NodesWF g.nodes)
    (hl : g.nodes.length < 4294967296) (srid : Bool) :
    (∃ b, jsToHexWkb srid (.point p) = some (.str (utf16 (hexDump b))) ∧
      wkbDecode b = some (if srid then some 4326 else none, .point (xy p))) ∧
    (∃ b, jsToHexWkb srid (.line g) = some (.str (utf16 (hexDump b))) ∧
      wkbDecode b = some (if srid then some 4326 else none, .line ((inDirection g.reverse g.nodes).map xy))) ∧
    (∃ b, jsToHexWkb srid (.polygon g) = some (.str (utf16 (hexDump b))) ∧
      wkbDecode b = some (if srid then some 4326 else none, .polygon [(inDirection false g.nodes).map xy])) := by
  obtain ⟨e1, e2, e3⟩ := hex_wkb_is_dump p g srid
  refine ⟨⟨pointWkb p srid, ?_, point_wkb_decodes p hp srid⟩, ⟨lineWkb g srid, ?_, line_wkb_decodes g hg hl srid⟩,
    ⟨polygonWkb g srid, ?_, polygon_wkb_decodes g hg hl srid⟩⟩
  · simp only [jsToHexWkb, e1]; exact congrArg (fun x => some (JsVal.str x)) (v8New_utf8 (hexDump_not_nul _))
  · simp only [jsToHexWkb, e2]; exact congrArg (fun x => some (JsVal.str x)) (v8New_utf8 (hexDump_not_nul _))
  · simp only [jsToHexWkb, e3]; exact congrArg (fun x => some (JsVal.str x)) (v8New_utf8 (hexDump_not_nul _))

/-- **C80, disagreement.**  `toWKB()` always returns two characters, whatever the geometry: the text ends at
the first zero byte. -/
theorem script_wkb_useless (p : Position) (g : FromWay) :
    jsToWkb false (.point p) = some (.str [1, 1]) ∧ jsToWkb false (.line g) = some (.str [1, 2]) ∧
    jsToWkb false (.polygon g) = some (.str [1, 3]) ∧ jsToWkb true (.point p) = some (.str [1, 1]) ∧
    jsToWkb true (.line g) = some (.str [1, 2]) ∧ jsToWkb true (.polygon g) = some (.str [1, 3]) := by
  have key : ∀ (k : Char) (u : UInt8) (rest : List UInt8), k ≠ '\x00' → utf8 ['\x01', k] = [1, u] →
      v8New (1 :: u :: 0 :: rest) = utf16 ['\x01', k] := by
    intro k u rest h0 h
    have hn : '\x00' ∉ ['\x01', k] := by
      intro hm
      rcases List.mem_cons.1 hm with h | h
      · revert h; decide
      · exact h0 (List.mem_singleton.1 h).symm
    have e := cString_eq (utf8 ['\x01', k]) (0 :: rest) (utf8_nonzero _ hn) (.inr rfl)
    rw [h] at e
    unfold v8New
    have e2 : cString (1 :: u :: 0 :: rest) = utf8 ['\x01', k] := by rw [h]; exact e
    rw [e2, (decodeUtf8_iff _ _).2 rfl]
    rfl
  have k1 := fun rest => key '\x01' 1 rest (by decide) (by decide)
  have k2 := fun rest => key '\x02' 2 rest (by decide) (by decide)
  have k3 := fun rest => key '\x03' 3 rest (by decide) (by decide)
  have u1 : utf16 ['\x01', '\x01'] = [1, 1] := by decide
  have u2 : utf16 ['\x01', '\x02'] = [1, 2] := by decide
  have u3 : utf16 ['\x01', '\x03'] = [1, 3] := by decide
  rw [u1] at k1; rw [u2] at k2; rw [u3] at k3
  have h1 : writeBinaryWkbHeader false wkbPoint = [1, 1, 0, 0, 0] := by decide +kernel
  have h2 : writeBinaryWkbHeader false wkbLineString = [1, 2, 0, 0, 0] := by decide +kernel
  have h3 : writeBinaryWkbHeader false wkbPolygon = [1, 3, 0, 0, 0] := by decide +kernel
  have h4 : writeBinaryWkbHeader true wkbPoint = [1, 1, 0, 0, 32, 230, 16, 0, 0] := by decide +kernel
  have h5 : writeBinaryWkbHeader true wkbLineString = [1, 2, 0, 0, 32, 230, 16, 0, 0] := by decide +kernel
  have h6 : writeBinaryWkbHeader true wkbPolygon = [1, 3, 0, 0, 32, 230, 16, 0, 0] := by decide +kernel
  simp only [jsToWkb, pointWkb, lineWkb, polygonWkb, h1, h2, h3, h4, h5, h6, List.cons_append, k1, k2, k3, and_self]

example : ∃ g : FromWay, NodesWF g.nodes ∧ g.nodes ≠ [] ∧ g.nodes.length < 4294967296 :=
  ⟨⟨7, exampleTriangle, true⟩, exampleTriangle_wf, by decide, by decide⟩

end Osmium

import Verif.Osm.Model
import Mathlib.Data.List.Perm.Basic
import Mathlib.Data.List.Nodup

/-
C48: comparing and merging tags in the multipolygon builder.
-/
namespace Osmium

/-- multipolygon/builder.hpp 202-208 `ignore_tag`. -/
def ignoreTag (key : String) : Bool :=
  key == "type" || key == "created_by" || key == "source" || key == "note"

/-- `std::map<std::string, std::string>`: an association list with at most one entry for each
key. (multipolygon/builder.hpp 219 and 265) -/
abbrev StrMap := List (String × String)

/-- `find`. (multipolygon/builder.hpp 219-290) -/
def StrMap.get (m : StrMap) (k : String) : Option String := List.lookup k m
/-- `erase`. (multipolygon/builder.hpp 219-290) -/
def StrMap.erase (m : StrMap) (k : String) : StrMap := List.filter (fun e => e.1 != k) m
/-- `m[k] = v`. (multipolygon/builder.hpp 219-290) -/
def StrMap.put (m : StrMap) (k v : String) : StrMap := (k, v) :: m.erase k

/-- multipolygon/builder.hpp 219-225 and 265-271: the map of the tags not ignored. -/
def tagMap (tags : TagList) : StrMap :=
  tags.foldl (fun m t => if !ignoreTag t.key then m.put t.key t.value else m) []

/-- multipolygon/builder.hpp 227-232: the second loop of `same_tags`; `none` when it returns false.
Reading a key that is not in the map gives (and inserts) an empty string. -/
def sameTagsLoop : TagList → StrMap → Option StrMap
  | [], m => some m
  | t :: ts, m =>
    if !ignoreTag t.key then
      if (m.get t.key).getD "" ≠ t.value then none
      else sameTagsLoop ts (m.erase t.key)
    else sameTagsLoop ts m

/-- multipolygon/builder.hpp 216-237 `same_tags` (the null pointer checks are not modelled: both
objects exist whenever it is called). -/
def sameTags (a b : TagList) : Bool :=
  match sameTagsLoop b (tagMap a) with
  | none => false
  | some m => List.isEmpty m

/-- multipolygon/builder.hpp 245-255 `untagged`. -/
def untagged : TagList → Bool
  | [] => true
  | t :: ts => if !ignoreTag t.key then false else untagged ts

/-- multipolygon/builder.hpp 273-282: the second loop of `merge_tags`: the tags of the area, the
map and the return value so far. -/
def mergeTagsLoop : TagList → TagList → StrMap → Bool → TagList × Bool
  | [], area, _, rv => (area, rv)
  | t :: ts, area, m, rv =>
    if ignoreTag t.key then mergeTagsLoop ts area m rv
    else
      match m.get t.key with
      | some v => mergeTagsLoop ts area m (if v ≠ t.value then false else rv)
      | none => mergeTagsLoop ts (area.add t.key t.value) (m.put t.key t.value) rv

/-- multipolygon/builder.hpp 262-285 `merge_tags`: the new tags of the area and the result. -/
def mergeTags (area way : TagList) : TagList × Bool :=
  mergeTagsLoop way area (tagMap area) true

namespace Spec

/-- The keys that do not count. (specification, no counterpart in /repo) -/
def ignoredKeys : List String := ["type", "created_by", "source", "note"]

/-- The tags that count. (specification, no counterpart in /repo) -/
def realTags (tags : TagList) : TagList := List.filter (fun t => t.key ∉ ignoredKeys) tags

/-- No key occurs twice. (specification, no counterpart in /repo) -/
def UniqueKeys (tags : TagList) : Prop := (tags.map Tag.key).Nodup

/-- The first tag of each key. (specification, no counterpart in /repo) -/
def firstOfEach : TagList → TagList
  | [] => []
  | t :: ts => t :: (firstOfEach ts).filter (fun u => u.key ≠ t.key)

end Spec

open Spec

theorem ignoreTag_iff (k : String) : ignoreTag k = true ↔ k ∈ ignoredKeys := by
  simp [ignoreTag, ignoredKeys, or_assoc]

theorem ignoreTag_false (k : String) : ignoreTag k = false ↔ k ∉ ignoredKeys := by
  rw [← ignoreTag_iff]; simp

theorem realTags_cons (t : Tag) (ts : TagList) :
    realTags (t :: ts) = if ignoreTag t.key then realTags ts else t :: realTags ts := by
  unfold realTags
  cases h : ignoreTag t.key
  · rw [List.filter_cons_of_pos (by simpa using (ignoreTag_false _).1 h)]; simp
  · rw [List.filter_cons_of_neg (by simpa using (ignoreTag_iff _).1 h)]; simp

/-! maps -/

theorem lookup_filter_ne (m : StrMap) (k k' : String) :
    (m.erase k).get k' = if k' = k then none else m.get k' := by
  unfold StrMap.erase StrMap.get
  induction m with
  | nil => simp
  | cons e m ih =>
    obtain ⟨a, b⟩ := e
    by_cases h : a = k
    · subst h
      rw [List.filter_cons_of_neg (by simp), ih]
      by_cases h' : k' = a
      · simp [h']
      · have : (k' == a) = false := by simpa using h'
        rw [List.lookup_cons, this]
    · rw [List.filter_cons_of_pos (by simpa using h), List.lookup_cons, List.lookup_cons, ih]
      by_cases h' : k' = a
      · subst h'; simp [h]
      · have : (k' == a) = false := by simpa using h'
        rw [this]

theorem get_put (m : StrMap) (k v k' : String) :
    (m.put k v).get k' = if k' = k then some v else m.get k' := by
  unfold StrMap.put
  show List.lookup k' ((k, v) :: m.erase k) = _
  rw [List.lookup_cons]
  by_cases h : k' = k
  · simp [h]
  · have : (k' == k) = false := by simpa using h
    rw [this]
    have := lookup_filter_ne m k k'
    rw [if_neg h] at this ⊢
    exact this

theorem empty_iff (m : StrMap) : List.isEmpty m = true ↔ ∀ k, m.get k = none := by
  constructor
  · intro h k
    have : m = [] := by simpa using h
    subst this; rfl
  · intro h
    cases m with
    | nil => rfl
    | cons e m =>
      have := h e.1
      simp [StrMap.get, List.lookup_cons] at this

/-- The value of a key in a tag list: that of the last tag with the key. -/
theorem tagMap_get (tags : TagList) (k : String) :
    (tagMap tags).get k = ((realTags tags).reverse.find? (fun t => t.key = k)).map Tag.value := by
  unfold tagMap
  have gen : ∀ (tags : TagList) (m : StrMap),
      (tags.foldl (fun m t => if !ignoreTag t.key then m.put t.key t.value else m) m).get k =
        (((realTags tags).reverse.find? (fun t => t.key = k)).map Tag.value).or (m.get k) := by
    intro tags
    induction tags with
    | nil => intro m; simp [realTags]
    | cons t ts ih =>
      intro m
      rw [List.foldl_cons, ih, realTags_cons]
      cases h : ignoreTag t.key
      · simp only [Bool.not_false, if_true, Bool.false_eq_true, if_false, get_put, List.reverse_cons,
          List.find?_append, List.find?_cons, List.find?_nil]
        by_cases hk : k = t.key
        · subst hk
          simp
        · have : ¬ t.key = k := fun e => hk e.symm
          simp [hk, this]
      · simp
  rw [gen]
  simp [StrMap.get]

theorem tagMap_unique {tags : TagList} (hu : UniqueKeys (realTags tags)) (k v : String) :
    (tagMap tags).get k = some v ↔ ∃ t ∈ realTags tags, t.key = k ∧ t.value = v := by
  rw [tagMap_get]
  constructor
  · intro h
    simp only [Option.map_eq_some_iff] at h
    obtain ⟨t, h1, h2⟩ := h
    have h3 := List.find?_some h1
    have h4 := List.mem_of_find?_eq_some h1
    exact ⟨t, by simpa using h4, by simpa using h3, h2⟩
  · rintro ⟨t, hm, hk, hv⟩
    cases hf : (realTags tags).reverse.find? (fun t => t.key = k) with
    | none =>
      have := List.find?_eq_none.1 hf t (by simpa using hm)
      simp [hk] at this
    | some u =>
      have h3 := List.find?_some hf
      have h4 := List.mem_of_find?_eq_some hf
      have : u = t := by
        have hinj := List.inj_on_of_nodup_map hu
        exact hinj (by simpa using h4) hm (by simp at h3; rw [h3, hk])
      rw [this]; simp [hv]

theorem tagMap_none (tags : TagList) (k : String) :
    (tagMap tags).get k = none ↔ ∀ t ∈ realTags tags, t.key ≠ k := by
  rw [tagMap_get]
  simp

/-- The second loop of `same_tags`. -/
theorem sameTagsLoop_iff (b : TagList) (m : StrMap) (hu : UniqueKeys (realTags b))
    (hv : ∀ t ∈ realTags b, t.value ≠ "") :
    (∃ m', sameTagsLoop b m = some m' ∧ List.isEmpty m' = true) ↔
      (∀ t ∈ realTags b, m.get t.key = some t.value) ∧
      ∀ k, m.get k ≠ none → ∃ t ∈ realTags b, t.key = k := by
  induction b generalizing m with
  | nil =>
    simp only [sameTagsLoop, Option.some.injEq, exists_eq_left', realTags, List.filter_nil,
      List.not_mem_nil, false_implies, implies_true, true_and, false_and, exists_false]
    rw [empty_iff]
    simp only [ne_eq, imp_false, not_not]
  | cons t ts ih =>
    unfold sameTagsLoop
    rw [realTags_cons] at hu hv ⊢
    cases h : ignoreTag t.key
    · simp only [h, Bool.false_eq_true, if_false] at hu hv ⊢
      simp only [Bool.not_false, if_true]
      have hu' := List.nodup_cons.1 hu
      have hne : t.value ≠ "" := hv t (by simp)
      by_cases hm : (m.get t.key).getD "" ≠ t.value
      · rw [if_pos hm]
        simp only [reduceCtorEq, false_and, exists_false, false_iff]
        rintro ⟨h1, -⟩
        apply hm
        rw [h1 t (by simp)]; rfl
      · rw [if_neg hm]
        have hget : m.get t.key = some t.value := by
          simp only [ne_eq, not_not] at hm
          cases hg : m.get t.key with
          | none => rw [hg] at hm; exact absurd hm.symm hne
          | some v => rw [hg] at hm; simpa using hm
        rw [ih (m.erase t.key) hu'.2 (fun u hu => hv u (by simp [hu]))]
        have hkey : ∀ u ∈ realTags ts, u.key ≠ t.key := by
          intro u hm e
          exact hu'.1 (List.mem_map.2 ⟨u, hm, e⟩)
        constructor
        · rintro ⟨q1, q2⟩
          refine ⟨?_, ?_⟩
          · intro u hm'
            simp only [List.mem_cons] at hm'
            rcases hm' with rfl | hm'
            · exact hget
            · have := q1 u hm'
              rw [lookup_filter_ne, if_neg (hkey u hm')] at this
              exact this
          · intro k hk
            by_cases e : k = t.key
            · exact ⟨t, by simp, e.symm⟩
            · obtain ⟨u, hu1, hu2⟩ := q2 k (by rw [lookup_filter_ne, if_neg e]; exact hk)
              exact ⟨u, by simp [hu1], hu2⟩
        · rintro ⟨q1, q2⟩
          refine ⟨?_, ?_⟩
          · intro u hm'
            rw [lookup_filter_ne, if_neg (hkey u hm')]
            exact q1 u (by simp [hm'])
          · intro k hk
            rw [lookup_filter_ne] at hk
            by_cases e : k = t.key
            · simp [e] at hk
            · rw [if_neg e] at hk
              obtain ⟨u, hu1, hu2⟩ := q2 k hk
              simp only [List.mem_cons] at hu1
              rcases hu1 with rfl | hu1
              · exact absurd hu2.symm e
              · exact ⟨u, hu1, hu2⟩
    · simp only [h, if_true] at hu hv ⊢
      simp only [Bool.not_true, Bool.false_eq_true, if_false]
      exact ih m hu hv

/-- C48, comparison (partial: no key twice in either list and no empty value in the second one):
two tag lists count as the same iff they have the same tags besides the ignored ones, in any order. -/
theorem same_tags_iff_partial (a b : TagList) (ha : UniqueKeys (realTags a)) (hb : UniqueKeys (realTags b))
    (hv : ∀ t ∈ realTags b, t.value ≠ "") :
    sameTags a b = true ↔ (realTags a).Perm (realTags b) := by
  have h1 : sameTags a b = true ↔
      ∃ m', sameTagsLoop b (tagMap a) = some m' ∧ List.isEmpty m' = true := by
    unfold sameTags
    cases sameTagsLoop b (tagMap a) <;> simp
  rw [h1, sameTagsLoop_iff b _ hb hv]
  have nodup : ∀ l : TagList, UniqueKeys l → l.Nodup := fun l h => List.Nodup.of_map _ h
  rw [List.perm_ext_iff_of_nodup (nodup _ ha) (nodup _ hb)]
  constructor
  · rintro ⟨q1, q2⟩ t
    constructor
    · intro ht
      obtain ⟨u, hu1, hu2⟩ := q2 t.key (by
        rw [(tagMap_unique ha t.key t.value).2 ⟨t, ht, rfl, rfl⟩]; simp)
      have := q1 u hu1
      rw [hu2, (tagMap_unique ha t.key t.value).2 ⟨t, ht, rfl, rfl⟩] at this
      have e : u = t := by
        cases u; cases t; simp at hu2 this ⊢; exact ⟨hu2, this.symm⟩
      rw [← e]; exact hu1
    · intro ht
      obtain ⟨u, hu1, hu2, hu3⟩ := (tagMap_unique ha _ _).1 (q1 t ht)
      have e : u = t := by
        cases u; cases t; simp at hu2 hu3 ⊢; exact ⟨hu2, hu3⟩
      rw [← e]; exact hu1
  · intro hm
    refine ⟨fun t ht => (tagMap_unique ha _ _).2 ⟨t, (hm t).2 ht, rfl, rfl⟩, fun k hk => ?_⟩
    cases hg : (tagMap a).get k with
    | none => exact absurd hg hk
    | some v =>
      obtain ⟨t, h1, h2, -⟩ := (tagMap_unique ha k v).1 hg
      exact ⟨t, (hm t).1 h1, h2⟩

/-- The hypotheses can be met, with both results. -/
example :
    let a : TagList := [⟨"building", "yes"⟩, ⟨"type", "multipolygon"⟩, ⟨"name", "x"⟩]
    let b : TagList := [⟨"name", "x"⟩, ⟨"source", "y"⟩, ⟨"building", "yes"⟩]
    let c : TagList := [⟨"name", "x"⟩]
    UniqueKeys (realTags a) ∧ UniqueKeys (realTags b) ∧ (∀ t ∈ realTags b, t.value ≠ "") ∧
    sameTags a b = true ∧ sameTags a c = false := by
  simp only [UniqueKeys]; decide +kernel

/-- C48 fails for empty values: a tag with an empty value counts as the same as no tag. -/
theorem same_tags_empty_value :
    sameTags [] [⟨"name", ""⟩] = true ∧ sameTags [⟨"name", ""⟩] [] = false := by decide +kernel

/-- C48 fails for repeated keys: a list with the same tag twice differs from itself, and of
different values for a key in the first list only the last one counts. -/
theorem same_tags_repeated_key :
    sameTags [⟨"name", "x"⟩, ⟨"name", "x"⟩] [⟨"name", "x"⟩, ⟨"name", "x"⟩] = false ∧
    sameTags [⟨"name", "y"⟩, ⟨"name", "x"⟩] [⟨"name", "x"⟩] = true := by decide +kernel

/-- C48: untagged iff all keys are ignored ones. -/
theorem untagged_iff (tags : TagList) : untagged tags = true ↔ ∀ t ∈ tags, t.key ∈ ignoredKeys := by
  induction tags with
  | nil => simp [untagged]
  | cons t ts ih =>
    unfold untagged
    cases h : ignoreTag t.key
    · have := (ignoreTag_false _).1 h
      simp [this]
    · have := (ignoreTag_iff _).1 h
      simp [this, ih]

example : untagged [⟨"type", "multipolygon"⟩] = true ∧ untagged [⟨"type", "x"⟩, ⟨"name", "y"⟩] = false := by
  decide +kernel

theorem firstOfEach_filter (l : TagList) (p : String → Bool) :
    (firstOfEach l).filter (fun t => p t.key) = firstOfEach (l.filter fun t => p t.key) := by
  induction l with
  | nil => rfl
  | cons t ts ih =>
    have e : firstOfEach (t :: ts) = t :: (firstOfEach ts).filter (fun u => u.key ≠ t.key) := rfl
    rw [e]
    cases h : p t.key
    · rw [List.filter_cons_of_neg (by simp [h]), List.filter_cons_of_neg (by simp [h]),
        List.filter_filter, ← ih]
      apply List.filter_congr
      intro u _
      by_cases e : u.key = t.key
      · simp [e, h]
      · simp [e]
    · rw [List.filter_cons_of_pos (by simp [h]), List.filter_cons_of_pos (by simp [h])]
      have e : firstOfEach (t :: ts.filter fun t => p t.key) =
        t :: (firstOfEach (ts.filter fun t => p t.key)).filter (fun u => u.key ≠ t.key) := rfl
      rw [e, ← ih, List.filter_filter, List.filter_filter]
      congr 1
      apply List.filter_congr
      intro u _
      rw [Bool.and_comm]

theorem mergeTagsLoop_spec (way : TagList) :
    ∀ (area : TagList) (m : StrMap) (rv : Bool),
      (mergeTagsLoop way area m rv).1 =
        area ++ firstOfEach ((realTags way).filter fun t => (m.get t.key).isNone) := by
  induction way with
  | nil => intro area m rv; simp [mergeTagsLoop, realTags, firstOfEach]
  | cons t ts ih =>
    intro area m rv
    unfold mergeTagsLoop
    rw [realTags_cons]
    cases h : ignoreTag t.key
    · simp only [Bool.false_eq_true, if_false]
      cases hg : m.get t.key with
      | some v =>
        simp only
        rw [ih, List.filter_cons_of_neg (by simp [hg])]
      | none =>
        simp only
        rw [ih, List.filter_cons_of_pos (by simp [hg])]
        simp only [firstOfEach, TagList.add, List.append_eq, List.append_assoc, List.singleton_append]
        have e0 := firstOfEach_filter ((realTags ts).filter fun t => (m.get t.key).isNone)
          (fun k => decide (k ≠ t.key))
        rw [e0, List.filter_filter]
        have e : (fun u : Tag => (decide (u.key ≠ t.key) && (m.get u.key).isNone)) =
            fun u => (StrMap.get (m.put t.key t.value) u.key).isNone := by
          funext u
          rw [get_put]
          by_cases hk : u.key = t.key <;> simp [hk]
        rw [e]
    · simp only [if_true]
      exact ih area m rv

/-- C48, merging: the old tags stay as they are, in front; added are exactly those tags of the way
that are not ignored and whose key no (not ignored) tag of the area has, in order, and of several
with the same key the first. -/
theorem merge_tags_exact (area way : TagList) :
    (mergeTags area way).1 = area ++ firstOfEach ((realTags way).filter fun t =>
      decide (∀ u ∈ area, u.key ≠ t.key)) := by
  unfold mergeTags
  rw [mergeTagsLoop_spec]
  congr 2
  apply List.filter_congr
  intro t ht
  have hni : t.key ∉ ignoredKeys := by
    unfold realTags at ht; simpa using (List.mem_filter.1 ht).2
  rw [Bool.eq_iff_iff]
  simp only [Option.isNone_iff_eq_none, decide_eq_true_eq, tagMap_none]
  constructor
  · intro h u hu e
    apply h u _ e
    unfold realTags
    rw [List.mem_filter]
    exact ⟨hu, by simpa [e] using hni⟩
  · intro h u hu
    exact h u (List.mem_of_mem_filter hu)

/-- A conflict: the map has another value for a key, or an earlier tag of the way with the key and
another value has been added. -/
theorem mergeTagsLoop_rv (way : TagList) :
    ∀ (area : TagList) (m : StrMap) (rv : Bool), (mergeTagsLoop way area m rv).2 = true ↔
      rv = true ∧ (∀ t ∈ realTags way, ∀ v, m.get t.key = some v → t.value = v) ∧
      ∀ t ∈ realTags way, ∀ u ∈ realTags way, t.key = u.key → m.get t.key = none → t.value = u.value := by
  induction way with
  | nil => intro area m rv; simp [mergeTagsLoop, realTags]
  | cons t ts ih =>
    intro area m rv
    unfold mergeTagsLoop
    rw [realTags_cons]
    cases h : ignoreTag t.key
    · simp only [Bool.false_eq_true, if_false]
      cases hg : m.get t.key with
      | some v =>
        simp only
        rw [ih]
        simp only [List.mem_cons, forall_eq_or_imp]
        constructor
        · rintro ⟨q1, q2, q3⟩
          have hv : v = t.value := by
            by_contra hne; rw [if_pos hne] at q1; simp at q1
          rw [if_neg (by simp [hv])] at q1
          refine ⟨q1, ⟨?_, q2⟩, ⟨?_, ?_⟩, ?_⟩
          · intro v' hv'; rw [hg] at hv'; cases hv'; exact hv.symm
          · intros; trivial
          · intro u hu e hn; rw [hg] at hn; simp at hn
          · intro u hu
            refine ⟨?_, q3 u hu⟩
            intro e hn; rw [e, hg] at hn; simp at hn
        · rintro ⟨q1, ⟨q2, q3⟩, ⟨-, q4⟩, q5⟩
          have hv := q2 v hg
          refine ⟨by rw [if_neg (by simp [hv])]; exact q1, q3, fun u hu => (q5 u hu).2⟩
      | none =>
        simp only
        rw [ih]
        simp only [List.mem_cons, forall_eq_or_imp]
        constructor
        · rintro ⟨q1, q2, q3⟩
          have q2' : ∀ u ∈ realTags ts, u.key = t.key → u.value = t.value := by
            intro u hu e
            exact q2 u hu t.value (by rw [get_put, if_pos e])
          refine ⟨q1, ⟨?_, ?_⟩, ⟨?_, ?_⟩, ?_⟩
          · intro v hv; rw [hg] at hv; simp at hv
          · intro u hu v hv
            by_cases e : u.key = t.key
            · rw [e, hg] at hv; simp at hv
            · exact q2 u hu v (by rw [get_put, if_neg e]; exact hv)
          · intros; trivial
          · intro u hu e _; exact (q2' u hu e.symm).symm
          · intro u hu
            refine ⟨fun e _ => q2' u hu e, ?_⟩
            intro w hw e hn
            by_cases ek : u.key = t.key
            · rw [q2' u hu ek, q2' w hw (by rw [← e]; exact ek)]
            · exact q3 u hu w hw e (by rw [get_put, if_neg ek]; exact hn)
        · rintro ⟨q1, ⟨q2, q3⟩, ⟨-, q4⟩, q5⟩
          refine ⟨q1, ?_, ?_⟩
          · intro u hu v hv
            rw [get_put] at hv
            by_cases e : u.key = t.key
            · rw [if_pos e] at hv; cases hv
              exact (q4 u hu e.symm hg).symm
            · rw [if_neg e] at hv; exact q3 u hu v hv
          · intro u hu w hw e hn
            rw [get_put] at hn
            by_cases ek : u.key = t.key
            · rw [if_pos ek] at hn; simp at hn
            · rw [if_neg ek] at hn; exact (q5 u hu).2 w hw e hn
    · simp only [if_true]
      exact ih area m rv

/-- C48, conflicts (partial: no key twice in the tags that count): merging reports success iff
each key of the way that the area has too has the same value in both. -/
theorem merge_tags_conflict_partial (area way : TagList) (ha : UniqueKeys (realTags area))
    (hw : UniqueKeys (realTags way)) :
    (mergeTags area way).2 = false ↔
      ∃ t ∈ realTags way, ∃ u ∈ realTags area, u.key = t.key ∧ u.value ≠ t.value := by
  rw [← Bool.not_eq_true]
  unfold mergeTags
  rw [mergeTagsLoop_rv]
  have e2 : (∀ t ∈ realTags way, ∀ u ∈ realTags way, t.key = u.key → (tagMap area).get t.key = none →
      t.value = u.value) := by
    intro t ht u hu e _
    have := List.inj_on_of_nodup_map hw ht hu e
    rw [this]
  simp only [true_and]
  constructor
  · intro h
    by_contra hne
    apply h
    refine ⟨?_, e2⟩
    intro t ht v hv
    obtain ⟨u, hu, h1, h2⟩ := (tagMap_unique ha _ _).1 hv
    by_contra hn
    exact hne ⟨t, ht, u, hu, h1, by rw [h2]; exact fun e => hn e.symm⟩
  · rintro ⟨t, ht, u, hu, h1, h2⟩ ⟨h, -⟩
    exact h2 (h t ht u.value ((tagMap_unique ha _ _).2 ⟨u, hu, h1, rfl⟩)).symm

/-- All cases together: an ignored tag, one already there, a conflict and a new tag. -/
example :
    let area : TagList := [⟨"type", "multipolygon"⟩, ⟨"building", "yes"⟩, ⟨"name", "x"⟩]
    let way : TagList := [⟨"source", "z"⟩, ⟨"building", "yes"⟩, ⟨"name", "y"⟩, ⟨"height", "3"⟩]
    UniqueKeys (realTags area) ∧ UniqueKeys (realTags way) ∧
    mergeTags area way = (area ++ [⟨"height", "3"⟩], false) := by
  simp only [UniqueKeys]; decide +kernel

end Osmium

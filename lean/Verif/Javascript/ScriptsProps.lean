import Verif.Javascript.Scripts
import Verif.Javascript.Osm2shapeRun
import Verif.Time.Lemmas

/-
C111: what the example scripts count and list.
-/
namespace Osmium
open Spec Text

namespace Spec

/-- The number of nodes that have a tag with the key. -/
def nodesWithKey (nodes : List TagList) (key : String) : Nat := (nodes.filter fun n => n.any fun t => t.key = key).length

/-- The number of nodes that have the tag. -/
def nodesWithTag (nodes : List TagList) (tag : Tag) : Nat :=
  (nodes.filter fun n => n.any fun t => t.key = tag.key ∧ t.value = tag.value).length

/-- The names every object of a script has. -/
def ObjectName (key : String) : Prop := key = "__proto__" ∨ key ∈ inheritedNames

/-- The value of a tag in a list of tags as it is printed: the word `undefined` if there is none. -/
def printedValue (tags : TagList) (key : String) : List Char := ((firstValue tags key).getD "undefined").toList

end Spec

/-! ### Lists without repetitions -/

theorem eraseDups_snoc {α : Type} [BEq α] [LawfulBEq α] (l : List α) (x : α) :
    (l ++ [x]).eraseDups = l.eraseDups ++ (if x ∈ l then [] else [x]) := by
  rw [List.eraseDups_append]
  congr 1
  by_cases h : x ∈ l
  · simp [List.removeAll, h]
  · rw [if_neg h]
    simp [List.removeAll, h, List.eraseDups_cons]

theorem nodup_eraseDups {α : Type} [BEq α] [LawfulBEq α] (l : List α) : l.eraseDups.Nodup := by
  induction l using List.reverseRecOn with
  | nil => simp
  | append_singleton l x ih =>
    rw [eraseDups_snoc]
    by_cases h : x ∈ l
    · rw [if_pos h, List.append_nil]; exact ih
    · rw [if_neg h, List.nodup_append]
      refine ⟨ih, List.nodup_singleton x, fun a ha b hb => ?_⟩
      rw [List.mem_singleton.1 hb]
      exact fun e => h (e ▸ List.mem_eraseDups.1 ha)

theorem eraseDups_map {α β : Type} [BEq α] [LawfulBEq α] [BEq β] [LawfulBEq β] (f : α → β) (l : List α)
    (hf : ∀ a ∈ l, ∀ b ∈ l, f a = f b → a = b) : (l.map f).eraseDups = l.eraseDups.map f := by
  induction l using List.reverseRecOn with
  | nil => rfl
  | append_singleton l x ih =>
    rw [List.map_append, List.map_singleton, eraseDups_snoc, eraseDups_snoc, List.map_append,
      ih fun a ha b hb => hf a (by simp [ha]) b (by simp [hb])]
    congr 1
    by_cases h : x ∈ l
    · rw [if_pos h, if_pos (List.mem_map_of_mem h), List.map_nil]
    · rw [if_neg h, if_neg, List.map_singleton]
      intro hm
      obtain ⟨a, ha, e⟩ := List.mem_map.1 hm
      exact h (hf a (by simp [ha]) x (by simp) e ▸ ha)

/-! ### Counting -/

/-- What the script has for a name that occurred `n` times. -/
def countOf (k : JsString) (n : Nat) : JsCount :=
  if k ∈ inheritedUnits then (if n = 1 then .nan else .num (n - 1)) else .num n

theorem countUp_cons (j : JsString) (c : JsCount) (l : List (JsString × JsCount)) (k : JsString) :
    countUp ((j, c) :: l) k = if j = k then (j, c.next) :: l else (j, c) :: countUp l k := rfl

theorem countUp_map (L : List JsString) (g : JsString → JsCount) (hL : L.Nodup) (k : JsString) :
    countUp (L.map fun j => (j, g j)) k =
      if k ∈ L then L.map fun j => (j, if j = k then (g k).next else g j)
      else L.map (fun j => (j, g j)) ++ countUp [] k := by
  induction L with
  | nil => simp
  | cons j L ih =>
    rw [List.nodup_cons] at hL
    rw [List.map_cons, countUp_cons]
    by_cases h : j = k
    · subst h
      rw [if_pos rfl, if_pos List.mem_cons_self, List.map_cons, if_pos rfl]
      congr 1
      apply List.map_congr_left
      intro i hi
      have : i ≠ j := fun e => hL.1 (e ▸ hi)
      rw [if_neg this]
    · rw [if_neg h, ih hL.2]
      by_cases hk : k ∈ L
      · rw [if_pos hk, if_pos (List.mem_cons_of_mem _ hk), List.map_cons, if_neg h]
      · rw [if_neg hk, if_neg (by simp [hk, Ne.symm h])]
        rfl

/-- The counters after some names. -/
theorem countUp_names (ks : List JsString) :
    ks.foldl countUp [] =
      (ks.filter (· ≠ protoName)).eraseDups.map fun k => (k, countOf k (ks.count k)) := by
  induction ks using List.reverseRecOn with
  | nil => rfl
  | append_singleton ks k ih =>
    rw [List.foldl_append, List.foldl_cons, List.foldl_nil, ih,
      countUp_map _ (fun k => countOf k (ks.count k)) (nodup_eraseDups _), List.filter_append]
    by_cases hp : k = protoName
    · have hn : k ∉ (ks.filter (· ≠ protoName)).eraseDups := by
        rw [List.mem_eraseDups]; simp [hp]
      rw [if_neg hn]
      have e1 : [k].filter (· ≠ protoName) = [] := by simp [hp]
      have e2 : countUp [] k = [] := by simp [countUp, hp]
      rw [e1, e2, List.append_nil, List.append_nil]
      apply List.map_congr_left
      intro j hj
      have : j ≠ k := fun e => hn (e ▸ hj)
      rw [List.count_append, List.count_singleton]
      simp [Ne.symm this]
    · have e1 : [k].filter (· ≠ protoName) = [k] := by simp [hp]
      rw [e1, eraseDups_snoc]
      have hm : (k ∈ (ks.filter (· ≠ protoName)).eraseDups) ↔ k ∈ ks := by
        rw [List.mem_eraseDups]; simp [hp]
      have hm' : (k ∈ (ks.filter (· ≠ protoName))) ↔ k ∈ ks := by simp [hp]
      have same : ∀ j, j ≠ k → (ks ++ [k]).count j = ks.count j := by
        intro j hj
        rw [List.count_append, List.count_singleton]
        simp [Ne.symm hj]
      by_cases hk : k ∈ ks
      · rw [if_pos (hm.2 hk), if_pos (hm'.2 hk), List.append_nil]
        apply List.map_congr_left
        intro j _
        by_cases hj : j = k
        · subst hj
          rw [if_pos rfl, List.count_append, List.count_singleton]
          have : 0 < ks.count j := List.count_pos_iff.2 hk
          unfold countOf
          by_cases hi : j ∈ inheritedUnits
          · rw [if_pos hi, if_pos hi]
            by_cases h1 : ks.count j = 1
            · rw [if_pos h1, h1]; simp [JsCount.next]
            · rw [if_neg h1, if_neg (by simp; omega)]
              simp only [JsCount.next, beq_self_eq_true, if_true, JsCount.num.injEq, Prod.mk.injEq, true_and]
              omega
          · rw [if_neg hi, if_neg hi]
            simp [JsCount.next]
        · rw [if_neg hj, same j hj]
      · rw [if_neg (fun h => hk (hm.1 h)), if_neg (fun h => hk (hm'.1 h)), List.map_append]
        congr 1
        · apply List.map_congr_left
          intro j hj
          rw [same j fun e => hk (hm.1 (e ▸ hj))]
        · have h0 : ks.count k = 0 := List.count_eq_zero.2 hk
          simp only [countUp, if_neg hp, List.map_singleton, countOf, List.count_append, h0, List.count_singleton]
          by_cases hi : k ∈ inheritedUnits
          · simp only [if_pos hi]; simp
          · simp only [if_neg hi]; simp

/-- A node whose tags count.js can count: different keys without tabs that are texts of OSM but not numbers. -/
def Spec.Countable (tags : TagList) : Prop :=
  (tags.map (·.key)).Nodup ∧
    ∀ t ∈ tags, ScriptKey t.key ∧ '\t' ∉ t.key.toList ∧ OsmText t.value

/-- The name of a tag in `tags_counter`. -/
def tagName (t : Tag) : List Char := t.key.toList ++ '\t' :: t.value.toList

theorem utf16_append' (a b : List Char) : utf16 (a ++ b) = utf16 a ++ utf16 b := by
  simp [utf16]

theorem countTags_fold (tags : TagList) (f : JsString → JsVal) (keys : List JsString) (hk : ∀ k ∈ keys, jsTag tags k = .ok (f k))
    (s : Counters) : callChain (countTag tags) s keys =
      .ok ⟨keys.foldl countUp s.keys, (keys.map fun k => k ++ jsLit ['\t'] ++ jsToText (f k)).foldl countUp s.tags⟩ := by
  induction keys generalizing s with
  | nil => rfl
  | cons k keys ih =>
    have h := hk k List.mem_cons_self
    simp only [callChain, countTag, h]
    rw [ih fun j hj => hk j (List.mem_cons_of_mem _ hj)]
    rfl

theorem countNode_fold (s : Counters) {tags : TagList} (h : Countable tags) :
    countNode s tags = .ok ⟨(tags.map fun t => utf16 t.key.toList).foldl countUp s.keys,
      (tags.map fun t => utf16 (tagName t)).foldl countUp s.tags⟩ := by
  obtain ⟨hd, ht⟩ := h
  obtain ⟨keys, h1, h2⟩ := script_sees_all_tags_partial tags hd fun t m => ⟨(ht t m).1.1, (ht t m).2.2, (ht t m).1.2⟩
  rw [script_tag_keys tags fun t m => (ht t m).1.1] at h1
  cases h1
  rw [List.map_map] at h2
  unfold countNode
  rw [script_tag_keys tags fun t m => (ht t m).1.1]
  simp only
  have hj : ∀ k ∈ tags.map (fun t => utf16 t.key.toList), jsTag tags k = .ok ((jsTag tags k).toOption.getD .undefined) := by
    intro k hk
    obtain ⟨t, m, rfl⟩ := List.mem_map.1 hk
    have := List.map_inj_left.1 h2 t m
    simp only [Function.comp_apply, Prod.mk.injEq, true_and] at this
    rw [this]
    rfl
  rw [countTags_fold tags _ _ hj]
  congr 3
  rw [List.map_map]
  apply List.map_congr_left
  intro t m
  have := List.map_inj_left.1 h2 t m
  simp only [Function.comp_apply, Prod.mk.injEq, true_and] at this
  simp only [Function.comp_apply, this, Except.toOption, Option.getD_some]
  show utf16 t.key.toList ++ utf16 ['\t'] ++ utf16 t.value.toList = _
  rw [← utf16_append', ← utf16_append', tagName]
  simp

theorem countNodes_fold (nodes : List TagList) (h : ∀ n ∈ nodes, Countable n) (s : Counters) :
    callChain countNode s nodes = .ok ⟨(nodes.flatten.map fun t => utf16 t.key.toList).foldl countUp s.keys,
      (nodes.flatten.map fun t => utf16 (tagName t)).foldl countUp s.tags⟩ := by
  induction nodes generalizing s with
  | nil => rfl
  | cons n nodes ih =>
    simp only [callChain, countNode_fold s (h n List.mem_cons_self)]
    rw [ih fun m hm => h m (List.mem_cons_of_mem _ hm)]
    simp only [List.flatten_cons, List.map_append, List.foldl_append]

theorem countFile_lines (L : List (List Char × Nat)) (h : ∀ p ∈ L, Printable p.1 ∧ p.2 < 9007199254740992) :
    countFile (L.map fun p => (utf16 p.1, .num p.2)) =
      (⟨utf8 (L.flatMap fun p => csvLine [p.1, natDec p.2]), false⟩, none) := by
  have e := csvRun_prints [] (L.map fun p => [p.1, natDec p.2]) (by
    intro l hl t ht
    obtain ⟨p, hp, rfl⟩ := List.mem_map.1 hl
    simp only [List.mem_cons, List.not_mem_nil, or_false] at ht
    rcases ht with rfl | rfl
    · exact (h p hp).1
    · refine ⟨fun hm => ?_, ?_⟩
      · exact absurd (natDec_digits _ _ hm) (by decide)
      · have h1 := natDec_length_le p.2 16 (by decide) (by have := (h p hp).2; omega)
        have h2 := utf16_length_le (natDec p.2)
        omega) [.close]
  rw [List.map_map, List.flatMap_map, List.nil_append] at e
  unfold countFile
  rw [List.map_map]
  exact e

theorem count_map_on {α β : Type} [BEq α] [LawfulBEq α] [BEq β] [LawfulBEq β] (f : α → β) (l : List α) (x : α)
    (hf : ∀ a ∈ l, f a = f x → a = x) :
    (l.map f).count (f x) = l.count x := by
  induction l with
  | nil => rfl
  | cons a l ih =>
    rw [List.map_cons, List.count_cons, List.count_cons, ih fun b hb => hf b (List.mem_cons_of_mem _ hb)]
    by_cases h : a = x
    · simp [h]
    · have : f a ≠ f x := fun e => h (hf a List.mem_cons_self e)
      simp [h, this]

theorem tally_names {α : Type} [BEq α] [LawfulBEq α] (f : α → List Char) (xs : List α)
    (hf : ∀ a ∈ xs, ∀ b ∈ xs, f a = f b → a = b)
    (hn : ∀ a ∈ xs, utf16 (f a) ≠ protoName ∧ utf16 (f a) ∉ inheritedUnits) :
    (xs.map fun x => utf16 (f x)).foldl countUp [] =
      (xs.eraseDups.map fun x => (f x, xs.count x)).map fun p => (utf16 p.1, .num p.2) := by
  have hinj : ∀ a ∈ xs, ∀ b ∈ xs, utf16 (f a) = utf16 (f b) → a = b := fun a ha b hb e => hf a ha b hb (utf16_inj e)
  rw [countUp_names, List.filter_eq_self.2, eraseDups_map _ _ hinj, List.map_map, List.map_map]
  · apply List.map_congr_left
    intro x hx
    have hx := List.mem_eraseDups.1 hx
    simp only [Function.comp_apply, Prod.mk.injEq, true_and]
    rw [count_map_on _ _ _ fun a ha e => hinj a ha x hx e, countOf, if_neg (hn x hx).2]
  · intro a ha
    obtain ⟨x, hx, rfl⟩ := List.mem_map.1 ha
    simpa using (hn x hx).1

theorem nodup_count_of_ite {α : Type} [BEq α] [LawfulBEq α] (l : List α) (h : l.Nodup) (x : α) :
    l.count x = if x ∈ l then 1 else 0 := by
  by_cases hx : x ∈ l
  · rw [if_pos hx]; exact List.count_eq_one_of_mem h hx
  · rw [if_neg hx]; exact List.count_eq_zero.2 hx

theorem keys_count (nodes : List TagList) (h : ∀ n ∈ nodes, (n.map (·.key)).Nodup) (key : String) :
    (nodes.flatten.map (·.key)).count key = nodesWithKey nodes key := by
  unfold nodesWithKey
  induction nodes with
  | nil => rfl
  | cons n nodes ih =>
    rw [List.flatten_cons, List.map_append, List.count_append, ih fun m hm => h m (List.mem_cons_of_mem _ hm),
      nodup_count_of_ite _ (h n List.mem_cons_self), List.filter_cons]
    by_cases hk : key ∈ n.map (·.key)
    · have : (n.any fun t => decide (t.key = key)) = true := by
        obtain ⟨t, ht, e⟩ := List.mem_map.1 hk
        exact List.any_eq_true.2 ⟨t, ht, by simpa using e⟩
      rw [if_pos hk, if_pos this, List.length_cons]
      omega
    · have : ¬ (n.any fun t => decide (t.key = key)) = true := by
        intro ha
        obtain ⟨t, ht, e⟩ := List.any_eq_true.1 ha
        exact hk (List.mem_map.2 ⟨t, ht, by simpa using e⟩)
      rw [if_neg hk, if_neg this]
      omega

theorem tags_count (nodes : List TagList) (h : ∀ n ∈ nodes, (n.map (·.key)).Nodup) (tag : Tag) :
    nodes.flatten.count tag = nodesWithTag nodes tag := by
  unfold nodesWithTag
  induction nodes with
  | nil => rfl
  | cons n nodes ih =>
    rw [List.flatten_cons, List.count_append, ih fun m hm => h m (List.mem_cons_of_mem _ hm),
      nodup_count_of_ite _ (List.Nodup.of_map _ (h n List.mem_cons_self)), List.filter_cons]
    by_cases hk : tag ∈ n
    · have : (n.any fun t => decide (t.key = tag.key ∧ t.value = tag.value)) = true :=
        List.any_eq_true.2 ⟨tag, hk, by simp⟩
      rw [if_pos hk, if_pos this, List.length_cons]
      omega
    · have : ¬ (n.any fun t => decide (t.key = tag.key ∧ t.value = tag.value)) = true := by
        intro ha
        obtain ⟨t, ht, e⟩ := List.any_eq_true.1 ha
        have e := of_decide_eq_true e
        have : t = tag := by cases t; cases tag; simp_all
        exact hk (this ▸ ht)
      rw [if_neg hk, if_neg this]
      omega

theorem tagName_inj {a b : Tag} (ha : '\t' ∉ a.key.toList) (hb : '\t' ∉ b.key.toList) (h : tagName a = tagName b) : a = b := by
  have gen : ∀ (x y u v : List Char), '\t' ∉ x → '\t' ∉ y → x ++ '\t' :: u = y ++ '\t' :: v → x = y ∧ u = v := by
    intro x
    induction x with
    | nil =>
      intro y u v _ hy h
      cases y with
      | nil => simp at h; exact ⟨rfl, h⟩
      | cons c y => simp at h; exact absurd (List.mem_cons.2 (Or.inl h.1)) hy
    | cons c x ih =>
      intro y u v hx hy h
      cases y with
      | nil => simp at h; exact absurd (List.mem_cons.2 (Or.inl h.1.symm)) hx
      | cons d y =>
        simp only [List.cons_append, List.cons.injEq] at h
        obtain ⟨e1, e2⟩ := ih y u v (fun m => hx (List.mem_cons_of_mem _ m)) (fun m => hy (List.mem_cons_of_mem _ m)) h.2
        exact ⟨by rw [h.1, e1], e2⟩
  obtain ⟨e1, e2⟩ := gen _ _ _ _ ha hb h
  cases a; cases b
  simp only at e1 e2
  rw [String.toList_inj.1 e1, String.toList_inj.1 e2]

theorem tagName_special (t : Tag) : utf16 (tagName t) ≠ protoName ∧ utf16 (tagName t) ∉ inheritedUnits := by
  have h9 : (9 : UInt16) ∈ utf16 (tagName t) := by
    unfold tagName
    rw [utf16_append']
    exact List.mem_append_right _ (List.mem_append_left _ (by decide : (9 : UInt16) ∈ utf16Char '\t'))
  constructor
  · intro e
    rw [e] at h9
    exact absurd h9 (by decide)
  · intro hm
    exact (by decide : ∀ n ∈ inheritedUnits, (9 : UInt16) ∉ n) _ hm h9

theorem osmText_printable {cs : List Char} (h : '\x00' ∉ cs) (hl : cs.length < 268435455) : Printable cs :=
  ⟨h, by have := utf16_length_le cs; omega⟩

/-- **C111 (partial: nodes without repeated keys, no keys that are numbers or contain tabs, and no keys that are names
every object of a script has, see `count_inherited` and `count_proto`).**  count.js writes for each key, in the order in
which the keys occur first, the number of nodes that have it, and the same for tags.  (The values of the tags are
in a column of their own if they contain no tabs.) -/
theorem count_nodes_partial (nodes : List TagList) (hc : ∀ n ∈ nodes, Countable n)
    (hn : ∀ n ∈ nodes, ∀ t ∈ n, ¬ ObjectName t.key) (hl : nodes.flatten.length < 9007199254740992) :
    countScript nodes = .ok
      (⟨utf8 ((nodes.flatten.map (·.key)).eraseDups.flatMap fun k =>
          csvLine [k.toList, natDec (nodesWithKey nodes k)]), false⟩,
       ⟨utf8 (nodes.flatten.eraseDups.flatMap fun t =>
          csvLine [t.key.toList, t.value.toList, natDec (nodesWithTag nodes t)]), false⟩) := by
  have hd : ∀ n ∈ nodes, (n.map (·.key)).Nodup := fun n m => (hc n m).1
  have ht : ∀ t ∈ nodes.flatten, ScriptKey t.key ∧ '\t' ∉ t.key.toList ∧ OsmText t.value ∧ ¬ ObjectName t.key := by
    intro t m
    obtain ⟨n, h1, h2⟩ := List.mem_flatten.1 m
    obtain ⟨a, b, c⟩ := (hc n h1).2 t h2
    exact ⟨a, b, c, hn n h1 t h2⟩
  have names : ∀ s : String, ¬ ObjectName s → utf16 s.toList ≠ protoName ∧ utf16 s.toList ∉ inheritedUnits := by
    intro s hs
    constructor
    · intro e
      exact hs (Or.inl (String.toList_inj.1 (utf16_inj e)))
    · intro hm
      obtain ⟨n, hn, e⟩ := List.mem_map.1 hm
      exact hs (Or.inr (String.toList_inj.1 (utf16_inj e) ▸ hn))
  unfold countScript
  rw [countNodes_fold nodes hc]
  simp only
  have e1 : (nodes.flatten.map fun t => utf16 t.key.toList).foldl countUp [] =
      ((nodes.flatten.map (·.key)).eraseDups.map fun k => (k.toList, (nodes.flatten.map (·.key)).count k)).map
        fun p => (utf16 p.1, .num p.2) := by
    rw [← tally_names (fun s : String => s.toList), List.map_map]
    · rfl
    · exact fun a _ b _ e => String.toList_inj.1 e
    · intro a ha
      obtain ⟨t, m, rfl⟩ := List.mem_map.1 ha
      exact names _ (ht t m).2.2.2
  have e2 : (nodes.flatten.map fun t => utf16 (tagName t)).foldl countUp [] =
      (nodes.flatten.eraseDups.map fun t => (tagName t, nodes.flatten.count t)).map
        fun p => (utf16 p.1, .num p.2) := by
    rw [← tally_names tagName]
    · exact fun a ha b hb e => tagName_inj (ht a ha).2.1 (ht b hb).2.1 e
    · exact fun a _ => tagName_special a
  rw [e1, e2, countFile_lines, countFile_lines]
  · simp only
    congr 3
    · congr 1
      rw [List.flatMap_map]
      refine List.flatMap_congr fun k _ => ?_
      rw [keys_count nodes hd]
    · congr 1
      rw [List.flatMap_map]
      refine List.flatMap_congr fun t _ => ?_
      rw [tags_count nodes hd, tagName]
      simp [csvLine, List.intercalate]
  · intro p hp
    obtain ⟨t, m, rfl⟩ := List.mem_map.1 hp
    have hm := List.mem_eraseDups.1 m
    refine ⟨?_, lt_of_le_of_lt List.count_le_length hl⟩
    obtain ⟨⟨h1, -⟩, -, h2, -⟩ := ht t hm
    refine osmText_printable ?_ ?_
    · simp only [tagName, List.mem_append, List.mem_cons, not_or]
      exact ⟨h1.1, by decide, h2.1⟩
    · simp only [tagName, List.length_append, List.length_cons]
      have := h1.2; have := h2.2
      omega
  · intro p hp
    obtain ⟨k, m, rfl⟩ := List.mem_map.1 hp
    obtain ⟨t, ht', rfl⟩ := List.mem_map.1 (List.mem_eraseDups.1 m)
    refine ⟨?_, lt_of_le_of_lt List.count_le_length (by rw [List.length_map]; exact hl)⟩
    obtain ⟨⟨h1, -⟩, -⟩ := ht t ht'
    exact osmText_printable (cs := t.key.toList) h1.1 (by have := h1.2; omega)

/-- Some nodes. (data for the example) -/
def countDemo : List TagList := [[⟨"amenity", "pub"⟩, ⟨"name", "Krone"⟩], [], [⟨"amenity", "pub"⟩], [⟨"amenity", "bank"⟩]]

theorem scriptKey_of_check {s : String} (h : ('\x00' ∉ s.toList ∧ s.toList.length ≤ 255) ∧ s.toList.any (fun c => !isDigit c)) :
    ScriptKey s := by
  refine ⟨h.1, ?_⟩
  obtain ⟨c, hc, hd⟩ := List.any_eq_true.1 h.2
  exact not_index_of_letter hc (by simpa using hd)

example : (∀ n ∈ countDemo, Countable n) ∧ (∀ n ∈ countDemo, ∀ t ∈ n, ¬ ObjectName t.key) ∧
    countScript countDemo = .ok (⟨utf8 "amenity\t3\nname\t1\n".toList, false⟩,
      ⟨utf8 "amenity\tpub\t2\nname\tKrone\t1\namenity\tbank\t1\n".toList, false⟩) := by
  have h1 : ∀ n ∈ countDemo, Countable n := by
    have h : ∀ n ∈ countDemo, (n.map (·.key)).Nodup ∧ ∀ t ∈ n, (('\x00' ∉ t.key.toList ∧ t.key.toList.length ≤ 255) ∧
        t.key.toList.any (fun c => !isDigit c)) ∧ '\t' ∉ t.key.toList ∧ '\x00' ∉ t.value.toList ∧
        t.value.toList.length ≤ 255 := by decide
    intro n hn
    obtain ⟨a, b⟩ := h n hn
    exact ⟨a, fun t ht => ⟨scriptKey_of_check (b t ht).1, (b t ht).2.1, (b t ht).2.2⟩⟩
  have h2 : ∀ n ∈ countDemo, ∀ t ∈ n, ¬ ObjectName t.key := by unfold ObjectName; decide
  refine ⟨h1, h2, ?_⟩
  rw [count_nodes_partial countDemo h1 h2 (by decide)]
  decide

/-- A node with one tag. -/
theorem countable_single (t : Tag) (h : ScriptKey t.key ∧ '\t' ∉ t.key.toList ∧ OsmText t.value) : Countable [t] :=
  ⟨by simp, fun u hu => by rw [List.mem_singleton.1 hu]; exact h⟩

/-- **C111, disagreement.**  For a key that is the name of a function every object of a script has, such as
`constructor`, count.js writes one less than the number of nodes that have it, and `NaN` if there is only one. -/
theorem count_inherited (key value : String) (h : key ∈ inheritedNames) (hv : OsmText value) (n : Nat)
    (hn : n + 1 < 9007199254740992) :
    ∃ k t, countScript (List.replicate (n + 1) [⟨key, value⟩]) = .ok (k, t) ∧
      nodesWithKey (List.replicate (n + 1) [⟨key, value⟩]) key = n + 1 ∧
      k.out = utf8 (csvLine [key.toList, if n = 0 then "NaN".toList else natDec n]) := by
  have hk : ScriptKey key ∧ '\t' ∉ key.toList ∧ utf16 key.toList ≠ protoName := by
    have hall : ∀ s ∈ inheritedNames, (('\x00' ∉ s.toList ∧ s.toList.length ≤ 255) ∧ s.toList.any (fun c => !isDigit c)) ∧
        '\t' ∉ s.toList ∧ s ≠ "__proto__" := by decide
    obtain ⟨a, b, c⟩ := hall key h
    exact ⟨scriptKey_of_check a, b, fun e => c (String.toList_inj.1 (utf16_inj e))⟩
  have hnode : Countable [⟨key, value⟩] := countable_single _ ⟨hk.1, hk.2.1, hv⟩
  have hfl : (List.replicate (n + 1) [(⟨key, value⟩ : Tag)]).flatten = List.replicate (n + 1) ⟨key, value⟩ := by
    induction n + 1 with
    | zero => rfl
    | succ m ih => rw [List.replicate_succ, List.flatten_cons, ih, List.replicate_succ]; rfl
  have hdup : ∀ {α : Type} [BEq α] [LawfulBEq α] (x : α), (List.replicate (n + 1) x).eraseDups = [x] := by
    intro α _ _ x
    rw [List.replicate_succ, List.eraseDups_cons, List.filter_eq_nil_iff.2]
    · rfl
    · intro a ha; simp [(List.mem_replicate.1 ha).2]
  have hun : utf16 key.toList ∈ inheritedUnits := List.mem_map.2 ⟨key, h, rfl⟩
  have hp1 : Printable key.toList := osmText_printable hk.1.1.1 (by have := hk.1.1.2; omega)
  have hcount : nodesWithKey (List.replicate (n + 1) [⟨key, value⟩]) key = n + 1 := by
    simp [nodesWithKey]
  unfold countScript
  rw [countNodes_fold _ fun m hm => by rw [(List.mem_replicate.1 hm).2]; exact hnode]
  simp only [hfl, List.map_replicate]
  have e1 : (List.replicate (n + 1) (utf16 key.toList)).foldl countUp [] =
      [(utf16 key.toList, if n = 0 then .nan else .num n)] := by
    rw [countUp_names, List.filter_eq_self.2, hdup, List.map_singleton, List.count_replicate_self, countOf, if_pos hun]
    · by_cases h0 : n = 0
      · simp [h0]
      · simp [h0]
    · intro a ha
      rw [(List.mem_replicate.1 ha).2]
      simpa using hk.2.2
  have e2 : (List.replicate (n + 1) (utf16 (tagName ⟨key, value⟩))).foldl countUp [] =
      [((tagName ⟨key, value⟩, n + 1))].map fun p => (utf16 p.1, .num p.2) := by
    rw [countUp_names, List.filter_eq_self.2, hdup, List.map_singleton, List.count_replicate_self, countOf,
      if_neg (tagName_special _).2]
    · rfl
    · intro a ha
      rw [(List.mem_replicate.1 ha).2]
      simpa using (tagName_special ⟨key, value⟩).1
  have e3 : countFile [(utf16 key.toList, if n = 0 then .nan else .num n)] =
      (⟨utf8 (csvLine [key.toList, if n = 0 then "NaN".toList else natDec n]), false⟩, none) := by
    by_cases h0 : n = 0
    · rw [if_pos h0, if_pos h0]
      have := csvRun_prints [] [[key.toList, "NaN".toList]] (by
        intro l hl t ht
        rw [List.mem_singleton.1 hl] at ht
        simp only [List.mem_cons, List.not_mem_nil, or_false] at ht
        rcases ht with rfl | rfl
        · exact hp1
        · exact ⟨by decide, by decide⟩) [.close]
      rw [List.nil_append, List.flatMap_singleton] at this
      exact this
    · rw [if_neg h0, if_neg h0]
      have := countFile_lines [(key.toList, n)] (by
        intro p hp
        rw [List.mem_singleton.1 hp]
        exact ⟨hp1, by simp only; omega⟩)
      rw [List.flatMap_singleton] at this
      exact this
  rw [e1, e2, e3, countFile_lines]
  · exact ⟨_, _, rfl, hcount, rfl⟩
  · intro p hp
    rw [List.mem_singleton.1 hp]
    refine ⟨osmText_printable ?_ ?_, hn⟩
    · simp only [tagName, List.mem_append, List.mem_cons, not_or]
      exact ⟨hk.1.1.1, by decide, hv.1⟩
    · simp only [tagName, List.length_append, List.length_cons]
      have := hk.1.1.2; have := hv.2
      omega

/-- **C111, disagreement.**  The key `__proto__` is never counted. -/
theorem count_proto (value : String) (hv : OsmText value) (n : Nat) (hn : n + 1 < 9007199254740992) :
    ∃ k t, countScript (List.replicate (n + 1) [⟨"__proto__", value⟩]) = .ok (k, t) ∧ k.out = [] := by
  have hk : ScriptKey "__proto__" := scriptKey_of_check (by decide)
  have hnode : Countable [⟨"__proto__", value⟩] := countable_single _ ⟨hk, (by decide : '\t' ∉ "__proto__".toList), hv⟩
  have hfl : (List.replicate (n + 1) [(⟨"__proto__", value⟩ : Tag)]).flatten = List.replicate (n + 1) ⟨"__proto__", value⟩ := by
    induction n + 1 with
    | zero => rfl
    | succ m ih => rw [List.replicate_succ, List.flatten_cons, ih, List.replicate_succ]; rfl
  unfold countScript
  rw [countNodes_fold _ fun m hm => by rw [(List.mem_replicate.1 hm).2]; exact hnode]
  simp only [hfl, List.map_replicate]
  have e1 : (List.replicate (n + 1) (utf16 "__proto__".toList)).foldl countUp [] = [] := by
    rw [countUp_names, List.filter_eq_nil_iff.2]
    · rfl
    · intro a ha
      rw [(List.mem_replicate.1 ha).2]
      simp [protoName, jsLit_eq]
  have e2 : (List.replicate (n + 1) (utf16 (tagName ⟨"__proto__", value⟩))).foldl countUp [] =
      [((tagName ⟨"__proto__", value⟩, n + 1))].map fun p => (utf16 p.1, .num p.2) := by
    rw [countUp_names, List.filter_eq_self.2, List.replicate_succ, List.eraseDups_cons, List.filter_eq_nil_iff.2,
      List.map_cons, ← List.replicate_succ, List.count_replicate_self, countOf, if_neg (tagName_special _).2]
    · rfl
    · intro a ha; simp [(List.mem_replicate.1 ha).2]
    · intro a ha
      rw [(List.mem_replicate.1 ha).2]
      simpa using (tagName_special ⟨"__proto__", value⟩).1
  rw [e1, e2, countFile_lines]
  · exact ⟨_, _, rfl, rfl⟩
  · intro p hp
    rw [List.mem_singleton.1 hp]
    refine ⟨osmText_printable ?_ ?_, hn⟩
    · simp only [tagName, List.mem_append, List.mem_cons, not_or]
      exact ⟨hk.1.1, by decide, hv.1⟩
    · simp only [tagName, List.length_append, List.length_cons]
      have := hk.1.2; have := hv.2
      omega

example : OsmText "x" ∧ 2 + 1 < 9007199254740992 := ⟨⟨by decide, by decide⟩, by decide⟩

/-- One node with the key `constructor`, and three. -/
example : ((countScript [[⟨"constructor", "Brunel"⟩]]).toOption.map (·.1.out)) = some (utf8 "constructor\tNaN\n".toList) ∧
    ((countScript (List.replicate 3 [⟨"constructor", "Brunel"⟩])).toOption.map (·.1.out)) =
      some (utf8 "constructor\t2\n".toList) := by
  constructor
  · obtain ⟨k, t, h, -, e⟩ := count_inherited "constructor" "Brunel" (by decide) ⟨by decide, by decide⟩ 0 (by decide)
    rw [show [[(⟨"constructor", "Brunel"⟩ : Tag)]] = List.replicate 1 [⟨"constructor", "Brunel"⟩] from rfl, h]
    simp only [Except.toOption, Option.map_some, e]
    decide
  · obtain ⟨k, t, h, -, e⟩ := count_inherited "constructor" "Brunel" (by decide) ⟨by decide, by decide⟩ 2 (by decide)
    rw [h]
    simp only [Except.toOption, Option.map_some, e]
    decide

/-! ### osm2csv.js -/

theorem printedValue_tag : ∀ (tags : TagList) (s : String), ScriptKey s → (∀ t ∈ tags, OsmText t.value) →
    ∃ v, jsTag tags (jsLit s.toList) = .ok v ∧ jsToText v = utf16 (printedValue tags s) := by
  intro tags s hs ht
  refine ⟨_, script_tag_partial tags s hs.1 hs.2 ht, ?_⟩
  rw [jsTagValue_first]
  unfold printedValue
  cases firstValue tags s with
  | none => rfl
  | some v => rfl

theorem printedValue_printable : ∀ (tags : TagList) (s : String), (∀ t ∈ tags, OsmText t.value) → Printable (printedValue tags s) := by
  intro tags s ht
  unfold printedValue firstValue
  cases hf : tags.find? (fun t => decide (t.key = s)) with
  | none => exact osmText_printable (cs := "undefined".toList) (by decide) (by rw [show "undefined".toList.length = 9 by decide]; omega)
  | some t =>
    have := ht t (List.mem_of_find?_eq_some hf)
    exact osmText_printable (cs := t.value.toList) this.1 (by have := this.2; omega)

theorem intDec_printable : ∀ n : Int, |n| ≤ 9007199254740992 → Printable (intDec n) := by
  intro n hn
  refine osmText_printable (fun hm => ?_) ?_
  · unfold intDec at hm
    split at hm
    · rcases List.mem_cons.1 hm with e | e
      · exact absurd e (by decide)
      · exact absurd (natDec_digits _ _ e) (by decide)
    · exact absurd (natDec_digits _ _ hm) (by decide)
  · have := natDec_length_le n.natAbs 16 (by decide) (by rw [Int.abs_eq_natAbs] at hn; omega)
    unfold intDec
    split
    · rw [List.length_cons]; omega
    · omega

theorem csvPrint_line (o : List UInt8) (l : List (List Char)) (h : ∀ t ∈ l, Printable t) :
    csvPrint ⟨o, true⟩ (l.map utf16) = (⟨o ++ utf8 (csvLine l), true⟩, none) := by
  have ha := csvArgs_printable o 0 l h
  rw [if_pos rfl] at ha
  simp only [csvPrint, ha, CsvFile.write, if_true, csvLine, utf8_append, List.append_assoc]
  rfl

theorem osm2csvNode_line (o : List UInt8) (n : Int × TagList) (l : List (List Char)) (h : ∀ t ∈ l, Printable t)
    (ha : osm2csvArgs n = .ok (l.map utf16)) : osm2csvNode ⟨o, true⟩ n = .ok ⟨o ++ utf8 (csvLine l), true⟩ := by
  unfold osm2csvNode
  rw [ha]
  simp only [csvPrint_line o l h]

theorem osm2csv_run (line : Int × TagList → List (List Char)) (nodes : List (Int × TagList))
    (h : ∀ n ∈ nodes, (∀ t ∈ line n, Printable t) ∧ osm2csvArgs n = .ok ((line n).map utf16)) (o : List UInt8) :
    callChain osm2csvNode ⟨o, true⟩ nodes = .ok ⟨o ++ utf8 (nodes.flatMap fun n => csvLine (line n)), true⟩ := by
  induction nodes generalizing o with
  | nil => rw [List.flatMap_nil]; show _ = Except.ok (⟨o ++ [], true⟩ : CsvFile); rw [List.append_nil]; rfl
  | cons n nodes ih =>
    obtain ⟨h1, h2⟩ := h n List.mem_cons_self
    rw [callChain, osm2csvNode_line o n _ h1 h2]
    simp only
    rw [ih fun m hm => h m (List.mem_cons_of_mem _ hm), List.flatMap_cons, utf8_append, List.append_assoc]

/-- **C111.**  osm2csv.js writes one line for each node, in order: the id, and the tags `name` and `note`.  A tag that is
missing is written as `undefined`. -/
theorem osm2csv_lines (nodes : List (Int × TagList))
    (h : ∀ n ∈ nodes, |n.1| ≤ 9007199254740992 ∧ ∀ t ∈ n.2, OsmText t.value) :
    osm2csv nodes = .ok ⟨utf8 (nodes.flatMap fun n =>
      csvLine [intDec n.1, printedValue n.2 "name", printedValue n.2 "note"]), false⟩ := by
  have k1 : ScriptKey "name" := scriptKey_of_check (by decide)
  have k2 : ScriptKey "note" := scriptKey_of_check (by decide)
  unfold osm2csv
  rw [show CsvFile.new = ⟨[], true⟩ from rfl,
    osm2csv_run (fun n => [intDec n.1, printedValue n.2 "name", printedValue n.2 "note"]) nodes]
  · simp only [List.nil_append, csvClose]
  · intro n hn
    obtain ⟨h1, h2⟩ := h n hn
    obtain ⟨v1, a1, b1⟩ := printedValue_tag n.2 "name" k1 h2
    obtain ⟨v2, a2, b2⟩ := printedValue_tag n.2 "note" k2 h2
    constructor
    · intro t ht
      simp only [List.mem_cons, List.not_mem_nil, or_false] at ht
      rcases ht with rfl | rfl | rfl
      · exact intDec_printable _ h1
      · exact printedValue_printable _ _ h2
      · exact printedValue_printable _ _ h2
    · simp only [osm2csvArgs, a1, a2, b1, b2, List.map_cons, List.map_nil]
      rw [jsLit_eq]

example : osm2csv [(17, [⟨"name", "Krone"⟩]), (-3, [⟨"note", "closed"⟩])] =
    .ok ⟨utf8 "17\tKrone\tundefined\n-3\tundefined\tclosed\n".toList, false⟩ := by
  rw [osm2csv_lines _ (by
    intro n hn
    simp only [List.mem_cons, List.not_mem_nil, or_false] at hn
    rcases hn with rfl | rfl
    · exact ⟨by decide, fun t ht => by rw [List.mem_singleton.1 ht]; exact ⟨by decide, by decide⟩⟩
    · exact ⟨by decide, fun t ht => by rw [List.mem_singleton.1 ht]; exact ⟨by decide, by decide⟩⟩)]
  decide

/-- **C111, disagreement.**  A node without a name and one whose name is the word `undefined` give the same file. -/
theorem osm2csv_undefined (id : Int) (hid : |id| ≤ 9007199254740992) :
    osm2csv [(id, [])] = osm2csv [(id, [⟨"name", "undefined"⟩])] := by
  rw [osm2csv_lines, osm2csv_lines]
  · rfl
  · intro n hn
    rw [List.mem_singleton.1 hn]
    exact ⟨hid, fun t ht => by rw [List.mem_singleton.1 ht]; exact ⟨by decide, by decide⟩⟩
  · intro n hn
    rw [List.mem_singleton.1 hn]
    exact ⟨hid, fun t ht => by simp at ht⟩

/-! ### time.js -/

/-- **C111.**  time.js prints the number of nodes, ways and relations at the end, and before that one line if there are
ways and one if there are relations, in the order in which they begin. -/
theorem time_script_counts (types : List ObjType) :
    ∃ firsts : List String, timeScript types = firsts ++
      ["nodes: " ++ String.ofList (natDec (types.count .node)) ++ "  ways: " ++ String.ofList (natDec (types.count .way)) ++
        "  relations: " ++ String.ofList (natDec (types.count .relation))] ∧
      firsts = (types.eraseDups.filterMap fun t => if t = .way then some "first way" else
        if t = .relation then some "first relation" else none) := by
  have h : ∀ types : List ObjType, types.foldl timeObject ⟨0, 0, 0, []⟩ =
      ⟨types.count .node, types.count .way, types.count .relation, types.eraseDups.filterMap fun t =>
        if t = .way then some "first way" else if t = .relation then some "first relation" else none⟩ := by
    intro types
    induction types using List.reverseRecOn with
    | nil => rfl
    | append_singleton types t ih =>
      rw [List.foldl_append, List.foldl_cons, List.foldl_nil, ih, eraseDups_snoc, List.filterMap_append]
      have hz : ∀ x : ObjType, types.count x = 0 ↔ x ∉ types := fun x => List.count_eq_zero
      have hs : ∀ x : ObjType, (types ++ [t]).count x = types.count x + (if t = x then 1 else 0) := by
        intro x
        rw [List.count_append, List.count_singleton]
        congr 1
        by_cases h : t = x <;> simp [h]
      rw [hs, hs, hs]
      cases t with
      | way =>
        by_cases hm : ObjType.way ∈ types
        · have := (hz .way).not.2 (not_not.2 hm)
          simp [timeObject, hm]
          exact this
        · have := (hz .way).2 hm
          simp [timeObject, hm]
          exact this
      | relation =>
        by_cases hm : ObjType.relation ∈ types
        · simp [timeObject, hm]
          exact (hz .relation).not.2 (not_not.2 hm)
        · simp [timeObject, hm]
          exact (hz .relation).2 hm
      | node => by_cases hm : ObjType.node ∈ types <;> simp [timeObject, hm]
      | unknown => by_cases hm : ObjType.unknown ∈ types <;> simp [timeObject, hm]
      | area => by_cases hm : ObjType.area ∈ types <;> simp [timeObject, hm]
  refine ⟨_, ?_, rfl⟩
  unfold timeScript timeEnd
  rw [h]

example : timeScript [.node, .node, .way, .way, .relation] =
    ["first way", "first relation", "nodes: 2  ways: 2  relations: 1"] := by decide

end Osmium

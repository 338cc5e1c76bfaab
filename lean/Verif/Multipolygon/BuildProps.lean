import Verif.Multipolygon.Build
import Mathlib.Tactic.NormNum

/-
C43, C63, C64: areas from ways and relations.
-/
namespace Osmium

open Spec

namespace Spec

/-- The relation is tagged as one to be assembled: the (first) tag with key `type` has the value
`multipolygon` or `boundary`. -/
def IsMultipolygon (r : Relation) : Prop :=
  ∃ t, r.obj.tags.find? (fun t => t.key = "type") = some t ∧ (t.value = "multipolygon" ∨ t.value = "boundary")

/-- The way is a member of one of the relations. -/
def InMultipolygon (rs : List Relation) (w : Way) : Prop :=
  ∃ r ∈ rs, IsMultipolygon r ∧ ∃ m ∈ r.members, m.type = 'w' ∧ m.ref = w.obj.id

/-- The way goes back to its first node and has at least four nodes. -/
def IsClosedArea (w : Way) : Prop :=
  4 ≤ w.nodes.length ∧ w.nodes.head?.map WayNode.ref = w.nodes.getLast?.map WayNode.ref

instance (w : Way) : Decidable (IsClosedArea w) := by unfold IsClosedArea; infer_instance

/-- The ids for which the id of the area can be represented. -/
def SmallId (id : Int) : Prop := -(2 : Int) ^ 62 < id ∧ id < (2 : Int) ^ 62

end Spec

theorem getValueByKey_find (tags : TagList) (k : String) :
    tags.getValueByKey k = (tags.find? (fun t => t.key = k)).map Tag.value := by
  induction tags with
  | nil => rfl
  | cons t ts ih =>
    unfold TagList.getValueByKey
    rw [List.find?_cons]
    by_cases h : t.key = k
    · simp [h]
    · simp [h, ih]

theorem mp_accept_iff (r : Relation) : mpCfg.accept r = true ↔ IsMultipolygon r := by
  simp only [mpCfg]
  rw [getValueByKey_find]
  unfold IsMultipolygon
  cases h : r.obj.tags.find? (fun t => decide (t.key = "type")) with
  | none => simp
  | some t => simp

instance (r : Relation) : Decidable (IsMultipolygon r) :=
  decidable_of_iff _ (mp_accept_iff r)

/-- The tag need not be the first one, but of two with the key only the first counts. -/
example : IsMultipolygon ⟨{ Obj.new with tags := [⟨"name", "x"⟩, ⟨"type", "boundary"⟩] }, []⟩ ∧
    ¬ IsMultipolygon ⟨{ Obj.new with tags := [⟨"type", "route"⟩, ⟨"type", "boundary"⟩] }, []⟩ := by
  decide +kernel

theorem mp_referenced_iff (rs : List Relation) (w : Way) :
    Referenced mpCfg (rs.filter mpCfg.accept) (.way w) ↔ InMultipolygon rs w := by
  unfold Referenced InMultipolygon
  constructor
  · rintro ⟨r, hr, m, hm, href⟩
    rw [List.mem_filter] at hr
    unfold wanted at hm
    rw [List.mem_filter] at hm
    refine ⟨r, hr.1, (mp_accept_iff r).1 hr.2, m, hm.1, by simpa [mpCfg] using hm.2, ?_⟩
    simp only [refersTo, OsmObj.obj, Bool.and_eq_true, beq_iff_eq] at href
    exact href.1
  · rintro ⟨r, hr, hmp, m, hm, ht, href⟩
    refine ⟨r, by rw [List.mem_filter]; exact ⟨hr, (mp_accept_iff r).2 hmp⟩, m, ?_, ?_⟩
    · unfold wanted; rw [List.mem_filter]; exact ⟨hm, by simp [mpCfg, ht]⟩
    · simp [refersTo, OsmObj.obj, ht, href]

instance (rs : List Relation) (w : Way) : Decidable (InMultipolygon rs w) :=
  decidable_of_iff _ (mp_referenced_iff rs w)

theorem areaIdOfWay_small {id : Int} (h : SmallId id) : areaIdOfWay id = some (id * 2) := by
  unfold SmallId at h
  norm_num at h
  simp only [areaIdOfWay, chk64_eq_some, InS64]
  exact ⟨by omega, trivial⟩

theorem areaOfWay_small {w : Way} (h : SmallId w.obj.id) :
    Area.ofWay w = .ok ⟨{ w.obj with id := w.obj.id * 2 }, w.nodes⟩ := by
  simp [Area.ofWay, areaIdOfWay_small h, Except.map]

/-- C43: the area for a way, for every way with nodes. -/
theorem wayArea_spec (w : Way) (hn : w.nodes ≠ []) (hid : SmallId w.obj.id) :
    wayArea w = .ok (if IsClosedArea w then [⟨{ w.obj with id := w.obj.id * 2 }, w.nodes⟩] else []) := by
  obtain ⟨f, hf⟩ : ∃ f, w.nodes.head? = some f := by
    cases hh : w.nodes with
    | nil => exact absurd hh hn
    | cons x xs => exact ⟨x, rfl⟩
  obtain ⟨b, hb⟩ : ∃ b, w.nodes.getLast? = some b := by
    cases hh : w.nodes.getLast? with
    | none => simp at hh; exact absurd hh hn
    | some x => exact ⟨x, rfl⟩
  have e : wayNodesIsClosed w.nodes = some (f.ref == b.ref) := by simp [wayNodesIsClosed, hf, hb]
  have hi : IsClosedArea w ↔ 4 ≤ w.nodes.length ∧ f.ref = b.ref := by
    unfold IsClosedArea
    simp [hf, hb]
  unfold wayArea
  rw [e]
  by_cases h1 : f.ref = b.ref <;> by_cases h2 : 4 ≤ w.nodes.length <;>
    simp [h1, h2, hi, areaOfWay_small hid, Except.map]

/-- C43 fails for a way without nodes that is in no relation: undefined behaviour. -/
theorem wayArea_empty (w : Way) (h : w.nodes = []) : wayArea w = .error .ub := by
  simp [wayArea, wayNodesIsClosed, h]

/-- C43 (partial: files sorted by type with every object once; ways have nodes and ids below 2^62 in
size): the ways for which `way_not_in_any_relation` is called, and for each of them the area made. -/
theorem closed_ways_areas_partial (env : BuildEnv) (m : Meta) (ns : List OsmObj) (ws : List Way)
    (rs : List Relation) (hn : ∀ o ∈ ns, o.type = .node)
    (hd : DistinctObjects (ns ++ ws.map OsmObj.way ++ rs.map OsmObj.relation)) (s : Asm)
    (h1 : Asm.AfterPass1 mpCfg (protocol m (ns ++ ws.map OsmObj.way ++ rs.map OsmObj.relation)) s)
    (hnodes : ∀ w ∈ ws, w.nodes ≠ []) (hid : ∀ w ∈ ws, SmallId w.obj.id) :
    ∃ s' ev, s.pass2 mpCfg (protocol m (ns ++ ws.map OsmObj.way ++ rs.map OsmObj.relation)) = .ok (s', ev) ∧
      notInAnys ev = (ws.filter fun w => decide (¬ InMultipolygon rs w)).map OsmObj.way ∧
      ∀ w ∈ ws, mpHook env (.notInAny (.way w)) =
        .ok (if IsClosedArea w then [.area ⟨{ w.obj with id := w.obj.id * 2 }, w.nodes⟩] else []) := by
  obtain ⟨s', ev, k1, -, k3, -, -⟩ := assembler_file_partial mpCfg m ns (ws.map OsmObj.way) rs hn
    (by intro o ho; obtain ⟨w, -, rfl⟩ := List.mem_map.1 ho; rfl) hd s h1
  refine ⟨s', ev, k1, ?_, ?_⟩
  · rw [k3]
    have e1 : ns.filter (fun o => mpCfg.enabled o.type) = [] := by
      rw [List.filter_eq_nil_iff]
      intro o ho
      simp [mpCfg, hn o ho]
    have e2 : (rs.map OsmObj.relation).filter (fun o => mpCfg.enabled o.type) = [] := by
      rw [List.filter_eq_nil_iff]
      intro o ho
      obtain ⟨r, -, rfl⟩ := List.mem_map.1 ho
      simp [mpCfg, OsmObj.type]
    have e3 : (ws.map OsmObj.way).filter (fun o => mpCfg.enabled o.type) = ws.map OsmObj.way := by
      rw [List.filter_eq_self]
      intro o ho
      obtain ⟨w, -, rfl⟩ := List.mem_map.1 ho
      simp [mpCfg, OsmObj.type]
    rw [show ∀ f : OsmObj → Bool, (ns ++ ws.map OsmObj.way ++ rs.map OsmObj.relation).filter f =
        ns.filter f ++ (ws.map OsmObj.way).filter f ++ (rs.map OsmObj.relation).filter f by
      intro f; rw [List.filter_append, List.filter_append], e1, e2, e3, List.nil_append,
      List.append_nil, List.filter_map]
    congr 1
    apply List.filter_congr
    intro w _
    simp only [Function.comp, mp_referenced_iff]
  · intro w hw
    have e : mpHook env (.notInAny (.way w)) = (wayArea w).map (fun as => as.map MpCall.area) := rfl
    rw [e, wayArea_spec w (hnodes w hw) (hid w hw)]
    simp only [Except.map]
    split <;> rfl

/-! ### The builder never gets into undefined behaviour -/

theorem innerAreas_ok (rel : TagList) (s : RingState) (t : RingTree)
    (hid : ∀ w ∈ s.ways, SmallId w.way.obj.id) (js : List Nat) :
    ∃ as, innerAreas rel s t js = .ok as := by
  have hw : ∀ j w, w ∈ ringWays s j → SmallId w.obj.id := by
    intro j w hw
    simp only [ringWays, List.mem_filterMap, Option.map_eq_some_iff] at hw
    obtain ⟨k, -, v, hv, rfl⟩ := hw
    exact hid v (List.mem_of_getElem? hv)
  induction js with
  | nil => exact ⟨[], rfl⟩
  | cons j js ih =>
    obtain ⟨as, has⟩ := ih
    unfold innerAreas
    split
    · rename_i hin
      have : ∃ a, innerArea rel s t j = .ok a := by
        unfold innerArea
        split
        · rename_i w hw1
          have hsm := areaOfWay_small (hw j w (by rw [hw1]; simp))
          split
          · exact ⟨_, rfl⟩
          · split
            · exact ⟨_, rfl⟩
            · split
              · rename_i hc
                simp [RingTree.isInner, hc] at hin
              · split
                · split
                  · exact ⟨_, rfl⟩
                  · rw [hsm]; exact ⟨_, rfl⟩
                · rw [hsm]; exact ⟨_, rfl⟩
        · exact ⟨_, rfl⟩
      obtain ⟨a, ha⟩ := this
      rw [ha, has]
      exact ⟨_, rfl⟩
    · exact ⟨as, has⟩

/-- For every relation and all its members, whatever GEOS says: the builder terminates and returns
areas (ids below 2^62 in size). -/
theorem build_total (env : BuildEnv) (hsort : env.SortOk) (r : Relation) (members : List (Option Way))
    (hr : SmallId r.obj.id) (hm : ∀ w, some w ∈ members → SmallId w.obj.id) :
    ∃ as, buildAreas env r members = .ok as := by
  have har : ∃ a, Area.ofRelation r = .ok a := by
    unfold SmallId at hr
    norm_num at hr
    have : areaIdOfRelation r.obj.id = some (r.obj.id * 2 + sgn r.obj.id) := by
      rw [areaIdOfRelation_eq_some]
      have hs : -1 ≤ sgn r.obj.id ∧ sgn r.obj.id ≤ 1 := by
        unfold sgn
        split <;> split <;> omega
      exact ⟨by simp only [InS64]; omega, by simp only [InS64]; omega, rfl⟩
    exact ⟨_, by simp [Area.ofRelation, this, Except.map]; rfl⟩
  obtain ⟨area, ha⟩ := har
  unfold buildAreas
  rw [ha]
  simp only
  obtain ⟨ws, w1, w2, w3, -⟩ := assembleWays_ways env.repair members [] area.obj.timestamp
  rw [w1]
  rcases makeRings_spec env.toRingEnv hsort ws w3 with ⟨h, -⟩ | h | ⟨s, fill, h, hways, -⟩
  · rw [h]; exact ⟨_, rfl⟩
  · rw [h]; exact ⟨_, rfl⟩
  · rw [h]
    simp only
    have hid : ∀ w ∈ s.ways, SmallId w.way.obj.id := by
      intro w hw
      have : w.way ∈ ws ++ fillWays fill := by rw [← hways]; exact List.mem_map.2 ⟨w, hw, rfl⟩
      rcases List.mem_append.1 this with h | h
      · apply hm
        have := w2.subset h
        simpa using this
      · simp only [fillWays, List.mem_map] at h
        obtain ⟨p, -, he⟩ := h
        rw [← he]
        simp [Way.new, Obj.new, SmallId]
    obtain ⟨inner, hi⟩ := innerAreas_ok area.obj.tags s (determineRings s.rings.length (env.contains s)) hid
      (List.range s.rings.length)
    rw [hi]
    simp only
    split
    · exact ⟨_, rfl⟩
    · split
      · exact ⟨_, rfl⟩
      · split <;> exact ⟨_, rfl⟩

theorem memberWays_slots (read : List OsmObj) (r : Relation) :
    ∃ ws, memberWays (slots mpCfg read r) = .ok ws ∧
      ∀ w, some w ∈ ws → .way w ∈ read := by
  unfold slots
  generalize r.members = ms
  induction ms with
  | nil => exact ⟨[], rfl, by simp⟩
  | cons m ms ih =>
    obtain ⟨ws, h1, h2⟩ := ih
    rw [List.map_cons]
    unfold memberWays
    by_cases hk : mpCfg.keep r m = true
    · rw [if_pos hk]
      cases hf : read.find? (refersTo m) with
      | none =>
        simp only [memberWay, h1]
        exact ⟨_, rfl, by simpa using h2⟩
      | some o =>
        have hm := List.mem_of_find?_eq_some hf
        have hr := List.find?_some hf
        have hk : m.type = 'w' := by simpa [mpCfg] using hk
        cases o with
        | node n => simp [refersTo, hk] at hr
        | relation r => simp [refersTo, hk] at hr
        | way w =>
          simp only [memberWay, h1]
          refine ⟨_, rfl, ?_⟩
          intro v hv
          simp only [List.mem_cons, Option.some.injEq] at hv
          rcases hv with rfl | hv
          · exact hm
          · exact h2 v hv
    · rw [if_neg hk]
      simp only [memberWay, h1]
      exact ⟨_, rfl, by simpa using h2⟩

/-- C43 for the multipolygon assembler as a whole (partial, as above): both passes over the file
succeed, with all the relations built on the way, and the handler behind the assembler gets all its
calls in order, besides those for areas. -/
theorem mp_assembler_total_partial (env : BuildEnv) (hsort : env.SortOk) (m : Meta) (ns : List OsmObj)
    (ws : List Way) (rs : List Relation) (hn : ∀ o ∈ ns, o.type = .node)
    (hd : DistinctObjects (ns ++ ws.map OsmObj.way ++ rs.map OsmObj.relation)) (s : Asm)
    (h1 : Asm.AfterPass1 mpCfg (protocol m (ns ++ ws.map OsmObj.way ++ rs.map OsmObj.relation)) s)
    (hnodes : ∀ w ∈ ws, w.nodes ≠ []) (hid : ∀ w ∈ ws, SmallId w.obj.id)
    (hidr : ∀ r ∈ rs, SmallId r.obj.id) :
    ∃ s' ev calls, s.pass2 mpCfg (protocol m (ns ++ ws.map OsmObj.way ++ rs.map OsmObj.relation)) = .ok (s', ev) ∧
      mpCalls env ev = .ok calls ∧
      calls.filterMap (fun | .call c => some c | _ => none) =
        protocol m (ns ++ ws.map OsmObj.way ++ rs.map OsmObj.relation) := by
  obtain ⟨s1, ev1, k1, k2, k3, k4, -⟩ := assembler_file_partial mpCfg m ns (ws.map OsmObj.way) rs hn
    (by intro o ho; obtain ⟨w, -, rfl⟩ := List.mem_map.1 ho; rfl) hd s h1
  obtain ⟨s2, ev2, l1, l2, l3⟩ := closed_ways_areas_partial env m ns ws rs hn hd s h1 hnodes hid
  rw [k1] at l1
  simp only [Except.ok.injEq, Prod.mk.injEq] at l1
  obtain ⟨rfl, rfl⟩ := l1
  -- every hook succeeds and passes on its call
  have hooks : ∀ e ∈ ev1, ∃ cs, mpHook env e = .ok cs ∧
      cs.filterMap (fun | .call c => some c | _ => none) = (match e with | .next c => [c] | _ => []) := by
    intro e he
    cases e with
    | next c => exact ⟨_, rfl, rfl⟩
    | allAvailable => exact ⟨_, rfl, rfl⟩
    | notInAny o =>
      have : o ∈ notInAnys ev1 := List.mem_filterMap.2 ⟨_, he, rfl⟩
      rw [l2] at this
      obtain ⟨w, hw, rfl⟩ := List.mem_map.1 this
      refine ⟨_, l3 w (List.mem_of_mem_filter hw), ?_⟩
      split <;> rfl
    | complete r ms =>
      have : (r, ms) ∈ completions ev1 := List.mem_filterMap.2 ⟨_, he, rfl⟩
      have := k2.subset this
      obtain ⟨r', hr', e'⟩ := List.mem_map.1 this
      simp only [Prod.mk.injEq] at e'
      obtain ⟨rfl, rfl⟩ := e'
      have hr'' : r' ∈ rs := List.mem_of_mem_filter (List.mem_of_mem_filter hr')
      obtain ⟨mw, q1, q2⟩ := memberWays_slots
        ((ns ++ ws.map OsmObj.way ++ rs.map OsmObj.relation).filter (fun o => mpCfg.enabled o.type)) r'
      obtain ⟨as, has⟩ := build_total env hsort r' mw (hidr r' hr'') (by
        intro w hw
        have := List.mem_of_mem_filter (q2 w hw)
        simp only [List.mem_append, List.mem_map, OsmObj.way.injEq, exists_eq_right, reduceCtorEq,
          and_false, exists_false, or_false] at this
        rcases this with h | h
        · have := hn _ h; simp [OsmObj.type] at this
        · exact hid w h)
      refine ⟨as.map .area, ?_, ?_⟩
      · simp only [mpHook]
        rw [q1]
        simp only [has, Except.map]
      · rw [List.filterMap_map]
        simp [Function.comp_def]
  have gen : ∀ es : List AsmEvent, (∀ e ∈ es, ∃ cs, mpHook env e = .ok cs ∧
      cs.filterMap (fun | .call c => some c | _ => none) = (match e with | .next c => [c] | _ => [])) →
      ∃ calls, mpCalls env es = .ok calls ∧
        calls.filterMap (fun | .call c => some c | _ => none) = nextCalls es := by
    intro es
    induction es with
    | nil => intro _; exact ⟨[], rfl, rfl⟩
    | cons e es ih =>
      intro h
      obtain ⟨cs, c1, c2⟩ := h e (by simp)
      obtain ⟨rest, r1, r2⟩ := ih (fun e' he' => h e' (by simp [he']))
      refine ⟨cs ++ rest, by unfold mpCalls; rw [c1, r1]; rfl, ?_⟩
      rw [List.filterMap_append, c2, r2]
      cases e <;> rfl
  obtain ⟨calls, g1, g2⟩ := gen ev1 hooks
  exact ⟨s1, ev1, calls, k1, g1, by rw [g2, k4]⟩

/-! ### C63, C64: the areas of a relation -/

namespace Spec

/-- The tags of the area of a relation, from the tags `rel` of the relation and the ways of the outer
rings: the tags of the relation come first and stay as they are.  A relation without tags that
count gets in addition those of the first way that has any; a relation with such tags only if its
outline is a single way, and then only those whose key it does not have. -/
def areaTags (rel : TagList) (outer : List (List Way)) : TagList :=
  if realTags rel = [] then
    match outer.flatten.find? (fun w => decide (realTags w.obj.tags ≠ [])) with
    | some w => rel ++ firstOfEach (realTags w.obj.tags)
    | none => rel
  else
    match outer with
    | [[w]] => rel ++ firstOfEach ((realTags w.obj.tags).filter fun t => decide (∀ u ∈ rel, u.key ≠ t.key))
    | _ => rel

/-- An inner ring gets an area of its own: it consists of one way that has tags that count and that
differ both from the tags of the relation and, if the surrounding ring is a single way too, from the
tags of that way. -/
def ExtraArea (rel : TagList) (s : RingState) (t : RingTree) (j : Nat) (w : Way) : Prop :=
  t.isInner j = true ∧ ringWays s j = [w] ∧ realTags w.obj.tags ≠ [] ∧
  sameTags w.obj.tags rel = false ∧
  ∀ p pw, t.containedBy j = some p → ringWays s p = [pw] → sameTags w.obj.tags pw.obj.tags = false

/-- The numbers of the outer rings. -/
def outerRings (n : Nat) (t : RingTree) : List Nat := (List.range n).filter fun j => !t.isInner j

end Spec

theorem untagged_real (tags : TagList) : untagged tags = true ↔ realTags tags = [] := by
  rw [untagged_iff]
  unfold realTags
  rw [List.filter_eq_nil_iff]
  simp

theorem untagged_real_false (tags : TagList) : untagged tags = false ↔ realTags tags ≠ [] := by
  rw [← Bool.not_eq_true, untagged_real]

theorem sameTagsLoop_keys (b : TagList) : ∀ (m m' : StrMap), (∀ t ∈ realTags b, t.value ≠ "") →
    sameTagsLoop b m = some m' → ∀ t ∈ realTags b, m.get t.key ≠ none := by
  induction b with
  | nil => intro m m' _ _ t ht; simp [realTags] at ht
  | cons x xs ih =>
    intro m m' hv h t ht
    unfold sameTagsLoop at h
    rw [realTags_cons] at hv ht
    cases hi : ignoreTag x.key
    · simp only [hi, Bool.not_false, if_true, Bool.false_eq_true, if_false] at h hv ht
      split at h
      · cases h
      · rename_i hx
        push Not at hx
        rcases List.mem_cons.1 ht with rfl | ht
        · intro hn
          rw [hn] at hx
          exact hv t (by simp) hx.symm
        · have := ih _ _ (fun t ht => hv t (by simp [ht])) h t ht
          rw [lookup_filter_ne] at this
          split at this
          · exact absurd rfl this
          · exact this
    · simp only [hi, Bool.not_true, Bool.false_eq_true, if_false, if_true] at h hv ht
      exact ih _ _ hv h t ht

theorem sameTags_keys {a b : TagList} (hv : ∀ t ∈ realTags b, t.value ≠ "") (h : sameTags a b = true) :
    ∀ t ∈ realTags b, ∃ u ∈ realTags a, u.key = t.key := by
  intro t ht
  unfold sameTags at h
  split at h
  · cases h
  · rename_i m' hm
    have := sameTagsLoop_keys b _ _ hv hm t ht
    rw [Ne, tagMap_none] at this
    push Not at this
    exact this

theorem merge_untagged {area way : TagList} (h : realTags area = []) :
    (mergeTags area way).1 = area ++ firstOfEach (realTags way) := by
  rw [merge_tags_exact]
  congr 2
  rw [List.filter_eq_self]
  intro t ht
  simp only [decide_eq_true_eq]
  intro u hu e
  have h1 := (untagged_iff area).1 ((untagged_real area).2 h) u hu
  have h2 : t.key ∉ ignoredKeys := by unfold realTags at ht; simpa using (List.mem_filter.1 ht).2
  exact h2 (e ▸ h1)

theorem firstOfEach_nil {l : TagList} : firstOfEach l = [] ↔ l = [] := by
  cases l <;> simp [firstOfEach]

theorem firstOfEach_real (l : TagList) : realTags (firstOfEach (realTags l)) = firstOfEach (realTags l) := by
  have h := firstOfEach_filter (realTags l) (fun k => decide (k ∉ ignoredKeys))
  have e : ((realTags l).filter fun t => decide (t.key ∉ ignoredKeys)) = realTags l := by
    unfold realTags
    rw [List.filter_filter]
    simp
  rw [e] at h
  exact h

theorem fold_tagged (c len : Nat) (hc : ¬ (c = 1 ∧ len = 1)) (ways : List Way) (area : TagList)
    (h : realTags area ≠ []) : ways.foldl (outerWayTags c len) area = area := by
  induction ways with
  | nil => rfl
  | cons w ws ih =>
    have e : outerWayTags c len area w = area := by
      unfold outerWayTags
      rw [(untagged_real_false area).2 h, if_neg hc]
      simp
    rw [List.foldl_cons, e, ih]

theorem fold_untagged (c len : Nat) (hc : ¬ (c = 1 ∧ len = 1)) (ways : List Way) (area : TagList)
    (hv : ∀ w ∈ ways, ∀ t ∈ realTags w.obj.tags, t.value ≠ "")
    (h : realTags area = []) : ways.foldl (outerWayTags c len) area =
      match ways.find? (fun w => decide (realTags w.obj.tags ≠ [])) with
      | some w => area ++ firstOfEach (realTags w.obj.tags)
      | none => area := by
  induction ways with
  | nil => rfl
  | cons w ws ih =>
    rw [List.foldl_cons, List.find?_cons]
    by_cases hw : realTags w.obj.tags = []
    · have e : outerWayTags c len area w = area := by
        unfold outerWayTags
        rw [(untagged_real _).2 hw]
        simp
      rw [e, ih (fun w hw => hv w (by simp [hw]))]
      simp [hw]
    · have hs : sameTags area w.obj.tags = false := by
        rw [← Bool.not_eq_true]
        intro hs
        obtain ⟨t, ts, ht⟩ := List.exists_cons_of_ne_nil hw
        obtain ⟨u, hu, -⟩ := sameTags_keys (hv w (by simp)) hs t (by rw [ht]; simp)
        rw [h] at hu
        cases hu
      have e : outerWayTags c len area w = area ++ firstOfEach (realTags w.obj.tags) := by
        unfold outerWayTags
        rw [(untagged_real_false _).2 hw, hs, (untagged_real _).2 h, merge_untagged h]
        simp
      rw [e, fold_tagged c len hc]
      · simp [hw]
      · have : realTags (area ++ firstOfEach (realTags w.obj.tags)) =
            realTags area ++ realTags (firstOfEach (realTags w.obj.tags)) := by
          unfold realTags; exact List.filter_append ..
        rw [this, h, firstOfEach_real, List.nil_append]
        exact fun e => hw (firstOfEach_nil.1 e)

theorem fold_areaTags (rings : List (List Way)) (rel : TagList)
    (hv : ∀ ws ∈ rings, ∀ w ∈ ws, ∀ t ∈ realTags w.obj.tags, t.value ≠ "") :
    rings.foldl (fun tags ws => ws.foldl (outerWayTags rings.length ws.length) tags) rel =
      areaTags rel rings := by
  by_cases hone : ∃ w, rings = [[w]]
  · obtain ⟨w, rfl⟩ := hone
    simp only [List.foldl_cons, List.foldl_nil, List.length_cons, List.length_nil, Nat.zero_add]
    have hw : ∀ t ∈ realTags w.obj.tags, t.value ≠ "" := hv [w] (by simp) w (by simp)
    unfold areaTags outerWayTags
    by_cases hr : realTags rel = []
    · rw [if_pos hr, (untagged_real _).2 hr]
      by_cases hwr : realTags w.obj.tags = []
      · rw [(untagged_real _).2 hwr]
        simp [hwr]
      · have hs : sameTags rel w.obj.tags = false := by
          rw [← Bool.not_eq_true]
          intro hs
          obtain ⟨t, ts, ht⟩ := List.exists_cons_of_ne_nil hwr
          obtain ⟨u, hu, -⟩ := sameTags_keys hw hs t (by rw [ht]; simp)
          rw [hr] at hu
          cases hu
        rw [(untagged_real_false _).2 hwr, hs, merge_untagged hr]
        simp [hwr]
    · rw [if_neg hr, (untagged_real_false _).2 hr]
      have none_added : (∀ t ∈ realTags w.obj.tags, ∃ u ∈ rel, u.key = t.key) →
          (realTags w.obj.tags).filter (fun t => decide (∀ u ∈ rel, u.key ≠ t.key)) = [] := by
        intro h
        rw [List.filter_eq_nil_iff]
        intro t ht hd
        obtain ⟨u, hu, e⟩ := h t ht
        exact (of_decide_eq_true hd) u hu e
      cases hu : untagged w.obj.tags
      · cases hs : sameTags rel w.obj.tags
        · rw [merge_tags_exact]; simp
        · have e := none_added (by
            intro t ht
            obtain ⟨u, hu, e⟩ := sameTags_keys hw hs t ht
            exact ⟨u, List.mem_of_mem_filter hu, e⟩)
          simp only [e, firstOfEach, List.append_nil, Bool.false_eq_true, if_false, if_true]
      · have e := none_added (by rw [(untagged_real _).1 hu]; simp)
        simp only [e, firstOfEach, List.append_nil, if_true]
  · -- no ring is the only ring and a single way
    have hc : ∀ ws ∈ rings, ¬ (rings.length = 1 ∧ ws.length = 1) := by
      rintro ws hws ⟨h1, h2⟩
      obtain ⟨a, rfl⟩ := List.length_eq_one_iff.1 h1
      obtain ⟨b, rfl⟩ := List.length_eq_one_iff.1 h2
      simp only [List.mem_singleton] at hws
      exact hone ⟨b, by rw [hws]⟩
    unfold areaTags
    generalize rings.length = c at hc ⊢
    by_cases hr : realTags rel = []
    · rw [if_pos hr]
      clear hone
      induction rings with
      | nil => rfl
      | cons ws rings ih =>
        rw [List.foldl_cons, List.flatten_cons, List.find?_append,
          fold_untagged c _ (hc ws (by simp)) ws rel (hv ws (by simp)) hr]
        cases hf : ws.find? (fun w => decide (realTags w.obj.tags ≠ [])) with
        | none =>
          simp only [Option.none_or]
          exact ih (fun ws h => hv ws (by simp [h])) (fun ws h => hc ws (by simp [h]))
        | some w =>
          simp only [Option.some_or]
          have hwr := List.find?_some hf
          have htag : realTags (rel ++ firstOfEach (realTags w.obj.tags)) ≠ [] := by
            have : realTags (rel ++ firstOfEach (realTags w.obj.tags)) =
                realTags rel ++ realTags (firstOfEach (realTags w.obj.tags)) := by
              unfold realTags; exact List.filter_append ..
            rw [this, hr, firstOfEach_real, List.nil_append]
            exact fun e => (of_decide_eq_true hwr) (firstOfEach_nil.1 e)
          have hc' : ∀ ws ∈ rings, ¬ (c = 1 ∧ ws.length = 1) := fun ws h => hc ws (by simp [h])
          generalize rel ++ firstOfEach (realTags w.obj.tags) = area at htag ⊢
          clear ih hf hc hv
          induction rings with
          | nil => rfl
          | cons v vs ih =>
            rw [List.foldl_cons, fold_tagged c _ (hc' v (by simp)) _ _ htag]
            exact ih (fun ws h => hc' ws (by simp [h]))
    · rw [if_neg hr]
      split
      · exact absurd ⟨_, rfl⟩ hone
      clear hv
      rename_i hno
      clear hno hone
      induction rings with
      | nil => rfl
      | cons v vs ih =>
        rw [List.foldl_cons, fold_tagged c _ (hc v (by simp)) _ _ hr]
        exact ih (fun ws h => hc ws (by simp [h]))

theorem outerTags_eq (env : BuildEnv) (s : RingState) (t : RingTree) (c : Nat) (is : List Nat) :
    ∀ tags, outerTags env s t c is tags =
      if ∀ i ∈ is.filter (fun j => !t.isInner j), env.polygonOk s i = true then
        some (((is.filter fun j => !t.isInner j).map (ringWays s)).foldl
          (fun tags ws => ws.foldl (outerWayTags c ws.length) tags) tags)
      else none := by
  induction is with
  | nil => intro tags; simp [outerTags]
  | cons i is ih =>
    intro tags
    unfold outerTags
    cases hi : t.isInner i
    · cases hp : env.polygonOk s i
      · simp [hi, hp]
      · simp only [hi, Bool.false_eq_true, if_false, hp, Bool.not_true]
        rw [ih]
        simp [hi, hp]
    · simp only [if_true]
      rw [ih]
      simp [hi]

theorem innerArea_spec (rel : TagList) (s : RingState) (t : RingTree) (j : Nat) (hin : t.isInner j = true)
    (hid : ∀ w ∈ ringWays s j, SmallId w.obj.id) :
    ∃ as, innerArea rel s t j = .ok as ∧
      ((∃ w, ExtraArea rel s t j w ∧ as = [⟨{ w.obj with id := w.obj.id * 2 }, w.nodes⟩]) ∨
       ((¬ ∃ w, ExtraArea rel s t j w) ∧ as = [])) := by
  have hno : ∀ w, ringWays s j = [w] → ¬ ExtraArea rel s t j w → ¬ ∃ w, ExtraArea rel s t j w := by
    rintro w hw hne ⟨v, hv⟩
    have := hv.2.1
    rw [hw] at this
    simp only [List.cons.injEq, and_true] at this
    subst this
    exact hne hv
  unfold innerArea
  split
  · rename_i w hw
    have hsm := areaOfWay_small (hid w (by rw [hw]; simp))
    split
    · rename_i hu
      exact ⟨_, rfl, .inr ⟨hno w hw (fun h => h.2.2.1 ((untagged_real _).1 hu)), rfl⟩⟩
    · rename_i hu
      have hu : realTags w.obj.tags ≠ [] := (untagged_real_false _).1 (by simpa using hu)
      split
      · rename_i hs
        exact ⟨_, rfl, .inr ⟨hno w hw (fun h => by rw [h.2.2.2.1] at hs; cases hs), rfl⟩⟩
      · rename_i hs
        split
        · rename_i hc
          simp [RingTree.isInner, hc] at hin
        · rename_i p hp
          split
          · rename_i pw hpw
            split
            · rename_i hs2
              exact ⟨_, rfl, .inr ⟨hno w hw (fun h => by
                rw [h.2.2.2.2 p pw hp hpw] at hs2; cases hs2), rfl⟩⟩
            · rename_i hs2
              rw [hsm]
              refine ⟨_, rfl, .inl ⟨w, ⟨hin, hw, hu, by simpa using hs, ?_⟩, rfl⟩⟩
              intro p' pw' h1 h2
              rw [hp] at h1
              cases h1
              rw [hpw] at h2
              cases h2
              simpa using hs2
          · rename_i hpw
            rw [hsm]
            refine ⟨_, rfl, .inl ⟨w, ⟨hin, hw, hu, by simpa using hs, ?_⟩, rfl⟩⟩
            intro p' pw' h1 h2
            rw [hp] at h1
            cases h1
            exact absurd h2 (hpw pw')
  · rename_i hw
    refine ⟨_, rfl, .inr ⟨?_, rfl⟩⟩
    rintro ⟨w, h⟩
    exact hw w h.2.1

open Classical in
/-- The areas for the inner rings, in the order of the rings. -/
theorem innerAreas_spec (rel : TagList) (s : RingState) (t : RingTree)
    (hid : ∀ j, ∀ w ∈ ringWays s j, SmallId w.obj.id) (js : List Nat) :
    innerAreas rel s t js = .ok (js.filterMap fun j =>
      if h : ∃ w, ExtraArea rel s t j w then
        some ⟨{ h.choose.obj with id := h.choose.obj.id * 2 }, h.choose.nodes⟩
      else none) := by
  induction js with
  | nil => rfl
  | cons j js ih =>
    unfold innerAreas
    rw [List.filterMap_cons]
    split
    · rename_i hin
      obtain ⟨as, h1, h2⟩ := innerArea_spec rel s t j hin (hid j)
      rw [h1]
      simp only
      rw [ih]
      simp only [Except.map]
      rcases h2 with ⟨w, hw, rfl⟩ | ⟨hn, rfl⟩
      · have he : ∃ w, ExtraArea rel s t j w := ⟨w, hw⟩
        have : he.choose = w := by
          have h := he.choose_spec.2.1
          rw [hw.2.1] at h
          simpa using h.symm
        rw [dif_pos he, this]
        rfl
      · rw [dif_neg hn]
        rfl
    · rename_i hin
      rw [dif_neg, ih]
      rintro ⟨w, h⟩
      exact hin h.1


theorem outerCount_eq (n : Nat) (t : RingTree) : outerCount n t = (outerRings n t).length := by
  unfold outerCount outerRings
  rw [List.countP_eq_length_filter]

theorem areaIdOfRelation_small {id : Int} (h : SmallId id) :
    areaIdOfRelation id = some (id * 2 + sgn id) := by
  unfold SmallId at h
  norm_num at h
  rw [areaIdOfRelation_eq_some]
  have hs : -1 ≤ sgn id ∧ sgn id ≤ 1 := by
    unfold sgn
    split <;> split <;> omega
  exact ⟨by simp only [InS64]; omega, by simp only [InS64]; omega, rfl⟩

/-- C63 and C64 (all tags of the ways have values, ids are below 2^62 in size): when rings are found,
the result consists of one area for each inner ring that is to get one, made from its only way, and,
if GEOS accepts the polygons and the multipolygon, of the area of the relation. -/
theorem build_areas_spec (env : BuildEnv) (hsort : env.SortOk) (r : Relation) (members : List (Option Way))
    (hr : SmallId r.obj.id) (hm : ∀ w, some w ∈ members → SmallId w.obj.id)
    (hv : ∀ w, some w ∈ members → ∀ t ∈ w.obj.tags, t.value ≠ "") :
    ∃ ws ts, (assembleWays env.repair members [] r.obj.timestamp).1 = ws.map WayInfo.new ∧
      ws.Sublist (members.filterMap id) ∧
      (env.repair = false → ws = (members.filterMap id).filter fun w => !w.nodes.isEmpty) ∧
      r.obj.timestamp ≤ ts ∧ (∀ w ∈ ws, w.obj.timestamp ≤ ts) ∧
      (ts = r.obj.timestamp ∨ ∃ w ∈ ws, w.obj.timestamp = ts) ∧
      ((∃ msg, makeRings env.toRingEnv (ws.map WayInfo.new) = .error (.exn msg) ∧
          buildAreas env r members = .ok []) ∨
       ∃ s, makeRings env.toRingEnv (ws.map WayInfo.new) = .ok s ∧
        (let n := s.rings.length
         let t := determineRings n (env.contains s)
         ∃ extra : List (Nat × Way),
          (∀ j, j ∈ extra.map Prod.fst ↔ j < n ∧ ∃ w, ExtraArea r.obj.tags s t j w) ∧
          (extra.map Prod.fst).Pairwise (· < ·) ∧
          (∀ e ∈ extra, ExtraArea r.obj.tags s t e.1 e.2) ∧
          buildAreas env r members = .ok (
            extra.map (fun e => ⟨{ e.2.obj with id := e.2.obj.id * 2 }, e.2.nodes⟩) ++
            if (∀ i ∈ outerRings n t, env.polygonOk s i = true) ∧ outerRings n t ≠ [] ∧
                env.multiOk s = true then
              [⟨{ r.obj with
                  id := r.obj.id * 2 + sgn r.obj.id
                  timestamp := ts
                  tags := areaTags r.obj.tags ((outerRings n t).map (ringWays s)) }, []⟩]
            else []))) := by
  have har : Area.ofRelation r = .ok ⟨{ r.obj with id := r.obj.id * 2 + sgn r.obj.id }, []⟩ := by
    simp [Area.ofRelation, areaIdOfRelation_small hr, Except.map]
  obtain ⟨ws, w1, w2, w3, w4, -⟩ := assembleWays_ways env.repair members [] r.obj.timestamp
  obtain ⟨t1, t2, t3⟩ := assembleWays_timestamp env.repair members [] r.obj.timestamp
  have hbuild : buildAreas env r members =
      match makeRings env.toRingEnv (ws.map WayInfo.new) with
      | .error (.exn _) => .ok []
      | .error e => .error e
      | .ok s =>
        let n := s.rings.length
        let t := determineRings n (env.contains s)
        match innerAreas r.obj.tags s t (List.range n) with
        | .error e => .error e
        | .ok inner =>
          let count := outerCount n t
          match outerTags env s t count (List.range n) r.obj.tags with
          | none => .ok inner
          | some tags =>
            if count = 0 then .ok inner
            else if !env.multiOk s then .ok inner
            else .ok (inner ++ [⟨{ r.obj with
              id := r.obj.id * 2 + sgn r.obj.id
              timestamp := (assembleWays env.repair members [] r.obj.timestamp).2
              tags := tags }, []⟩]) := by
    unfold buildAreas
    rw [har]
    simp only
    rw [w1]
    rfl
  have hw : ∀ w ∈ (assembleWays env.repair members [] r.obj.timestamp).1, ∃ v ∈ ws, w.way = v := by
    rw [w1]
    intro w hw
    obtain ⟨v, hv, rfl⟩ := List.mem_map.1 hw
    exact ⟨v, hv, rfl⟩
  refine ⟨ws, (assembleWays env.repair members [] r.obj.timestamp).2, w1, w2, w4, t1, ?_, ?_, ?_⟩
  · intro w hw
    exact t2 (WayInfo.new w) (by rw [w1]; exact List.mem_map_of_mem hw)
  · rcases t3 with h | ⟨w, h1, h2⟩
    · exact .inl h
    · obtain ⟨v, hv, e⟩ := hw w h1
      exact .inr ⟨v, hv, by rw [← e]; exact h2⟩
  rcases makeRings_spec env.toRingEnv hsort ws w3 with ⟨h, -⟩ | h | ⟨s, fill, h, hways, -⟩
  · exact .inl ⟨_, h, by rw [hbuild, h]⟩
  · exact .inl ⟨_, h, by rw [hbuild, h]⟩
  · refine .inr ⟨s, h, ?_⟩
    have hmem : ∀ j, ∀ w ∈ ringWays s j, some w ∈ members ∨ ∃ p ∈ fill, { Way.new with nodes := [p.1, p.2] } = w := by
      intro j w hw
      simp only [ringWays, List.mem_filterMap, Option.map_eq_some_iff] at hw
      obtain ⟨k, -, v, hv, rfl⟩ := hw
      have : v.way ∈ ws ++ fillWays fill := by
        rw [← hways]; exact List.mem_map.2 ⟨v, List.mem_of_getElem? hv, rfl⟩
      rcases List.mem_append.1 this with h | h
      · left
        have := w2.subset h
        simpa using this
      · right
        simpa only [fillWays, List.mem_map] using h
    have hid : ∀ j, ∀ w ∈ ringWays s j, SmallId w.obj.id := by
      intro j w hw
      rcases hmem j w hw with h | ⟨p, -, rfl⟩
      · exact hm w h
      · simp [Way.new, Obj.new, SmallId]
    have hval : ∀ j, ∀ w ∈ ringWays s j, ∀ t ∈ realTags w.obj.tags, t.value ≠ "" := by
      intro j w hw t ht
      rcases hmem j w hw with h | ⟨p, -, rfl⟩
      · exact hv w h t (List.mem_of_mem_filter ht)
      · simp [Way.new, Obj.new, realTags] at ht
    simp only
    generalize ht : determineRings s.rings.length (env.contains s) = t
    have hinner := innerAreas_spec r.obj.tags s t hid (List.range s.rings.length)
    generalize hn : s.rings.length = n at ht hinner
    rw [h] at hbuild
    simp only [hn, ht, hinner, outerCount_eq, outerTags_eq] at hbuild
    classical
    refine ⟨(List.range n).filterMap fun j =>
      if h : ∃ w, ExtraArea r.obj.tags s t j w then some (j, h.choose) else none, ?_, ?_, ?_, ?_⟩
    · intro j
      simp only [List.mem_map, List.mem_filterMap, List.mem_range, Option.dite_none_right_eq_some,
        Option.some.injEq]
      constructor
      · rintro ⟨e, ⟨i, hi, hx, rfl⟩, rfl⟩
        exact ⟨hi, hx⟩
      · rintro ⟨hj, hx⟩
        exact ⟨_, ⟨j, hj, hx, rfl⟩, rfl⟩
    · have : ((List.range n).filterMap fun j =>
          if h : ∃ w, ExtraArea r.obj.tags s t j w then some (j, h.choose) else none).map Prod.fst =
          (List.range n).filter fun j => decide (∃ w, ExtraArea r.obj.tags s t j w) := by
        rw [List.map_filterMap, ← List.filterMap_eq_filter]
        congr 1
        funext j
        by_cases hx : ∃ w, ExtraArea r.obj.tags s t j w
        · simp [hx, Option.guard]
        · simp [hx, Option.guard]
      rw [this]
      exact List.Pairwise.sublist List.filter_sublist List.pairwise_lt_range
    · intro e he
      simp only [List.mem_filterMap, List.mem_range, Option.dite_none_right_eq_some,
        Option.some.injEq] at he
      obtain ⟨i, hi, hx, rfl⟩ := he
      exact hx.choose_spec
    · rw [hbuild, List.map_filterMap]
      have e1 : (fun j => Option.map (fun e : Nat × Way => (⟨{ e.2.obj with id := e.2.obj.id * 2 }, e.2.nodes⟩ : Area))
          (if h : ∃ w, ExtraArea r.obj.tags s t j w then some (j, h.choose) else none)) =
          fun j => if h : ∃ w, ExtraArea r.obj.tags s t j w then
            some (⟨{ h.choose.obj with id := h.choose.obj.id * 2 }, h.choose.nodes⟩ : Area) else none := by
        funext j
        split <;> rfl
      rw [e1]
      have e2 : (List.range n).filter (fun j => !t.isInner j) = outerRings n t := rfl
      rw [e2]
      have e3 := fold_areaTags ((outerRings n t).map (ringWays s)) r.obj.tags (by
        intro l hl w hw
        obtain ⟨j, -, rfl⟩ := List.mem_map.1 hl
        exact hval j w hw)
      rw [List.length_map] at e3
      rw [e3]
      by_cases hp : ∀ i ∈ outerRings n t, env.polygonOk s i = true
      · rw [if_pos hp]
        simp only
        by_cases hz : outerRings n t = []
        · simp [hz]
        · have hz' : ¬ (outerRings n t).length = 0 := fun h => hz (List.length_eq_zero_iff.1 h)
          rw [if_neg hz']
          cases hmo : env.multiOk s
          · simp
          · rw [if_neg (by simp), if_pos ⟨hp, hz, rfl⟩]
      · rw [if_neg hp]
        simp [hp]

/-- For the examples: a ring whose first node has a small number contains those with larger ones;
all polygons are valid, the multipolygon as given. -/
def exampleBuild (ok : Bool) : BuildEnv where
  toRingEnv := exampleEnv false
  contains s i j := match (ringWays s i).head?.bind (·.nodes.head?), (ringWays s j).head?.bind (·.nodes.head?) with
    | some a, some b => decide (a.ref < b.ref)
    | _, _ => false
  polygonOk _ _ := true
  multiOk _ := ok

def taggedWay (id : Int) (refs : List Int) (tags : TagList) : Way :=
  { wayThrough refs with obj := { (wayThrough refs).obj with id := id, tags := tags } }

/-- A lake with an island that is a forest.  The relation has no tags that count, it gets those of the
first outer way; the island becomes an area as well, also when the multipolygon is refused. -/
example :
    let r : Relation := ⟨{ Obj.new with id := 5, tags := [⟨"type", "multipolygon"⟩] }, []⟩
    let members := [some (taggedWay 1 [1, 2, 3] [⟨"natural", "water"⟩]), none,
      some (taggedWay 2 [1, 4, 3] []), some (taggedWay 3 [7, 8, 9, 7] [⟨"natural", "wood"⟩])]
    (buildAreas (exampleBuild true) r members).map (fun as => as.map fun a => (a.obj.id, a.obj.tags)) =
      .ok [(6, [⟨"natural", "wood"⟩]), (11, [⟨"type", "multipolygon"⟩, ⟨"natural", "water"⟩])] ∧
    (buildAreas (exampleBuild false) r members).map (fun as => as.map fun a => a.obj.id) = .ok [6] := by
  decide +kernel

/-- The hypotheses of the theorems above for this example. -/
example : (exampleBuild true).SortOk ∧ SmallId 5 ∧
    ∀ w, some w ∈ [some (taggedWay 1 [1, 2, 3] [⟨"natural", "water"⟩]), none,
      some (taggedWay 2 [1, 4, 3] []), some (taggedWay 3 [7, 8, 9, 7] [⟨"natural", "wood"⟩])] →
      SmallId w.obj.id ∧ ∀ t ∈ w.obj.tags, t.value ≠ "" := by
  refine ⟨exampleEnv_sort false, by norm_num [SmallId], ?_⟩
  intro w hw
  simp only [List.mem_cons, Option.some.injEq, reduceCtorEq, List.not_mem_nil, or_false, false_or] at hw
  rcases hw with rfl | rfl | rfl <;> simp [SmallId, taggedWay]

/-- The rules for tags: a tagged relation with one outer way, with two. -/
example :
    areaTags [⟨"type", "multipolygon"⟩, ⟨"name", "x"⟩]
      [[taggedWay 1 [1, 2, 3, 1] [⟨"name", "y"⟩, ⟨"natural", "water"⟩, ⟨"source", "z"⟩]]] =
      [⟨"type", "multipolygon"⟩, ⟨"name", "x"⟩, ⟨"natural", "water"⟩] ∧
    areaTags [⟨"type", "multipolygon"⟩, ⟨"name", "x"⟩]
      [[taggedWay 1 [1, 2, 3] [⟨"natural", "water"⟩], taggedWay 2 [3, 1] []]] =
      [⟨"type", "multipolygon"⟩, ⟨"name", "x"⟩] := by
  decide +kernel

/-- The hypotheses of `mp_assembler_total_partial` (and `closed_ways_areas_partial`) can be met: a file
with two ways, one of which is in a multipolygon relation. -/
example :
    let ws := [taggedWay 1 [1, 2, 3, 1] [], taggedWay 3 [7, 8, 9, 7] []]
    let rs := [(⟨{ Obj.new with id := 5, tags := [⟨"type", "multipolygon"⟩] }, [⟨'w', 1, ""⟩]⟩ : Relation)]
    let os := ws.map OsmObj.way ++ rs.map OsmObj.relation
    DistinctObjects ([] ++ ws.map OsmObj.way ++ rs.map OsmObj.relation) ∧
    (∃ s, Asm.AfterPass1 mpCfg (protocol (Meta.new false) os) s) ∧
    (∀ w ∈ ws, w.nodes ≠ []) ∧ (∀ w ∈ ws, SmallId w.obj.id) ∧ (∀ r ∈ rs, SmallId r.obj.id) ∧
    ws.map (fun w => decide (InMultipolygon rs w)) = [true, false] ∧
    ws.map (fun w => decide (IsClosedArea w)) = [true, true] := by
  intro ws rs os
  refine ⟨?_, ⟨((Asm.new mpCfg).pass1 mpCfg (protocol (Meta.new false) os)).1, ?_⟩, ?_, ?_, ?_,
    by decide +kernel, by decide +kernel⟩
  · simp [ws, rs, DistinctObjects, taggedWay, OsmObj.type, OsmObj.obj]
  · unfold Asm.AfterPass1
    simp only
    split
    · refine ⟨rfl, rfl, ?_⟩
      intro t
      refine ⟨List.Perm.refl _, ?_⟩
      cases t <;> decide +kernel
    · trivial
  · simp [ws, taggedWay, wayThrough]
  · simp [ws, taggedWay, SmallId]
  · simp [rs, SmallId]

end Osmium

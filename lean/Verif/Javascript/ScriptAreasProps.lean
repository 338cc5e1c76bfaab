import Verif.Javascript.ScriptAreas
import Verif.Javascript.ScriptShapesProps
import Verif.Examples.AreasProps

/-
Property C114: the areas in the shapefiles of shape_export.js.
-/
namespace Osmium
open Spec

namespace Spec

/-- The area has the tag `landuse` (with a value). -/
def HasLanduse (a : Area × Option Geom) : Prop := ∃ v, firstValue a.1.obj.tags "landuse" = some v ∧ v ≠ ""

/-- The polygons of the area: those of its geometry or, for an area that was made from a way, one through its nodes. -/
def AreaRings (a : Area × Option Geom) (ps : List (Coords × List Coords)) : Prop :=
  a.2 = some (.multi ps) ∨ (a.2 = none ∧ ps = [(a.1.nodes.map (·.position), [])])

/-- The shape and the record of an area. -/
def LanduseRow (ident : ShpObject → Nat) (toInt32 : JsString → Int) (fields : List DbfField) (a : Area × Option Geom)
    (r : ShpShape × DbfRow) : Prop :=
  (∃ ps, AreaRings a ps ∧ RingsShape ident ps r.1) ∧
  RowOf fields (fun column => if column = "id" then columnNumber a.1.obj.id
    else if column = "type" then columnTag toInt32 a.1.obj.tags "landuse" else .missing) r.2

end Spec

/-! ### Tags of areas -/

theorem firstOfEach_mem {l : TagList} {t : Tag} (h : t ∈ firstOfEach l) : t ∈ l := by
  induction l with
  | nil => exact h
  | cons a l ih =>
    rw [firstOfEach] at h
    rcases List.mem_cons.1 h with rfl | h
    · exact List.mem_cons_self
    · exact List.mem_cons_of_mem _ (ih (List.mem_of_mem_filter h))

theorem firstOfEach_nodup (l : TagList) : ((firstOfEach l).map Tag.key).Nodup := by
  induction l with
  | nil => exact List.nodup_nil
  | cons a l ih =>
    rw [firstOfEach, List.map_cons, List.nodup_cons]
    constructor
    · intro h
      obtain ⟨t, ht, hk⟩ := List.mem_map.1 h
      have := (List.mem_filter.1 ht).2
      simp [hk] at this
    · exact ih.sublist (List.Sublist.map _ List.filter_sublist)

theorem areaTags_from {rel : TagList} {outer : List (List Way)} (hd : (rel.map Tag.key).Nodup) :
    ((areaTags rel outer).map Tag.key).Nodup ∧
      ∀ t ∈ areaTags rel outer, t ∈ rel ∨ ∃ w ∈ outer.flatten, t ∈ w.obj.tags := by
  have app : ∀ (w : Way) (l : TagList), w ∈ outer.flatten → (∀ t ∈ l, t ∈ w.obj.tags) →
      (∀ t ∈ l, ∀ u ∈ rel, u.key ≠ t.key) →
      ((rel ++ firstOfEach l).map Tag.key).Nodup ∧
        ∀ t ∈ rel ++ firstOfEach l, t ∈ rel ∨ ∃ w ∈ outer.flatten, t ∈ w.obj.tags := by
    intro w l hw hl hk
    refine ⟨?_, fun t ht => ?_⟩
    · rw [List.map_append, List.nodup_append]
      refine ⟨hd, firstOfEach_nodup l, ?_⟩
      intro a ha b hb
      obtain ⟨u, hu, rfl⟩ := List.mem_map.1 ha
      obtain ⟨t, ht, rfl⟩ := List.mem_map.1 hb
      exact hk t (firstOfEach_mem ht) u hu
    · rcases List.mem_append.1 ht with h | h
      · exact .inl h
      · exact .inr ⟨w, hw, hl t (firstOfEach_mem h)⟩
  unfold areaTags
  split
  · rename_i hr
    split
    · rename_i w hf
      refine app w _ (List.mem_of_find?_eq_some hf) (fun t ht => List.mem_of_mem_filter ht) ?_
      intro t ht u hu e
      have h1 : t.key ∉ ignoredKeys := by simpa using (List.mem_filter.1 ht).2
      have h2 := List.filter_eq_nil_iff.1 hr u hu
      rw [e] at h2
      exact h2 (by simpa using h1)
    · exact ⟨hd, fun t ht => .inl ht⟩
  · split
    · rename_i w
      refine app w _ (by simp) (fun t ht => List.mem_of_mem_filter (List.mem_of_mem_filter ht)) ?_
      intro t ht u hu
      have := (List.mem_filter.1 ht).2
      simp only [decide_eq_true_eq] at this
      exact this u hu
    · exact ⟨hd, fun t ht => .inl ht⟩

/-- **C114, tags.**  Every tag of an area made for a relation is a tag of the relation or of one of the ways in the
file; if no object has two tags with the same key, no area has. -/
theorem relation_area_tags (env : WholeEnv) (hsort : env.ringEnv.SortOk) (ws : List Way) (r : Relation)
    (hr : SmallId r.obj.id) (hidw : ∀ w ∈ ws, SmallId w.obj.id) (hv : ∀ w ∈ ws, ∀ t ∈ w.obj.tags, t.value ≠ "")
    (hdr : (r.obj.tags.map Tag.key).Nodup) (hdw : ∀ w ∈ ws, (w.obj.tags.map Tag.key).Nodup) :
    ∀ a ∈ areasOfRelation env ws r, (a.1.obj.tags.map Tag.key).Nodup ∧
      ∀ t ∈ a.1.obj.tags, t ∈ r.obj.tags ∨ ∃ w ∈ ws, t ∈ w.obj.tags := by
  intro a ha
  unfold areasOfRelation at ha
  cases hb : buildWhole env r (wayMembers ws r) with
  | error e => rw [hb] at ha; cases ha
  | ok as =>
    rw [hb] at ha
    change a ∈ as at ha
    obtain ⟨vs, ts, s1, s2, -, -, -, -, s7⟩ := whole_areas env hsort r (wayMembers ws r) hr
      (fun w hw => hidw w (wayMembers_mem hw)) (fun w hw => hv w (wayMembers_mem hw))
    have hmem : ∀ w ∈ vs, w ∈ ws := by
      intro w hw
      have hw' : some w ∈ wayMembers ws r := by
        have := s2.subset hw
        simpa using this
      exact wayMembers_mem hw'
    rcases s7 with ⟨msg, -, h2⟩ | ⟨s, -, -, h2⟩ | ⟨s, h1, -, h2⟩
    · rw [h2] at hb; cases hb; simp at ha
    · rw [h2] at hb; cases hb
    simp only at h2
    obtain ⟨extra, h3, -, hxa, h4⟩ := h2
    have hring : ∀ j, ∀ w ∈ ringWays s j, w ∈ ws ∨ w.obj.tags = [] := by
      intro j w hw
      rcases makeRings_spec env.ringEnv hsort vs (by
        obtain ⟨ws', w1, -, w3, -⟩ := assembleWays_ways env.repair (wayMembers ws r) [] r.obj.timestamp
        rw [s1] at w1
        have : vs = ws' := by
          have := congrArg (List.map (·.way)) w1
          simpa [List.map_map, Function.comp_def, WayInfo.new] using this
        rw [this]; exact w3) with ⟨h, -⟩ | h | ⟨s', fill, h, hways, -⟩
      · rw [h] at h1; cases h1
      · rw [h] at h1; cases h1
      · rw [h] at h1; cases h1
        simp only [ringWays, List.mem_filterMap, Option.map_eq_some_iff] at hw
        obtain ⟨k, -, v, hv, e'⟩ := hw
        have : v.way ∈ vs ++ fillWays fill := by
          rw [← hways]; exact List.mem_map.2 ⟨v, List.mem_of_getElem? hv, rfl⟩
        rw [e'] at this
        rcases List.mem_append.1 this with h | h
        · exact .inl (hmem _ h)
        · simp only [fillWays, List.mem_map] at h
          obtain ⟨p, -, he⟩ := h
          right
          rw [← he]
          rfl
    have hextra : a ∈ extra.map (fun e =>
            ((⟨{ e.2.obj with id := e.2.obj.id * 2 }, e.2.nodes⟩ : Area),
             ((s.rings.map (env.coords s))[e.1]?).map fun c => Geom.multi [polygonOf env.mp c []])) →
        (a.1.obj.tags.map Tag.key).Nodup ∧ ∀ t ∈ a.1.obj.tags, t ∈ r.obj.tags ∨ ∃ w ∈ ws, t ∈ w.obj.tags := by
      intro ha
      obtain ⟨e, he, rfl⟩ := List.mem_map.1 ha
      have hx := hxa e he
      have hw : e.2 ∈ ringWays s e.1 := by rw [hx.2.1]; simp
      rcases hring e.1 e.2 hw with h | h
      · exact ⟨hdw _ h, fun t ht => .inr ⟨e.2, h, ht⟩⟩
      · refine absurd ?_ hx.2.2.1
        rw [h]
        rfl
    rcases h4 with ⟨ps, last, p1, p2, -, -, p5⟩ | ⟨-, p5⟩ | ⟨-, p5⟩
    · rw [p5] at hb; cases hb
      rcases List.mem_append.1 ha with ha | ha
      · exact hextra ha
      · rw [List.mem_singleton] at ha
        subst ha
        obtain ⟨q1, q2⟩ := areaTags_from (outer := (outerRings (s.rings.map (env.coords s)).length
          (determineRings (s.rings.map (env.coords s)).length (env.bits (s.rings.map (env.coords s))))).map (ringWays s)) hdr
        refine ⟨q1, fun t ht => ?_⟩
        rcases q2 t ht with h | ⟨w, hw, ht⟩
        · exact .inl h
        · obtain ⟨l, hl, hw⟩ := List.mem_flatten.1 hw
          obtain ⟨j, -, rfl⟩ := List.mem_map.1 hl
          rcases hring j w hw with h | h
          · exact .inr ⟨w, h, ht⟩
          · rw [h] at ht; cases ht
    · rw [p5] at hb; cases hb
      exact hextra ha
    · rw [p5] at hb; cases hb

/-! ### The end comes last -/

theorem cfwRun_final {S T : Type} {pos : IdStore S Position} {neg : IdStore T Position} (cs : List Cb) (c : S × T)
    (out : List Cb) (h : cfwRun pos neg c (cs ++ [.final]) = .ok out) : ∃ out', out = out' ++ [.final] := by
  induction cs generalizing c out with
  | nil => cases h; exact ⟨[], rfl⟩
  | cons a cs ih =>
    rw [List.cons_append, cfwRun] at h
    cases h1 : cfwStep pos neg c a with
    | error e => rw [h1] at h; cases h
    | ok r =>
      rw [h1] at h
      change (do let out ← cfwRun pos neg r.1 (cs ++ [Cb.final]); return r.2 :: out) = _ at h
      cases h2 : cfwRun pos neg r.1 (cs ++ [Cb.final]) with
      | error e => rw [h2] at h; cases h
      | ok o =>
        rw [h2] at h
        cases h
        obtain ⟨o', rfl⟩ := ih r.1 o h2
        exact ⟨r.2 :: o', rfl⟩

theorem pass2_final (cfg : AsmCfg) (cs : List Cb) (s : Asm) (p : Asm × List AsmEvent)
    (h : s.pass2 cfg (cs ++ [.final]) = .ok p) : ∃ es, p.2 = es ++ [.next .final] := by
  induction cs generalizing s p with
  | nil => cases h; exact ⟨[], rfl⟩
  | cons c cs ih =>
    rw [List.cons_append, Asm.pass2] at h
    cases h1 : s.step cfg c with
    | error e => rw [h1] at h; cases h
    | ok r =>
      rw [h1] at h
      change (do let q ← Asm.pass2 cfg r.1 (cs ++ [Cb.final]); return (q.1, r.2 ++ q.2)) = _ at h
      cases h2 : Asm.pass2 cfg r.1 (cs ++ [Cb.final]) with
      | error e => rw [h2] at h; cases h
      | ok q =>
        rw [h2] at h
        cases h
        obtain ⟨es, he⟩ := ih r.1 q h2
        refine ⟨r.2 ++ es, ?_⟩
        show r.2 ++ q.2 = _
        rw [he, List.append_assoc]

theorem wholeCalls_final (env : WholeEnv) (es : List AsmEvent) (c : Cb) (cs : List WholeCall)
    (h : wholeCalls env (es ++ [.next c]) = .ok cs) : ∃ cs', cs = cs' ++ [.call c] := by
  induction es generalizing cs with
  | nil => cases h; exact ⟨[], rfl⟩
  | cons e es ih =>
    rw [List.cons_append, wholeCalls] at h
    cases h1 : wholeHook env e with
    | error f => rw [h1] at h; cases h
    | ok as =>
      rw [h1] at h
      simp only at h
      cases h2 : wholeCalls env (es ++ [.next c]) with
      | error f => rw [h2] at h; cases h
      | ok rest =>
        rw [h2] at h
        cases h
        obtain ⟨cs', rfl⟩ := ih rest h2
        exact ⟨as ++ cs', by simp⟩

theorem secondPass_final {S T : Type} {pos : IdStore S Position} {neg : IdStore T Position} (env : WholeEnv) (s : Asm)
    (cs : List Cb) (calls : List WholeCall) (h : secondPass env pos neg s (cs ++ [.final]) = .ok calls) :
    ∃ calls', calls = calls' ++ [.call .final] := by
  unfold secondPass at h
  cases h1 : cfwRun pos neg (pos.empty, neg.empty) (cs ++ [.final]) with
  | error e => rw [h1] at h; cases h
  | ok out =>
    rw [h1] at h
    simp only at h
    obtain ⟨out', rfl⟩ := cfwRun_final cs _ _ h1
    cases h2 : s.pass2 mpCfg (out' ++ [.final]) with
    | error e => rw [h2] at h; cases h
    | ok p =>
      rw [h2] at h
      simp only at h
      obtain ⟨es, he⟩ := pass2_final mpCfg out' s p h2
      rw [he] at h
      exact wholeCalls_final env es .final calls h

/-! ### What the script sees -/

/-- (helper for statements and proofs, no counterpart in /repo) -/
noncomputable def areaSeen (ident : ShpObject → Nat) (a : Area × Option Geom) : ShapeObj :=
  ⟨.area, a.1.obj.id, a.1.obj.tags,
    match areaPolygons a.1 a.2 with
    | .ok ps => ((shapeArgument ident (.multi ps)).toOption.getD none)
    | .error _ => none⟩

/-- (helper for statements and proofs, no counterpart in /repo) -/
noncomputable def wholeSeen (ident : ShpObject → Nat) : WholeCall → Option ShapeObj
  | .call (.obj o) => objSeen ident o
  | .call _ => none
  | .area a g => some (areaSeen ident (a, g))

/-- The area has a shape. (helper for statements and proofs, no counterpart in /repo) -/
def HasShape (ident : ShpObject → Nat) (a : Area × Option Geom) : Prop :=
  ∃ ps s, areaPolygons a.1 a.2 = .ok ps ∧ shapeArgument ident (.multi ps) = .ok (some s)

theorem areaRings_iff {a : Area × Option Geom} {ps : List (Coords × List Coords)} (h : areaPolygons a.1 a.2 = .ok ps) :
    AreaRings a ps := by
  unfold AreaRings
  unfold areaPolygons at h
  split at h
  · rename_i hn
    right
    refine ⟨hn, ?_⟩
    unfold Polygon.new at h
    cases hc : wayNodesIsClosed a.1.nodes with
    | none => rw [hc] at h; cases h
    | some b =>
      rw [hc] at h
      cases b with
      | false => cases h
      | true =>
        simp only [Bool.false_eq_true, if_false] at h
        split at h
        · cases h; rfl
        · cases h
  · rename_i qs hn
    cases h
    exact .inl hn
  · cases h

theorem areaSeen_shape {ident : ShpObject → Nat} {a : Area × Option Geom} (h : HasShape ident a) :
    ∃ ps s, areaPolygons a.1 a.2 = .ok ps ∧ shapeArgument ident (.multi ps) = .ok (some s) ∧
      (areaSeen ident a).geom = some s ∧ RingsShape ident ps s ∧ s.type = .polygon := by
  obtain ⟨ps, s, h1, h4⟩ := h
  obtain ⟨s', e, h5⟩ := shapeArgument_stores (g := .multi ps) trivial h4
  cases e
  refine ⟨ps, s, h1, h4, ?_, h5, ?_⟩
  · unfold areaSeen
    rw [h1]
    simp only
    rw [h4]
    rfl
  · obtain ⟨o, rfl, -⟩ := h5
    rfl

theorem exportAreaCall_eq (fits : DbfField → DbfValue → Bool) (fn : JsFunctions) (toInt32 : JsString → Int)
    (ident : ShpObject → Nat) (s : ExportFiles) (a : Area) (g : Option Geom) (ht : ExportTags a.obj.tags)
    (hc : HasLanduse (a, g) → HasShape ident (a, g)) :
    exportAreaCall fits fn toInt32 ident s a g = exportObject fits fn toInt32 s (areaSeen ident (a, g)) := by
  have hv : ∀ t ∈ a.obj.tags, OsmText t.value := fun t m => (ht.2 t m).2.1
  have k1 : ScriptKey "landuse" := scriptKey_of_check (by decide)
  unfold exportAreaCall
  by_cases hl : HasLanduse (a, g)
  · obtain ⟨ps, sh, h1, h2, h3, -⟩ := areaSeen_shape (hc hl)
    rw [jsTag_first hv k1]
    simp only
    rw [if_pos ((truthy_first _ _).2 hl), h1]
    simp only
    rw [h2]
    simp only
    have e : areaSeen ident (a, g) = ⟨.area, a.obj.id, a.obj.tags, some sh⟩ := by
      rw [← h3]
      rfl
    rw [e]
  · have e := exportArea_calls fits toInt32 (areaSeen ident (a, g)) rfl hv s.landuse
    have e2 : landuseRecords toInt32 (areaSeen ident (a, g)) = [] := if_neg fun h => hl h.2
    rw [e2] at e
    have e3 : exportObject fits fn toInt32 s (areaSeen ident (a, g)) =
        (exportArea fits toInt32 (areaSeen ident (a, g)) s.landuse).map fun h => { s with landuse := h } := rfl
    rw [e3, e, jsTag_first hv k1]
    simp only
    rw [if_neg (fun h => hl ((truthy_first _ _).1 h))]
    rfl

/-- An area without a shape: undefined, or there is an exception. -/
theorem exportAreaCall_no_shape (fits : DbfField → DbfValue → Bool) (fn : JsFunctions) (toInt32 : JsString → Int)
    (ident : ShpObject → Nat) (s : ExportFiles) (a : Area) (g : Option Geom) (ht : ExportTags a.obj.tags)
    (hl : HasLanduse (a, g)) (hc : ¬ HasShape ident (a, g)) :
    ∃ e, exportAreaCall fits fn toInt32 ident s a g = .error e := by
  have hv : ∀ t ∈ a.obj.tags, OsmText t.value := fun t m => (ht.2 t m).2.1
  have k1 : ScriptKey "landuse" := scriptKey_of_check (by decide)
  unfold exportAreaCall
  rw [jsTag_first hv k1]
  simp only
  rw [if_pos ((truthy_first _ _).2 hl)]
  cases h1 : areaPolygons a g with
  | error e => exact ⟨e, rfl⟩
  | ok ps =>
    simp only
    cases h2 : shapeArgument ident (.multi ps) with
    | error e => exact ⟨e, rfl⟩
    | ok sh =>
      exfalso
      obtain ⟨s', e, -⟩ := shapeArgument_stores (g := .multi ps) trivial h2
      exact hc ⟨ps, s', h1, by rw [h2, e]⟩

theorem exportWhole_eq (fits : DbfField → DbfValue → Bool) (fn : JsFunctions) (toInt32 : JsString → Int)
    (ident : ShpObject → Nat) (calls : List WholeCall) (hf : WholeCall.call .final ∉ calls)
    (hc : ∀ w, WholeCall.call (.obj (.way w)) ∈ calls → Consistent w.nodes)
    (ht : ∀ a g, WholeCall.area a g ∈ calls → ExportTags a.obj.tags ∧ (HasLanduse (a, g) → HasShape ident (a, g)))
    (s : ExportFiles) :
    callChain (exportWholeCall fits fn toInt32 ident) s calls =
      callChain (exportObject fits fn toInt32) s (calls.filterMap (wholeSeen ident)) := by
  induction calls generalizing s with
  | nil => rfl
  | cons c calls ih =>
    have ih := ih (fun h => hf (List.mem_cons_of_mem _ h)) (fun w h => hc w (List.mem_cons_of_mem _ h))
      (fun a g h => ht a g (List.mem_cons_of_mem _ h))
    cases c with
    | area a g =>
      obtain ⟨t1, t2⟩ := ht a g List.mem_cons_self
      rw [callChain, exportWholeCall, exportAreaCall_eq fits fn toInt32 ident s a g t1 t2, List.filterMap_cons]
      simp only [wholeSeen]
      rw [callChain]
      cases exportObject fits fn toInt32 s (areaSeen ident (a, g)) with
      | error e => rfl
      | ok s' => exact ih s'
    | call c =>
      cases c with
      | obj o =>
        rw [callChain, exportWholeCall, exportCall,
          exportArgument_eq ident o (fun w e => hc w (by rw [e]; exact List.mem_cons_self)), List.filterMap_cons]
        simp only [wholeSeen]
        cases ho : objSeen ident o with
        | none => exact ih s
        | some a =>
          simp only
          rw [callChain]
          cases exportObject fits fn toInt32 s a with
          | error e => rfl
          | ok s' => exact ih s'
      | init m => exact ih s
      | before t => exact ih s
      | after t => exact ih s
      | final => exact absurd List.mem_cons_self hf

theorem callChain_error {α β : Type} {f : α → β → Res α} {b : β} (hb : ∀ a, ∃ e, f a b = .error e) (l : List β)
    (h : b ∈ l) (a : α) : ∃ e, callChain f a l = .error e := by
  induction l generalizing a with
  | nil => cases h
  | cons c l ih =>
    rw [callChain]
    cases h1 : f a c with
    | error e => exact ⟨e, rfl⟩
    | ok a' =>
      rcases List.mem_cons.1 h with rfl | h
      · obtain ⟨e, h2⟩ := hb a
        rw [h2] at h1
        cases h1
      · exact ih h a'

/-! ### The records -/

theorem notArea_seen (ident : ShpObject → Nat) (calls : List WholeCall) :
    (calls.filterMap (wholeSeen ident)).filter (fun o => decide (o.kind ≠ .area)) =
      (otherCalls calls).filterMap fun | .obj o => objSeen ident o | _ => none := by
  induction calls with
  | nil => rfl
  | cons c calls ih =>
    cases c with
    | area a g =>
      have e : otherCalls (.area a g :: calls) = otherCalls calls := rfl
      rw [List.filterMap_cons, e, ← ih]
      rfl
    | call c =>
      have e : otherCalls (.call c :: calls) = c :: otherCalls calls := rfl
      rw [List.filterMap_cons, e, List.filterMap_cons, ← ih]
      cases c with
      | obj o =>
        cases o with
        | node n => rfl
        | way w => rfl
        | relation r => rfl
      | init m => rfl
      | before t => rfl
      | after t => rfl
      | final => rfl

theorem area_seen (ident : ShpObject → Nat) (calls : List WholeCall) :
    (calls.filterMap (wholeSeen ident)).filter (fun o => decide (o.kind = .area)) = (areasIn calls).map (areaSeen ident) := by
  induction calls with
  | nil => rfl
  | cons c calls ih =>
    cases c with
    | area a g =>
      have e : areasIn (.area a g :: calls) = (a, g) :: areasIn calls := rfl
      rw [List.filterMap_cons, e, List.map_cons, ← ih]
      rfl
    | call c =>
      have e : areasIn (.call c :: calls) = areasIn calls := rfl
      rw [List.filterMap_cons, e, ← ih]
      cases c with
      | obj o =>
        cases o with
        | node n => rfl
        | way w => rfl
        | relation r => rfl
      | init m => rfl
      | before t => rfl
      | after t => rfl
      | final => rfl

theorem flatMap_filter {α β : Type} (f : α → List β) (p : α → Bool) (l : List α) (h : ∀ a ∈ l, p a = false → f a = []) :
    l.flatMap f = (l.filter p).flatMap f := by
  induction l with
  | nil => rfl
  | cons a l ih =>
    have ih := ih fun a m => h a (List.mem_cons_of_mem _ m)
    cases hp : p a with
    | true => rw [List.filter_cons_of_pos hp, List.flatMap_cons, List.flatMap_cons, ih]
    | false => rw [List.filter_cons_of_neg (by simp [hp]), List.flatMap_cons, h a List.mem_cons_self hp, ih]; rfl

theorem roads_filter {toInt32 : JsString → Int} (os : List ShapeObj) (R : List (List ShpCall))
    (h : List.Forall₂ (RoadRecords toInt32) os R) :
    ∃ R', List.Forall₂ (RoadRecords toInt32) (os.filter fun o => decide (o.kind ≠ .area)) R' ∧ R.flatten = R'.flatten := by
  induction h with
  | nil => exact ⟨[], .nil, rfl⟩
  | @cons o rc os R h1 _ ih =>
    obtain ⟨R', i1, i2⟩ := ih
    by_cases hk : o.kind = .area
    · refine ⟨R', ?_, ?_⟩
      · rw [List.filter_cons_of_neg (by simp [hk])]
        exact i1
      · unfold RoadRecords at h1
        rw [if_neg (by rw [hk]; rintro ⟨e, -⟩; cases e)] at h1
        rw [List.flatten_cons, h1, i2]
        rfl
    · refine ⟨rc :: R', ?_, ?_⟩
      · rw [List.filter_cons_of_pos (by simp [hk])]
        exact .cons h1 i1
      · rw [List.flatten_cons, List.flatten_cons, i2]

open Classical in
theorem rows_of_areas {ident : ShpObject → Nat} {toInt32 : JsString → Int} {fields : List DbfField}
    (as : List (Area × Option Geom)) (h : ∀ a ∈ as, HasLanduse a → HasShape ident a) :
    ∀ L, Rows .polygon fields ((as.map (areaSeen ident)).flatMap (landuseRecords toInt32)) L →
      List.Forall₂ (LanduseRow ident toInt32 fields) (as.filter fun a => HasLanduse a) L := by
  induction as with
  | nil => intro L hL; cases hL; exact .nil
  | cons a as ih =>
    intro L hL
    have ih := ih fun a m => h a (List.mem_cons_of_mem _ m)
    rw [List.map_cons, List.flatMap_cons] at hL
    by_cases hl : HasLanduse a
    · obtain ⟨ps, sh, h1, -, h3, h4, h5⟩ := areaSeen_shape (h a List.mem_cons_self hl)
      have e : landuseRecords toInt32 (areaSeen ident a) = [.add (areaSeen ident a).geom fun column =>
          if column = "id" then columnNumber a.1.obj.id
          else if column = "type" then columnTag toInt32 a.1.obj.tags "landuse" else .missing] := if_pos ⟨rfl, hl⟩
      rw [e, h3] at hL
      rcases hL with ⟨k1, -⟩ | ⟨s, row, L', k1, k2, k3, k4, k5⟩
      · exact absurd h5 (k1 _ rfl)
      · cases k1
        subst k4
        rw [List.filter_cons_of_pos (by simpa using hl)]
        exact .cons ⟨⟨ps, areaRings_iff h1, h4⟩, k3⟩ (ih L' k5)
    · have e : landuseRecords toInt32 (areaSeen ident a) = [] := if_neg fun h => hl h.2
      rw [e] at hL
      rw [List.filter_cons_of_neg (by simpa using hl)]
      exact ih L hL

open Classical in
/-- **C114** (partial: as C83 and `shape_export_records_partial`).  Let a file have nodes, ways and relations in this
order, no object twice.  `osmjs -2 -m -l ... -j shape_export.js`:

If GEOS throws an exception while a relation is assembled, that is the result.  Otherwise the first shapefile has
exactly one point for each tag of a node that is in the list, the second exactly one line for each way with the tag
`highway` of which the last node is in the file and which has two different points, and the third has (in some order)
exactly one polygon for each area with the tag `landuse`: for each closed way that is not in a multipolygon relation,
the ring through its nodes, and for each area made of a multipolygon relation that has its ways, all its rings. -/
theorem shape_export_areas_partial {S T : Type} {pos : IdStore S Position} {neg : IdStore T Position}
    {okp okn : List (Nat × Position) → Prop} {up un : Nat → Res Position} {unset : Position}
    (fp : Faithful pos okp up) (fnn : Faithful neg okn un) (env : WholeEnv) (hsort : env.ringEnv.SortOk) (m : Meta)
    (ns : List Node) (ws : List Way) (rs : List Relation) (hd : DistinctObjects (fileOf ns ws rs))
    (hn : ∀ n ∈ ns, NegatableId n.obj.id) (hw : ∀ w ∈ ws, ∀ wn ∈ w.nodes, NegatableId wn.ref)
    (hokp : ∀ j, okp ((posOps (nodeCalls ns)).take j)) (hokn : ∀ j, okn ((negOps (nodeCalls ns)).take j))
    (hu : ∀ w ∈ ws, ∀ wn ∈ w.nodes, (∀ n ∈ ns, n.obj.id ≠ wn.ref) →
      (if 0 ≤ wn.ref then up wn.ref.toNat else un (-wn.ref).toNat) = .ok unset)
    (hnodes : ∀ w ∈ ws, w.nodes ≠ []) (hidw : ∀ w ∈ ws, SmallId w.obj.id)
    (hidr : ∀ r ∈ rs, SmallId r.obj.id ∧ r.obj.id ≠ 0)
    (hv : ∀ w ∈ ws, ∀ t ∈ w.obj.tags, t.value ≠ "")
    (htn : ∀ n ∈ ns, ExportTags n.obj.tags) (htw : ∀ w ∈ ws, ExportTags w.obj.tags)
    (htr : ∀ r ∈ rs, ExportTags r.obj.tags)
    (s : Asm) (h1 : Asm.AfterPass1 mpCfg (protocol m (fileOf ns ws rs)) s)
    (fits : DbfField → DbfValue → Bool) (fn : JsFunctions) (toInt32 : JsString → Int) (ident : ShpObject → Nat) :
    ∃ ws', List.Forall₂ (LocatedBy ns unset) ws ws' ∧
      ((exportAreas env pos neg s fits fn toInt32 ident (protocol m (fileOf ns ws rs)) = .error geosError ∧
          ∃ r ∈ rs, IsMultipolygon r ∧ HasItsWays ws' r ∧ buildWhole env r (wayMembers ws' r) = .error geosError) ∨
       ((∀ f, exportAreas env pos neg s fits fn toInt32 ident (protocol m (fileOf ns ws rs)) = .ok f →
          (∃ fields, List.Forall₂ (fun c f => FieldOf (columnArgs c) f) poiColumns fields ∧
            List.Forall₂ (PoiRow ident toInt32 fields) (poisOf ns) (contents f.pois.1)) ∧
          (∃ fields, List.Forall₂ (fun c f => FieldOf (columnArgs c) f) roadColumns fields ∧
            List.Forall₂ (ExportedRow ident toInt32 fields) (ws'.filter fun w => ExportedRoad w) (contents f.roads.1)) ∧
          (∃ (fields : List DbfField) (as : List (Area × Option Geom)), List.Forall₂ (fun c f => FieldOf (columnArgs c) f) landuseColumns fields ∧
            as.Perm
              ((ws'.filter fun w => decide (¬ InMultipolygon rs w) && decide (IsClosedArea w)).map areaOfWay ++
               (rs.filter fun r => decide (IsMultipolygon r) && decide (HasItsWays ws' r)).flatMap
                (areasOfRelation env ws')) ∧
            List.Forall₂ (LanduseRow ident toInt32 fields) (as.filter fun a => HasLanduse a) (contents f.landuse.1)) ∧
          f.pois.2 = false ∧ f.roads.2 = false ∧ f.landuse.2 = false) ∧
        ((∀ f v, fits f v = true) → (∀ n ∈ ns, ∀ t ∈ n.obj.tags, Storable t.value) →
          (∀ w ∈ ws, ∀ t ∈ w.obj.tags, Storable t.value) → (∀ r ∈ rs, ∀ t ∈ r.obj.tags, Storable t.value) →
          (∀ r ∈ rs, ∀ a ∈ areasOfRelation env ws' r, ∀ ps, AreaRings a ps → ∃ p ∈ ps, p.1 ≠ []) →
          ∃ f, exportAreas env pos neg s fits fn toInt32 ident (protocol m (fileOf ns ws rs)) = .ok f))) := by
  obtain ⟨ws', hl, hx⟩ := multipolygons_file_partial fp fnn env hsort m ns ws rs hd hn hw hokp hokn hu hnodes hidw
    (fun r hr => (hidr r hr).1) hv s h1
  refine ⟨ws', hl, ?_⟩
  have hload : ∃ f0, exportLoad fits = .ok f0 := by
    obtain ⟨⟨p, e1, -⟩, ⟨r, e2, -⟩, ⟨l, e3, -⟩⟩ := exportOpen_ok fits
    unfold exportLoad
    rw [e1, e2, e3]
    exact ⟨_, rfl⟩
  obtain ⟨f0, hload⟩ := hload
  rcases hx with ⟨e1, e2⟩ | ⟨calls, e1, -, e3, e4⟩
  · left
    refine ⟨?_, e2⟩
    unfold exportAreas
    rw [hload, e1]
  right
  have hback := forall₂_mem_right hl
  have hidw' : ∀ w ∈ ws', SmallId w.obj.id := fun w hw' => by
    obtain ⟨v, hv1, e⟩ := hback w hw'
    rw [e.1]; exact hidw v hv1
  have hv' : ∀ w ∈ ws', ∀ t ∈ w.obj.tags, t.value ≠ "" := fun w hw' => by
    obtain ⟨v, hv1, e⟩ := hback w hw'
    rw [e.1]; exact hv v hv1
  have htw' : ∀ w ∈ ws', ExportTags w.obj.tags := fun w hw' => by
    obtain ⟨v, hv1, e⟩ := hback w hw'
    rw [e.1]; exact htw v hv1
  -- the end comes last
  have hp : ∀ vs, ∃ body, protocol m (fileOf ns vs rs) = body ++ [Cb.final] ∧ Cb.final ∉ body := by
    intro vs
    rw [protocol_fileOf]
    refine ⟨Cb.init m :: runCalls (ns.map OsmObj.node) ++ (runCalls (vs.map OsmObj.way) ++
      runCalls (rs.map OsmObj.relation)), by simp, ?_⟩
    have := final_not_mem_runCalls
    simp [this]
  obtain ⟨body0, hb0, -⟩ := hp ws
  obtain ⟨body, hb, hbf⟩ := hp ws'
  obtain ⟨calls, rfl⟩ := secondPass_final env s body0 calls (by rw [← hb0]; exact e1)
  have ho : otherCalls calls = body := by
    have : otherCalls (calls ++ [.call .final]) = otherCalls calls ++ [Cb.final] := by
      unfold otherCalls
      rw [List.filterMap_append]
      rfl
    rw [this, hb] at e3
    exact List.append_cancel_right e3
  have ha : areasIn (calls ++ [.call .final]) = areasIn calls := by
    unfold areasIn
    rw [List.filterMap_append]
    exact List.append_nil _
  rw [ha] at e4
  have hmemo : ∀ c, WholeCall.call c ∈ calls → c ∈ body := by
    intro c hc
    rw [← ho]
    exact List.mem_filterMap.2 ⟨_, hc, rfl⟩
  have hmema : ∀ a g, WholeCall.area a g ∈ calls → (a, g) ∈ areasIn calls := by
    intro a g hc
    exact List.mem_filterMap.2 ⟨_, hc, rfl⟩
  have hcons : ∀ w, WholeCall.call (.obj (.way w)) ∈ calls → Consistent w.nodes := by
    intro w hc
    have hw' : w ∈ ws' := by
      rw [← waysOf_file m ns ws' rs]
      exact List.mem_filterMap.2 ⟨_, by rw [hb]; exact List.mem_append_left _ (hmemo _ hc), rfl⟩
    obtain ⟨v, -, hloc⟩ := hback w hw'
    exact consistent_of_located hloc
  have hfinal : WholeCall.call .final ∉ calls := fun h => hbf (hmemo _ h)
  -- the tags
  have hfrom : ∀ a ∈ areasIn calls, (a.1.obj.tags.map Tag.key).Nodup ∧
      ∀ t ∈ a.1.obj.tags, (∃ w ∈ ws, t ∈ w.obj.tags) ∨ ∃ r ∈ rs, t ∈ r.obj.tags := by
    intro a ha'
    have hws : ∀ w ∈ ws', ∀ t ∈ w.obj.tags, ∃ v ∈ ws, t ∈ v.obj.tags := by
      intro w hw' t ht
      obtain ⟨v, hv1, e⟩ := hback w hw'
      exact ⟨v, hv1, by rw [← e.1]; exact ht⟩
    rcases List.mem_append.1 (e4.subset ha') with h | h
    · obtain ⟨w, hw', rfl⟩ := List.mem_map.1 h
      have hw' := List.mem_of_mem_filter hw'
      exact ⟨(htw' w hw').1, fun t ht => .inl (hws w hw' t ht)⟩
    · obtain ⟨r, hr, h⟩ := List.mem_flatMap.1 h
      have hr := List.mem_of_mem_filter hr
      obtain ⟨q1, q2⟩ := relation_area_tags env hsort ws' r (hidr r hr).1 hidw' hv' (htr r hr).1
        (fun w hw' => (htw' w hw').1) a h
      refine ⟨q1, fun t ht => ?_⟩
      rcases q2 t ht with h | ⟨w, hw', h⟩
      · exact .inr ⟨r, hr, h⟩
      · exact .inl (hws w hw' t h)
  have htags : ∀ a ∈ areasIn calls, ExportTags a.1.obj.tags := by
    intro a ha'
    obtain ⟨q1, q2⟩ := hfrom a ha'
    refine ⟨q1, fun t ht => ?_⟩
    rcases q2 t ht with ⟨w, hw', h⟩ | ⟨r, hr, h⟩
    · exact (htw w hw').2 t h
    · exact (htr r hr).2 t h
  -- what the script sees
  have hseen : (calls.filterMap (wholeSeen ident)).filter (fun o => decide (o.kind ≠ .area)) =
      ns.map (nodeSeen ident) ++ ws'.map (waySeen ident) := by
    rw [notArea_seen, ho]
    have k1 : ((protocol m (fileOf ns ws' rs)).filterMap fun | .obj o => objSeen ident o | _ => none) =
        (fileOf ns ws' rs).filterMap (objSeen ident) := filterMap_protocol (objSeen ident) m ns ws' rs
    rw [hb, List.filterMap_append] at k1
    refine (List.append_nil _).symm.trans (k1.trans ?_)
    unfold fileOf
    rw [List.filterMap_append, List.filterMap_append, List.filterMap_map, List.filterMap_map, List.filterMap_map]
    have e3 : rs.filterMap (objSeen ident ∘ OsmObj.relation) = [] := by
      rw [List.filterMap_eq_nil_iff]; intro r _; rfl
    rw [e3, List.append_nil, ← List.filterMap_eq_map', ← List.filterMap_eq_map']
    rfl
  have hprop : ∀ (P : TagList → Prop), (∀ n ∈ ns, P n.obj.tags) → (∀ w ∈ ws', P w.obj.tags) →
      (∀ a ∈ areasIn calls, P a.1.obj.tags) → ∀ o ∈ calls.filterMap (wholeSeen ident), P o.tags := by
    intro P p1 p2 p3 o ho'
    by_cases hk : o.kind = .area
    · have : o ∈ (areasIn calls).map (areaSeen ident) := by
        rw [← area_seen]
        exact List.mem_filter.2 ⟨ho', by simpa using hk⟩
      obtain ⟨a, ha', rfl⟩ := List.mem_map.1 this
      exact p3 a ha'
    · have : o ∈ ns.map (nodeSeen ident) ++ ws'.map (waySeen ident) := by
        rw [← hseen]
        exact List.mem_filter.2 ⟨ho', by simpa using hk⟩
      rcases List.mem_append.1 this with h | h
      · obtain ⟨n, hn', rfl⟩ := List.mem_map.1 h
        exact p1 n hn'
      · obtain ⟨w, hw', rfl⟩ := List.mem_map.1 h
        exact p2 w hw'
  have hmain : (∀ a ∈ areasIn calls, HasLanduse a → HasShape ident a) →
      exportAreas env pos neg s fits fn toInt32 ident (protocol m (fileOf ns ws rs)) =
        shapeExport fits fn toInt32 (calls.filterMap (wholeSeen ident)) := by
    intro hshape
    unfold exportAreas shapeExport
    rw [hload, e1]
    simp only
    rw [callChain_append, exportWhole_eq fits fn toInt32 ident calls hfinal hcons (fun a g h =>
      ⟨htags _ (hmema a g h), hshape _ (hmema a g h)⟩) f0]
    cases callChain (exportObject fits fn toInt32) f0 (calls.filterMap (wholeSeen ident)) with
    | error e => rfl
    | ok s' => rfl
  refine ⟨?_, ?_⟩
  · intro f hf
    have hshape : ∀ a ∈ areasIn calls, HasLanduse a → HasShape ident a := by
      intro a ha' hla
      by_contra hno
      have hmem : WholeCall.area a.1 a.2 ∈ calls ++ [.call .final] := by
        obtain ⟨c, hc, e⟩ := List.mem_filterMap.1 ha'
        cases c with
        | call c => cases e
        | area b g => cases e; exact List.mem_append_left _ hc
      obtain ⟨e, he⟩ := callChain_error (f := exportWholeCall fits fn toInt32 ident) (b := .area a.1 a.2)
        (fun s => exportAreaCall_no_shape fits fn toInt32 ident s a.1 a.2 (htags a ha') hla hno) _ hmem f0
      unfold exportAreas at hf
      rw [hload, e1] at hf
      simp only at hf
      rw [he] at hf
      cases hf
    rw [hmain hshape] at hf
    obtain ⟨c1, c2, c3, ⟨pf, p1, p2⟩, ⟨rf, R, r1, r2, r3⟩, ⟨lf, l1, l2⟩⟩ := shape_export_records_partial fits fn toInt32 _
      (hprop _ htn htw' htags) f hf
    rw [flatMap_filter (poiRecords toInt32) (fun o => decide (o.kind ≠ .area)) _ (by
      intro o _ hk
      have hk : o.kind = .area := by simpa using hk
      unfold poiRecords
      rw [if_neg (by rw [hk]; decide)]), hseen, poiRecords_nodes] at p2
    obtain ⟨R1, r4, r5⟩ := roads_filter _ R r2
    rw [hseen] at r4
    obtain ⟨R', r6, r7⟩ := roadRecords_split ns ws' R1 r4
    rw [r5, r7] at r3
    rw [flatMap_filter (landuseRecords toInt32) (fun o => decide (o.kind = .area)) _ (by
      intro o _ hk
      have hk : o.kind ≠ .area := by simpa using hk
      unfold landuseRecords
      exact if_neg fun h => hk h.1), area_seen] at l2
    exact ⟨⟨pf, p1, rows_of_adds (fun p : Node × Tag => pointShape ident p.1.position) _ (poisOf ns) (fun _ _ => rfl) _ p2⟩,
      ⟨rf, r1, rows_of_roads ws' R' _ r6 r3⟩, ⟨lf, areasIn calls, l1, e4, rows_of_areas _ hshape _ l2⟩, c1, c2, c3⟩
  · intro hfits s1 s2 s3 hcorner
    have hshape : ∀ a ∈ areasIn calls, HasLanduse a → HasShape ident a := by
      intro a ha' _
      have key : ∀ ps, areaPolygons a.1 a.2 = .ok ps → (∃ p ∈ ps, p.1 ≠ []) → HasShape ident a := by
        intro ps k1 k2
        obtain ⟨g, sh, k3, k4, -⟩ := script_area_shape ident a.1.obj ps k2
        cases k3
        exact ⟨ps, sh, k1, k4⟩
      rcases List.mem_append.1 (e4.subset ha') with h | h
      · obtain ⟨w, hw', rfl⟩ := List.mem_map.1 h
        simp only [List.mem_filter, Bool.and_eq_true, decide_eq_true_eq] at hw'
        obtain ⟨v, -, hloc⟩ := hback w hw'.1
        refine key _ (areaPolygons_way hloc hw'.2.2) ⟨_, List.mem_singleton_self _, ?_⟩
        intro h0
        have h0 := List.map_eq_nil_iff.1 h0
        have := hw'.2.2.1
        rw [h0] at this
        simp at this
      · obtain ⟨r, hr, h⟩ := List.mem_flatMap.1 h
        have hr := List.mem_of_mem_filter hr
        obtain ⟨ps, origin, areaId, origId, o, hm⟩ := relation_areas env hsort ws' r (hidr r hr).1 (hidr r hr).2 hidw' hv' a h
        exact key ps (by rw [hm.1]; rfl) (hcorner r hr a h ps (.inl hm.1))
    rw [hmain hshape]
    refine shape_export_succeeds_partial fits hfits fn toInt32 _ (hprop _ htn htw' htags)
      (hprop (fun tags => ∀ t ∈ tags, Storable t.value) s1 ?_ ?_)
    · intro w hw'
      obtain ⟨v, hv1, e⟩ := hback w hw'
      rw [e.1]; exact s2 v hv1
    · intro a ha' t ht
      rcases (hfrom a ha').2 t ht with ⟨w, hw', h⟩ | ⟨r, hr, h⟩
      · exact s2 w hw' t h
      · exact s3 r hr t h

/-! ### Examples -/

/-- The objects of C83 with other tags. (for the examples) -/
def landuseObj (o : Obj) : Obj :=
  { o with tags := o.tags.map fun t => if t.key = "type" then t else ⟨"landuse", t.value⟩ }
/-- (for the examples) -/
def landuseWays : List Way := pipeWays.map fun w => { w with obj := landuseObj w.obj }
/-- (for the examples) -/
def landuseRelations : List Relation := pipeRelations.map fun r => { r with obj := landuseObj r.obj }
/-- (for the examples) -/
def landuseCalls : List Cb := protocol (Meta.new false) (fileOf pipeNodes landuseWays landuseRelations)
/-- (for the examples) -/
def landuseAsm : Asm := ((Asm.new mpCfg).pass1 mpCfg landuseCalls).1

theorem landuse_pass1 : Asm.AfterPass1 mpCfg landuseCalls landuseAsm := by
  have h2 : ((Asm.new mpCfg).pass1 mpCfg landuseCalls).2 = true := by decide +kernel
  simp only [Asm.AfterPass1, h2, if_true]
  refine ⟨rfl, rfl, fun t => ⟨.refl _, ?_⟩⟩
  cases t <;> decide +kernel

/-- The third file: an inner ring, the multipolygon with three rings, and the closed way. -/
example : (exportAreas squareEnv pipeStore pipeStore landuseAsm (fun _ _ => true) ⟨fun _ => [], fun _ _ => none⟩
      (fun _ => 0) (fun o => o.xs.length) landuseCalls).toOption.map (fun f => contents f.landuse.1) =
    some [(⟨.polygon, 1, 5, 5⟩, [(0, .int 6), (1, .string (utf8 "wood".toList))]),
      (⟨.polygon, 3, 15, 15⟩, [(0, .int 19), (1, .string (utf8 "water".toList))]),
      (⟨.polygon, 1, 5, 5⟩, [(0, .int 12), (1, .string (utf8 "yes".toList))])] := by
  decide +kernel

/-- The hypotheses of `shape_export_areas_partial` can be met. -/
example : DistinctObjects (fileOf pipeNodes landuseWays landuseRelations) ∧
    (∀ n ∈ pipeNodes, NegatableId n.obj.id) ∧ (∀ w ∈ landuseWays, ∀ wn ∈ w.nodes, NegatableId wn.ref) ∧
    (∀ j, RoomToGrow 100 ((posOps (nodeCalls pipeNodes)).take j)) ∧
    (∀ j, RoomToGrow 100 ((negOps (nodeCalls pipeNodes)).take j)) ∧
    (∀ w ∈ landuseWays, ∀ wn ∈ w.nodes, ∃ n ∈ pipeNodes, n.obj.id = wn.ref) ∧
    (∀ w ∈ landuseWays, w.nodes ≠ []) ∧ (∀ w ∈ landuseWays, SmallId w.obj.id) ∧
    (∀ r ∈ landuseRelations, SmallId r.obj.id ∧ r.obj.id ≠ 0) ∧
    (∀ w ∈ landuseWays, ∀ t ∈ w.obj.tags, t.value ≠ "") ∧
    (∀ n ∈ pipeNodes, ExportTags n.obj.tags) ∧ (∀ w ∈ landuseWays, ExportTags w.obj.tags) ∧
    (∀ r ∈ landuseRelations, ExportTags r.obj.tags) := by
  have gen : ∀ l : List TagList, (∀ tags ∈ l, (tags.map (·.key)).Nodup ∧ ∀ t ∈ tags,
      (('\x00' ∉ t.key.toList ∧ t.key.toList.length ≤ 255) ∧ t.key.toList.any (fun c => !Text.isDigit c)) ∧
      ('\x00' ∉ t.value.toList ∧ t.value.toList.length ≤ 255) ∧ (t.key ≠ "__proto__" ∧ t.key ∉ inheritedNames) ∧
      (t.value ≠ "__proto__" ∧ t.value ∉ inheritedNames)) → ∀ tags ∈ l, ExportTags tags := by
    intro l h tags hm
    refine ⟨(h tags hm).1, fun t ht => ?_⟩
    obtain ⟨a, b, c, d⟩ := (h tags hm).2 t ht
    exact ⟨scriptKey_of_check a, b, fun e => e.elim c.1 c.2, fun e => e.elim d.1 d.2⟩
  have hneg : negOps (nodeCalls pipeNodes) = [] := by decide +kernel
  have hpos : ∀ o ∈ posOps (nodeCalls pipeNodes), o.1 < 100 := by decide +kernel
  refine ⟨?_, ?_, ?_, ?_, ?_, ?_, ?_, ?_, ?_, ?_, ?_, ?_, ?_⟩
  · unfold DistinctObjects; decide +kernel
  · unfold NegatableId; decide +kernel
  · unfold NegatableId; decide +kernel
  · intro j o ho
    have := hpos o (List.mem_of_mem_take ho)
    omega
  · intro j o ho
    rw [hneg] at ho
    simp at ho
  · decide +kernel
  · decide +kernel
  · unfold SmallId; decide +kernel
  · unfold SmallId; decide +kernel
  · decide +kernel
  · intro n hn
    exact gen (pipeNodes.map fun n => n.obj.tags) (by decide +kernel) _ (List.mem_map.2 ⟨n, hn, rfl⟩)
  · intro w hw
    exact gen (landuseWays.map fun w => w.obj.tags) (by decide +kernel) _ (List.mem_map.2 ⟨w, hw, rfl⟩)
  · intro r hr
    exact gen (landuseRelations.map fun r => r.obj.tags) (by decide +kernel) _ (List.mem_map.2 ⟨r, hr, rfl⟩)

end Osmium

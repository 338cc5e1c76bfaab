import Verif.Examples.Areas

/-
Properties C92 and C93: what osmium_mpdump prints, and the features osmium_toogr2 makes.
-/
namespace Osmium
open Spec

namespace Spec

/-- The description of an area: where it is from, the attributes of the object, its geometry and its tags. -/
def areaLines (wkt : List (Coords × List Coords) → List Char) (origin : String) (areaId origId : Int) (o : Obj)
    (ps : List (Coords × List Coords)) : List Line :=
  [(origin ++ " id=").toList ++ Text.intDec areaId ++ " (orig_id=".toList ++ Text.intDec origId ++
    ") version=".toList ++ Text.intDec o.version ++ " timestamp=".toList ++ Text.intDec o.timestamp ++
    " uid=".toList ++ Text.intDec o.uid ++ " user=".toList ++ o.user.toList,
   "  ".toList ++ wkt ps] ++
  (o.tags.map fun t => "  ".toList ++ t.key.toList ++ "=".toList ++ t.value.toList) ++ [[]]

/-- One polygon through the nodes of the way. -/
def wayPolygon (w : Way) : List (Coords × List Coords) := [(w.nodes.map (·.position), [])]

/-- The description of the area of a way. -/
def wayDump (wkt : List (Coords × List Coords) → List Char) (w : Way) : List Line :=
  areaLines wkt "Area from way" (2 * w.obj.id) w.obj.id w.obj (wayPolygon w)

/-- The area `a` with the polygons `ps` was made for the relation: it is the area of the relation itself (other
attributes than tags and timestamp are those of the relation), or that of one of the ways of the relation. -/
def MadeFor (ws : List Way) (r : Relation) (a : Area × Option Geom) (ps : List (Coords × List Coords))
    (origin : String) (areaId origId : Int) (o : Obj) : Prop :=
  a.2 = some (.multi ps) ∧ a.1.obj = { o with id := areaId } ∧
  ((∃ ts tags, origin = "Area from relation" ∧ areaId = (if 0 < r.obj.id then 2 * r.obj.id + 1 else 2 * r.obj.id - 1) ∧
      origId = r.obj.id ∧ o = { r.obj with timestamp := ts, tags := tags }) ∨
   ∃ w ∈ ws, (∃ m ∈ r.members, m.type = 'w' ∧ m.ref = w.obj.id) ∧ origin = "Area from way" ∧ areaId = 2 * w.obj.id ∧
      origId = w.obj.id ∧ o = w.obj)

/-- The description of an area made for a relation. -/
def RelationDump (wkt : List (Coords × List Coords) → List Char) (ws : List Way) (r : Relation)
    (a : Area × Option Geom) (d : List Line) : Prop :=
  ∃ ps origin areaId origId o, MadeFor ws r a ps origin areaId origId o ∧ d = areaLines wkt origin areaId origId o ps

/-- The area is one of a building. -/
def IsBuilding (o : Obj) : Prop := ∃ t ∈ o.tags, t.key = "building"

instance (o : Obj) : Decidable (IsBuilding o) := by unfold IsBuilding; infer_instance

/-- Polygons in degrees. -/
def inDegrees (ps : List (Coords × List Coords)) : List (List (ℚ × ℚ) × List (List (ℚ × ℚ))) :=
  ps.map fun p => (p.1.map fun q => (q.lon, q.lat), p.2.map fun h => h.map fun q => (q.lon, q.lat))

/-- The feature for the building. -/
def wayBuilding (w : Way) : OgrArea := ⟨inDegrees (wayPolygon w), 2 * w.obj.id⟩

/-- The feature for a building made for a relation. -/
def RelationBuilding (ws : List Way) (r : Relation) (a : Area × Option Geom) (f : OgrArea) : Prop :=
  ∃ ps origin areaId origId o, MadeFor ws r a ps origin areaId origId o ∧ f = ⟨inDegrees ps, areaId⟩

end Spec

/-! ### The geometries -/

theorem located_same {ns : List Node} {unset : Position} {w w' : Way} (h : LocatedBy ns unset w w') :
    ∀ a ∈ w'.nodes, ∀ b ∈ w'.nodes, a.ref = b.ref → a.position = b.position := by
  have key : ∀ b ∈ w'.nodes, (∀ n ∈ ns, n.obj.id = b.ref → b.position = n.position) ∧
      ((∀ n ∈ ns, n.obj.id ≠ b.ref) → b.position = unset) := by
    intro b hb
    have hl := h.2
    generalize w.nodes = A at *
    generalize w'.nodes = B at *
    induction hl with
    | nil => simp at hb
    | @cons x y A B h1 _ ih =>
      rcases List.mem_cons.1 hb with rfl | hb
      · obtain ⟨e, p1, p2⟩ := h1
        rw [e]
        exact ⟨p1, p2⟩
      · exact ih hb
  intro a ha b hb e
  obtain ⟨a1, a2⟩ := key a ha
  obtain ⟨b1, b2⟩ := key b hb
  by_cases hx : ∃ n ∈ ns, n.obj.id = a.ref
  · obtain ⟨n, hn, hid⟩ := hx
    rw [a1 n hn hid, b1 n hn (hid.trans e)]
  · have hx' : ∀ n ∈ ns, n.obj.id ≠ a.ref := fun n hn e => hx ⟨n, hn, e⟩
    rw [a2 hx', b2 (fun n hn e' => hx' n hn (e'.trans e.symm))]

/-- GEOS makes a polygon of every closed way. -/
theorem areaPolygons_way {ns : List Node} {unset : Position} {w w' : Way} (h : LocatedBy ns unset w w')
    (hc : IsClosedArea w') : areaPolygons (areaOfWay w').1 (areaOfWay w').2 = .ok (wayPolygon w') := by
  obtain ⟨h4, he⟩ := hc
  obtain ⟨f, hf⟩ : ∃ f, w'.nodes.head? = some f := by
    cases hh : w'.nodes with
    | nil => rw [hh] at h4; simp at h4
    | cons x xs => exact ⟨x, rfl⟩
  obtain ⟨b, hb⟩ : ∃ b, w'.nodes.getLast? = some b := by
    cases hh : w'.nodes.getLast? with
    | none => rw [List.getLast?_eq_none_iff] at hh; rw [hh] at h4; simp at h4
    | some x => exact ⟨x, rfl⟩
  rw [hf, hb] at he
  have he : f.ref = b.ref := by simpa using he
  have hcl : wayNodesIsClosed w'.nodes = some true := by simp [wayNodesIsClosed, hf, hb, he]
  have hp : f.position = b.position :=
    located_same h f (List.mem_of_mem_head? hf) b (List.mem_of_mem_getLast? hb) he
  have hr : geosRingOk (w'.nodes.map (·.position)) = true := by
    unfold geosRingOk
    rw [List.head?_map, List.getLast?_map, hf, hb]
    simp [h4, hp]
  show areaPolygons ⟨_, w'.nodes⟩ none = _
  unfold areaPolygons Polygon.new
  simp only [hcl, hr]
  simp [hr, wayPolygon]

/-- The areas made for a relation. -/
theorem relation_areas (env : WholeEnv) (hsort : env.ringEnv.SortOk) (ws : List Way) (r : Relation)
    (hr : SmallId r.obj.id) (h0 : r.obj.id ≠ 0) (hidw : ∀ w ∈ ws, SmallId w.obj.id)
    (hv : ∀ w ∈ ws, ∀ t ∈ w.obj.tags, t.value ≠ "") :
    ∀ a ∈ areasOfRelation env ws r, ∃ ps origin areaId origId o, MadeFor ws r a ps origin areaId origId o := by
  intro a ha
  unfold areasOfRelation at ha
  cases hb : buildWhole env r (wayMembers ws r) with
  | error e => rw [hb] at ha; cases ha
  | ok as =>
    rw [hb] at ha
    change a ∈ as at ha
    obtain ⟨vs, ts, s1, s2, -, -, -, -, s7⟩ := whole_areas env hsort r (wayMembers ws r) hr
      (fun w hw => hidw w (wayMembers_mem hw)) (fun w hw => hv w (wayMembers_mem hw))
    have hmem : ∀ w ∈ vs, w ∈ ws ∧ ∃ m ∈ r.members, m.type = 'w' ∧ m.ref = w.obj.id := by
      intro w hw
      have hw' : some w ∈ wayMembers ws r := by
        have := s2.subset hw
        simpa using this
      refine ⟨wayMembers_mem hw', ?_⟩
      unfold wayMembers at hw'
      obtain ⟨m, hm, he⟩ := List.mem_map.1 hw'
      split at he
      · rename_i ht
        have := List.find?_some he
        simp only [decide_eq_true_eq] at this
        exact ⟨m, hm, ht, this.symm⟩
      · cases he
    rcases s7 with ⟨msg, -, h2⟩ | ⟨s, -, -, h2⟩ | ⟨s, h1, -, h2⟩
    · rw [h2] at hb; cases hb; simp at ha
    · rw [h2] at hb; cases hb
    simp only at h2
    obtain ⟨extra, h3, -, hxa, h4⟩ := h2
    have hextra : a ∈ extra.map (fun e =>
            ((⟨{ e.2.obj with id := e.2.obj.id * 2 }, e.2.nodes⟩ : Area),
             ((s.rings.map (env.coords s))[e.1]?).map fun c => Geom.multi [polygonOf env.mp c []])) →
        ∃ ps origin areaId origId o, MadeFor ws r a ps origin areaId origId o := by
      intro ha
      obtain ⟨e, he, rfl⟩ := List.mem_map.1 ha
      have hlt := ((h3 e.1).1 (List.mem_map.2 ⟨e, he, rfl⟩)).1
      have hget := List.getElem?_eq_getElem hlt
      have hx := hxa e he
      have hw : e.2 ∈ vs := by
        rcases makeRings_spec env.ringEnv hsort vs (by
          obtain ⟨ws', w1, -, w3, -⟩ := assembleWays_ways env.repair (wayMembers ws r) [] r.obj.timestamp
          rw [s1] at w1
          have : vs = ws' := by
            have := congrArg (List.map (·.way)) w1
            simpa [List.map_map, Function.comp_def, WayInfo.new] using this
          rw [this]; exact w3) with ⟨h, -⟩ | h | ⟨s', fill, h, hways, -⟩
        · rw [h] at h1; cases h1
        · rw [h] at h1; cases h1
        · rw [h] at h1; cases h1
          have hw : e.2 ∈ ringWays s e.1 := by rw [hx.2.1]; simp
          simp only [ringWays, List.mem_filterMap, Option.map_eq_some_iff] at hw
          obtain ⟨k, -, v, hv, e'⟩ := hw
          have : v.way ∈ vs ++ fillWays fill := by
            rw [← hways]; exact List.mem_map.2 ⟨v, List.mem_of_getElem? hv, rfl⟩
          rw [e'] at this
          rcases List.mem_append.1 this with h | h
          · exact h
          · simp only [fillWays, List.mem_map] at h
            obtain ⟨p, -, he⟩ := h
            refine absurd ?_ hx.2.2.1
            rw [← he]
            rfl
      obtain ⟨hw1, hw2⟩ := hmem _ hw
      refine ⟨[polygonOf env.mp (s.rings.map (env.coords s))[e.1] []], "Area from way", 2 * e.2.obj.id, e.2.obj.id,
        e.2.obj, ?_, ?_, .inr ⟨e.2, hw1, hw2, rfl, rfl, rfl, rfl⟩⟩
      · simp only
        rw [hget]; rfl
      · simp only
        rw [Int.mul_comm]
    rcases h4 with ⟨ps, last, p1, p2, -, -, p5⟩ | ⟨-, p5⟩ | ⟨-, p5⟩
    · rw [p5] at hb; cases hb
      rcases List.mem_append.1 ha with ha | ha
      · exact hextra ha
      · rw [List.mem_singleton] at ha
        subst ha
        generalize areaTags _ _ = tags
        refine ⟨ps, "Area from relation", _, r.obj.id, _, rfl, ?_, .inl ⟨ts, tags, rfl, rfl, rfl, rfl⟩⟩
        simp only
        congr 1
        unfold sgn
        split <;> split <;> omega
    · rw [p5] at hb; cases hb
      exact hextra ha
    · rw [p5] at hb; cases hb

theorem madeFor_ids {ws : List Way} {r : Relation} {a : Area × Option Geom}
    {ps : List (Coords × List Coords)} {origin : String} {areaId origId : Int} {o : Obj}
    (h : MadeFor ws r a ps origin areaId origId o) :
    areaOrigId areaId = origId ∧
      origin = (if areaFromWay areaId then "Area from way" else "Area from relation") := by
  obtain ⟨-, -, h | h⟩ := h
  · obtain ⟨-, -, rfl, rfl, rfl, -⟩ := h
    unfold areaOrigId areaFromWay
    split
    · have e : (2 * r.obj.id + 1).tmod 2 = 1 := by
        rw [Int.tmod_eq_emod_of_nonneg (by omega)]; omega
      rw [e, Int.tdiv_eq_ediv_of_nonneg (by omega)]
      exact ⟨by omega, rfl⟩
    · have e0 : 2 * r.obj.id - 1 = -(-(2 * r.obj.id) + 1) := by omega
      have e : (2 * r.obj.id - 1).tmod 2 = -1 := by
        rw [e0, Int.neg_tmod, Int.tmod_eq_emod_of_nonneg (by omega)]; omega
      rw [e]
      refine ⟨?_, rfl⟩
      rw [e0, Int.neg_tdiv, Int.tdiv_eq_ediv_of_nonneg (by omega)]
      omega
  · obtain ⟨w, -, -, rfl, rfl, rfl, -⟩ := h
    unfold areaOrigId areaFromWay
    rw [Int.mul_tmod_right]
    refine ⟨?_, rfl⟩
    rw [Int.mul_comm]
    exact Int.mul_tdiv_cancel _ (by decide)

theorem mpdumpArea_eq (wkt : List (Coords × List Coords) → List Char) (a : Area) (g : Option Geom)
    (ps : List (Coords × List Coords)) (h : areaPolygons a g = .ok ps) :
    mpdumpArea wkt a g = .ok (areaLines wkt (if areaFromWay a.obj.id then "Area from way" else "Area from relation")
      a.obj.id (areaOrigId a.obj.id) a.obj ps) := by
  have e : ((if areaFromWay a.obj.id then "Area from way" else "Area from relation") ++ " id=").toList =
      "Area ".toList ++ (if areaFromWay a.obj.id then "from way".toList else "from relation".toList) ++ " id=".toList := by
    split <;> decide
  have e2 : ") version=".toList = ")".toList ++ " version=".toList := by decide
  have e3 : "=".toList = ['='] := by decide
  unfold mpdumpArea areaLines dumpTags txt
  simp only [h, e, e2, e3, List.append_assoc, List.cons_append, List.nil_append]

theorem areaLines_id (wkt : List (Coords × List Coords) → List Char) (origin : String) (i j k : Int) (o : Obj)
    (ps : List (Coords × List Coords)) :
    areaLines wkt origin i j { o with id := k } ps = areaLines wkt origin i j o ps := rfl

/-! ### All calls -/

theorem mpdumpCalls_ok (wkt : List (Coords × List Coords) → List Char) (f : Area × Option Geom → List Line)
    (calls : List WholeCall) (h : ∀ a ∈ areasIn calls, mpdumpArea wkt a.1 a.2 = .ok (f a)) :
    mpdumpCalls wkt calls = .ok ((areasIn calls).map f).flatten := by
  induction calls with
  | nil => rfl
  | cons c calls ih =>
    cases c with
    | call c => exact ih h
    | area a g =>
      have h1 : mpdumpArea wkt a g = .ok (f (a, g)) := h (a, g) (by simp [areasIn])
      have h2 := ih fun b hb => h b (by
        have : areasIn (.area a g :: calls) = (a, g) :: areasIn calls := rfl
        rw [this]
        exact List.mem_cons_of_mem _ hb)
      rw [mpdumpCalls, h1, h2]
      rfl

theorem toogr2Calls_ok (accepts : OgrArea → Bool) (ha : ∀ f, accepts f = true) (f : Area × Option Geom → OgrArea)
    (calls : List WholeCall)
    (h : ∀ a ∈ areasIn calls, toogr2Area a.1 a.2 = .ok (if IsBuilding a.1.obj then some (f a) else none)) :
    toogr2Calls accepts calls = .ok (((areasIn calls).filter fun a => decide (IsBuilding a.1.obj)).map f) := by
  induction calls with
  | nil => rfl
  | cons c calls ih =>
    cases c with
    | call c => exact ih h
    | area a g =>
      have e : areasIn (.area a g :: calls) = (a, g) :: areasIn calls := rfl
      have h1 : toogr2Area a g = .ok (if IsBuilding a.obj then some (f (a, g)) else none) := h (a, g) (by rw [e]; simp)
      have h2 := ih fun b hb => h b (by rw [e]; exact List.mem_cons_of_mem _ hb)
      rw [toogr2Calls, h1, e, List.filter_cons, h2]
      by_cases hb : IsBuilding a.obj
      · simp [hb, ha]
      · simp [hb]

theorem getValueByKey_building (o : Obj) :
    (TagList.getValueByKey o.tags "building" = none ∧ ¬ IsBuilding o) ∨
    (∃ v, TagList.getValueByKey o.tags "building" = some v) ∧ IsBuilding o := by
  rw [getValueByKey_find]
  unfold IsBuilding
  cases h : o.tags.find? (fun t => decide (t.key = "building")) with
  | none =>
    left
    refine ⟨rfl, ?_⟩
    rintro ⟨t, ht, hk⟩
    have := List.find?_eq_none.1 h t ht
    simp [hk] at this
  | some t =>
    right
    exact ⟨⟨t.value, rfl⟩, t, List.mem_of_find?_eq_some h, by simpa using List.find?_some h⟩

theorem toogr2Area_eq (a : Area) (g : Option Geom) (ps : List (Coords × List Coords)) (h : areaPolygons a g = .ok ps) :
    toogr2Area a g = .ok (if IsBuilding a.obj then some ⟨inDegrees ps, wrapS32 a.obj.id⟩ else none) := by
  unfold toogr2Area
  rcases getValueByKey_building a.obj with ⟨h1, h2⟩ | ⟨⟨v, h1⟩, h2⟩
  · rw [h1, if_neg h2]
  · rw [h1, if_pos h2, h]
    rfl

/-- A list that is made of two parts, and each part of the other list. -/
theorem perm_parts {α β γ : Type} {as : List α} {us : List β} {vs : List γ} {g : β → α} {h : γ → List α}
    (hp : as.Perm (us.map g ++ vs.flatMap h)) {δ : Type} (f : α → δ) {R : γ → α → δ → Prop}
    (hr : ∀ v ∈ vs, ∀ a ∈ h v, R v a (f a)) :
    ∃ parts : List (List δ), (as.map f).Perm (us.map (fun u => f (g u)) ++ parts.flatten) ∧
      List.Forall₂ (fun v part => List.Forall₂ (R v) (h v) part) vs parts := by
  refine ⟨vs.map fun v => (h v).map f, ?_, ?_⟩
  · refine (hp.map f).trans (List.Perm.of_eq ?_)
    rw [List.map_append, List.map_map, List.map_flatMap, List.flatMap_def]
    rfl
  · rw [List.forall₂_map_right_iff]
    refine List.forall₂_same.2 fun v hv => ?_
    rw [List.forall₂_map_right_iff]
    exact List.forall₂_same.2 fun a ha => hr v hv a ha

/-! ### osmium_mpdump -/

/-- C92 for a file with nodes, ways and relations in this order, no object twice, ids below 2^62 and not 0 for relations,
ways with nodes, tags with values; any location stores, whatever GEOS says.

The ways get the positions their nodes have in the file.  If GEOS throws an exception while a relation is assembled,
that is the result.  Otherwise the program prints (in some order) one description for each closed way that is not in
a multipolygon relation; and one for each area made of each multipolygon relation that has ways all of which are in
the file, marked with the relation or way the area is from. -/
theorem mpdump_partial {S T : Type} {pos : IdStore S Position} {neg : IdStore T Position}
    {okp okn : List (Nat × Position) → Prop} {up un : Nat → Res Position} {unset : Position}
    (wkt : List (Coords × List Coords) → List Char)
    (fp : Faithful pos okp up) (fn : Faithful neg okn un) (env : WholeEnv) (hsort : env.ringEnv.SortOk) (m : Meta)
    (ns : List Node) (ws : List Way) (rs : List Relation) (hd : DistinctObjects (fileOf ns ws rs))
    (hn : ∀ n ∈ ns, NegatableId n.obj.id) (hw : ∀ w ∈ ws, ∀ wn ∈ w.nodes, NegatableId wn.ref)
    (hokp : ∀ j, okp ((posOps (nodeCalls ns)).take j)) (hokn : ∀ j, okn ((negOps (nodeCalls ns)).take j))
    (hu : ∀ w ∈ ws, ∀ wn ∈ w.nodes, (∀ n ∈ ns, n.obj.id ≠ wn.ref) →
      (if 0 ≤ wn.ref then up wn.ref.toNat else un (-wn.ref).toNat) = .ok unset)
    (hnodes : ∀ w ∈ ws, w.nodes ≠ []) (hidw : ∀ w ∈ ws, SmallId w.obj.id)
    (hidr : ∀ r ∈ rs, SmallId r.obj.id ∧ r.obj.id ≠ 0)
    (hv : ∀ w ∈ ws, ∀ t ∈ w.obj.tags, t.value ≠ "")
    (s : Asm) (h1 : Asm.AfterPass1 mpCfg (protocol m (fileOf ns ws rs)) s) :
    ∃ ws', List.Forall₂ (LocatedBy ns unset) ws ws' ∧
      ((mpdumpMain wkt env pos neg s (protocol m (fileOf ns ws rs)) = .error geosError ∧
          ∃ r ∈ rs, IsMultipolygon r ∧ HasItsWays ws' r ∧ buildWhole env r (wayMembers ws' r) = .error geosError) ∨
       ∃ (ds : List (List Line)) (parts : List (List (List Line))),
          mpdumpMain wkt env pos neg s (protocol m (fileOf ns ws rs)) = .ok ds.flatten ∧
          ds.Perm ((ws'.filter fun w => decide (¬ InMultipolygon rs w) && decide (IsClosedArea w)).map (wayDump wkt) ++
            parts.flatten) ∧
          List.Forall₂ (fun r part => List.Forall₂ (RelationDump wkt ws' r) (areasOfRelation env ws' r) part)
            (rs.filter fun r => decide (IsMultipolygon r) && decide (HasItsWays ws' r)) parts) := by
  obtain ⟨ws', hl, hx⟩ := multipolygons_file_partial fp fn env hsort m ns ws rs hd hn hw hokp hokn hu hnodes hidw
    (fun r hr => (hidr r hr).1) hv s h1
  refine ⟨ws', hl, ?_⟩
  rcases hx with ⟨e1, e2⟩ | ⟨calls, e1, -, -, e4⟩
  · left
    refine ⟨?_, e2⟩
    unfold mpdumpMain
    rw [e1]
  · right
    have hback : ∀ w' ∈ ws', ∃ w ∈ ws, LocatedBy ns unset w w' := by
      intro w' hw'
      obtain ⟨i, hi, rfl⟩ := List.getElem_of_mem hw'
      have hlen := hl.length_eq
      refine ⟨ws[i]'(by omega), List.getElem_mem _, ?_⟩
      have := hl.get (i := i) (by omega) hi
      simpa only [List.get_eq_getElem] using this
    have hidw' : ∀ w ∈ ws', SmallId w.obj.id := fun w hw' => by
      obtain ⟨v, hv1, e⟩ := hback w hw'
      rw [e.1]; exact hidw v hv1
    have hv' : ∀ w ∈ ws', ∀ t ∈ w.obj.tags, t.value ≠ "" := fun w hw' => by
      obtain ⟨v, hv1, e⟩ := hback w hw'
      rw [e.1]; exact hv v hv1
    have hway : ∀ w ∈ ws', IsClosedArea w → mpdumpArea wkt (areaOfWay w).1 (areaOfWay w).2 = .ok (wayDump wkt w) := by
      intro w hw' hc
      obtain ⟨v, -, hloc⟩ := hback w hw'
      rw [mpdumpArea_eq wkt _ _ _ (areaPolygons_way hloc hc)]
      obtain ⟨o1, o2⟩ := area_from_way_origin w.obj.id _ (areaIdOfWay_small (hidw' w hw'))
      show Except.ok (areaLines wkt (if areaFromWay (w.obj.id * 2) = true then _ else _) (w.obj.id * 2)
        (areaOrigId (w.obj.id * 2)) { w.obj with id := w.obj.id * 2 } _) = _
      rw [o1, o2, areaLines_id, Int.mul_comm]
      rfl
    have hrel : ∀ r ∈ rs, ∀ a ∈ areasOfRelation env ws' r,
        ∃ d, mpdumpArea wkt a.1 a.2 = .ok d ∧ RelationDump wkt ws' r a d := by
      intro r hr a ha
      obtain ⟨ps, origin, areaId, origId, o, hm⟩ := relation_areas env hsort ws' r (hidr r hr).1 (hidr r hr).2 hidw' hv' a ha
      obtain ⟨i1, i2⟩ := madeFor_ids hm
      have hps : areaPolygons a.1 a.2 = .ok ps := by rw [hm.1]; rfl
      refine ⟨_, mpdumpArea_eq wkt _ _ _ hps, ps, origin, areaId, origId, o, hm, ?_⟩
      rw [hm.2.1]
      simp only
      rw [areaLines_id, i1, ← i2]
    let f : Area × Option Geom → List Line := fun a => (mpdumpArea wkt a.1 a.2).toOption.getD []
    have hf : ∀ a d, mpdumpArea wkt a.1 a.2 = .ok d → f a = d := fun a d h => by
      show (mpdumpArea wkt a.1 a.2).toOption.getD [] = d
      rw [h]; rfl
    have hmain : mpdumpCalls wkt calls = .ok ((areasIn calls).map f).flatten := by
      refine mpdumpCalls_ok wkt f calls fun a ha => ?_
      have ha := e4.subset ha
      rcases List.mem_append.1 ha with ha | ha
      · obtain ⟨w, hw', rfl⟩ := List.mem_map.1 ha
        simp only [List.mem_filter, Bool.and_eq_true, decide_eq_true_eq] at hw'
        have := hway w hw'.1 hw'.2.2
        rw [hf _ _ this]; exact this
      · obtain ⟨r, hr, ha⟩ := List.mem_flatMap.1 ha
        obtain ⟨d, hd, -⟩ := hrel r (List.mem_of_mem_filter hr) a ha
        rw [hf _ _ hd]; exact hd
    obtain ⟨parts, q1, q2⟩ := perm_parts e4 f (R := fun r a d => RelationDump wkt ws' r a d) (fun r hr a ha => by
      obtain ⟨d, hd, hrd⟩ := hrel r (List.mem_of_mem_filter hr) a ha
      rw [hf _ _ hd]; exact hrd)
    refine ⟨(areasIn calls).map f, parts, ?_, ?_, q2⟩
    · unfold mpdumpMain
      rw [e1]
      exact hmain
    · refine q1.trans (List.Perm.of_eq ?_)
      congr 1
      refine List.map_congr_left fun w hw' => ?_
      simp only [List.mem_filter, Bool.and_eq_true, decide_eq_true_eq] at hw'
      exact hf _ _ (hway w hw'.1 hw'.2.2)

/-! ### osmium_toogr2 -/

/-- C93 for a file as in C92, with ids of ways and relations below 2^30: if the library accepts everything, it gets
(in some order) exactly the closed ways with a `building` tag that are not in a multipolygon relation, and those of
the areas made of the multipolygon relations (that have ways all of which are in the file) that have such a tag. -/
theorem toogr2_partial {S T : Type} {pos : IdStore S Position} {neg : IdStore T Position}
    {okp okn : List (Nat × Position) → Prop} {up un : Nat → Res Position} {unset : Position}
    (accepts : OgrArea → Bool) (hacc : ∀ f, accepts f = true)
    (fp : Faithful pos okp up) (fn : Faithful neg okn un) (env : WholeEnv) (hsort : env.ringEnv.SortOk) (m : Meta)
    (ns : List Node) (ws : List Way) (rs : List Relation) (hd : DistinctObjects (fileOf ns ws rs))
    (hn : ∀ n ∈ ns, NegatableId n.obj.id) (hw : ∀ w ∈ ws, ∀ wn ∈ w.nodes, NegatableId wn.ref)
    (hokp : ∀ j, okp ((posOps (nodeCalls ns)).take j)) (hokn : ∀ j, okn ((negOps (nodeCalls ns)).take j))
    (hu : ∀ w ∈ ws, ∀ wn ∈ w.nodes, (∀ n ∈ ns, n.obj.id ≠ wn.ref) →
      (if 0 ≤ wn.ref then up wn.ref.toNat else un (-wn.ref).toNat) = .ok unset)
    (hnodes : ∀ w ∈ ws, w.nodes ≠ []) (hidw : ∀ w ∈ ws, |w.obj.id| < 2 ^ 30)
    (hidr : ∀ r ∈ rs, |r.obj.id| < 2 ^ 30 ∧ r.obj.id ≠ 0)
    (hv : ∀ w ∈ ws, ∀ t ∈ w.obj.tags, t.value ≠ "")
    (s : Asm) (h1 : Asm.AfterPass1 mpCfg (protocol m (fileOf ns ws rs)) s) :
    ∃ ws', List.Forall₂ (LocatedBy ns unset) ws ws' ∧
      ((toogr2Main accepts env pos neg s (protocol m (fileOf ns ws rs)) = .error geosError ∧
          ∃ r ∈ rs, IsMultipolygon r ∧ HasItsWays ws' r ∧ buildWhole env r (wayMembers ws' r) = .error geosError) ∨
       ∃ (fs : List OgrArea) (parts : List (List OgrArea)),
          toogr2Main accepts env pos neg s (protocol m (fileOf ns ws rs)) = .ok fs ∧
          fs.Perm ((ws'.filter fun w => decide (¬ InMultipolygon rs w) && decide (IsClosedArea w) &&
            decide (IsBuilding w.obj)).map wayBuilding ++ parts.flatten) ∧
          List.Forall₂ (fun r part => List.Forall₂ (RelationBuilding ws' r)
              ((areasOfRelation env ws' r).filter fun a => decide (IsBuilding a.1.obj)) part)
            (rs.filter fun r => decide (IsMultipolygon r) && decide (HasItsWays ws' r)) parts) := by
  have small : ∀ {i : Int}, |i| < 2 ^ 30 → SmallId i := by
    intro i h
    rw [abs_lt] at h
    unfold SmallId
    norm_num at h ⊢
    omega
  obtain ⟨ws', hl, hx⟩ := multipolygons_file_partial fp fn env hsort m ns ws rs hd hn hw hokp hokn hu hnodes
    (fun w hw => small (hidw w hw)) (fun r hr => small (hidr r hr).1) hv s h1
  refine ⟨ws', hl, ?_⟩
  rcases hx with ⟨e1, e2⟩ | ⟨calls, e1, -, -, e4⟩
  · left
    refine ⟨?_, e2⟩
    unfold toogr2Main
    rw [e1]
  · right
    have hback : ∀ w' ∈ ws', ∃ w ∈ ws, LocatedBy ns unset w w' := by
      intro w' hw'
      obtain ⟨i, hi, rfl⟩ := List.getElem_of_mem hw'
      have hlen := hl.length_eq
      refine ⟨ws[i]'(by omega), List.getElem_mem _, ?_⟩
      have := hl.get (i := i) (by omega) hi
      simpa only [List.get_eq_getElem] using this
    have hidw' : ∀ w ∈ ws', |w.obj.id| < 2 ^ 30 := fun w hw' => by
      obtain ⟨v, hv1, e⟩ := hback w hw'
      rw [e.1]; exact hidw v hv1
    have hv' : ∀ w ∈ ws', ∀ t ∈ w.obj.tags, t.value ≠ "" := fun w hw' => by
      obtain ⟨v, hv1, e⟩ := hback w hw'
      rw [e.1]; exact hv v hv1
    have wrap : ∀ i : Int, |i| < 2 ^ 30 → wrapS32 (2 * i) = 2 * i ∧
        wrapS32 (if 0 < i then 2 * i + 1 else 2 * i - 1) = if 0 < i then 2 * i + 1 else 2 * i - 1 := by
      intro i h
      rw [abs_lt] at h
      norm_num at h
      constructor
      · apply wrapS32_of_in
        unfold InS32
        omega
      · apply wrapS32_of_in
        unfold InS32
        split <;> omega
    have hway : ∀ w ∈ ws', IsClosedArea w →
        toogr2Area (areaOfWay w).1 (areaOfWay w).2 = .ok (if IsBuilding w.obj then some (wayBuilding w) else none) := by
      intro w hw' hc
      obtain ⟨v, -, hloc⟩ := hback w hw'
      rw [toogr2Area_eq _ _ _ (areaPolygons_way hloc hc)]
      have : wrapS32 (areaOfWay w).1.obj.id = 2 * w.obj.id := by
        show wrapS32 (w.obj.id * 2) = _
        rw [Int.mul_comm]
        exact (wrap _ (hidw' w hw')).1
      rw [this]
      rfl
    have hrel : ∀ r ∈ rs, ∀ a ∈ areasOfRelation env ws' r,
        ∃ f, toogr2Area a.1 a.2 = .ok (if IsBuilding a.1.obj then some f else none) ∧ RelationBuilding ws' r a f := by
      intro r hr a ha
      obtain ⟨ps, origin, areaId, origId, o, hm⟩ := relation_areas env hsort ws' r (small (hidr r hr).1) (hidr r hr).2
        (fun w hw => small (hidw' w hw)) hv' a ha
      have hps : areaPolygons a.1 a.2 = .ok ps := by rw [hm.1]; rfl
      refine ⟨_, toogr2Area_eq _ _ _ hps, ps, origin, areaId, origId, o, hm, ?_⟩
      have hid : a.1.obj.id = areaId := by rw [hm.2.1]
      have : wrapS32 areaId = areaId := by
        rcases hm.2.2 with ⟨-, -, -, rfl, -⟩ | ⟨w, hw', -, -, rfl, -⟩
        · exact (wrap _ (hidr r hr).1).2
        · exact (wrap _ (hidw' w hw')).1
      rw [hid, this]
    let f : Area × Option Geom → OgrArea := fun a =>
      ((areaPolygons a.1 a.2).toOption.map fun ps => OgrArea.mk (inDegrees ps) (wrapS32 a.1.obj.id)).getD ⟨[], 0⟩
    have hf : ∀ a x, IsBuilding a.1.obj → toogr2Area a.1 a.2 = .ok (if IsBuilding a.1.obj then some x else none) → f a = x := by
      intro a x hb h
      cases hps : areaPolygons a.1 a.2 with
      | error e =>
        unfold toogr2Area at h
        rcases getValueByKey_building a.1.obj with ⟨-, h2⟩ | ⟨⟨v, h1⟩, -⟩
        · exact absurd hb h2
        · rw [h1, hps] at h; cases h
      | ok ps =>
        rw [toogr2Area_eq _ _ _ hps, if_pos hb, if_pos hb] at h
        show ((areaPolygons a.1 a.2).toOption.map fun ps => OgrArea.mk (inDegrees ps) (wrapS32 a.1.obj.id)).getD ⟨[], 0⟩ = x
        rw [hps]
        simpa [Except.toOption] using h
    have hff : ∀ a x, toogr2Area a.1 a.2 = .ok (if IsBuilding a.1.obj then some x else none) →
        toogr2Area a.1 a.2 = .ok (if IsBuilding a.1.obj then some (f a) else none) := by
      intro a x h
      by_cases hb : IsBuilding a.1.obj
      · rw [hf a x hb h]; exact h
      · rw [if_neg hb] at h ⊢; exact h
    have hmain : toogr2Calls accepts calls = .ok (((areasIn calls).filter fun a => decide (IsBuilding a.1.obj)).map f) := by
      refine toogr2Calls_ok accepts hacc f calls fun a ha => ?_
      have ha := e4.subset ha
      rcases List.mem_append.1 ha with ha | ha
      · obtain ⟨w, hw', rfl⟩ := List.mem_map.1 ha
        simp only [List.mem_filter, Bool.and_eq_true, decide_eq_true_eq] at hw'
        exact hff _ _ (hway w hw'.1 hw'.2.2)
      · obtain ⟨r, hr, ha⟩ := List.mem_flatMap.1 ha
        obtain ⟨d, hd, -⟩ := hrel r (List.mem_of_mem_filter hr) a ha
        exact hff _ _ hd
    have e5 := e4.filter fun a => decide (IsBuilding a.1.obj)
    rw [List.filter_append, List.filter_map, List.filter_flatMap] at e5
    obtain ⟨parts, q1, q2⟩ := perm_parts e5 f (R := fun r a d => RelationBuilding ws' r a d) (fun r hr a ha => by
      obtain ⟨d, hd, hrd⟩ := hrel r (List.mem_of_mem_filter hr) a (List.mem_of_mem_filter ha)
      have hb : IsBuilding a.1.obj := by simpa using (List.mem_filter.1 ha).2
      rw [hf _ _ hb hd]; exact hrd)
    refine ⟨((areasIn calls).filter fun a => decide (IsBuilding a.1.obj)).map f, parts, ?_, ?_, q2⟩
    · unfold toogr2Main
      rw [e1]
      exact hmain
    · refine q1.trans (List.Perm.of_eq ?_)
      congr 1
      have hfil : (ws'.filter fun w => decide (¬ InMultipolygon rs w) && decide (IsClosedArea w)).filter
          ((fun a : Area × Option Geom => decide (IsBuilding a.1.obj)) ∘ areaOfWay) =
          ws'.filter fun w => decide (¬ InMultipolygon rs w) && decide (IsClosedArea w) && decide (IsBuilding w.obj) := by
        rw [List.filter_filter]
        refine List.filter_congr fun w _ => ?_
        rw [Bool.and_comm]
        rfl
      rw [hfil]
      refine List.map_congr_left fun w hw' => ?_
      simp only [List.mem_filter, Bool.and_eq_true, decide_eq_true_eq] at hw'
      exact hf _ _ hw'.2.2 (hway w hw'.1 hw'.2.1.2)

/-! ### Examples -/

/-- (example) Some text for polygons. -/
def countWkt (ps : List (Coords × List Coords)) : List Char := Text.natDec ps.length

example : (mpdumpMain countWkt squareEnv pipeStore pipeStore pipeAsm pipeCalls).toOption =
    some (["Area from way id=6 (orig_id=3) version=0 timestamp=0 uid=-1 user=", "  1", "  natural=wood", "",
      "Area from relation id=19 (orig_id=9) version=0 timestamp=7 uid=-1 user=", "  2", "  type=multipolygon",
      "  natural=water", "", "Area from way id=12 (orig_id=6) version=0 timestamp=0 uid=-1 user=", "  1",
      "  building=yes", ""].map String.toList) := by
  decide +kernel

example : (toogr2Main (fun _ => true) squareEnv pipeStore pipeStore pipeAsm pipeCalls).toOption.map
      (fun fs => fs.map fun f => (f.id, f.polygons.map fun p => (p.1.length, p.2.length))) =
    some [(12, [(5, 0)])] := by
  decide +kernel

/-- The other hypotheses are met, as shown for `multipolygons_file_partial`; the additional ones are too. -/
example : (∀ w ∈ pipeWays, |w.obj.id| < 2 ^ 30) ∧ ∀ r ∈ pipeRelations, |r.obj.id| < 2 ^ 30 ∧ r.obj.id ≠ 0 := by
  decide +kernel

/-- Disagreement with C93: the ids of areas have only 32 bits in the layer; the buildings 5 and 5 + 2^31 get the same
one, and the one of the way 2^30 is negative. -/
theorem toogr2_ids :
    (toogr2Area (areaOfWay (squareWay 5 1 0 0 10 [⟨"building", "yes"⟩])).1 none).toOption =
      (toogr2Area (areaOfWay (squareWay 2147483653 1 0 0 10 [⟨"building", "yes"⟩])).1 none).toOption ∧
    (toogr2Area (areaOfWay (squareWay 1073741824 1 0 0 10 [⟨"building", "yes"⟩])).1 none).toOption.map
      (fun f => f.map OgrArea.id) = some (some (-2147483648)) := by
  decide +kernel

end Osmium

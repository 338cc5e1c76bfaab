import Verif.Multipolygon.Messages

/-
C125: a multipolygon relation is built, or it is reported why not: multipolygon/builder.hpp 308-324 with
multipolygon/assembler.hpp 88-115.
-/
namespace Osmium
open Spec

/-- multipolygon/builder.hpp 321: the line on the standard error. -/
def reportLine (r : Relation) (reason : String) : Line :=
  txt "Building multipolygon based on relation " ++ Text.intDec r.obj.id ++ txt " failed: " ++ txt reason

/-- multipolygon/builder.hpp 308-324, multipolygon/assembler.hpp 88-95: what a hook of the assembler reports. -/
def hookReports (env : WholeEnv) : AsmEvent → List Line
  | .complete r ms =>
    match memberWays ms with
    | .error _ => []
    | .ok ws =>
      match buildReport env r ws with
      | .ok (_, some reason) => [reportLine r reason]
      | _ => []
  | _ => []

/-- What is reported by all hooks, up to an exception. (multipolygon/assembler.hpp 60-115, for all relations and ways) -/
def reportTrace (env : WholeEnv) : List AsmEvent → List Line
  | [] => []
  | e :: es =>
    match wholeHook env e with
    | .error _ => []
    | .ok _ => hookReports env e ++ reportTrace env es

/-- osmjs/osmjs.cpp 247-254, examples/osmium_mpdump.cpp 76-86: what is reported during the second pass.  Simplification:
if the coordinates handler or the assembler itself fails (assertions), nothing. -/
def secondReports {S T : Type} (env : WholeEnv) (pos : IdStore S Position) (neg : IdStore T Position) (s : Asm)
    (calls : List Cb) : List Line :=
  match cfwRun pos neg (pos.empty, neg.empty) calls with
  | .error _ => []
  | .ok out =>
    match s.pass2 mpCfg out with
    | .error _ => []
    | .ok p => reportTrace env p.2

namespace Spec

/-- The reason is why there is no area: the ways cannot be connected to rings, or there are no (outer) rings, or GEOS
does not accept one of the polygons, or all of them as a multipolygon. (specification, no counterpart in /repo) -/
def WhyFailed (env : WholeEnv) (members : List (Option Way)) (r : Relation) (reason : String) : Prop :=
  ∃ ws : List Way, (assembleWays env.repair members [] r.obj.timestamp).1 = ws.map WayInfo.new ∧
    ((makeRings env.ringEnv (ws.map WayInfo.new) = .error (.exn reason) ∧
        (reason = "un-connectable dangling ends" ∨ reason = "no rings")) ∨
     ∃ s, makeRings env.ringEnv (ws.map WayInfo.new) = .ok s ∧
      (let rings := s.rings.map (env.coords s)
       let t := determineRings rings.length (env.bits rings)
       let outer := outerRings rings.length t
       let cur := fun k : Nat => rings[k]?
       reason = "no rings" ∧ outer = [] ∨
       reason = "invalid ring" ∧ BadPolygon env.mp t.inner cur outer ∨
       reason = "multipolygon invalid" ∧ ∃ ps last, Polygons env.mp t.inner cur outer ps last ∧ ps ≠ [] ∧
          (env.mp.multiMakes ps = false ∨ env.mp.multiValid ps = some false)))

/-- The line about a relation that is not built. (specification of multipolygon/builder.hpp 321) -/
def failureLine (r : Relation) (reason : String) : Line :=
  txt "Building multipolygon based on relation " ++ Text.intDec r.obj.id ++ txt (" failed: " ++ reason)

/-- The area made from the relation itself (and not from one of its ways) is among these.
(specification, no counterpart in /repo) -/
def HasAreaOf (r : Relation) (as : List (Area × Option Geom)) : Prop :=
  ∃ a ∈ as, a.1.obj.id = r.obj.id * 2 + sgn r.obj.id

end Spec

theorem sgn_pos {x : Int} (h : 0 < x) : sgn x = 1 := by unfold sgn; rw [if_pos h, if_neg (by omega)]; rfl

theorem sgn_neg {x : Int} (h : x < 0) : sgn x = -1 := by unfold sgn; rw [if_neg (by omega), if_pos h]; rfl

theorem relation_id_odd {x y : Int} (h : x ≠ 0) : y * 2 ≠ x * 2 + sgn x := by
  rcases Int.lt_or_gt_of_ne h with h | h
  · rw [sgn_neg h]; omega
  · rw [sgn_pos h]; omega

theorem relation_id_inj {x y : Int} (h : x * 2 + sgn x = y * 2 + sgn y) : x = y := by
  unfold sgn at h
  split at h <;> split at h <;> split at h <;> split at h <;> omega

/-- **C125**, for one relation (with any members and whatever GEOS says; ids below 2^62 in size, tags have values): if
GEOS throws no exception, either the relation's own area is made and nothing is reported, or it is not made and the
reason is reported. -/
theorem built_or_reported (env : WholeEnv) (hsort : env.ringEnv.SortOk) (r : Relation) (members : List (Option Way))
    (hr : SmallId r.obj.id) (h0 : r.obj.id ≠ 0) (hm : ∀ w, some w ∈ members → SmallId w.obj.id)
    (hv : ∀ w, some w ∈ members → ∀ t ∈ w.obj.tags, t.value ≠ "") :
    buildReport env r members = .error geosError ∨
    (∃ as, buildReport env r members = .ok (as, none) ∧ HasAreaOf r as) ∨
    ∃ as reason, buildReport env r members = .ok (as, some reason) ∧ ¬ HasAreaOf r as ∧
      WhyFailed env members r reason := by
  obtain ⟨ws, ts, s1, -, -, -, -, -, h⟩ := whole_report env hsort r members hr hm hv
  rcases h with ⟨msg, h1, h2, h3⟩ | ⟨s, -, -, h⟩ | ⟨s, h1, -, extra, -, -, -, h⟩
  · exact .inr (.inr ⟨[], msg, h3, (by rintro ⟨a, ha, -⟩; cases ha), ws, s1, .inl ⟨h1, h2⟩⟩)
  · exact .inl h
  · rcases h with ⟨ps, last, -, -, -, -, h⟩ | ⟨msg, h2, h⟩ | ⟨-, h⟩
    · exact .inr (.inl ⟨_, h, _, List.mem_append_right _ (List.mem_singleton.2 rfl), rfl⟩)
    · refine .inr (.inr ⟨_, msg, h, ?_, ws, s1, .inr ⟨s, h1, h2⟩⟩)
      rintro ⟨a, ha, e⟩
      obtain ⟨x, -, rfl⟩ := List.mem_map.1 ha
      exact relation_id_odd h0 e
    · exact .inl h

/-- All areas made for a relation but its own have even ids. -/
theorem report_ids (env : WholeEnv) (hsort : env.ringEnv.SortOk) (r : Relation) (members : List (Option Way))
    (hr : SmallId r.obj.id) (hm : ∀ w, some w ∈ members → SmallId w.obj.id)
    (hv : ∀ w, some w ∈ members → ∀ t ∈ w.obj.tags, t.value ≠ "") (as : List (Area × Option Geom))
    (h : buildWhole env r members = .ok as) :
    ∀ a ∈ as, a.1.obj.id = r.obj.id * 2 + sgn r.obj.id ∨ ∃ y, a.1.obj.id = y * 2 := by
  obtain ⟨ws, ts, s1, -, -, -, -, -, h'⟩ := whole_areas env hsort r members hr hm hv
  rcases h' with ⟨msg, -, h3⟩ | ⟨s, -, -, h3⟩ | ⟨s, -, -, extra, -, -, -, h3⟩
  · rw [h] at h3; cases h3; simp
  · rw [h] at h3; cases h3
  · rcases h3 with ⟨ps, last, -, -, -, -, h3⟩ | ⟨-, h3⟩ | ⟨-, h3⟩
    · rw [h] at h3
      cases h3
      intro a ha
      rcases List.mem_append.1 ha with ha | ha
      · obtain ⟨x, -, rfl⟩ := List.mem_map.1 ha
        exact .inr ⟨_, rfl⟩
      · rw [List.mem_singleton.1 ha]; exact .inl rfl
    · rw [h] at h3
      cases h3
      intro a ha
      obtain ⟨x, -, rfl⟩ := List.mem_map.1 ha
      exact .inr ⟨_, rfl⟩
    · rw [h] at h3; cases h3

/-- The reports of a run without exception are those of its completed relations. -/
theorem reportTrace_ok (env : WholeEnv) : ∀ ev calls, wholeCalls env ev = .ok calls →
    reportTrace env ev = (completions ev).flatMap fun p => hookReports env (.complete p.1 p.2)
  | [], _, _ => rfl
  | e :: es, calls, h => by
    unfold wholeCalls at h
    unfold reportTrace
    cases he : wholeHook env e with
    | error f => rw [he] at h; cases h
    | ok cs =>
      rw [he] at h
      cases hr : wholeCalls env es with
      | error f => simp only [hr] at h; cases h
      | ok rest =>
        simp only
        rw [reportTrace_ok env es rest hr]
        cases e <;> simp [completions, hookReports]

theorem distinct_relations {ns : List Node} {ws : List Way} {rs : List Relation}
    (hd : DistinctObjects (fileOf ns ws rs)) : rs.Pairwise fun a b => a.obj.id ≠ b.obj.id := by
  have h1 : DistinctObjects (rs.map OsmObj.relation) := by
    unfold fileOf at hd
    unfold DistinctObjects at *
    exact (List.pairwise_append.1 hd).2.1
  unfold DistinctObjects at h1
  rw [List.pairwise_map] at h1
  refine h1.imp ?_
  intro a b h e
  exact h ⟨rfl, e⟩

/-- The text of the report. -/
theorem reportLine_eq (r : Relation) (reason : String) : reportLine r reason = failureLine r reason := by
  unfold reportLine failureLine
  rw [List.append_assoc, List.append_assoc, List.append_assoc]
  congr 2
  simp [txt]

/-- Ways keep their ids and tags when they get their locations. -/
theorem located_small {ns : List Node} {unset : Position} {ws ws' : List Way}
    (hl : List.Forall₂ (LocatedBy ns unset) ws ws') (hidw : ∀ w ∈ ws, SmallId w.obj.id)
    (hv : ∀ w ∈ ws, ∀ t ∈ w.obj.tags, t.value ≠ "") :
    (∀ w ∈ ws', SmallId w.obj.id) ∧ ∀ w ∈ ws', ∀ t ∈ w.obj.tags, t.value ≠ "" := by
  have hback : ∀ w' ∈ ws', ∃ w ∈ ws, w.obj = w'.obj := by
    intro w' hw'
    obtain ⟨i, hi, rfl⟩ := List.getElem_of_mem hw'
    have hlen := hl.length_eq
    refine ⟨ws[i]'(by omega), List.getElem_mem _, ?_⟩
    have := hl.get (i := i) (by omega) hi
    simp only [List.get_eq_getElem] at this
    exact this.1.symm
  constructor
  · intro w hw'
    obtain ⟨v, hv1, e⟩ := hback w hw'
    rw [← e]; exact hidw v hv1
  · intro w hw'
    obtain ⟨v, hv1, e⟩ := hback w hw'
    rw [← e]; exact hv v hv1

/-- The reports about relations that are treated without exception, and their areas. -/
theorem reports_core (env : WholeEnv) (hsort : env.ringEnv.SortOk) (ws' : List Way) (L : List Relation)
    (closed : List Way) (comp : List (Relation × List (Option OsmObj))) (areas : List (Area × Option Geom))
    (hidw : ∀ w ∈ ws', SmallId w.obj.id) (hv : ∀ w ∈ ws', ∀ t ∈ w.obj.tags, t.value ≠ "")
    (hidr : ∀ r ∈ L, SmallId r.obj.id) (hid0 : ∀ r ∈ L, r.obj.id ≠ 0)
    (hpw : L.Pairwise fun a b => a.obj.id ≠ b.obj.id) (hcomp : (comp.map Prod.fst).Perm L)
    (hslots : ∀ p ∈ comp, memberWays p.2 = .ok (wayMembers ws' p.1))
    (h3 : ∀ r ∈ L, ∃ as, buildWhole env r (wayMembers ws' r) = .ok as)
    (h4 : areas.Perm (closed.map areaOfWay ++ L.flatMap (areasOfRelation env ws'))) :
    ∃ failed : List (Relation × String),
      (comp.flatMap fun p => hookReports env (.complete p.1 p.2)) = failed.map (fun p => failureLine p.1 p.2) ∧
      (failed.map Prod.fst).Nodup ∧
      (∀ p ∈ failed, p.1 ∈ L ∧ WhyFailed env (wayMembers ws' p.1) p.1 p.2) ∧
      ∀ r ∈ L, (r ∈ failed.map Prod.fst ↔ ¬ HasAreaOf r areas) := by
  -- one relation
  have hone := fun (r : Relation) (hr : r ∈ L) => built_or_reported env hsort r (wayMembers ws' r) (hidr r hr) (hid0 r hr)
    (fun w hw' => hidw w (wayMembers_mem hw')) (fun w hw' => hv w (wayMembers_mem hw'))
  have hids := fun (r : Relation) (hr : r ∈ L) => report_ids env hsort r (wayMembers ws' r) (hidr r hr)
    (fun w hw' => hidw w (wayMembers_mem hw')) (fun w hw' => hv w (wayMembers_mem hw'))
  have hmem : ∀ p ∈ comp, p.1 ∈ L := fun p hp => hcomp.subset (List.mem_map.2 ⟨p, hp, rfl⟩)
  let rep : Relation → Option String := fun r =>
    match buildReport env r (wayMembers ws' r) with
    | .ok (_, o) => o
    | .error _ => none
  have hhook : ∀ p ∈ comp, hookReports env (.complete p.1 p.2) =
      ((rep p.1).map fun x => failureLine p.1 x).toList := by
    intro p hp
    simp only [hookReports, hslots p hp, rep]
    cases h : buildReport env p.1 (wayMembers ws' p.1) with
    | error f => rfl
    | ok q =>
      obtain ⟨as, o⟩ := q
      cases o with
      | none => rfl
      | some x => simp [reportLine_eq]
  have hnodup : (comp.map Prod.fst).Nodup := by
    refine hcomp.nodup_iff.2 ?_
    exact hpw.imp fun h e => h (by rw [e])
  -- the area of a relation
  have hown : ∀ r ∈ L, (HasAreaOf r areas ↔ rep r = none) := by
    intro r hr
    obtain ⟨as, has⟩ := h3 r hr
    have hiff : HasAreaOf r areas ↔ HasAreaOf r as := by
      constructor
      · rintro ⟨a, ha, e⟩
        rcases List.mem_append.1 (h4.subset ha) with ha | ha
        · obtain ⟨w, -, rfl⟩ := List.mem_map.1 ha
          exact absurd e (relation_id_odd (hid0 r hr))
        · obtain ⟨x, hx, hax⟩ := List.mem_flatMap.1 ha
          obtain ⟨as', has'⟩ := h3 x hx
          unfold areasOfRelation at hax
          rw [has'] at hax
          rcases hids x hx as' has' a hax with e' | ⟨y, e'⟩
          · have e2 : x.obj.id = r.obj.id := relation_id_inj (e'.symm.trans e)
            have : x = r := by
              by_contra hne
              exact List.Pairwise.forall_of_forall_of_flip (R := fun a b : Relation => a.obj.id = b.obj.id → a = b)
                (fun _ _ _ => rfl) (hpw.imp fun h e => absurd e h) (hpw.imp fun h e => absurd e.symm h) hx hr e2 |> hne
            subst this
            rw [has] at has'
            cases has'
            exact ⟨a, hax, e⟩
          · exact absurd (e'.symm.trans e) (relation_id_odd (hid0 r hr))
      · rintro ⟨a, ha, e⟩
        refine ⟨a, h4.symm.subset (List.mem_append_right _ (List.mem_flatMap.2 ⟨r, hr, ?_⟩)), e⟩
        unfold areasOfRelation
        rw [has]
        exact ha
    rw [hiff]
    have hbw : buildWhole env r (wayMembers ws' r) = (buildReport env r (wayMembers ws' r)).map Prod.fst := rfl
    rw [hbw] at has
    rcases hone r hr with h | ⟨as', h, hx⟩ | ⟨as', reason, h, hx, -⟩
    · rw [h] at has; cases has
    · rw [h] at has
      cases has
      simp [rep, h, hx]
    · rw [h] at has
      cases has
      simp [rep, h, hx]
  refine ⟨comp.filterMap (fun p => (rep p.1).map fun x => (p.1, x)), ?_, ?_, ?_, ?_⟩
  · rw [List.flatMap_congr hhook, List.map_filterMap]
    clear hcomp hslots hmem hhook hnodup
    induction comp with
    | nil => rfl
    | cons p l ih =>
      rw [List.flatMap_cons, List.filterMap_cons, ih]
      cases rep p.1 <;> rfl
  · refine hnodup.sublist ?_
    rw [List.map_filterMap]
    clear hcomp hslots hmem hhook hnodup
    induction comp with
    | nil => exact .slnil
    | cons p l ih =>
      rw [List.filterMap_cons, List.map_cons]
      cases h : rep p.1 with
      | none => simpa [h] using ih.cons _
      | some x => simpa [h] using ih.cons_cons p.1
  · intro q hq
    obtain ⟨p, hp, e⟩ := List.mem_filterMap.1 hq
    obtain ⟨x, hx, rfl⟩ := Option.map_eq_some_iff.1 e
    refine ⟨hmem p hp, ?_⟩
    rcases hone p.1 (hmem p hp) with h | ⟨as', h, -⟩ | ⟨as', reason, h, -, hy⟩
    · simp [rep, h] at hx
    · simp [rep, h] at hx
    · simp only [rep, h, Option.some.injEq] at hx
      subst hx
      exact hy
  · intro r hr
    rw [hown r hr]
    constructor
    · intro hm
      obtain ⟨q, hq, rfl⟩ := List.mem_map.1 hm
      obtain ⟨p, hp, e⟩ := List.mem_filterMap.1 hq
      obtain ⟨x, hx, rfl⟩ := Option.map_eq_some_iff.1 e
      simp [hx]
    · intro hne
      obtain ⟨x, hx⟩ := Option.ne_none_iff_exists'.1 hne
      obtain ⟨p, hp, rfl⟩ := List.mem_map.1 (hcomp.symm.subset hr)
      exact List.mem_map.2 ⟨(p.1, x), List.mem_filterMap.2 ⟨_, hp, by simp [hx]⟩, rfl⟩

/-- The reports up to the hook that throws the exception. -/
theorem reportTrace_error (env : WholeEnv) (e : AsmEvent) (post : List AsmEvent) (f : Fail)
    (he : wholeHook env e = .error f) : ∀ pre : List AsmEvent, (∀ e ∈ pre, ∃ cs, wholeHook env e = .ok cs) →
    reportTrace env (pre ++ e :: post) = (completions pre).flatMap fun p => hookReports env (.complete p.1 p.2)
  | [], _ => by simp [reportTrace, he, completions]
  | x :: pre, h => by
    obtain ⟨cs, hcs⟩ := h x (by simp)
    rw [List.cons_append, reportTrace, hcs]
    simp only
    rw [reportTrace_error env e post f he pre fun y hy => h y (by simp [hy])]
    cases x <;> simp [completions, hookReports]

/-- **C125** (partial: for files as in `multipolygons_file_partial`, in which no relation has the id 0).  If GEOS throws no exception for a relation that has
all its ways: the reports are one line for each relation in a list in which no relation occurs twice; these are
multipolygon relations that have all their ways, each with the reason why it has failed; and of all multipolygon relations
that have all their ways, those are in the list whose area is not given to the handler. -/
theorem reports_file_partial {S T : Type} {pos : IdStore S Position} {neg : IdStore T Position}
    {okp okn : List (Nat × Position) → Prop} {up un : Nat → Res Position} {unset : Position}
    (fp : Faithful pos okp up) (fn : Faithful neg okn un) (env : WholeEnv) (hsort : env.ringEnv.SortOk) (m : Meta)
    (ns : List Node) (ws : List Way) (rs : List Relation) (hd : DistinctObjects (fileOf ns ws rs))
    (hn : ∀ n ∈ ns, NegatableId n.obj.id) (hw : ∀ w ∈ ws, ∀ wn ∈ w.nodes, NegatableId wn.ref)
    (hokp : ∀ j, okp ((posOps (nodeCalls ns)).take j)) (hokn : ∀ j, okn ((negOps (nodeCalls ns)).take j))
    (hu : ∀ w ∈ ws, ∀ wn ∈ w.nodes, (∀ n ∈ ns, n.obj.id ≠ wn.ref) →
      (if 0 ≤ wn.ref then up wn.ref.toNat else un (-wn.ref).toNat) = .ok unset)
    (hnodes : ∀ w ∈ ws, w.nodes ≠ []) (hidw : ∀ w ∈ ws, SmallId w.obj.id) (hidr : ∀ r ∈ rs, SmallId r.obj.id)
    (hid0 : ∀ r ∈ rs, r.obj.id ≠ 0) (hv : ∀ w ∈ ws, ∀ t ∈ w.obj.tags, t.value ≠ "")
    (s : Asm) (h1 : Asm.AfterPass1 mpCfg (protocol m (fileOf ns ws rs)) s) :
    ∃ ws', List.Forall₂ (LocatedBy ns unset) ws ws' ∧
      ((secondPass env pos neg s (protocol m (fileOf ns ws rs)) = .error geosError ∧
          ∃ r ∈ rs, IsMultipolygon r ∧ HasItsWays ws' r ∧ buildWhole env r (wayMembers ws' r) = .error geosError) ∨
       ∃ calls, secondPass env pos neg s (protocol m (fileOf ns ws rs)) = .ok calls ∧
        ∃ failed : List (Relation × String),
          secondReports env pos neg s (protocol m (fileOf ns ws rs)) = failed.map (fun p => failureLine p.1 p.2) ∧
          (failed.map Prod.fst).Nodup ∧
          (∀ p ∈ failed, p.1 ∈ rs ∧ IsMultipolygon p.1 ∧ HasItsWays ws' p.1 ∧
            WhyFailed env (wayMembers ws' p.1) p.1 p.2) ∧
          ∀ r ∈ rs, IsMultipolygon r → HasItsWays ws' r →
            (r ∈ failed.map Prod.fst ↔ ¬ HasAreaOf r (areasIn calls))) := by
  obtain ⟨ws', s', ev, hl, hcfw, hp2, hcompl, h⟩ :=
    multipolygons_file_events fp fn env hsort m ns ws rs hd hn hw hokp hokn hu hnodes hidw hidr hv s h1
  refine ⟨ws', hl, ?_⟩
  rcases h with h | ⟨calls, h2, h3, -, h4⟩
  · exact .inl h
  refine .inr ⟨calls, h2, ?_⟩
  obtain ⟨hidw', hv'⟩ := located_small hl hidw hv
  have hcalls : wholeCalls env ev = .ok calls := by
    unfold secondPass at h2
    rw [hcfw] at h2
    simpa only [hp2] using h2
  have hrep : secondReports env pos neg s (protocol m (fileOf ns ws rs)) =
      (completions ev).flatMap fun p => hookReports env (.complete p.1 p.2) := by
    unfold secondReports
    rw [hcfw]
    simp only [hp2]
    exact reportTrace_ok env ev calls hcalls
  obtain ⟨failed, f1, f2, f3, f4⟩ := reports_core env hsort ws'
    (rs.filter fun r => decide (IsMultipolygon r) && decide (HasItsWays ws' r)) _ (completions ev) (areasIn calls) hidw' hv'
    (fun r hr => hidr r (List.mem_of_mem_filter hr)) (fun r hr => hid0 r (List.mem_of_mem_filter hr))
    ((distinct_relations hd).sublist List.filter_sublist)
    ((hcompl.map Prod.fst).trans (List.Perm.of_eq (by rw [List.map_map]; exact List.map_id _)))
    (by
      intro p hp
      obtain ⟨r, hr, rfl⟩ := List.mem_map.1 (hcompl.subset hp)
      exact memberWays_file _ _)
    (by
      intro r hr
      simp only [List.mem_filter, Bool.and_eq_true, decide_eq_true_eq] at hr
      exact h3 r hr.1 hr.2.1 hr.2.2) h4
  refine ⟨failed, hrep.trans f1, f2, ?_, ?_⟩
  · intro p hp
    obtain ⟨g1, g2⟩ := f3 p hp
    simp only [List.mem_filter, Bool.and_eq_true, decide_eq_true_eq] at g1
    exact ⟨g1.1, g1.2.1, g1.2.2, g2⟩
  · intro r hr hr1 hr2
    exact f4 r (by simp [hr, hr1, hr2])

/-- **C125**, with exceptions (partial: files as above).  If an exception of GEOS ends the second pass, it comes from a
relation `r` that gets its last missing way with a way `w`.  The relations treated before are those that had their ways
before `w` and some of those that are completed by `w`; of these, exactly those are reported whose area is not given to
the handler, each once and with the reason why it has failed.  Nothing is reported about `r` and all other relations. -/
theorem reports_before_exception_partial {S T : Type} {pos : IdStore S Position} {neg : IdStore T Position}
    {okp okn : List (Nat × Position) → Prop} {up un : Nat → Res Position} {unset : Position}
    (fp : Faithful pos okp up) (fn : Faithful neg okn un) (env : WholeEnv) (hsort : env.ringEnv.SortOk) (m : Meta)
    (ns : List Node) (ws : List Way) (rs : List Relation) (hd : DistinctObjects (fileOf ns ws rs))
    (hn : ∀ n ∈ ns, NegatableId n.obj.id) (hw : ∀ w ∈ ws, ∀ wn ∈ w.nodes, NegatableId wn.ref)
    (hokp : ∀ j, okp ((posOps (nodeCalls ns)).take j)) (hokn : ∀ j, okn ((negOps (nodeCalls ns)).take j))
    (hu : ∀ w ∈ ws, ∀ wn ∈ w.nodes, (∀ n ∈ ns, n.obj.id ≠ wn.ref) →
      (if 0 ≤ wn.ref then up wn.ref.toNat else un (-wn.ref).toNat) = .ok unset)
    (hnodes : ∀ w ∈ ws, w.nodes ≠ []) (hidw : ∀ w ∈ ws, SmallId w.obj.id) (hidr : ∀ r ∈ rs, SmallId r.obj.id)
    (hid0 : ∀ r ∈ rs, r.obj.id ≠ 0) (hv : ∀ w ∈ ws, ∀ t ∈ w.obj.tags, t.value ≠ "")
    (s : Asm) (h1 : Asm.AfterPass1 mpCfg (protocol m (fileOf ns ws rs)) s) :
    ∃ ws', List.Forall₂ (LocatedBy ns unset) ws ws' ∧
      ((∃ calls, secondPass env pos neg s (protocol m (fileOf ns ws rs)) = .ok calls) ∨
       ∃ ws1 w ws2 rs1 r rs2 calls,
          secondTrace env pos neg (pos.empty, neg.empty) s (protocol m (fileOf ns ws rs)) = (calls, some geosError) ∧
          ws' = ws1 ++ w :: ws2 ∧
          (rs1 ++ r :: rs2).Perm (rs.filter fun r => decide (IsMultipolygon r) && decide (CompletedBy ws1 w r)) ∧
          buildWhole env r (wayMembers ws' r) = .error geosError ∧
          ∃ failed : List (Relation × String),
            secondReports env pos neg s (protocol m (fileOf ns ws rs)) = failed.map (fun p => failureLine p.1 p.2) ∧
            (failed.map Prod.fst).Nodup ∧
            (∀ p ∈ failed, (p.1 ∈ rs1 ∨ p.1 ∈ rs ∧ IsMultipolygon p.1 ∧ HasItsWays ws1 p.1) ∧
              WhyFailed env (wayMembers ws' p.1) p.1 p.2) ∧
            ∀ x, x ∈ rs1 ∨ x ∈ rs ∧ IsMultipolygon x ∧ HasItsWays ws1 x →
              (x ∈ failed.map Prod.fst ↔ ¬ HasAreaOf x (areasIn calls))) := by
  obtain ⟨ws', s', ev, hl, hcfw, hp2, h⟩ :=
    interrupted_events fp fn env hsort m ns ws rs hd hn hw hokp hokn hu hnodes hidw hidr hv s h1
  refine ⟨ws', hl, ?_⟩
  rcases h with ⟨calls, h, -⟩ | ⟨ws1, w, ws2, rs1, r, rs2, calls, -, a2, a3, a4, a5, a6, -, a8, ms, pre, post, b1, b2, b3, b4, b5⟩
  · exact .inl ⟨calls, h⟩
  obtain ⟨hidw', hv'⟩ := located_small hl hidw hv
  have hrep : secondReports env pos neg s (protocol m (fileOf ns ws rs)) =
      (completions pre).flatMap fun p => hookReports env (.complete p.1 p.2) := by
    unfold secondReports
    rw [hcfw]
    simp only [hp2, b1]
    exact reportTrace_error env _ post _ b3 pre b2
  have hsub : ∀ x ∈ (rs.filter fun r => decide (IsMultipolygon r) && decide (HasItsWays ws1 r)) ++ rs1, x ∈ rs := by
    intro x hx
    rcases List.mem_append.1 hx with hx | hx
    · exact List.mem_of_mem_filter hx
    · exact List.mem_of_mem_filter (a4.subset (List.mem_append_left _ hx))
  have hiff : ∀ x, x ∈ (rs.filter fun r => decide (IsMultipolygon r) && decide (HasItsWays ws1 r)) ++ rs1 ↔
      (x ∈ rs1 ∨ x ∈ rs ∧ IsMultipolygon x ∧ HasItsWays ws1 x) := by
    intro x
    simp only [List.mem_append, List.mem_filter, Bool.and_eq_true, decide_eq_true_eq]
    tauto
  have hpw : ((rs.filter fun r => decide (IsMultipolygon r) && decide (HasItsWays ws1 r)) ++ rs1).Pairwise
      fun a b : Relation => a.obj.id ≠ b.obj.id := by
    rw [List.pairwise_append]
    refine ⟨(distinct_relations hd).sublist List.filter_sublist, ?_, ?_⟩
    · have : (rs1 ++ r :: rs2).Pairwise fun a b : Relation => a.obj.id ≠ b.obj.id :=
        (a4.pairwise_iff (fun h e => h e.symm)).2 ((distinct_relations hd).sublist List.filter_sublist)
      exact (List.pairwise_append.1 this).1
    · intro x hx y hy e
      have hy' := a4.subset (List.mem_append_left _ hy)
      simp only [List.mem_filter, Bool.and_eq_true, decide_eq_true_eq] at hx hy'
      have : x = y := List.Pairwise.forall_of_forall_of_flip (R := fun a b : Relation => a.obj.id = b.obj.id → a = b)
        (fun _ _ _ => rfl) ((distinct_relations hd).imp fun h e => absurd e h)
        ((distinct_relations hd).imp fun h e => absurd e.symm h) hx.1 hy'.1 e
      subst this
      exact hy'.2.2.2 hx.2.2
  obtain ⟨failed, f1, f2, f3, f4⟩ := reports_core env hsort ws' _ _ (completions pre) (areasIn calls) hidw' hv'
    (fun r hr => hidr r (hsub r hr)) (fun r hr => hid0 r (hsub r hr)) hpw b4 b5 a6 a8
  refine .inr ⟨ws1, w, ws2, rs1, r, rs2, calls, a2, a3, a4, a5, failed, hrep.trans f1, f2, ?_, ?_⟩
  · intro p hp
    obtain ⟨g1, g2⟩ := f3 p hp
    exact ⟨(hiff _).1 g1, g2⟩
  · intro x hx
    exact f4 x ((hiff _).2 hx)

/-- The file of C83, with a GEOS that does not accept the multipolygon: the relation with all its ways is reported, its own
area is not made, the others are; with a GEOS that accepts it, nothing is reported. -/
example : secondReports { squareEnv with mp := { squareGeos false with multiValid := fun _ => some false } }
      pipeStore pipeStore pipeAsm pipeCalls =
        [txt "Building multipolygon based on relation 9 failed: multipolygon invalid"] ∧
    (secondPass { squareEnv with mp := { squareGeos false with multiValid := fun _ => some false } }
      pipeStore pipeStore pipeAsm pipeCalls).toOption.map (fun calls => (areasIn calls).map fun a => a.1.obj.id) =
        some [6, 12] ∧
    secondReports squareEnv pipeStore pipeStore pipeAsm pipeCalls = [] := by
  decide +kernel

/-- No relation of the file has the id 0; the other hypotheses are met as well, see the example for C83. -/
example : ∀ r ∈ pipeRelations, r.obj.id ≠ 0 := by decide +kernel

end Osmium

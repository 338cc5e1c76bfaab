import Verif.Multipolygon.Whole
import Mathlib.Data.List.Sort

/-
C76: the areas made from a relation and their geometries.
-/
namespace Osmium

open Spec

/-- The result of the nesting meets what the geometry part of the builder relies on. -/
theorem rings_arranged (n : Nat) (geo : Bits) (extra : List Nat) (hextra : ∀ j ∈ extra, j < n) :
    Arranged n extra (outerRings n (determineRings n geo)) (determineRings n geo).inner := by
  obtain ⟨h1, h2, h3⟩ := nestFill_spec n (nestThin n (nestBuild n geo).1) (nestBuild n geo).2
  change let t := determineRings n geo; _ at h1
  have h1 : ∀ i < n, (determineRings n geo).inner i = _ := h1
  have h3 : ∀ i < n, ∀ j < n, _ → _ → ∃ k, (determineRings n geo).containedBy j = some k ∧ i ≤ k := h3
  have ho : ∀ i ∈ outerRings n (determineRings n geo), i < n ∧ (determineRings n geo).containedBy i = none := by
    intro i hi
    simp only [outerRings, List.mem_filter, List.mem_range, RingTree.isInner, Bool.not_eq_true',
      Option.isSome_eq_false_iff, Option.isNone_iff_eq_none] at hi
    exact hi
  refine ⟨hextra, fun i hi => (ho i hi).1, ?_, ?_, ?_⟩
  · intro i hi j hj
    rw [h1 i (ho i hi).1] at hj
    exact List.mem_range.1 (List.mem_filter.1 hj).1
  · intro i hi
    rw [h1 i (ho i hi).1]
    exact List.nodup_range.filter _
  · intro i hi i' hi' hm
    rw [h1 i' (ho i' hi').1] at hm
    simp only [List.mem_filter, List.mem_range, Bool.and_eq_true, Bool.not_eq_true'] at hm
    obtain ⟨k, hk, -⟩ := h3 i' (ho i' hi').1 i hm.1 hm.2.1 hm.2.2
    rw [(ho i hi).2] at hk
    cases hk

theorem innerAreas_extra (rel : TagList) (s : RingState) (t : RingTree) (js : List Nat) (as : List Area)
    (h : innerAreas rel s t js = .ok as) : as = (extraRings rel s t js).map Prod.snd := by
  induction js generalizing as with
  | nil => cases h; rfl
  | cons j js ih =>
    unfold innerAreas at h
    simp only [extraRings, List.flatMap_cons, List.map_append] at ih ⊢
    split at h
    · rename_i hin
      rw [if_pos hin]
      split at h
      · cases h
      · rename_i a ha
        rw [ha]
        cases hr : innerAreas rel s t js with
        | error e => rw [hr] at h; cases h
        | ok bs =>
          rw [hr] at h
          cases h
          rw [ih bs hr]
          simp [Function.comp_def]
    · rename_i hin
      rw [if_neg hin, ih as h]
      simp

/-- The rings that get an area of their own. -/
theorem mem_extraRings (rel : TagList) (s : RingState) (t : RingTree)
    (hid : ∀ j, ∀ w ∈ ringWays s j, SmallId w.obj.id) (js : List Nat) (j : Nat) :
    j ∈ (extraRings rel s t js).map Prod.fst ↔ j ∈ js ∧ ∃ w, ExtraArea rel s t j w := by
  simp only [extraRings, List.mem_map, List.mem_flatMap]
  constructor
  · rintro ⟨⟨j', a⟩, ⟨k, hk, hm⟩, rfl⟩
    split at hm
    · rename_i hin
      obtain ⟨as, h1, h2⟩ := innerArea_spec rel s t k hin (hid k)
      rw [h1] at hm
      rcases h2 with ⟨w, hw, rfl⟩ | ⟨-, rfl⟩
      · simp only [List.map_cons, List.map_nil, List.mem_singleton, Prod.mk.injEq] at hm
        obtain ⟨rfl, -⟩ := hm
        exact ⟨hk, w, hw⟩
      · simp at hm
    · simp at hm
  · rintro ⟨hj, w, hw⟩
    obtain ⟨as, h1, h2⟩ := innerArea_spec rel s t j hw.1 (hid j)
    rcases h2 with ⟨w', hw', rfl⟩ | ⟨hno, -⟩
    · refine ⟨(j, ⟨{ w'.obj with id := w'.obj.id * 2 }, w'.nodes⟩), ⟨j, hj, ?_⟩, rfl⟩
      rw [if_pos hw.1, h1]
      simp
    · exact absurd ⟨w, hw⟩ hno

theorem extraRings_sorted (rel : TagList) (s : RingState) (t : RingTree)
    (hid : ∀ j, ∀ w ∈ ringWays s j, SmallId w.obj.id) (js : List Nat) (hjs : js.Pairwise (· < ·)) :
    ((extraRings rel s t js).map Prod.fst).Pairwise (· < ·) := by
  induction js with
  | nil => exact List.Pairwise.nil
  | cons j js ih =>
    have hm := mem_extraRings rel s t hid js
    have e : (extraRings rel s t (j :: js)).map Prod.fst = (extraRings rel s t [j]).map Prod.fst ++
        (extraRings rel s t js).map Prod.fst := by
      simp [extraRings]
    rw [List.pairwise_cons] at hjs
    rw [e, List.pairwise_append]
    refine ⟨?_, ih hjs.2, ?_⟩
    · simp only [extraRings, List.flatMap_cons, List.flatMap_nil, List.append_nil]
      split
      · rename_i hin
        obtain ⟨as, h1, h2⟩ := innerArea_spec rel s t j hin (hid j)
        rw [h1]
        rcases h2 with ⟨w, hw, rfl⟩ | ⟨-, rfl⟩ <;> simp
      · simp
    · intro a ha b hb
      rw [mem_extraRings rel s t hid] at ha hb
      have : a = j := by simpa using ha.1
      subst this
      exact hjs.1 b hb.1

/-- The same builder with all geometric answers about polygons being yes. -/
def WholeEnv.toBuild (env : WholeEnv) : BuildEnv where
  toRingEnv := env.ringEnv
  contains s := env.bits (s.rings.map (env.coords s))
  polygonOk _ _ := true
  multiOk _ := true

theorem filterMap_get {α β γ : Type} (rings : List β) (f : β → γ) (l : List (Nat × α))
    (h : ∀ j ∈ l.map Prod.fst, j < rings.length) :
    ((l.map Prod.fst).filterMap fun j => rings[j]?).map (fun c => some (f c)) =
      l.map fun e => (rings[e.1]?).map f := by
  induction l with
  | nil => rfl
  | cons a l ih =>
    have ha := h a.1 (by simp)
    rw [List.map_cons, List.map_cons, List.filterMap_cons, List.getElem?_eq_getElem ha]
    simp only [List.map_cons, Option.map_some]
    rw [ih (fun j hj => h j (by rw [List.map_cons]; exact List.mem_cons_of_mem _ hj))]

theorem zip_map_self {α β γ : Type} (f : α → β) (g : α → γ) (l : List α) :
    (l.map f).zip (l.map g) = l.map fun a => (f a, g a) := by
  induction l with
  | nil => rfl
  | cons a l ih => simp [ih]

namespace Spec

/-- GEOS throws an exception when it is asked whether the polygon of one ring contains that of another one.  It is asked
for all pairs of rings, but not whether a ring contains an earlier one of which it has said that it contains the ring.
(specification of multipolygon/builder.hpp 705-714) -/
def ContainsThrows (env : WholeEnv) (rings : List Coords) : Prop :=
  ∃ (i j : Nat) (a b : Coords), i ≠ j ∧ rings[i]? = some a ∧ rings[j]? = some b ∧ ¬ (j < i ∧ env.contains b a = true) ∧
    env.containsThrows a b = true

end Spec

theorem containsThrows_iff (env : WholeEnv) (rings : List Coords) :
    ThrowsAsked rings.length (env.bits rings) (env.throwBits rings) ↔ ContainsThrows env rings := by
  unfold ThrowsAsked Asked ContainsThrows
  constructor
  · rintro ⟨i, hi, j, hj, ⟨h1, h2⟩, h3⟩
    refine ⟨i, j, rings[i], rings[j], h1, List.getElem?_eq_getElem hi, List.getElem?_eq_getElem hj, ?_, ?_⟩
    · rintro ⟨h4, h5⟩
      have := h2 h4
      simp [WholeEnv.bits, hi, hj, h5] at this
    · simpa [WholeEnv.throwBits, hi, hj] using h3
  · rintro ⟨i, j, a, b, h1, h2, h3, h4, h5⟩
    have hi := (List.getElem?_eq_some_iff.1 h2).1
    have hj := (List.getElem?_eq_some_iff.1 h3).1
    refine ⟨i, hi, j, hj, ⟨h1, ?_⟩, ?_⟩
    · intro h
      simp only [WholeEnv.bits, h2, h3]
      cases hc : env.contains b a with
      | false => rfl
      | true => exact absurd ⟨h, hc⟩ h4
    · simp only [WholeEnv.throwBits, h2, h3, h5]

/-- C76, C63, C64, C125: what the builder returns and reports, from the members of the relation to the geometries (ids
below 2^62 in size, all tags have values).

If no rings are found, nothing.  Otherwise there is one area for each inner ring that is to get one,
made from its only way, with exactly this ring as its geometry; and if GEOS accepts all polygons and
the multipolygon, the area of the relation, whose geometry is the multipolygon of the outer rings with
their (merged) inner rings as holes.  Only when GEOS throws while it is asked which ring contains which
(`ContainsThrows`), while inner rings are merged or the multipolygon is checked, nothing
is returned but the exception.  Exactly if the area of the relation is not made (and there is no exception)
this is reported, with the reason. -/
theorem whole_report (env : WholeEnv) (hsort : env.ringEnv.SortOk) (r : Relation) (members : List (Option Way))
    (hr : SmallId r.obj.id) (hm : ∀ w, some w ∈ members → SmallId w.obj.id)
    (hv : ∀ w, some w ∈ members → ∀ t ∈ w.obj.tags, t.value ≠ "") :
    ∃ ws ts, (assembleWays env.repair members [] r.obj.timestamp).1 = ws.map WayInfo.new ∧
      ws.Sublist (members.filterMap id) ∧
      (env.repair = false → ws = (members.filterMap id).filter fun w => !w.nodes.isEmpty) ∧
      r.obj.timestamp ≤ ts ∧ (∀ w ∈ ws, w.obj.timestamp ≤ ts) ∧
      (ts = r.obj.timestamp ∨ ∃ w ∈ ws, w.obj.timestamp = ts) ∧
      ((∃ msg, makeRings env.ringEnv (ws.map WayInfo.new) = .error (.exn msg) ∧
          (msg = "un-connectable dangling ends" ∨ msg = "no rings") ∧
          buildReport env r members = .ok ([], some msg)) ∨
       (∃ s, makeRings env.ringEnv (ws.map WayInfo.new) = .ok s ∧
          (let rings := s.rings.map (env.coords s)
           ContainsThrows env rings) ∧
          buildReport env r members = .error geosError) ∨
       ∃ s, makeRings env.ringEnv (ws.map WayInfo.new) = .ok s ∧
        (let rings := s.rings.map (env.coords s)
         ¬ ContainsThrows env rings) ∧
        (let rings := s.rings.map (env.coords s)
         let n := rings.length
         let t := determineRings n (env.bits rings)
         let cur := fun k : Nat => rings[k]?
         ∃ extra : List (Nat × Way),
          (∀ j, j ∈ extra.map Prod.fst ↔ j < n ∧ ∃ w, ExtraArea r.obj.tags s t j w) ∧
          (extra.map Prod.fst).Pairwise (· < ·) ∧
          (∀ e ∈ extra, ExtraArea r.obj.tags s t e.1 e.2) ∧
          (let extraAreas : List (Area × Option Geom) := extra.map fun e =>
            (⟨{ e.2.obj with id := e.2.obj.id * 2 }, e.2.nodes⟩,
             (cur e.1).map fun c => .multi [polygonOf env.mp c []])
           (∃ ps last, Polygons env.mp t.inner cur (outerRings n t) ps last ∧ ps ≠ [] ∧
              env.mp.multiMakes ps = true ∧ env.mp.multiValid ps = some true ∧
              buildReport env r members = .ok (extraAreas ++
                [(⟨{ r.obj with
                  id := r.obj.id * 2 + sgn r.obj.id
                  timestamp := ts
                  tags := areaTags r.obj.tags ((outerRings n t).map (ringWays s)) }, []⟩, some (.multi ps))], none)) ∨
           (∃ msg, (msg = "no rings" ∧ outerRings n t = [] ∨
              msg = "invalid ring" ∧ BadPolygon env.mp t.inner cur (outerRings n t) ∨
              msg = "multipolygon invalid" ∧ ∃ ps last, Polygons env.mp t.inner cur (outerRings n t) ps last ∧ ps ≠ [] ∧
                (env.mp.multiMakes ps = false ∨ env.mp.multiValid ps = some false)) ∧
              buildReport env r members = .ok (extraAreas, some msg)) ∨
           ((ThrowsAt env.mp t.inner cur (outerRings n t) ∨
              ∃ ps last, Polygons env.mp t.inner cur (outerRings n t) ps last ∧ ps ≠ [] ∧
                env.mp.multiMakes ps = true ∧ env.mp.multiValid ps = none) ∧
              buildReport env r members = .error geosError)))) := by
  obtain ⟨ws, ts, s1, s2, s3, s4, s5, s6, s7⟩ := build_areas_spec env.toBuild hsort r members hr hm hv
  refine ⟨ws, ts, s1, s2, s3, s4, s5, s6, ?_⟩
  have har : Area.ofRelation r = .ok ⟨{ r.obj with id := r.obj.id * 2 + sgn r.obj.id }, []⟩ := by
    simp [Area.ofRelation, areaIdOfRelation_small hr, Except.map]
  have s1' : (assembleWays env.repair members [] r.obj.timestamp).1 = ws.map WayInfo.new := s1
  have hr0 : env.toBuild.toRingEnv = env.ringEnv := rfl
  rcases s7 with ⟨msg, h1, h2⟩ | ⟨s, h1, extra, h2, h3, h4, h5⟩
  · left
    have hmsg : msg = "un-connectable dangling ends" ∨ msg = "no rings" := by
      rcases makeRings_spec env.ringEnv hsort ws (by
          obtain ⟨ws', w1, -, w3, -⟩ := assembleWays_ways env.repair members [] r.obj.timestamp
          rw [s1'] at w1
          have : ws = ws' := by
            have := congrArg (List.map (·.way)) w1
            simpa [List.map_map, Function.comp_def, WayInfo.new] using this
          rw [this]; exact w3) with ⟨h, -⟩ | h | ⟨s', fill, h, -⟩
      · rw [hr0, h] at h1; cases h1; exact .inl rfl
      · rw [hr0, h] at h1; cases h1; exact .inr rfl
      · rw [hr0, h] at h1; cases h1
    refine ⟨msg, h1, hmsg, ?_⟩
    unfold buildReport
    rw [har]
    simp only
    rw [s1', ← hr0, h1]
  right
  by_cases hthrow : ThrowsAsked (s.rings.map (env.coords s)).length (env.bits (s.rings.map (env.coords s)))
      (env.throwBits (s.rings.map (env.coords s)))
  · left
    refine ⟨s, h1, (containsThrows_iff _ _).1 hthrow, ?_⟩
    unfold buildReport
    rw [har]
    simp only
    rw [s1', ← hr0, h1]
    simp only
    rw [tryRings_spec, if_pos hthrow]
  right
  refine ⟨s, h1, fun h => hthrow ((containsThrows_iff _ _).2 h), ?_⟩
  have hn : (s.rings.map (env.coords s)).length = s.rings.length := by simp
  -- the ways of the rings have small ids
  have hid : ∀ j, ∀ w ∈ ringWays s j, SmallId w.obj.id := by
    rcases makeRings_spec env.ringEnv hsort ws (by
        obtain ⟨ws', w1, -, w3, -⟩ := assembleWays_ways env.repair members [] r.obj.timestamp
        rw [s1'] at w1
        have : ws = ws' := by
          have := congrArg (List.map (·.way)) w1
          simpa [List.map_map, Function.comp_def, WayInfo.new] using this
        rw [this]; exact w3) with ⟨h, -⟩ | h | ⟨s', fill, h, hways, -⟩
    · rw [hr0, h] at h1; cases h1
    · rw [hr0, h] at h1; cases h1
    · rw [hr0, h] at h1; cases h1
      intro j w hw
      simp only [ringWays, List.mem_filterMap, Option.map_eq_some_iff] at hw
      obtain ⟨k, -, v, hv, rfl⟩ := hw
      have : v.way ∈ ws ++ fillWays fill := by
        rw [← hways]; exact List.mem_map.2 ⟨v, List.mem_of_getElem? hv, rfl⟩
      rcases List.mem_append.1 this with h | h
      · apply hm
        have := s2.subset h
        simpa using this
      · simp only [fillWays, List.mem_map] at h
        obtain ⟨p, -, he⟩ := h
        rw [← he]
        simp [Way.new, Obj.new, SmallId]
  simp only
  generalize hrings : s.rings.map (env.coords s) = rings at hn hthrow
  have hbits : env.toBuild.contains s = env.bits rings := by rw [← hrings]; rfl
  rw [hbits, ← hn] at h2 h4 h5
  generalize ht : determineRings rings.length (env.bits rings) = t at h2 h4 h5
  have hex : (extraRings r.obj.tags s t (List.range rings.length)).map Prod.fst = extra.map Prod.fst := by
    apply List.Pairwise.eq_of_mem_iff (r := (· < ·))
      (extraRings_sorted _ _ _ hid _ List.pairwise_lt_range) h3
    intro j
    rw [mem_extraRings _ _ _ hid, h2 j, List.mem_range]
  have hexlt : ∀ j ∈ extra.map Prod.fst, j < rings.length := fun j hj => ((h2 j).1 hj).1
  have harr : Arranged rings.length (extra.map Prod.fst) (outerRings rings.length t) t.inner := by
    rw [← ht]; exact rings_arranged _ _ _ hexlt
  refine ⟨extra, h2, h3, h4, ?_⟩
  obtain ⟨inner, hin⟩ : ∃ inner, innerAreas r.obj.tags s t (List.range rings.length) = .ok inner := by
    exact ⟨_, innerAreas_spec _ _ _ hid _⟩
  -- the areas without geometry
  have hareas : buildAreas env.toBuild r members =
      .ok (inner ++ if outerRings rings.length t = [] then [] else
        [⟨{ r.obj with
            id := r.obj.id * 2 + sgn r.obj.id
            timestamp := (assembleWays env.repair members [] r.obj.timestamp).2
            tags := ((outerRings rings.length t).map (ringWays s)).foldl
              (fun tags ws => ws.foldl (outerWayTags (outerCount rings.length t) ws.length) tags) r.obj.tags },
          []⟩]) := by
    unfold buildAreas
    rw [har]
    simp only
    have hrep : env.toBuild.repair = env.repair := rfl
    rw [hrep, s1', h1]
    simp only
    rw [hbits, ← hn, ht, hin]
    simp only
    rw [outerTags_eq]
    have : ∀ i ∈ (List.range rings.length).filter (fun j => !t.isInner j), env.toBuild.polygonOk s i = true :=
      fun _ _ => rfl
    rw [if_pos this]
    simp only
    have hmo : env.toBuild.multiOk s = true := rfl
    rw [hmo]
    by_cases ho : outerRings rings.length t = []
    · have : outerCount rings.length t = 0 := by rw [outerCount_eq, ho]; rfl
      rw [if_pos this, if_pos ho, List.append_nil]
    · have : ¬ outerCount rings.length t = 0 := by
        rw [outerCount_eq]; intro h; exact ho (List.length_eq_zero_iff.1 h)
      rw [if_neg this, if_neg ho]
      rfl
  have hpok : ∀ i ∈ outerRings rings.length t, env.toBuild.polygonOk s i = true := fun _ _ => rfl
  have hmo : env.toBuild.multiOk s = true := rfl
  rw [hareas] at h5
  have h5 := Except.ok.inj h5
  have hboth : inner = extra.map (fun e => (⟨{ e.2.obj with id := e.2.obj.id * 2 }, e.2.nodes⟩ : Area)) ∧
      (outerRings rings.length t ≠ [] →
        (⟨{ r.obj with
            id := r.obj.id * 2 + sgn r.obj.id
            timestamp := (assembleWays env.repair members [] r.obj.timestamp).2
            tags := ((outerRings rings.length t).map (ringWays s)).foldl
              (fun tags ws => ws.foldl (outerWayTags (outerCount rings.length t) ws.length) tags) r.obj.tags },
          []⟩ : Area) =
        ⟨{ r.obj with
            id := r.obj.id * 2 + sgn r.obj.id
            timestamp := ts
            tags := areaTags r.obj.tags ((outerRings rings.length t).map (ringWays s)) }, []⟩) := by
    by_cases ho : outerRings rings.length t = []
    · rw [if_pos ho, if_neg (by simp [ho]), List.append_nil, List.append_nil] at h5
      exact ⟨h5, fun h => absurd ho h⟩
    · rw [if_neg ho, if_pos ⟨hpok, ho, hmo⟩] at h5
      obtain ⟨e1, e2⟩ := List.append_inj' h5 rfl
      exact ⟨e1, fun _ => List.singleton_inj.1 e2⟩
  obtain ⟨hinner, htop⟩ := hboth
  have hbuild : buildReport env r members =
      match buildGeometry env.mp rings (extra.map Prod.fst) (outerRings rings.length t) t.inner .start with
      | (.ok (), m) =>
          .ok (inner.zip (m.areas.map fun i => m.cells.lookup i) ++
            [(⟨{ r.obj with
                id := r.obj.id * 2 + sgn r.obj.id
                timestamp := (assembleWays env.repair members [] r.obj.timestamp).2
                tags := ((outerRings rings.length t).map (ringWays s)).foldl
                  (fun tags ws => ws.foldl (outerWayTags (outerCount rings.length t) ws.length) tags) r.obj.tags },
              []⟩, m.result.bind fun i => m.cells.lookup i)], none)
      | (.error (.exn msg), m) =>
          if msg = "GEOSException" then .error (.exn msg)
          else .ok (inner.zip (m.areas.map fun i => m.cells.lookup i), some msg)
      | (.error e, _) => .error e := by
    unfold buildReport
    rw [har]
    simp only
    rw [hr0] at h1
    rw [s1', h1]
    simp only
    rw [hrings, tryRings_spec, if_neg hthrow, ht]
    simp only
    rw [hin]
    simp only
    rw [hex]
    generalize buildGeometry env.mp rings (extra.map Prod.fst) (outerRings rings.length t) t.inner .start = x
    obtain ⟨res, m⟩ := x
    match res with
    | .ok () => rfl
    | .error (.exn _) => rfl
    | .error .ub => rfl
    | .error .assertion => rfl
  have hzip : ∀ l : List (Option Geom), l = ((extra.map Prod.fst).filterMap fun j => rings[j]?).map
        (fun c => some (Geom.multi [polygonOf env.mp c []])) →
      inner.zip l = extra.map fun e =>
            ((⟨{ e.2.obj with id := e.2.obj.id * 2 }, e.2.nodes⟩ : Area),
             (rings[e.1]?).map fun c => .multi [polygonOf env.mp c []]) := by
    intro l hl
    have e : l = extra.map fun e => (rings[e.1]?).map fun c => Geom.multi [polygonOf env.mp c []] := by
      rw [hl]; exact filterMap_get _ _ _ hexlt
    rw [e, hinner, zip_map_self]
  obtain ⟨res, m, hrun, R, A, D, L, -, -, -, hl, -, -, -, hc⟩ := buildGeometry_post (g := env.mp) harr
  rw [hrun] at hbuild
  have hz := hzip _ hl
  rcases hc with ⟨rfl, ps, last, mp, p1, p2, p3, p4, p5, p6⟩ | ⟨-, ⟨rfl, e1⟩ | ⟨rfl, e1⟩ | ⟨rfl, e1⟩ | ⟨rfl, e1⟩⟩
  · left
    refine ⟨ps, last, p1, p2, p3, p4, ?_⟩
    have ho : outerRings rings.length t ≠ [] := by
      intro h
      rw [h] at p1
      have := p1.length
      exact p2 (List.length_eq_zero_iff.1 this)
    rw [hbuild]
    simp only
    rw [hz, htop ho, p5, Option.bind_some, p6]
  · right; left
    exact ⟨_, .inl ⟨rfl, e1⟩, by rw [hbuild]; simp only; rw [hz]; rfl⟩
  · right; left
    exact ⟨_, .inr (.inl ⟨rfl, e1⟩), by rw [hbuild]; simp only; rw [hz]; rfl⟩
  · right; left
    exact ⟨_, .inr (.inr ⟨rfl, e1⟩), by rw [hbuild]; simp only; rw [hz]; rfl⟩
  · right; right
    exact ⟨e1.imp And.right id, by rw [hbuild]; rfl⟩

/-- C76, C63, C64: what the builder returns, from the members of the relation to the geometries (ids
below 2^62 in size, all tags have values).

If no rings are found, nothing.  Otherwise there is one area for each inner ring that is to get one,
made from its only way, with exactly this ring as its geometry; and if GEOS accepts all polygons and
the multipolygon, the area of the relation, whose geometry is the multipolygon of the outer rings with
their (merged) inner rings as holes.  Only when GEOS throws while it is asked which ring contains which
(`ContainsThrows`), while inner rings are merged or the multipolygon is checked, nothing
is returned but the exception. -/
theorem whole_areas (env : WholeEnv) (hsort : env.ringEnv.SortOk) (r : Relation) (members : List (Option Way))
    (hr : SmallId r.obj.id) (hm : ∀ w, some w ∈ members → SmallId w.obj.id)
    (hv : ∀ w, some w ∈ members → ∀ t ∈ w.obj.tags, t.value ≠ "") :
    ∃ ws ts, (assembleWays env.repair members [] r.obj.timestamp).1 = ws.map WayInfo.new ∧
      ws.Sublist (members.filterMap id) ∧
      (env.repair = false → ws = (members.filterMap id).filter fun w => !w.nodes.isEmpty) ∧
      r.obj.timestamp ≤ ts ∧ (∀ w ∈ ws, w.obj.timestamp ≤ ts) ∧
      (ts = r.obj.timestamp ∨ ∃ w ∈ ws, w.obj.timestamp = ts) ∧
      ((∃ msg, makeRings env.ringEnv (ws.map WayInfo.new) = .error (.exn msg) ∧
          buildWhole env r members = .ok []) ∨
       (∃ s, makeRings env.ringEnv (ws.map WayInfo.new) = .ok s ∧
          (let rings := s.rings.map (env.coords s)
           ContainsThrows env rings) ∧
          buildWhole env r members = .error geosError) ∨
       ∃ s, makeRings env.ringEnv (ws.map WayInfo.new) = .ok s ∧
        (let rings := s.rings.map (env.coords s)
         ¬ ContainsThrows env rings) ∧
        (let rings := s.rings.map (env.coords s)
         let n := rings.length
         let t := determineRings n (env.bits rings)
         let cur := fun k : Nat => rings[k]?
         ∃ extra : List (Nat × Way),
          (∀ j, j ∈ extra.map Prod.fst ↔ j < n ∧ ∃ w, ExtraArea r.obj.tags s t j w) ∧
          (extra.map Prod.fst).Pairwise (· < ·) ∧
          (∀ e ∈ extra, ExtraArea r.obj.tags s t e.1 e.2) ∧
          (let extraAreas : List (Area × Option Geom) := extra.map fun e =>
            (⟨{ e.2.obj with id := e.2.obj.id * 2 }, e.2.nodes⟩,
             (cur e.1).map fun c => .multi [polygonOf env.mp c []])
           (∃ ps last, Polygons env.mp t.inner cur (outerRings n t) ps last ∧ ps ≠ [] ∧
              env.mp.multiMakes ps = true ∧ env.mp.multiValid ps = some true ∧
              buildWhole env r members = .ok (extraAreas ++
                [(⟨{ r.obj with
                  id := r.obj.id * 2 + sgn r.obj.id
                  timestamp := ts
                  tags := areaTags r.obj.tags ((outerRings n t).map (ringWays s)) }, []⟩, some (.multi ps))])) ∨
           ((outerRings n t = [] ∨ BadPolygon env.mp t.inner cur (outerRings n t) ∨
              ∃ ps last, Polygons env.mp t.inner cur (outerRings n t) ps last ∧ ps ≠ [] ∧
                (env.mp.multiMakes ps = false ∨ env.mp.multiValid ps = some false)) ∧
              buildWhole env r members = .ok extraAreas) ∨
           ((ThrowsAt env.mp t.inner cur (outerRings n t) ∨
              ∃ ps last, Polygons env.mp t.inner cur (outerRings n t) ps last ∧ ps ≠ [] ∧
                env.mp.multiMakes ps = true ∧ env.mp.multiValid ps = none) ∧
              buildWhole env r members = .error geosError)))) := by
  obtain ⟨ws, ts, s1, s2, s3, s4, s5, s6, s7⟩ := whole_report env hsort r members hr hm hv
  refine ⟨ws, ts, s1, s2, s3, s4, s5, s6, ?_⟩
  unfold buildWhole
  rcases s7 with ⟨msg, h1, -, h2⟩ | ⟨s, h1, h2, h3⟩ | ⟨s, h1, h2, extra, h3, h4, h5, h6⟩
  · exact .inl ⟨msg, h1, by rw [h2]; rfl⟩
  · exact .inr (.inl ⟨s, h1, h2, by rw [h3]; rfl⟩)
  · refine .inr (.inr ⟨s, h1, h2, extra, h3, h4, h5, ?_⟩)
    rcases h6 with ⟨ps, last, p1, p2, p3, p4, p5⟩ | ⟨msg, p1, p2⟩ | ⟨p1, p2⟩
    · exact .inl ⟨ps, last, p1, p2, p3, p4, by rw [p5]; rfl⟩
    · exact .inr (.inl ⟨p1.imp And.right (Or.imp And.right And.right), by rw [p2]; rfl⟩)
    · exact .inr (.inr ⟨p1, by rw [p2]; rfl⟩)

/-! ### Where the coordinates come from -/

theorem Spec.CutFrom.subset {cs out : List Position} (h : CutFrom cs out) : ∀ p ∈ out, p ∈ cs := by
  obtain ⟨a, b, c, rfl, ⟨-, rfl⟩ | ⟨-, rfl⟩⟩ := h
  · intro p hp
    simp only [List.mem_append] at hp ⊢
    rcases hp with h | h
    · exact .inl (.inl h)
    · exact .inr h
  · intro p hp
    simp only [List.mem_append] at hp ⊢
    rcases hp with h | h
    · exact .inl (.inr h)
    · exact .inl (.inr (List.mem_of_mem_take h))

namespace Spec

/-- The position is the one of a node of one of the ways. -/
def OnWays (ws : List Way) (p : Position) : Prop := ∃ w ∈ ws, ∃ n ∈ w.nodes, n.position = p

/-- The union of two touching rings has no corner that none of them has. -/
def NoNewCorners (g : MpGeos) : Prop :=
  ∀ a b p hs, g.touch a b = .line → g.polygonize a b = some (some [(p, hs)]) → ∀ c ∈ p, c ∈ a ∨ c ∈ b

end Spec

/-- C75, C76: the polygons of the rings.  Each ring is a closed chain of ways and its polygon is a
valid ring that runs along these ways (in repair mode possibly with a piece cut out); all corners are
nodes of member ways. -/
theorem whole_rings (env : WholeEnv) (hsort : env.ringEnv.SortOk) (ws : List Way)
    (hne : ∀ w ∈ ws, w.nodes ≠ []) (s : RingState)
    (hs : makeRings env.ringEnv (ws.map WayInfo.new) = .ok s) :
    s.rings ≠ [] ∧ s.rings.flatten.Nodup ∧
    ∀ r ∈ s.rings, CyclicChain (ringPath s.ways r) ∧
      ((walk (ringPath s.ways r)).length ≤ 1073741824 →
        IsRing (env.coords s r) ∧ env.geos.validRing (env.coords s r) = some true ∧
        (env.coords s r = (walk (ringPath s.ways r)).destutter (· ≠ ·) ∨
          env.repair = true ∧ CutFrom ((walk (ringPath s.ways r)).destutter (· ≠ ·)) (env.coords s r)) ∧
        ∀ p ∈ env.coords s r, OnWays ws p) := by
  obtain ⟨h1, h2, h3⟩ := rings_have_geometry env.ringEnv hsort env.geos rfl ws hne s hs
  refine ⟨h1, h2, fun r hr => ?_⟩
  obtain ⟨q1, q2, ring, ccw, q3, q4⟩ := h3 r hr
  have q3 : ringGeometry env.geos env.repair (ringPath s.ways r) = .ok (some (ring, ccw)) := q3
  have hc : env.coords s r = ring := by unfold WholeEnv.coords; rw [q3]
  refine ⟨q2, fun hb => ?_⟩
  obtain ⟨q5, q6, -, q7⟩ := q4 hb
  rw [hc]
  refine ⟨q5, q6, q7, ?_⟩
  have hwalk : ∀ p ∈ walk (ringPath s.ways r), OnWays ws p := by
    rcases makeRings_spec env.ringEnv hsort ws hne with ⟨h, -⟩ | h | ⟨s', fill, h, hw, -, hf, -⟩
    · rw [h] at hs; cases hs
    · rw [h] at hs; cases hs
    · rw [h] at hs; cases hs
      intro p hp
      simp only [walk, List.mem_flatMap] at hp
      obtain ⟨a, ha, hp⟩ := hp
      have hn : ∃ n ∈ a.1.nodes, n.position = p := by
        obtain ⟨n, hn, e⟩ := List.mem_map.1 hp
        refine ⟨n, ?_, e⟩
        split at hn
        · exact List.mem_reverse.1 hn
        · exact hn
      have haw : a.1 ∈ ws ++ fillWays fill := by
        have : some a.1 ∈ (ringPath s.ways r).map (fun p => some p.1) := List.mem_map.2 ⟨a, ha, rfl⟩
        rw [q1, hw] at this
        obtain ⟨i, -, hi⟩ := List.mem_map.1 this
        exact List.mem_of_getElem? hi
      rcases List.mem_append.1 haw with hm | hm
      · exact ⟨_, hm, hn⟩
      · obtain ⟨e, he, ee⟩ := List.mem_map.1 hm
        obtain ⟨n, hn, rfl⟩ := hn
        have ends : ∀ m, IsEndNode ws m → OnWays ws m.position := by
          rintro m ⟨w, hw, h | h⟩
          · exact ⟨w, hw, m, List.mem_of_mem_head? h, rfl⟩
          · exact ⟨w, hw, m, List.mem_of_mem_getLast? h, rfl⟩
        rw [← ee] at hn
        simp only [List.mem_cons, List.not_mem_nil, or_false] at hn
        obtain ⟨e1, e2⟩ := hf e he
        rcases hn with rfl | rfl
        · exact ends _ e1
        · exact ends _ e2
  intro p hp
  apply hwalk
  rcases q7 with q7 | ⟨-, q7⟩
  · rw [q7] at hp
    exact (List.destutter_sublist _ _).subset hp
  · exact (List.destutter_sublist _ _).subset (q7.subset p hp)

theorem Spec.Merges.corners {g : MpGeos} (hg : NoNewCorners g) {P : Position → Prop} {inner : List Nat}
    {a b : Nat → Option Coords} (h : Merges g inner a b)
    (ha : ∀ k c, a k = some c → ∀ p ∈ c, P p) : ∀ k c, b k = some c → ∀ p ∈ c, P p := by
  induction h with
  | done => exact ha
  | step h _ ih =>
    apply ih
    obtain ⟨j, k, q, -, ⟨x, y, hs, hx, hy, ht, hp⟩, rfl⟩ := h
    intro i c hc p hpc
    simp only at hc
    split at hc
    · cases hc
    · split at hc
      · cases hc
        rcases hg _ _ _ _ ht hp p hpc with h | h
        · exact ha _ _ hx p h
        · exact ha _ _ hy p h
      · exact ha _ _ hc p hpc

theorem turn_corners (g : MpGeos) (b : Bool) (c : Coords) : ∀ p ∈ turn g b c, p ∈ c := by
  intro p hp
  unfold turn at hp
  split at hp
  · exact hp
  · exact List.mem_reverse.1 hp

theorem polygonOf_corners {g : MpGeos} {P : Position → Prop} {shell : Coords} {holes : List Coords}
    (h1 : ∀ p ∈ shell, P p) (h2 : ∀ c ∈ holes, ∀ p ∈ c, P p) :
    ∀ c ∈ (polygonOf g shell holes).1 :: (polygonOf g shell holes).2, ∀ p ∈ c, P p := by
  intro c hc p hp
  simp only [polygonOf, List.mem_cons, List.mem_map] at hc
  rcases hc with rfl | ⟨d, hd, rfl⟩
  · exact h1 p (turn_corners g _ _ p hp)
  · exact h2 d hd p (turn_corners g _ _ p hp)

theorem Spec.Polygons.corners {g : MpGeos} (hg : NoNewCorners g) {P : Position → Prop} {inner : Nat → List Nat}
    {cur last : Nat → Option Coords} {is : List Nat} {ps : List (Coords × List Coords)}
    (h : Polygons g inner cur is ps last) (ha : ∀ k c, cur k = some c → ∀ p ∈ c, P p) :
    ∀ q ∈ ps, ∀ c ∈ q.1 :: q.2, ∀ p ∈ c, P p := by
  induction h with
  | nil => simp
  | @cons cur cur' last i is shell ps hm hshell _ _ ih =>
    have hc := hm.1.corners hg ha
    intro q hq
    rcases List.mem_cons.1 hq with rfl | hq
    · apply polygonOf_corners (hc i shell hshell)
      intro c hcm
      obtain ⟨j, -, hj⟩ := List.mem_filterMap.1 hcm
      exact hc j c hj
    · exact ih hc q hq

/-- C76: every area that is returned has a geometry, a multipolygon of at least one polygon; all
corners of it are positions of nodes of ways that are members of the relation (if GEOS makes no new
corners when it merges rings, and no ring has more than 2^30 nodes). -/
theorem whole_corners (env : WholeEnv) (hsort : env.ringEnv.SortOk) (hg : NoNewCorners env.mp)
    (r : Relation) (members : List (Option Way))
    (hr : SmallId r.obj.id) (hm : ∀ w, some w ∈ members → SmallId w.obj.id)
    (hv : ∀ w, some w ∈ members → ∀ t ∈ w.obj.tags, t.value ≠ "")
    (hsmall : ∀ s, makeRings env.ringEnv (assembleWays env.repair members [] r.obj.timestamp).1 = .ok s →
      ∀ k ∈ s.rings, (walk (ringPath s.ways k)).length ≤ 1073741824)
    (out : List (Area × Option Geom)) (h : buildWhole env r members = .ok out) :
    ∀ a ∈ out, ∃ ps, a.2 = some (.multi ps) ∧ ps ≠ [] ∧
      ∀ q ∈ ps, ∀ c ∈ q.1 :: q.2, ∀ p ∈ c, OnWays (members.filterMap id) p := by
  obtain ⟨ws, ts, s1, s2, -, -, -, -, s7⟩ := whole_areas env hsort r members hr hm hv
  rcases s7 with ⟨msg, -, h2⟩ | ⟨s, -, -, h2⟩ | ⟨s, h1, -, h2⟩
  · rw [h2] at h; cases h; simp
  · rw [h2] at h; cases h
  have hne : ∀ w ∈ ws, w.nodes ≠ [] := by
    obtain ⟨ws', w1, -, w3, -⟩ := assembleWays_ways env.repair members [] r.obj.timestamp
    rw [s1] at w1
    have : ws = ws' := by
      have := congrArg (List.map (·.way)) w1
      simpa [List.map_map, Function.comp_def, WayInfo.new] using this
    rw [this]; exact w3
  rw [s1] at hsmall
  have hrings := (whole_rings env hsort ws hne s h1).2.2
  have hcur : ∀ (k : Nat) c, (s.rings.map (env.coords s))[k]? = some c →
      ∀ p ∈ c, OnWays (members.filterMap id) p := by
    intro k c hk p hp
    obtain ⟨i, hi, rfl⟩ := List.mem_map.1 (List.mem_of_getElem? hk)
    obtain ⟨w, hw, hh⟩ := ((hrings i hi).2 (hsmall s h1 i hi)).2.2.2 p hp
    exact ⟨w, s2.subset hw, hh⟩
  simp only at h2
  obtain ⟨extra, h3, -, -, h4⟩ := h2
  have hextra : ∀ a ∈ extra.map (fun e =>
            ((⟨{ e.2.obj with id := e.2.obj.id * 2 }, e.2.nodes⟩ : Area),
             ((s.rings.map (env.coords s))[e.1]?).map fun c => Geom.multi [polygonOf env.mp c []])),
      ∃ ps, a.2 = some (.multi ps) ∧ ps ≠ [] ∧
        ∀ q ∈ ps, ∀ c ∈ q.1 :: q.2, ∀ p ∈ c, OnWays (members.filterMap id) p := by
    intro a ha
    obtain ⟨e, he, rfl⟩ := List.mem_map.1 ha
    have hlt := ((h3 e.1).1 (List.mem_map.2 ⟨e, he, rfl⟩)).1
    have hget := List.getElem?_eq_getElem hlt
    refine ⟨[polygonOf env.mp (s.rings.map (env.coords s))[e.1] []], ?_, by simp, ?_⟩
    · simp only
      rw [hget]; rfl
    · intro q hq
      rw [List.mem_singleton] at hq
      subst hq
      exact polygonOf_corners (hcur e.1 _ hget) (by simp)
  rcases h4 with ⟨ps, last, p1, p2, -, -, p5⟩ | ⟨-, p5⟩ | ⟨-, p5⟩
  · rw [p5] at h; cases h
    intro a ha
    rcases List.mem_append.1 ha with ha | ha
    · exact hextra a ha
    · rw [List.mem_singleton] at ha
      subst ha
      exact ⟨ps, rfl, p2, p1.corners hg hcur⟩
  · rw [p5] at h; cases h
    exact hextra
  · rw [p5] at h; cases h

/-! ### An example -/

/-- A way through the corners of a square, with node numbers from `ref` on. -/
def squareWay (id ref x y size : Int) (tags : TagList) : Way :=
  { Way.new with
    obj := { Obj.new with id := id, tags := tags }
    nodes := [⟨ref, ⟨x, y⟩⟩, ⟨ref + 1, ⟨x + size, y⟩⟩, ⟨ref + 2, ⟨x + size, y + size⟩⟩,
      ⟨ref + 3, ⟨x, y + size⟩⟩, ⟨ref, ⟨x, y⟩⟩] }

/-- A GEOS that knows squares: `pointGeos` for rings, `squareGeos` for polygons; a square that begins
inside the first 100 units of another one is inside of it. -/
def squareEnv : WholeEnv where
  repair := false
  geos := { pointGeos with ccw := fun c => some ((squareGeos false).ccw c) }
  mp := squareGeos false
  contains a b := match a, b with
    | p :: _, q :: _ => decide (p.x < q.x ∧ p.y < q.y ∧ q.x < p.x + 100 ∧ p.x = 0)
    | _, _ => false
  containsThrows _ _ := false
  closer _ _ _ := false
  sort l := l.insertionSort (fun a b => a.ref ≤ b.ref)
  ccw_eq c b h := by cases h; rfl

/-- The members of a relation: a big square of two ways, two small ones side by side within it, of
which one is tagged, a member that is missing, and a square beside. -/
def squareMembers : List (Option Way) :=
  [some { Way.new with
      obj := { Obj.new with id := 1, tags := [⟨"natural", "water"⟩], timestamp := 7 }
      nodes := [⟨1, ⟨0, 0⟩⟩, ⟨2, ⟨100, 0⟩⟩, ⟨3, ⟨100, 100⟩⟩] },
   some (squareWay 2 11 10 10 2 []), none, some (squareWay 3 21 12 10 2 [⟨"natural", "wood"⟩]),
   some { Way.new with
      obj := { Obj.new with id := 4 }
      nodes := [⟨1, ⟨0, 0⟩⟩, ⟨4, ⟨0, 100⟩⟩, ⟨3, ⟨100, 100⟩⟩] },
   some (squareWay 5 31 200 0 10 [])]

/-- The relation. -/
def squareRelation : Relation := ⟨{ Obj.new with id := 9, tags := [⟨"type", "multipolygon"⟩] }, []⟩

/-- What comes out: the wood with its own outline, and the water with one hole. -/
example : buildWhole squareEnv squareRelation squareMembers = .ok
    [(⟨{ Obj.new with id := 6, tags := [⟨"natural", "wood"⟩] }, (squareWay 3 21 12 10 2 []).nodes⟩,
      some (.multi [((square 12 10 2).reverse, [])])),
     (⟨{ Obj.new with id := 19, timestamp := 7, tags := [⟨"type", "multipolygon"⟩, ⟨"natural", "water"⟩] }, []⟩,
      some (.multi
        [((square 0 0 100).reverse, [[⟨10, 10⟩, ⟨14, 10⟩, ⟨14, 12⟩, ⟨10, 12⟩, ⟨10, 10⟩]]),
         ((square 200 0 10).reverse, [])]))] := by
  decide +kernel

/-- If GEOS throws when it is asked whether the square beside contains one of the others, this is the result; if it would
throw when asked whether a small square contains the big one, nothing changes, as this is not asked. -/
example : buildWhole { squareEnv with containsThrows := fun a b => a.head? == some ⟨200, 0⟩ && b.head? == some ⟨0, 0⟩ }
      squareRelation squareMembers = .error geosError ∧
    buildWhole { squareEnv with containsThrows := fun a b => a.head? == some ⟨10, 10⟩ && b.head? == some ⟨0, 0⟩ }
      squareRelation squareMembers = buildWhole squareEnv squareRelation squareMembers := by
  decide +kernel

theorem squareEnv_sort : squareEnv.ringEnv.SortOk := exampleEnv_sort false

/-- The hypotheses of `whole_areas` are met by this example. -/
example : squareEnv.ringEnv.SortOk ∧ SmallId squareRelation.obj.id ∧
    ∀ w, some w ∈ squareMembers → SmallId w.obj.id ∧ ∀ t ∈ w.obj.tags, t.value ≠ "" := by
  refine ⟨squareEnv_sort, by norm_num [SmallId, squareRelation], ?_⟩
  intro w hw
  simp only [squareMembers, List.mem_cons, Option.some.injEq, reduceCtorEq, List.not_mem_nil, or_false, false_or] at hw
  rcases hw with rfl | rfl | rfl | rfl | rfl <;> simp [SmallId, squareWay, Obj.new]

/-- The other hypotheses of `whole_corners` are met by this example, with a GEOS that does not find
touching rings. -/
example : NoNewCorners { squareGeos false with touch := fun _ _ => .apart } ∧
    ∀ s, makeRings squareEnv.ringEnv (assembleWays squareEnv.repair squareMembers [] 0).1 = .ok s →
      ∀ k ∈ s.rings, (walk (ringPath s.ways k)).length ≤ 1073741824 := by
  refine ⟨fun a b p hs h => (by cases h), ?_⟩
  intro s hs k hk
  have h : ∀ s, makeRings squareEnv.ringEnv (assembleWays squareEnv.repair squareMembers [] 0).1 = .ok s →
      s.rings.map (fun k => (walk (ringPath s.ways k)).length) = [6, 5, 5, 5] := by
    have e : (makeRings squareEnv.ringEnv (assembleWays squareEnv.repair squareMembers [] 0).1).map
        (fun s => s.rings.map (fun k => (walk (ringPath s.ways k)).length)) = .ok [6, 5, 5, 5] := by
      decide +kernel
    intro s hs
    rw [hs] at e
    exact Except.ok.inj e
  have : (walk (ringPath s.ways k)).length ∈ s.rings.map (fun k => (walk (ringPath s.ways k)).length) :=
    List.mem_map.2 ⟨k, hk, rfl⟩
  rw [h s hs] at this
  simp only [List.mem_cons, List.not_mem_nil, or_false] at this
  omega

end Osmium

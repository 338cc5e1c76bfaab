import Verif.Geometry.Props

/-
C57, C65: what is given to Shapelib.
-/
namespace Osmium
open Spec

namespace Spec

/-- A list without the elements that equal the one before. -/
def squeeze {α : Type} [DecidableEq α] : List α → List α
  | [] => []
  | [a] => [a]
  | a :: b :: l => if a = b then squeeze (b :: l) else a :: squeeze (b :: l)

/-- Nodes next to each other with the same id are at the same place. -/
def Consistent : List WayNode → Prop
  | [] => True
  | [_] => True
  | a :: b :: l => (a.ref = b.ref → a.position = b.position) ∧ Consistent (b :: l)

/-- The parts of a shape. -/
def shpParts (o : ShpObject) : List (List (ℚ × ℚ)) :=
  (o.parts.zip (o.parts.tail ++ [o.xs.length])).map fun (a, b) => ((o.xs.zip o.ys).drop a).take (b - a)

end Spec

theorem positionEqIff (p q : Position) : p.eq q = true ↔ p = q := by
  cases p; cases q; simp [Position.eq]

theorem squeeze_cons_ne {α : Type} [DecidableEq α] (a : α) (l : List α) : squeeze (a :: l) ≠ [] := by
  induction l generalizing a with
  | nil => simp [squeeze]
  | cons b l ih => unfold squeeze; split <;> simp [ih]

theorem squeeze_head {α : Type} [DecidableEq α] (a : α) (l : List α) :
    ∃ r, squeeze (a :: l) = a :: r := by
  induction l generalizing a with
  | nil => exact ⟨[], rfl⟩
  | cons b l ih =>
    unfold squeeze
    split
    · rename_i h; subst h; exact ih a
    · exact ⟨_, rfl⟩

/-- Squeezing keeps no two equal neighbours and all other elements in order. -/
theorem squeeze_spec {α : Type} [DecidableEq α] (l : List α) :
    (squeeze l).IsChain (· ≠ ·) ∧ (squeeze l).Sublist l ∧ ∀ a ∈ l, a ∈ squeeze l := by
  induction l with
  | nil => exact ⟨by simp [squeeze], by simp [squeeze], by simp⟩
  | cons a l ih =>
    cases l with
    | nil => exact ⟨by simp [squeeze], by simp [squeeze], by simp [squeeze]⟩
    | cons b l =>
      obtain ⟨h1, h2, h3⟩ := ih
      unfold squeeze
      split
      · rename_i h
        subst h
        exact ⟨h1, h2.trans (List.sublist_cons_self _ _), fun c hc => by
          rcases List.mem_cons.1 hc with rfl | hc
          · exact h3 _ (by simp)
          · exact h3 c hc⟩
      · rename_i h
        obtain ⟨r, hr⟩ := squeeze_head b l
        refine ⟨?_, h2.cons₂ a, fun c hc => ?_⟩
        · rw [hr] at h1 ⊢
          exact List.isChain_cons_cons.2 ⟨h, h1⟩
        · rcases List.mem_cons.1 hc with rfl | hc
          · simp
          · exact List.mem_cons_of_mem _ (h3 c hc)

theorem shpLoop_eq (prev : WayNode) (ns : List WayNode) (h : Consistent (prev :: ns)) (lons lats : List ℚ) :
    shpLoop prev ns (lons, lats) =
      (lons ++ ((squeeze ((prev :: ns).map (·.position))).tail.map Position.lon),
       lats ++ ((squeeze ((prev :: ns).map (·.position))).tail.map Position.lat)) := by
  induction ns generalizing prev lons lats with
  | nil => simp [shpLoop, squeeze]
  | cons n ns ih =>
    obtain ⟨h1, h2⟩ := h
    simp only [List.map_cons]
    by_cases hp : prev.position = n.position
    · have e : shpLoop prev (n :: ns) (lons, lats) = shpLoop n ns (lons, lats) := by
        have : n.position.eq prev.position = true := (positionEqIff _ _).2 hp.symm
        simp [shpLoop, this]
      rw [e, ih n h2]
      simp only [squeeze, hp, if_true, List.map_cons]
    · have hr : n.eq prev = false := by
        simp only [WayNode.eq, beq_eq_false_iff_ne, ne_eq]
        exact fun e => hp (h1 e.symm)
      have hq : n.position.eq prev.position = false := by
        rw [Bool.eq_false_iff, ne_eq, positionEqIff]
        exact fun e => hp e.symm
      have e : shpLoop prev (n :: ns) (lons, lats) =
          shpLoop n ns (lons ++ [n.position.lon], lats ++ [n.position.lat]) := by
        simp [shpLoop, hr, hq]
      rw [e, ih n h2]
      obtain ⟨r, hsq⟩ := squeeze_head n.position (ns.map (·.position))
      simp only [squeeze, hp, if_false, List.map_cons, hsq, List.tail_cons, List.append_assoc, List.singleton_append]

/-- C57: the points are those of the way without repetitions, in the direction wanted; a way with less
than two different points is refused, as is one whose last node has no position.  The hypothesis
(`Consistent`) holds for ways read from a file with a node location store: one node has one position. Ways
of which some nodes, but not the last, lack a position are not refused (`shp_undefined_position`). -/
theorem shp_points_partial (g : FromWay) (hc : Consistent g.nodes) :
    (wayNodesHasPosition g.nodes = false →
      createLineOrPolygon g = .error (.exn "node coordinates not available for building way geometry")) ∧
    (wayNodesHasPosition g.nodes = true → (squeeze (g.nodes.map (·.position))).length < 2 →
      createLineOrPolygon g = .error (.exn "IllegalGeometry")) ∧
    (wayNodesHasPosition g.nodes = true → 2 ≤ (squeeze (g.nodes.map (·.position))).length →
      ∃ ps, ps = (if g.reverse then (squeeze (g.nodes.map (·.position))).reverse
          else squeeze (g.nodes.map (·.position))) ∧
        createLineOrPolygon g = .ok ⟨[0], ps.map Position.lon, ps.map Position.lat⟩) := by
  refine ⟨?_, ?_, ?_⟩
  · intro h; simp [createLineOrPolygon, h]
  · intro h hl
    obtain ⟨id, nodes, rev⟩ := g
    simp only at *
    unfold createLineOrPolygon
    simp only [h, Bool.not_true, Bool.false_eq_true, if_false]
    match nodes, hc with
    | [], _ => rfl
    | [_], _ => rfl
    | n :: m :: ns, hc =>
      simp only
      rw [shpLoop_eq n (m :: ns) hc]
      obtain ⟨r, hsq⟩ := squeeze_head n.position ((m :: ns).map (·.position))
      have hmap : (n :: m :: ns).map (·.position) = n.position :: (m :: ns).map (·.position) := rfl
      rw [hmap, hsq] at hl ⊢
      have : r = [] := by
        rw [← List.length_eq_zero_iff]; simp at hl; omega
      subst this
      simp
  · intro h hl
    refine ⟨_, rfl, ?_⟩
    obtain ⟨id, nodes, rev⟩ := g
    simp only at *
    unfold createLineOrPolygon
    simp only [h, Bool.not_true, Bool.false_eq_true, if_false]
    match nodes, hc with
    | [], _ => simp [squeeze] at hl
    | [_], _ => simp [squeeze] at hl
    | n :: m :: ns, hc =>
      simp only
      rw [shpLoop_eq n (m :: ns) hc]
      obtain ⟨r, hsq⟩ := squeeze_head n.position ((m :: ns).map (·.position))
      have hmap : (n :: m :: ns).map (·.position) = n.position :: (m :: ns).map (·.position) := rfl
      rw [hmap, hsq] at hl ⊢
      have hr : ¬ r = [] := by rintro rfl; simp at hl
      cases rev <;> simp [hr]

example : Consistent exampleTriangle ∧ wayNodesHasPosition exampleTriangle = true ∧
    2 ≤ (squeeze (exampleTriangle.map (·.position))).length := by
  refine ⟨?_, ?_, ?_⟩
  · simp [Consistent, exampleTriangle]
  · decide
  · decide

/-- C57 fails for ways in which the last node has a position and another has none: the shape contains the
meaningless coordinate 214.7483647. -/
theorem shp_undefined_position :
    createLineOrPolygon ⟨1, [⟨1, Position.undef⟩, ⟨2, ⟨0, 0⟩⟩], false⟩ =
      .ok ⟨[0], [fixToDouble 2147483647, fixToDouble 0], [fixToDouble 2147483647, fixToDouble 0]⟩ := by
  rfl

/-- C57 fails for ways with the same node id at two positions: the second is left out. -/
theorem shp_same_ref_other_position :
    createLineOrPolygon ⟨1, [⟨1, ⟨0, 0⟩⟩, ⟨1, ⟨5, 5⟩⟩], false⟩ = .error (.exn "IllegalGeometry") := by
  rfl

/-! ### C65: multipolygons -/

/-- Dump rings one after the other. -/
def dumpRings (rings : List (List (ℚ × ℚ))) (o : ShpObject) : ShpObject := rings.foldl (fun o r => dumpLine r o) o

theorem dumpGeometries_polygons (polygons : List (List (ℚ × ℚ) × List (List (ℚ × ℚ)))) (o : ShpObject) :
    dumpGeometries (polygons.map fun p => .polygon p.1 p.2) o =
      .ok (dumpRings (polygons.flatMap fun p => p.1 :: p.2) o) := by
  induction polygons generalizing o with
  | nil => simp [dumpGeometries, dumpRings]
  | cons p ps ih =>
    rw [List.map_cons, dumpGeometries, dumpGeometry]
    simp only [ih]
    simp [dumpRings, List.foldl_append]

/-- Where the rings start. -/
def ringStarts : Nat → List (List (ℚ × ℚ)) → List Nat
  | _, [] => []
  | n, r :: rs => n :: ringStarts (n + r.length) rs

theorem dumpRings_eq (rings : List (List (ℚ × ℚ))) (o : ShpObject) :
    dumpRings rings o = ⟨o.parts ++ ringStarts o.xs.length rings, o.xs ++ rings.flatten.map (·.1),
      o.ys ++ rings.flatten.map (·.2)⟩ := by
  induction rings generalizing o with
  | nil => simp [dumpRings, ringStarts]
  | cons r rs ih =>
    have : dumpRings (r :: rs) o = dumpRings rs (dumpLine r o) := rfl
    rw [this, ih]
    simp [dumpLine, ringStarts]

theorem shpParts_starts (done : List (ℚ × ℚ)) (rings : List (List (ℚ × ℚ))) :
    ((ringStarts done.length rings).zip ((ringStarts done.length rings).tail ++ [(done ++ rings.flatten).length])).map
      (fun (a, b) => ((done ++ rings.flatten).drop a).take (b - a)) = rings := by
  induction rings generalizing done with
  | nil => rfl
  | cons r rs ih =>
    have hd : (done ++ (r :: rs).flatten).drop done.length = r ++ rs.flatten := by simp
    have h2 := ih (done ++ r)
    have e : done ++ (r :: rs).flatten = done ++ r ++ rs.flatten := by simp
    have el : (done ++ r).length = done.length + r.length := by simp
    rw [el] at h2
    cases rs with
    | nil =>
      simp [ringStarts]
    | cons s ss =>
      rw [e]
      have et : ringStarts done.length (r :: s :: ss) = done.length :: ringStarts (done.length + r.length) (s :: ss) := rfl
      have et2 : ringStarts (done.length + r.length) (s :: ss) =
          (done.length + r.length) :: ringStarts (done.length + r.length + s.length) ss := rfl
      rw [et, List.tail_cons]
      rw [et2] at h2 ⊢
      rw [List.tail_cons] at h2
      rw [List.cons_append, List.zip_cons_cons, List.map_cons, h2]
      congr 1
      simp

/-- C65: the shape made of a multipolygon has exactly its rings as parts: for each polygon the outer ring,
then the inner rings, with all points in order. -/
theorem shp_multipolygon (polygons : List (List (ℚ × ℚ) × List (List (ℚ × ℚ)))) (o : ShpObject)
    (h : createShpMultipolygon polygons = .ok o) :
    shpParts o = polygons.flatMap (fun p => p.1 :: p.2) ∧ o.parts.length = (shpParts o).length := by
  unfold createShpMultipolygon at h
  rw [dumpGeometry, dumpGeometries_polygons, dumpRings_eq] at h
  generalize polygons.flatMap (fun p => p.1 :: p.2) = rings at *
  simp only [List.nil_append, List.length_nil] at h
  split at h
  · cases h
  · simp only [Except.ok.injEq] at h
    subst h
    have hz : (rings.flatten.map (·.1)).zip (rings.flatten.map (·.2)) = rings.flatten := by
      rw [List.zip_map', List.map_id'']
      intro x; rfl
    have := shpParts_starts [] rings
    simp only [List.length_nil, List.nil_append] at this
    constructor
    · unfold shpParts
      simp only [List.length_map, hz]
      exact this
    · unfold shpParts
      simp
      omega

/-- C65: it is made unless there is no ring or no point, in which case the behaviour is undefined. -/
theorem shp_multipolygon_total (polygons : List (List (ℚ × ℚ) × List (List (ℚ × ℚ)))) :
    ((∀ p ∈ polygons, p.1 = [] ∧ ∀ r ∈ p.2, r = []) → createShpMultipolygon polygons = .error .ub) ∧
    ((∃ p ∈ polygons, p.1 ≠ []) → ∃ o, createShpMultipolygon polygons = .ok o) := by
  have e : ∀ rings : List (List (ℚ × ℚ)), ringStarts 0 rings = [] ↔ rings = [] := by
    intro rings; cases rings <;> simp [ringStarts]
  unfold createShpMultipolygon
  rw [dumpGeometry, dumpGeometries_polygons, dumpRings_eq]
  simp only [List.nil_append, List.length_nil, e]
  constructor
  · intro h
    rw [if_pos]
    right
    rw [List.map_eq_nil_iff, List.flatten_eq_nil_iff]
    intro l hl
    obtain ⟨p, hp, hr⟩ := List.mem_flatMap.1 hl
    rcases List.mem_cons.1 hr with rfl | hr
    · exact (h p hp).1
    · exact (h p hp).2 l hr
  · rintro ⟨p, hp, hne⟩
    rw [if_neg]
    · exact ⟨_, rfl⟩
    · have hm : p.1 ∈ polygons.flatMap (fun p => p.1 :: p.2) := List.mem_flatMap.2 ⟨p, hp, by simp⟩
      rintro (h | h)
      · rw [h] at hm; simp at hm
      · rw [List.map_eq_nil_iff, List.flatten_eq_nil_iff] at h
        exact hne (h _ hm)

example : createShpMultipolygon [([(0, 0), (0, 9), (9, 9), (0, 0)], [[(1, 2), (1, 3), (2, 3), (1, 2)]]), ([(20, 20)], [])] =
    .ok ⟨[0, 4, 8], [0, 0, 9, 0, 1, 1, 2, 1, 20], [0, 9, 9, 0, 2, 3, 3, 2, 20]⟩ := by decide +kernel

end Osmium

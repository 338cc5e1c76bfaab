import Verif.Geometry.Model
import Verif.Float.Props
import Mathlib.Geometry.Euclidean.Angle.Unoriented.TriangleInequality
import Mathlib.Analysis.InnerProductSpace.PiL2
import Mathlib.Analysis.Real.Pi.Bounds
/-
C66: distances on the Earth, geometry/haversine.hpp.

The functions are modelled with real numbers instead of doubles: the theorems say what is computed up
to the rounding of the floating point operations, which is not modelled.
-/
namespace Osmium
open Real

/-- geometry/haversine.hpp 45 `DEG_TO_RAD` (as written, not the double next to it). -/
noncomputable def degToRad : ℝ := 0.017453292519943295769236907684886

/-- geometry/haversine.hpp 48 `EARTH_RADIUS_IN_METERS`. -/
noncomputable def earthRadius : ℝ := 6372797.560856

/-- geometry/haversine.hpp 50-59 `distance` of two points given in degrees. -/
noncomputable def havDeg (x1 y1 x2 y2 : ℝ) : ℝ :=
  let lonArc := (x1 - x2) * degToRad
  let latArc := (y1 - y2) * degToRad
  let lonh := sin (lonArc * 0.5)
  let lonh := lonh * lonh
  let lath := sin (latArc * 0.5)
  let lath := lath * lath
  let tmp := cos (y1 * degToRad) * cos (y2 * degToRad)
  2.0 * earthRadius * arcsin (√(lath + tmp * lonh))

/-- geometry/haversine.hpp 61-63 `distance` of two positions. -/
noncomputable def havPos (p q : Position) : ℝ := havDeg p.lon p.lat q.lon q.lat

/-- geometry/haversine.hpp 71-73 the loop of `distance(WayNodeList)`. -/
noncomputable def havLoop : List WayNode → ℝ → ℝ
  | [], s => s
  | [_], s => s
  | a :: b :: ns, s => havLoop (b :: ns) (s + havPos a.position b.position)

/-- geometry/haversine.hpp 65-76 `distance(WayNodeList)`: the length of a way. -/
noncomputable def havLength (ns : List WayNode) : ℝ := if ns.length < 2 then 0 else havLoop ns 0

namespace Spec

/-- The point on the unit sphere with this longitude and latitude (in radians). (specification, no counterpart in
/repo) -/
noncomputable def spherePoint (lon lat : ℝ) : EuclideanSpace ℝ (Fin 3) :=
  !₂[cos lat * cos lon, cos lat * sin lon, sin lat]

/-- The point of a position. (specification, no counterpart in /repo) -/
noncomputable def pointOf (p : Position) : EuclideanSpace ℝ (Fin 3) :=
  spherePoint (p.lon * degToRad) (p.lat * degToRad)

/-- The length of the shortest arc on a sphere with the radius of the Earth: radius times angle. (specification, no
counterpart in /repo) -/
noncomputable def arcLength (u v : EuclideanSpace ℝ (Fin 3)) : ℝ :=
  earthRadius * InnerProductGeometry.angle u v

/-- The length of a way: the sum of the arc lengths of its segments. (specification, no counterpart in /repo) -/
noncomputable def pathLength : List Position → ℝ
  | [] => 0
  | [_] => 0
  | p :: q :: ps => arcLength (pointOf p) (pointOf q) + pathLength (q :: ps)

end Spec
open Spec

theorem spherePoint_inner (a b c d : ℝ) :
    inner ℝ (spherePoint a b) (spherePoint c d) = cos b * cos d * cos (a - c) + sin b * sin d := by
  simp only [spherePoint, PiLp.inner_apply, Fin.sum_univ_three]
  simp [cos_sub]
  ring

theorem spherePoint_norm (a b : ℝ) : ‖spherePoint a b‖ = 1 := by
  have h := real_inner_self_eq_norm_sq (spherePoint a b)
  rw [spherePoint_inner] at h
  have h1 : cos b * cos b * cos (a - a) + sin b * sin b = 1 := by
    rw [sub_self, cos_zero, mul_one]
    nlinarith [sin_sq_add_cos_sq b]
  rw [h1] at h
  nlinarith [norm_nonneg (spherePoint a b)]

theorem hav_arccos {c : ℝ} : 2 * arcsin (√((1 - c) / 2)) = arccos c ∨ c < -1 ∨ 1 < c := by
  by_cases h1 : c < -1
  · exact .inr (.inl h1)
  by_cases h2 : 1 < c
  · exact .inr (.inr h2)
  left
  have hc := cos_arccos (not_lt.mp h1) (not_lt.mp h2)
  have h0 := arccos_nonneg c
  have hp := arccos_le_pi c
  set θ := arccos c
  have e : (1 - c) / 2 = sin (θ / 2) ^ 2 := by
    rw [← hc, show θ = 2 * (θ / 2) by ring, cos_two_mul, show 2 * (θ / 2) / 2 = θ / 2 by ring]
    nlinarith [sin_sq_add_cos_sq (θ / 2)]
  rw [e, sqrt_sq (sin_nonneg_of_nonneg_of_le_pi (by linarith) (by linarith)),
    arcsin_sin (by linarith) (by linarith)]
  ring

/-- **C66.**  The distance of two points is the length of the shortest arc between them on a sphere
with the radius of the Earth. -/
theorem haversine_is_arc (x1 y1 x2 y2 : ℝ) :
    havDeg x1 y1 x2 y2 =
      arcLength (spherePoint (x1 * degToRad) (y1 * degToRad))
        (spherePoint (x2 * degToRad) (y2 * degToRad)) := by
  unfold havDeg arcLength InnerProductGeometry.angle
  rw [spherePoint_norm, spherePoint_norm, spherePoint_inner]
  simp only [mul_one, div_one]
  set a := x1 * degToRad
  set b := y1 * degToRad
  set c := x2 * degToRad
  set d := y2 * degToRad
  set v := cos b * cos d * cos (a - c) + sin b * sin d with hv
  have e : sin ((y1 - y2) * degToRad * 0.5) * sin ((y1 - y2) * degToRad * 0.5) +
      cos b * cos d * (sin ((x1 - x2) * degToRad * 0.5) * sin ((x1 - x2) * degToRad * 0.5)) =
      (1 - v) / 2 := by
    have half : ∀ t : ℝ, sin (t * 0.5) * sin (t * 0.5) = (1 - cos t) / 2 := by
      intro t
      have : cos t = 2 * cos (t * 0.5) ^ 2 - 1 := by
        rw [← cos_two_mul]; congr 1; norm_num; ring
      rw [this]
      nlinarith [sin_sq_add_cos_sq (t * 0.5)]
    rw [half, half, show (y1 - y2) * degToRad = b - d by simp only [b, d]; ring,
      show (x1 - x2) * degToRad = a - c by simp only [a, c]; ring, hv, cos_sub b d]
    ring
  rw [e]
  have hle := abs_real_inner_le_norm (spherePoint a b) (spherePoint c d)
  rw [spherePoint_norm, spherePoint_norm, spherePoint_inner, ← hv, one_mul, abs_le] at hle
  rcases hav_arccos (c := v) with h | h | h
  · rw [← h]; norm_num; ring
  · linarith [hle.1]
  · linarith [hle.2]

theorem havPos_is_arc (p q : Position) : havPos p q = arcLength (pointOf p) (pointOf q) :=
  haversine_is_arc _ _ _ _

theorem earthRadius_pos : 0 < earthRadius := by norm_num [earthRadius]

/-- **C66.**  The distance is the same in both directions. -/
theorem haversine_symm (p q : Position) : havPos p q = havPos q p := by
  rw [havPos_is_arc, havPos_is_arc, arcLength, arcLength, InnerProductGeometry.angle_comm]

/-- **C66.**  The distance is never negative, and at most half the circumference of the Earth. -/
theorem haversine_range (p q : Position) : 0 ≤ havPos p q ∧ havPos p q ≤ earthRadius * π := by
  rw [havPos_is_arc, arcLength]
  exact ⟨mul_nonneg earthRadius_pos.le (InnerProductGeometry.angle_nonneg _ _),
    mul_le_mul_of_nonneg_left (InnerProductGeometry.angle_le_pi _ _) earthRadius_pos.le⟩

/-- **C66.**  A detour is never shorter. -/
theorem haversine_triangle (p q r : Position) : havPos p r ≤ havPos p q + havPos q r := by
  simp only [havPos_is_arc, arcLength]
  rw [← mul_add]
  exact mul_le_mul_of_nonneg_left (InnerProductGeometry.angle_le_angle_add_angle _ _ _)
    earthRadius_pos.le

/-- A position has no distance from itself. -/
theorem haversine_self (p : Position) : havPos p p = 0 := by
  rw [havPos_is_arc, arcLength, InnerProductGeometry.angle_self, mul_zero]
  intro h
  have := spherePoint_norm (p.lon * degToRad) (p.lat * degToRad)
  rw [show spherePoint (p.lon * degToRad) (p.lat * degToRad) = pointOf p from rfl, h, norm_zero] at this
  exact zero_ne_one this

theorem havLoop_eq (ns : List WayNode) (s : ℝ) :
    havLoop ns s = s + pathLength (ns.map (·.position)) := by
  induction ns generalizing s with
  | nil => simp [havLoop, pathLength]
  | cons a ns ih =>
    cases ns with
    | nil => simp [havLoop, pathLength]
    | cons b ns =>
      rw [havLoop, ih, havPos_is_arc]
      simp only [List.map_cons, pathLength]
      ring

/-- **C66.**  The length of a way is the sum of the lengths of its segments. -/
theorem haversine_length (ns : List WayNode) :
    havLength ns = pathLength (ns.map (·.position)) := by
  unfold havLength
  split
  · rename_i h
    match ns, h with
    | [], _ => rfl
    | [_], _ => rfl
    | _ :: _ :: _, h => simp at h
  · rw [havLoop_eq, zero_add]

theorem arcLength_comm (u v : EuclideanSpace ℝ (Fin 3)) : arcLength u v = arcLength v u := by
  rw [arcLength, arcLength, InnerProductGeometry.angle_comm]

theorem pathLength_append (ps qs : List Position) (p : Position) :
    pathLength (ps ++ p :: qs) = pathLength (ps ++ [p]) + pathLength (p :: qs) := by
  induction ps with
  | nil => simp [pathLength]
  | cons a ps ih =>
    cases ps with
    | nil => simp [pathLength]
    | cons b ps =>
      simp only [List.cons_append, pathLength] at ih ⊢
      rw [ih]; ring

theorem pathLength_reverse (ps : List Position) : pathLength ps.reverse = pathLength ps := by
  induction ps with
  | nil => rfl
  | cons a ps ih =>
    cases ps with
    | nil => rfl
    | cons b ps =>
      simp only [List.reverse_cons, List.append_assoc, List.cons_append, List.nil_append] at ih ⊢
      rw [pathLength_append, ih]
      simp only [pathLength]
      rw [arcLength_comm]; ring

/-- **C66.**  A way cut at one of its nodes: the lengths of the parts add up. -/
theorem haversine_length_append (as bs : List WayNode) (n : WayNode) :
    havLength (as ++ n :: bs) = havLength (as ++ [n]) + havLength (n :: bs) := by
  simp only [haversine_length, List.map_append, List.map_cons, List.map_nil]
  exact pathLength_append _ _ _

/-- **C66.**  Reversing a way does not change its length. -/
theorem haversine_length_reverse (ns : List WayNode) : havLength ns.reverse = havLength ns := by
  simp only [haversine_length, List.map_reverse]
  exact pathLength_reverse _

/-- **C66.**  A way is at least as long as the distance between its ends. -/
theorem haversine_length_ge (a b : WayNode) (ns : List WayNode) :
    havPos a.position b.position ≤ havLength (a :: ns ++ [b]) := by
  induction ns generalizing a with
  | nil => simp [haversine_length, pathLength, havPos_is_arc]
  | cons c ns ih =>
    have h := ih c
    have ht := haversine_triangle a.position c.position b.position
    rw [haversine_length] at h ⊢
    simp only [List.cons_append, List.map_cons, pathLength, ← havPos_is_arc] at h ⊢
    linarith

theorem lon_bound (x m : ℤ) (h : |x| < m) (hm : m ≤ 1800000000) :
    |(fixToDouble x : ℝ)| ≤ ((m : ℝ) - 0.5) / 10000000 := by
  obtain ⟨d, hd, e⟩ := fl_eq ((x : ℚ) / coordinatePrecision)
  have h1 : |fixToDouble x| ≤ ((m : ℚ) - 0.5) / 10000000 := by
    unfold fixToDouble
    rw [e]
    unfold coordinatePrecision
    unfold ulp at hd
    rw [abs_mul, abs_div, abs_of_pos (show (0:ℚ) < 10000000 by norm_num)]
    have hx : |(x : ℚ)| ≤ m - 1 := by exact_mod_cast (show |x| ≤ m - 1 by omega)
    have hm' : (m : ℚ) ≤ 1800000000 := by exact_mod_cast hm
    have h2 : |1 + d| ≤ 1 + |d| := by
      have := abs_add_le 1 d
      simpa using this
    have h3 := abs_nonneg d
    have h4 := abs_nonneg (x : ℚ)
    rw [div_mul_eq_mul_div, div_le_div_iff_of_pos_right (by norm_num)]
    calc |(x : ℚ)| * |1 + d| ≤ |(x : ℚ)| * (1 + |d|) := mul_le_mul_of_nonneg_left h2 h4
      _ ≤ m - 0.5 := by nlinarith
  have h2 : ((|fixToDouble x| : ℚ) : ℝ) ≤ ((((m : ℚ) - 0.5) / 10000000 : ℚ) : ℝ) := Rat.cast_le.mpr h1
  push_cast at h2
  norm_num at h2 ⊢
  exact h2

theorem fixToDouble_inj {x y : ℤ} (hx : InS32 x) (hy : InS32 y) (h : fixToDouble x = fixToDouble y) :
    x = y := by
  rw [← fix_double_fix x hx, h, fix_double_fix y hy]

theorem degToRad_lt (t m : ℝ) (ht : |t| ≤ (m - 0.5) / 10000000) (hm : m ≤ 1800000000) (h0 : 1 ≤ m) :
    |t * degToRad| < m / 1800000000 * π := by
  have hpi := pi_gt_d20
  rw [abs_mul, abs_of_pos (show 0 < degToRad by norm_num [degToRad])]
  calc |t| * degToRad ≤ (m - 0.5) / 10000000 * degToRad :=
        mul_le_mul_of_nonneg_right ht (by norm_num [degToRad])
    _ < m / 1800000000 * 3.14159265358979323846 := by
        unfold degToRad; nlinarith
    _ ≤ m / 1800000000 * π := mul_le_mul_of_nonneg_left hpi.le (by positivity)

/-- **C66.**  Different positions have a positive distance, except at the poles and on the 180th
meridian. -/
theorem haversine_pos (p q : Position) (hp : |p.y| < 900000000) (hq : |q.y| < 900000000)
    (hpx : |p.x| < 1800000000) (hqx : |q.x| < 1800000000) (h : p ≠ q) :
    0 < havPos p q := by
  have hlat : ∀ r : Position, |r.y| < 900000000 → |(r.lat : ℝ) * degToRad| < π / 2 := by
    intro r hr
    have := degToRad_lt _ 900000000 (by have := lon_bound r.y 900000000 hr (by norm_num); push_cast at this; exact this)
      (by norm_num) (by norm_num)
    calc _ < _ := this
      _ = π / 2 := by ring
  have hlon : ∀ r : Position, |r.x| < 1800000000 → |(r.lon : ℝ) * degToRad| < π := by
    intro r hr
    have := degToRad_lt _ 1800000000 (by have := lon_bound r.x 1800000000 hr (by norm_num); push_cast at this; exact this)
      (by norm_num) (by norm_num)
    calc _ < _ := this
      _ = π := by ring
  rcases (haversine_range p q).1.lt_or_eq with hlt | h0
  · exact hlt
  exfalso
  unfold havPos havDeg at h0
  simp only at h0
  have hR := earthRadius_pos
  have hpl := hlat p hp
  have hql := hlat q hq
  have hpo := hlon p hpx
  have hqo := hlon q hqx
  rw [abs_lt] at hpl hql hpo hqo
  have hcp : 0 < cos ((p.lat : ℝ) * degToRad) := cos_pos_of_mem_Ioo ⟨by linarith, by linarith⟩
  have hcq : 0 < cos ((q.lat : ℝ) * degToRad) := cos_pos_of_mem_Ioo ⟨by linarith, by linarith⟩
  have hcc := mul_pos hcp hcq
  set tmp := cos ((p.lat : ℝ) * degToRad) * cos ((q.lat : ℝ) * degToRad)
  set A := sin (((p.lat : ℝ) - q.lat) * degToRad * 0.5) with hA
  set B := sin (((p.lon : ℝ) - q.lon) * degToRad * 0.5) with hB
  have hasin : arcsin (√(A * A + tmp * (B * B))) = 0 := by
    have h2 : (2.0 : ℝ) * earthRadius ≠ 0 := by norm_num; exact hR.ne'
    exact (mul_eq_zero.mp h0.symm).resolve_left h2
  rw [arcsin_eq_zero_iff] at hasin
  have hBB := mul_nonneg hcc.le (mul_self_nonneg B)
  have hsum : A * A + tmp * (B * B) = 0 :=
    (sqrt_eq_zero (add_nonneg (mul_self_nonneg A) hBB)).mp hasin
  have hA0 : A = 0 := by
    have : A * A = 0 := by linarith [mul_self_nonneg A]
    exact mul_self_eq_zero.mp this
  have hB0 : B = 0 := by
    have h1 : tmp * (B * B) = 0 := by linarith [mul_self_nonneg A]
    exact mul_self_eq_zero.mp ((mul_eq_zero.mp h1).resolve_left hcc.ne')
  have hpi := pi_pos
  have hk : degToRad ≠ 0 := by norm_num [degToRad]
  have e1 : ((p.lat : ℝ) - q.lat) * degToRad * 0.5 = 0 := by
    have e : ((p.lat : ℝ) - q.lat) * degToRad * 0.5 =
      ((p.lat : ℝ) * degToRad - q.lat * degToRad) / 2 := by norm_num; ring
    rw [hA] at hA0
    rw [sin_eq_zero_iff_of_lt_of_lt (by rw [e]; linarith) (by rw [e]; linarith)] at hA0
    exact hA0
  have e2 : ((p.lon : ℝ) - q.lon) * degToRad * 0.5 = 0 := by
    have e : ((p.lon : ℝ) - q.lon) * degToRad * 0.5 =
      ((p.lon : ℝ) * degToRad - q.lon * degToRad) / 2 := by norm_num; ring
    rw [hB] at hB0
    rw [sin_eq_zero_iff_of_lt_of_lt (by rw [e]; linarith) (by rw [e]; linarith)] at hB0
    exact hB0
  have f1 : p.lat = q.lat := by
    have : (p.lat : ℝ) - q.lat = 0 := by
      have := (mul_eq_zero.mp e1).resolve_right (by norm_num)
      exact (mul_eq_zero.mp this).resolve_right hk
    exact_mod_cast sub_eq_zero.mp this
  have f2 : p.lon = q.lon := by
    have : (p.lon : ℝ) - q.lon = 0 := by
      have := (mul_eq_zero.mp e2).resolve_right (by norm_num)
      exact (mul_eq_zero.mp this).resolve_right hk
    exact_mod_cast sub_eq_zero.mp this
  have s : ∀ x : ℤ, |x| < 1800000000 → InS32 x := by
    intro x hx; rw [abs_lt] at hx; constructor <;> omega
  have g1 := fixToDouble_inj (s p.y (by omega)) (s q.y (by omega)) f1
  have g2 := fixToDouble_inj (s p.x hpx) (s q.x hqx) f2
  apply h
  cases p; cases q
  simp only at g1 g2
  rw [g1, g2]

example : 0 < havPos ⟨133000000, 525000000⟩ ⟨133000001, 525000000⟩ :=
  haversine_pos _ _ (by norm_num) (by norm_num) (by norm_num) (by norm_num) (by decide)

/-- Antipodes on the equator: half the circumference up to the constant. -/
example : havDeg 0 0 (π / degToRad) 0 = earthRadius * π := by
  rw [haversine_is_arc, arcLength, InnerProductGeometry.angle, spherePoint_norm, spherePoint_norm,
    spherePoint_inner, div_mul_cancel₀ _ (by norm_num [degToRad])]
  simp

end Osmium

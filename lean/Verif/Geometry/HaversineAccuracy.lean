import Verif.Geometry.Haversine
namespace Osmium
open Real Spec
namespace Spec

/-- The point on the unit sphere that a position means: its coordinates are in units of 10^-7 degrees. -/
noncomputable def truePoint (p : Position) : EuclideanSpace ℝ (Fin 3) :=
  spherePoint ((p.x : ℝ) / 10000000 * (π / 180)) ((p.y : ℝ) / 10000000 * (π / 180))

end Spec

theorem arccos_cos_le (t : ℝ) : arccos (cos t) ≤ |t| := by
  by_cases h : |t| ≤ π
  · rw [← cos_abs, arccos_cos (abs_nonneg t) h]
  · exact (arccos_le_pi _).trans (not_le.mp h).le

/-- The angle between two points of the sphere is at most the sum of the differences of the coordinates. -/
theorem sphere_angle_le (a b c d : ℝ) :
    InnerProductGeometry.angle (spherePoint a b) (spherePoint c d) ≤ |a - c| + |b - d| := by
  have h1 : InnerProductGeometry.angle (spherePoint a b) (spherePoint a d) ≤ |b - d| := by
    unfold InnerProductGeometry.angle
    rw [spherePoint_norm, spherePoint_norm, spherePoint_inner, sub_self, cos_zero, mul_one, mul_one, div_one, ← cos_sub]
    exact arccos_cos_le _
  have h2 : InnerProductGeometry.angle (spherePoint a d) (spherePoint c d) ≤ |a - c| := by
    unfold InnerProductGeometry.angle
    rw [spherePoint_norm, spherePoint_norm, spherePoint_inner, mul_one, div_one]
    refine le_trans (arccos_le_arccos ?_) (arccos_cos_le (a - c))
    nlinarith [sin_sq_add_cos_sq d, cos_le_one (a - c), mul_self_nonneg (sin d)]
  have := InnerProductGeometry.angle_le_angle_add_angle (spherePoint a b) (spherePoint a d) (spherePoint c d)
  linarith

theorem radians_close (x : ℤ) (h : InS32 x) :
    |(fixToDouble x : ℝ) * degToRad - (x : ℝ) / 10000000 * (π / 180)| ≤ 0.0000000000000006 := by
  obtain ⟨d, hd, e⟩ := fl_eq ((x : ℚ) / coordinatePrecision)
  have hx : |(x : ℝ)| ≤ 2147483648 := by
    have : |x| ≤ 2147483648 := by unfold InS32 at h; rw [abs_le]; omega
    exact_mod_cast this
  have e' : (fixToDouble x : ℝ) = (x : ℝ) / 10000000 * (1 + (d : ℝ)) := by
    unfold fixToDouble
    rw [e]; unfold coordinatePrecision; push_cast; rfl
  have hd' : |(d : ℝ)| ≤ 0.00000000000000012 := by
    have : |d| ≤ 0.00000000000000012 := by
      unfold ulp at hd
      refine hd.trans ?_
      norm_num
    have h2 : ((|d| : ℚ) : ℝ) ≤ ((0.00000000000000012 : ℚ) : ℝ) := Rat.cast_le.mpr this
    push_cast at h2
    norm_num at h2 ⊢
    exact h2
  have hc : |degToRad - π / 180| ≤ 0.0000000000000000000001 := by
    have h1 := pi_gt_d20
    have h2 := pi_lt_d20
    unfold degToRad
    rw [abs_le]
    constructor <;> linarith
  rw [e']
  have e2 : (x : ℝ) / 10000000 * (1 + (d : ℝ)) * degToRad - (x : ℝ) / 10000000 * (π / 180) =
      (x : ℝ) / 10000000 * ((degToRad - π / 180) + (d : ℝ) * degToRad) := by ring
  rw [e2, abs_mul, abs_div, abs_of_pos (show (0 : ℝ) < 10000000 by norm_num)]
  have h3 : |(degToRad - π / 180) + (d : ℝ) * degToRad| ≤ 0.0000000000000000022 := by
    have hk : |degToRad| ≤ 0.0175 := by unfold degToRad; rw [abs_of_pos] <;> norm_num
    calc _ ≤ |degToRad - π / 180| + |(d : ℝ) * degToRad| := abs_add_le _ _
      _ ≤ 0.0000000000000000000001 + 0.00000000000000012 * 0.0175 := by
        rw [abs_mul]
        exact add_le_add hc (mul_le_mul hd' hk (abs_nonneg _) (by norm_num))
      _ ≤ _ := by norm_num
  calc |(x : ℝ)| / 10000000 * |(degToRad - π / 180) + (d : ℝ) * degToRad|
      ≤ 2147483648 / 10000000 * 0.0000000000000000022 := by
        apply mul_le_mul _ h3 (abs_nonneg _) (by norm_num)
        exact div_le_div_of_nonneg_right hx (by norm_num)
    _ ≤ _ := by norm_num

theorem point_close (p : Position) (h : p.WF) :
    InnerProductGeometry.angle (pointOf p) (truePoint p) ≤ 0.0000000000000012 := by
  have h1 := radians_close p.x h.1
  have h2 := radians_close p.y h.2
  refine (sphere_angle_le _ _ _ _).trans ?_
  unfold Position.lon Position.lat
  calc _ ≤ (0.0000000000000006 : ℝ) + 0.0000000000000006 := add_le_add h1 h2
    _ ≤ _ := by norm_num

/-- **C66.**  For all positions the distance differs from the length of the arc between the exact points, on a
sphere with a radius of 6372797.560856 m, by less than a tenth of a micrometer (apart from the rounding of
the operations). -/
theorem haversine_accuracy (p q : Position) (hp : p.WF) (hq : q.WF) :
    |havPos p q - 6372797.560856 * InnerProductGeometry.angle (truePoint p) (truePoint q)| ≤ 0.0000001 := by
  have h1 := point_close p hp
  have h2 := point_close q hq
  have t1 := InnerProductGeometry.angle_le_angle_add_angle (pointOf p) (truePoint p) (truePoint q)
  have t2 := InnerProductGeometry.angle_le_angle_add_angle (pointOf p) (truePoint q) (pointOf q)
  have t3 := InnerProductGeometry.angle_le_angle_add_angle (truePoint p) (pointOf p) (pointOf q)
  have t4 := InnerProductGeometry.angle_le_angle_add_angle (truePoint p) (pointOf q) (truePoint q)
  rw [InnerProductGeometry.angle_comm (truePoint q) (pointOf q)] at t2
  rw [InnerProductGeometry.angle_comm (truePoint p) (pointOf p)] at t3
  rw [havPos_is_arc, arcLength]
  unfold earthRadius
  rw [← mul_sub, abs_mul, abs_of_pos (by norm_num)]
  have : |InnerProductGeometry.angle (pointOf p) (pointOf q) - InnerProductGeometry.angle (truePoint p) (truePoint q)| ≤
      0.0000000000000024 := by
    rw [abs_le]; constructor <;> linarith
  calc _ ≤ (6372797.560856 : ℝ) * 0.0000000000000024 := mul_le_mul_of_nonneg_left this (by norm_num)
    _ ≤ _ := by norm_num

example : ∃ p q : Position, p.WF ∧ q.WF ∧ p ≠ q :=
  ⟨⟨83000000, 490000000⟩, ⟨-1223000000, 374000000⟩, by constructor <;> (unfold InS32; decide),
    by constructor <;> (unfold InS32; decide), by decide⟩
end Osmium

import Verif.Float.Lemmas
import Verif.Common.Num
/-
Property C07 and the numeric core of C14/C15 (coordinates and timestamps in PBF), C20 (PBF
bounding boxes) and C25 (coordinates in XML).
-/
namespace Osmium

theorem abs_le_of_s32 {x : ℤ} (h : InS32 x) : |(x : ℚ)| ≤ 2147483648 := by
  have : |x| ≤ 2147483648 := by unfold InS32 at h; rw [abs_le]; omega
  exact_mod_cast this

/-- **C07**: every 32-bit fixed point coordinate survives the conversion to a double degree
value and back. -/
theorem fix_double_fix (x : ℤ) (h : InS32 x) : doubleToFix (fixToDouble x) = x := by
  unfold doubleToFix fixToDouble
  obtain ⟨d1, h1, e1⟩ := fl_eq ((x : ℚ) / coordinatePrecision)
  obtain ⟨d2, h2, e2⟩ := fl_eq (fl ((x : ℚ) / coordinatePrecision) * coordinatePrecision)
  apply cround_near
  rw [e2, e1]
  have : (x : ℚ) / coordinatePrecision * (1 + d1) * coordinatePrecision * (1 + d2)
      = x * ((1 + d1) * (1 + d2)) := by unfold coordinatePrecision; ring
  rw [this]
  refine lt_of_le_of_lt (mul_near _ _ _ (abs_le_of_s32 h) (err2 h1 h2)) ?_
  unfold ulp; norm_num

/-- **C14/C15** (coordinates): with the default granularity 100 (and with any granularity `g`
dividing 100) the PBF integer is exactly `x * (100 / g)`. -/
theorem lonlat2int_exact (x g k : ℤ) (h : InS32 x) (hk : g * k = 100) :
    lonlat2int g x = x * k := by
  have hg : (g : ℚ) ≠ 0 := by
    have : g ≠ 0 := by rintro rfl; simp at hk
    exact_mod_cast this
  have hkq : (g : ℚ) * k = 100 := by exact_mod_cast hk
  have hk1 : |(k : ℚ)| ≤ 100 := by
    have hd : k ∣ 100 := ⟨g, by rw [mul_comm]; exact hk.symm⟩
    have : |k| ≤ 100 := Int.le_of_dvd (by norm_num) ((abs_dvd k 100).mpr hd)
    exact_mod_cast this
  unfold lonlat2int fixToDouble
  obtain ⟨d1, h1, e1⟩ := fl_eq ((x : ℚ) / coordinatePrecision)
  obtain ⟨d2, h2, e2⟩ := fl_eq (fl ((x : ℚ) / coordinatePrecision) * lonlatResolution)
  obtain ⟨d3, h3, e3⟩ := fl_eq (fl (fl ((x : ℚ) / coordinatePrecision) * lonlatResolution) / (g : ℚ))
  apply cround_near
  rw [e3, e2, e1]
  have : (x : ℚ) / coordinatePrecision * (1 + d1) * lonlatResolution * (1 + d2) / (g:ℚ) * (1 + d3)
      = (x * ((1 + d1) * (1 + d2) * (1 + d3))) * k := by
    unfold coordinatePrecision lonlatResolution
    have : (k : ℚ) = 100 / g := by rw [eq_div_iff hg, mul_comm]; exact hkq
    rw [this]; field_simp; ring
  rw [this]
  push_cast
  rw [← sub_mul, abs_mul]
  have := mul_near (x : ℚ) _ _ (abs_le_of_s32 h) (err3 h1 h2 h3)
  unfold ulp at this
  have h0 := abs_nonneg (k : ℚ)
  have h0' := abs_nonneg ((x:ℚ) * ((1 + d1) * (1 + d2) * (1 + d3)) - x)
  nlinarith

/-- Non-vacuity: a realistic longitude (Vienna) meets the hypothesis; the intermediate double is
really rounded (it differs from the exact quotient). -/
example : InS32 163738200 ∧ fixToDouble 163738200 ≠ 163738200 / 10000000 ∧
    doubleToFix (fixToDouble 163738200) = 163738200 :=
  ⟨⟨by decide, by decide⟩, by decide +kernel, by decide +kernel⟩

example : InS32 (-2147483648) ∧ lonlat2int 100 (-2147483648) = -2147483648 ∧ (100:ℤ) * 1 = 100 ∧
    lonlat2int 25 163738201 = 163738201 * 4 :=
  ⟨⟨by decide, by decide⟩, by decide +kernel, by decide, by decide +kernel⟩

/-- **C14/C15** (timestamps): with the default date granularity 1000 every timestamp of at most
53 bits is written exactly. -/
theorem timestamp2int_exact (ts : ℤ) (h : |ts| ≤ 9007199254740992) :
    timestamp2int 1000 ts = ts := by
  unfold timestamp2int
  rw [fl_int ts h]
  have : fl (1000 / ((1000 : ℤ) : ℚ)) = 1 := by
    have : (1000 : ℚ) / ((1000 : ℤ) : ℚ) = ((1 : ℤ) : ℚ) := by norm_num
    rw [this, fl_int 1 (by norm_num)]; norm_num
  rw [this, mul_one, fl_int ts h, cround_int]

/-- **C20** (partial): a bounding box coordinate read back from a PBF header (`/ 100`, truncating)
differs from the one written by at most one unit (1e-7 degrees), and never lies further away from
zero. -/
theorem bbox_roundtrip_partial (x : ℤ) (h : InS32 x) :
    let r := (bboxCoord x).tdiv 100
    |r - x| ≤ 1 ∧ |r| ≤ |x| := by
  have hx := abs_le_of_s32 h
  -- the double written is x*100*(1+e), |e| ≤ 3*2^-53
  have hb : ∃ e, |e - 1| ≤ 3 * ulp ∧ fl (fixToDouble x * lonlatResolution) = (x * 100) * e := by
    unfold fixToDouble
    obtain ⟨d1, h1, e1⟩ := fl_eq ((x : ℚ) / coordinatePrecision)
    obtain ⟨d2, h2, e2⟩ := fl_eq (fl ((x : ℚ) / coordinatePrecision) * lonlatResolution)
    refine ⟨(1 + d1) * (1 + d2), err2 h1 h2, ?_⟩
    rw [e2, e1]; unfold coordinatePrecision lonlatResolution; ring
  obtain ⟨e, he, hv⟩ := hb
  have hnear := mul_near (x : ℚ) e _ hx he
  unfold ulp at hnear
  unfold bboxCoord
  rw [hv]
  have hcl : |(x * 100 : ℚ) * e - x * 100| < 1 := by
    have : (x * 100 : ℚ) * e - x * 100 = 100 * (x * e - x) := by ring
    rw [this, abs_mul]; norm_num; linarith
  rw [abs_lt] at hcl
  have hsgn : 0 ≤ e := by unfold ulp at he; rw [abs_le] at he; linarith
  have hes : |(x * 100 : ℚ) * e| < |(x:ℚ) * 100| + 1 := by
    rw [abs_lt]
    have := le_abs_self ((x:ℚ) * 100)
    have := neg_abs_le ((x:ℚ) * 100)
    constructor <;> linarith
  generalize hw : (x * 100 : ℚ) * e = w at *
  have htr : |ctrunc w - x * 100| ≤ 1 ∧ (0 ≤ x → 0 ≤ ctrunc w ∧ ctrunc w ≤ x * 100) ∧
      (x ≤ 0 → ctrunc w ≤ 0 ∧ x * 100 ≤ ctrunc w) := by
    unfold ctrunc
    split
    · rename_i h0
      have f1 := Int.floor_le w
      have f2 := Int.lt_floor_add_one w
      have g1 : ((⌊w⌋ : ℤ) : ℚ) < ((x * 100 + 1 : ℤ) : ℚ) := by push_cast; linarith
      have g2 : ((x * 100 - 2 : ℤ) : ℚ) < ((⌊w⌋ : ℤ) : ℚ) := by push_cast; linarith
      have g3 : ⌊w⌋ < x * 100 + 1 := by exact_mod_cast g1
      have g4 : x * 100 - 2 < ⌊w⌋ := by exact_mod_cast g2
      have g5 : 0 ≤ ⌊w⌋ := Int.floor_nonneg.mpr h0
      refine ⟨by rw [abs_le]; omega, fun _ => ⟨g5, by omega⟩, fun hx0 => ?_⟩
      have hx0' : (x : ℚ) ≤ 0 := by exact_mod_cast hx0
      have : w ≤ 0 := by rw [← hw]; nlinarith
      have : w = 0 := le_antisymm this h0
      rw [this]; simp; omega
    · rename_i h0
      have h0 : w < 0 := lt_of_not_ge h0
      have f1 := Int.le_ceil w
      have f2 := Int.ceil_lt_add_one w
      have g1 : ((⌈w⌉ : ℤ) : ℚ) < ((x * 100 + 2 : ℤ) : ℚ) := by push_cast; linarith
      have g2 : ((x * 100 - 1 : ℤ) : ℚ) < ((⌈w⌉ : ℤ) : ℚ) := by push_cast; linarith
      have g3 : ⌈w⌉ < x * 100 + 2 := by exact_mod_cast g1
      have g4 : x * 100 - 1 < ⌈w⌉ := by exact_mod_cast g2
      have g5 : ⌈w⌉ ≤ 0 := Int.ceil_le.mpr (by simpa using h0.le)
      refine ⟨by rw [abs_le]; omega, fun hx0 => ?_, fun _ => ⟨g5, by omega⟩⟩
      have hx0' : (0 : ℚ) ≤ x := by exact_mod_cast hx0
      have : 0 ≤ w := by rw [← hw]; positivity
      linarith
  obtain ⟨t1, t2, t3⟩ := htr
  generalize ctrunc w = t at *
  rw [abs_le] at t1
  simp only
  rcases le_total 0 x with hs | hs
  · obtain ⟨a, b⟩ := t2 hs
    rw [Int.tdiv_eq_ediv_of_nonneg a]
    rw [abs_of_nonneg hs]
    constructor
    · rw [abs_le]; omega
    · rw [abs_of_nonneg (by omega)]; omega
  · obtain ⟨a, b⟩ := t3 hs
    have : t.tdiv 100 = -((-t) / 100) := by
      have := Int.neg_tdiv (-t) 100
      rw [neg_neg] at this
      rw [this, Int.tdiv_eq_ediv_of_nonneg (by omega)]
    rw [this, abs_of_nonpos hs]
    constructor
    · rw [abs_le]; omega
    · rw [abs_of_nonpos (by omega)]; omega

/-- **C20** (negation): the claim "bounds are read back unchanged" is false of the code: the
truncating conversion in the writer shifts some coordinates by one unit.  163738200 is the longitude
16.37382 degrees (Vienna); it is read back as 16.3738199. -/
theorem bbox_roundtrip_fails : InS32 163738200 ∧ (bboxCoord 163738200).tdiv 100 = 163738199 :=
  ⟨⟨by decide, by decide⟩, by decide +kernel⟩

/-- Most coordinates do survive, e.g. this one. -/
example : InS32 136738201 ∧ (bboxCoord 136738201).tdiv 100 = 136738201 :=
  ⟨⟨by decide, by decide⟩, by decide +kernel⟩

example : (|1353000000| : ℤ) ≤ 9007199254740992 ∧ timestamp2int 1000 1353000000 = 1353000000 := by
  decide +kernel

end Osmium

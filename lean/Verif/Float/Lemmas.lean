import Verif.Float.Model
import Mathlib.Tactic.Linarith
import Mathlib.Tactic.Ring
import Mathlib.Tactic.NormNum
import Mathlib.Tactic.Positivity
import Mathlib.Tactic.FieldSimp
/-
Error analysis for the floating point model.
-/
namespace Osmium

theorem rne_err (r : ℚ) : |(rne r : ℚ) - r| ≤ 1/2 := by
  have h1 := Int.floor_le r
  have h2 := Int.lt_floor_add_one r
  unfold rne
  simp only
  rw [abs_le]
  split
  · constructor <;> linarith
  · split
    · push_cast; constructor <;> linarith
    · split
      · constructor <;> linarith
      · push_cast; constructor <;> linarith

theorem rne_int (n : ℤ) : rne (n : ℚ) = n := by
  unfold rne; simp

/-- unit roundoff 2^-53 -/
def ulp : ℚ := 1 / 9007199254740992

theorem fl_zero : fl 0 = 0 := by simp [fl]

/-- Standard model of floating point arithmetic: relative error at most 2^-53. -/
theorem fl_err (q : ℚ) : |fl q - q| ≤ ulp * |q| := by
  by_cases h : q = 0
  · subst h; simp [fl]
  · unfold fl
    simp only [h, if_false]
    have hq : 0 < |q| := abs_pos.mpr h
    have hl := Int.zpow_log_le_self (b := 2) (r := |q|) (by norm_num) hq
    generalize hE : Int.log 2 |q| = E at *
    have h2 : (0:ℚ) < (2:ℚ) ^ (E - 52) := zpow_pos (by norm_num) _
    generalize hp : (2:ℚ) ^ (E - 52) = p at *
    have hpE : p * 4503599627370496 ≤ |q| := by
      have : (2:ℚ) ^ E = p * 4503599627370496 := by
        rw [← hp, zpow_sub₀ (by norm_num)]
        norm_num
      rw [← this]; exact_mod_cast hl
    have e := rne_err (q / p)
    have : (rne (q / p) : ℚ) * p - q = ((rne (q / p) : ℚ) - q / p) * p := by
      field_simp
    rw [this, abs_mul, abs_of_pos h2]
    calc |(rne (q / p) : ℚ) - q / p| * p ≤ 1/2 * p := by
          exact mul_le_mul_of_nonneg_right e h2.le
      _ ≤ ulp * |q| := by unfold ulp; linarith

/-- `fl` as multiplication by `1 + d` with `|d| ≤ 2^-53`. -/
theorem fl_eq (q : ℚ) : ∃ d, |d| ≤ ulp ∧ fl q = q * (1 + d) := by
  by_cases h : q = 0
  · exact ⟨0, by simp [ulp], by subst h; simp [fl]⟩
  · refine ⟨(fl q - q) / q, ?_, by field_simp; ring⟩
    have := fl_err q
    rw [abs_div, div_le_iff₀ (abs_pos.mpr h)]
    exact this

/-- Integers of at most 53 bits are represented exactly. -/
theorem fl_int (n : ℤ) (h : |n| ≤ 9007199254740992) : fl (n : ℚ) = n := by
  by_cases h0 : n = 0
  · subst h0; simp [fl]
  · have hq : (n : ℚ) ≠ 0 := by exact_mod_cast h0
    unfold fl
    simp only [hq, if_false]
    have hpos : (0:ℚ) < |(n:ℚ)| := abs_pos.mpr hq
    have hl := Int.zpow_log_le_self (b := 2) (r := |(n:ℚ)|) (by norm_num) hpos
    have hr := Int.lt_zpow_succ_log_self (b := 2) (by norm_num) |(n:ℚ)|
    generalize hE : Int.log 2 |(n:ℚ)| = E at *
    have hE1 : E ≤ 53 := by
      by_contra hc
      have : (54:ℤ) ≤ E := by omega
      have h3 : ((2:ℕ):ℚ) ^ (54:ℤ) ≤ ((2:ℕ):ℚ) ^ E := zpow_le_zpow_right₀ (by norm_num) this
      have h4 : |(n:ℚ)| ≤ 9007199254740992 := by exact_mod_cast h
      have h5 : (((2:ℕ):ℚ)) ^ (54:ℤ) = 18014398509481984 := by norm_num
      linarith
    by_cases hE2 : E = 53
    · -- n = ± 2^53
      have h4 : |(n:ℚ)| ≤ 9007199254740992 := by exact_mod_cast h
      have h5 : (((2:ℕ):ℚ)) ^ (53:ℤ) = 9007199254740992 := by norm_num
      rw [hE2] at hl ⊢
      have h6 : |(n:ℚ)| = 9007199254740992 := le_antisymm h4 (by linarith)
      rcases abs_choice (n:ℚ) with hc | hc
      · rw [hc] at h6
        rw [h6]
        have : (9007199254740992:ℚ) / 2 ^ ((53:ℤ) - 52) = ((4503599627370496:ℤ):ℚ) := by norm_num
        rw [this, rne_int]; norm_num
      · have h7 : (n:ℚ) = -9007199254740992 := by linarith
        rw [h7]
        have : (-9007199254740992:ℚ) / 2 ^ ((53:ℤ) - 52) = ((-4503599627370496:ℤ):ℚ) := by norm_num
        rw [this, rne_int]; norm_num
    · obtain ⟨k, hk⟩ : ∃ k : ℕ, E - 52 = -(k:ℤ) := ⟨(52 - E).toNat, by omega⟩
      rw [hk, zpow_neg, zpow_natCast]
      have : (n:ℚ) / ((2:ℚ) ^ k)⁻¹ = ((n * 2 ^ k : ℤ) : ℚ) := by push_cast; field_simp
      rw [this, rne_int]; push_cast; field_simp

theorem cround_near (n : ℤ) (q : ℚ) (h : |q - n| < 1/2) : cround q = n := by
  rw [abs_lt] at h
  unfold cround
  split
  · rw [Int.floor_eq_iff]; constructor <;> linarith
  · rw [Int.ceil_eq_iff]; constructor <;> linarith

theorem cround_int (n : ℤ) : cround (n : ℚ) = n := by
  apply cround_near; simp

theorem rne_near (n : ℤ) (q : ℚ) (h : |q - n| < 1/2) : rne q = n := by
  have e := rne_err q
  rw [abs_lt] at h; rw [abs_le] at e
  have h1 : ((rne q : ℤ) : ℚ) < (n : ℚ) + 1 := by linarith
  have h2 : (n : ℚ) - 1 < ((rne q : ℤ) : ℚ) := by linarith
  have h1' : rne q < n + 1 := by exact_mod_cast h1
  have h2' : n - 1 < rne q := by exact_mod_cast h2
  omega

/-- Product of two rounding factors. -/
theorem err2 {a b : ℚ} (ha : |a| ≤ ulp) (hb : |b| ≤ ulp) :
    |(1 + a) * (1 + b) - 1| ≤ 3 * ulp := by
  unfold ulp at *
  rw [abs_le] at *
  constructor <;> nlinarith

/-- Product of three rounding factors. -/
theorem err3 {a b c : ℚ} (ha : |a| ≤ ulp) (hb : |b| ≤ ulp) (hc : |c| ≤ ulp) :
    |(1 + a) * (1 + b) * (1 + c) - 1| ≤ 5 * ulp := by
  have h := err2 ha hb
  generalize (1 + a) * (1 + b) = s at *
  unfold ulp at *
  rw [abs_le] at *
  constructor <;> nlinarith

theorem mul_near (x e B : ℚ) (hx : |x| ≤ 2147483648) (he : |e - 1| ≤ B) :
    |x * e - x| ≤ 2147483648 * B := by
  have : x * e - x = x * (e - 1) := by ring
  rw [this, abs_mul]
  have h1 : 0 ≤ |e - 1| := abs_nonneg _
  have h2 : 0 ≤ |x| := abs_nonneg _
  nlinarith

end Osmium

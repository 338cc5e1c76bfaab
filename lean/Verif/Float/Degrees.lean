import Verif.Float.Lemmas

/-
C105: coordinates given in degrees.
-/
namespace Osmium

theorem rne_mono {a b : ℚ} (h : a ≤ b) : rne a ≤ rne b := by
  have hf : ⌊a⌋ ≤ ⌊b⌋ := Int.floor_le_floor h
  have ha := Int.floor_le a
  have ha' := Int.lt_floor_add_one a
  have hb := Int.floor_le b
  rcases hf.lt_or_eq with hlt | heq
  · have h1 : rne a ≤ ⌊a⌋ + 1 := by
      unfold rne; simp only; split_ifs <;> omega
    have h2 : ⌊b⌋ ≤ rne b := by
      unfold rne; simp only; split_ifs <;> omega
    omega
  · unfold rne
    simp only [heq] at ha ⊢
    split_ifs <;> first | omega | (exfalso; linarith)

theorem rne_neg (a : ℚ) : rne (-a) = -rne a := by
  by_cases hi : a = ⌊a⌋
  · rw [hi, ← Int.cast_neg, rne_int, rne_int]
  · have h1 : ⌊a⌋ < a := lt_of_le_of_ne (Int.floor_le a) (fun h => hi h.symm)
    have h2 := Int.lt_floor_add_one a
    have hf : ⌊-a⌋ = -⌊a⌋ - 1 := by
      rw [Int.floor_eq_iff]; push_cast; constructor <;> linarith
    unfold rne
    simp only [hf]
    push_cast
    split_ifs <;> first | omega | (exfalso; linarith)

theorem fl_neg (q : ℚ) : fl (-q) = -fl q := by
  unfold fl
  by_cases h : q = 0
  · simp [h]
  · rw [if_neg (by simpa using h), if_neg h, abs_neg]
    simp only
    rw [neg_div, rne_neg]
    push_cast
    ring

theorem fl_pos_bounds {q : ℚ} (h : 0 < q) :
    (2 : ℚ) ^ Int.log 2 q ≤ fl q ∧ fl q ≤ (2 : ℚ) ^ (Int.log 2 q + 1) := by
  have h0 : q ≠ 0 := ne_of_gt h
  have hl := Int.zpow_log_le_self (b := 2) (by norm_num) h
  have hu := Int.lt_zpow_succ_log_self (b := 2) (by norm_num) q
  push_cast at hl hu
  unfold fl
  rw [if_neg h0, abs_of_pos h]
  simp only
  generalize Int.log 2 q = e at *
  have hp : (0 : ℚ) < (2 : ℚ) ^ (e - 52) := zpow_pos (by norm_num) _
  have e1 : (2 : ℚ) ^ e = ((4503599627370496 : ℤ) : ℚ) * (2 : ℚ) ^ (e - 52) := by
    have : (2 : ℚ) ^ e = (2 : ℚ) ^ (52 : ℤ) * (2 : ℚ) ^ (e - 52) := by
      rw [← zpow_add₀ (by norm_num)]; congr 1; ring
    rw [this]; norm_num
  have e2 : (2 : ℚ) ^ (e + 1) = ((9007199254740992 : ℤ) : ℚ) * (2 : ℚ) ^ (e - 52) := by
    have : (2 : ℚ) ^ (e + 1) = (2 : ℚ) ^ (53 : ℤ) * (2 : ℚ) ^ (e - 52) := by
      rw [← zpow_add₀ (by norm_num)]; congr 1; ring
    rw [this]; norm_num
  constructor
  · rw [e1]
    apply mul_le_mul_of_nonneg_right _ hp.le
    have : (4503599627370496 : ℤ) ≤ rne (q / (2 : ℚ) ^ (e - 52)) := by
      rw [← rne_int 4503599627370496]
      apply rne_mono
      rw [le_div_iff₀ hp, ← e1]; exact hl
    exact_mod_cast this
  · rw [e2]
    apply mul_le_mul_of_nonneg_right _ hp.le
    have : rne (q / (2 : ℚ) ^ (e - 52)) ≤ (9007199254740992 : ℤ) := by
      rw [← rne_int 9007199254740992]
      apply rne_mono
      rw [div_le_iff₀ hp, ← e2]; exact hu.le
    exact_mod_cast this

theorem fl_zero_le {q : ℚ} (h : 0 ≤ q) : 0 ≤ fl q := by
  rcases h.lt_or_eq with h | h
  · exact le_trans (zpow_pos (by norm_num) _).le (fl_pos_bounds h).1
  · rw [← h, fl_zero]

theorem fl_mono_pos {a b : ℚ} (ha : 0 < a) (h : a ≤ b) : fl a ≤ fl b := by
  have hb : 0 < b := lt_of_lt_of_le ha h
  have hlog : Int.log 2 a ≤ Int.log 2 b := Int.log_mono_right ha h
  rcases hlog.lt_or_eq with hlt | heq
  · calc fl a ≤ (2 : ℚ) ^ (Int.log 2 a + 1) := (fl_pos_bounds ha).2
      _ ≤ (2 : ℚ) ^ Int.log 2 b := zpow_le_zpow_right₀ (by norm_num) (by omega)
      _ ≤ fl b := (fl_pos_bounds hb).1
  · unfold fl
    rw [if_neg (ne_of_gt ha), if_neg (ne_of_gt hb), abs_of_pos ha, abs_of_pos hb, heq]
    simp only
    apply mul_le_mul_of_nonneg_right _ (zpow_pos (by norm_num) _).le
    have : rne (a / (2 : ℚ) ^ (Int.log 2 b - 52)) ≤ rne (b / (2 : ℚ) ^ (Int.log 2 b - 52)) :=
      rne_mono (div_le_div_of_nonneg_right h (zpow_pos (by norm_num) _).le)
    exact_mod_cast this

theorem fl_mono {a b : ℚ} (h : a ≤ b) : fl a ≤ fl b := by
  rcases lt_trichotomy a 0 with ha | ha | ha
  · rcases le_or_gt 0 b with hb | hb
    · have h1 : fl a ≤ 0 := by
        have := fl_zero_le (q := -a) (by linarith)
        rw [fl_neg] at this; linarith
      exact le_trans h1 (fl_zero_le hb)
    · have := fl_mono_pos (a := -b) (b := -a) (by linarith) (by linarith)
      rw [fl_neg, fl_neg] at this; linarith
  · subst ha
    rw [fl_zero]; exact fl_zero_le h
  · exact fl_mono_pos ha h

theorem cround_mono {a b : ℚ} (h : a ≤ b) : cround a ≤ cround b := by
  unfold cround
  split_ifs with h1 h2 h2
  · exact Int.floor_le_floor (by linarith)
  · exfalso; linarith
  · have h3 : ⌈a - 1/2⌉ ≤ 0 := by rw [Int.ceil_le]; push_cast; linarith
    have h4 : (0 : ℤ) ≤ ⌊b + 1/2⌋ := by rw [Int.le_floor]; push_cast; linarith
    omega
  · exact Int.ceil_le_ceil (by linarith)

theorem cround_neg (a : ℚ) : cround (-a) = -cround a := by
  rcases lt_trichotomy a 0 with h | h | h
  · unfold cround
    rw [if_pos (by linarith), if_neg (by linarith), ← Int.floor_neg]; congr 1; ring
  · subst h; decide +kernel
  · unfold cround
    rw [if_neg (by linarith), if_pos (by linarith), ← Int.ceil_neg]; congr 1; ring

theorem cround_err (a : ℚ) : |(cround a : ℚ) - a| ≤ 1/2 := by
  unfold cround
  split_ifs
  · have h1 := Int.floor_le (a + 1/2)
    have h2 := Int.lt_floor_add_one (a + 1/2)
    rw [abs_le]; constructor <;> linarith
  · have h1 := Int.le_ceil (a - 1/2)
    have h2 := Int.ceil_lt_add_one (a - 1/2)
    rw [abs_le]; constructor <;> linarith

/-- C105: what is stored for `c` degrees is the nearest multiple of a ten millionth of a degree, up to an error of the
multiplication that is smaller than three ten millionths of this unit. -/
theorem degrees_nearest (c : ℚ) (h : |c| ≤ 215) : |(doubleToFix c : ℚ) - c * 10000000| ≤ 1/2 + 3/10000000 := by
  have h1 := cround_err (fl (c * coordinatePrecision))
  have h2 := fl_err (c * coordinatePrecision)
  have h3 : |c * coordinatePrecision| ≤ 2150000000 := by
    unfold coordinatePrecision
    rw [abs_mul]; norm_num; linarith
  have h4 : ulp * |c * coordinatePrecision| ≤ 3/10000000 := by
    unfold ulp
    have : (0 : ℚ) ≤ |c * coordinatePrecision| := abs_nonneg _
    linarith
  unfold doubleToFix
  have h5 : c * 10000000 = c * coordinatePrecision := rfl
  rw [h5]
  rw [abs_le] at *
  constructor <;> linarith

/-- C105: the order is kept. -/
theorem degrees_mono (c d : ℚ) (h : c ≤ d) : doubleToFix c ≤ doubleToFix d := by
  unfold doubleToFix coordinatePrecision
  exact cround_mono (fl_mono (by linarith))

/-- C105: east and west, north and south are treated in the same way. -/
theorem degrees_neg (c : ℚ) : doubleToFix (-c) = -doubleToFix c := by
  unfold doubleToFix
  rw [neg_mul, fl_neg, cround_neg]

theorem fl_half {q : ℚ} (h : 0 < q) : fl (q / 2) = fl q / 2 := by
  have h2 : 0 < q / 2 := by linarith
  have hl := Int.zpow_log_le_self (b := 2) (by norm_num) h
  have hu := Int.lt_zpow_succ_log_self (b := 2) (by norm_num) q
  have hlog : Int.log 2 (q / 2) = Int.log 2 q - 1 := by
    push_cast at hl hu
    apply le_antisymm
    · have : Int.log 2 (q / 2) < Int.log 2 q := by
        rw [← Int.lt_zpow_iff_log_lt (by norm_num) h2]
        push_cast
        rw [zpow_add₀ (by norm_num)] at hu
        norm_num at hu
        linarith
      omega
    · rw [← Int.zpow_le_iff_le_log (by norm_num) h2]
      push_cast
      rw [zpow_sub₀ (by norm_num)]
      norm_num
      linarith
  unfold fl
  rw [if_neg (ne_of_gt h2), if_neg (ne_of_gt h), abs_of_pos h2, abs_of_pos h, hlog]
  simp only
  have e1 : (2 : ℚ) ^ (Int.log 2 q - 52) = (2 : ℚ) ^ (Int.log 2 q - 1 - 52) * 2 := by
    rw [← zpow_add_one₀ (by norm_num)]; congr 1; ring
  have hp : (0 : ℚ) < (2 : ℚ) ^ (Int.log 2 q - 1 - 52) := zpow_pos (by norm_num) _
  rw [e1]
  have : q / 2 / (2 : ℚ) ^ (Int.log 2 q - 1 - 52) = q / ((2 : ℚ) ^ (Int.log 2 q - 1 - 52) * 2) := by
    field_simp
  rw [this]
  ring

/-- C105: a value in the middle of two multiples becomes the one farther away from zero. -/
theorem degrees_half (n : ℤ) (hn : 0 ≤ n) (hr : n < 4503599627370496) (c : ℚ) (hc : c * 10000000 = n + 1/2) :
    doubleToFix c = n + 1 ∧ doubleToFix (-c) = -(n + 1) := by
  have h1 : doubleToFix c = n + 1 := by
    have hfl : fl (n + 1/2 : ℚ) = n + 1/2 := by
      have h2 : (n + 1/2 : ℚ) = ((2 * n + 1 : ℤ) : ℚ) / 2 := by push_cast; ring
      have h3 : (0 : ℚ) < ((2 * n + 1 : ℤ) : ℚ) := by exact_mod_cast (by omega : 0 < 2 * n + 1)
      rw [h2, fl_half h3, fl_int _ (by rw [abs_le]; omega)]
    unfold doubleToFix
    rw [show c * coordinatePrecision = (n : ℚ) + 1/2 from hc, hfl]
    unfold cround
    have : (0 : ℚ) ≤ n := by exact_mod_cast hn
    rw [if_pos (by linarith), Int.floor_eq_iff]
    push_cast; constructor <;> linarith
  exact ⟨h1, by rw [degrees_neg, h1]⟩

/-- The hypotheses can be met: 1/256 degrees, a double, are 39062.5 units. -/
example : (1/256 : ℚ) * 10000000 = (39062 : ℤ) + 1/2 ∧ fl (1/256) = 1/256 ∧ doubleToFix (1/256) = 39063 := by
  decide +kernel

example : |(51.4778123456 : ℚ)| ≤ 215 ∧ doubleToFix 51.4778123456 = 514778123 ∧ doubleToFix 51.4778123556 = 514778124 := by
  decide +kernel

end Osmium

import Verif.Xml.Number
import Verif.Float.Props
/-
`printf("%.7f")` followed by `atof` gives back the coordinate.
-/
namespace Osmium.Text

theorem spanDigits_append (ds rest : List Char) (h : ∀ c ∈ ds, isDigit c = true)
    (hr : NoDigitHead rest) : spanDigits (ds ++ rest) = (ds, rest) := by
  induction ds with
  | nil =>
    cases rest with
    | nil => rfl
    | cons c cs => simp [spanDigits, hr c rfl]
  | cons d ds ih =>
    simp [spanDigits, h d (by simp), ih (fun c hc => h c (by simp [hc]))]

theorem dec7_digits (n : Nat) : ∀ c ∈ dec7 n, isDigit c = true := by
  intro c hc
  simp only [dec7, List.mem_cons, List.not_mem_nil, or_false] at hc
  rcases hc with rfl | rfl | rfl | rfl | rfl | rfl | rfl <;> exact isDigit_digitChar (by omega)

theorem dec7_length (n : Nat) : (dec7 n).length = 7 := rfl

theorem digitsVal_dec7 (n acc : Nat) (h : n < 10000000) :
    digitsVal acc (dec7 n) = acc * 10000000 + n := by
  have hd : ∀ k, k % 10 < 10 := fun k => by omega
  simp only [dec7, digitsVal, isDigit_digitChar (hd _), if_true, digitVal_digitChar (hd _)]
  omega

theorem decimalVal_text (a b : Nat) (hb : b < 10000000) :
    decimalVal (natDec a ++ '.' :: dec7 b) = ((a * 10000000 + b : Nat) : ℚ) / 10000000 := by
  have h1 : spanDigits (natDec a ++ '.' :: dec7 b) = (natDec a, '.' :: dec7 b) :=
    spanDigits_append _ _ (natDec_digits a) (by intro c hc; simp at hc; subst hc; decide)
  have h2 : spanDigits (dec7 b) = (dec7 b, []) := by
    have := spanDigits_append (dec7 b) [] (dec7_digits b) (by intro c hc; simp at hc)
    simpa using this
  have h3 : digitsVal 0 (natDec a ++ dec7 b) = a * 10000000 + b := by
    rw [digitsVal_append_digits _ _ _ (natDec_digits a)]
    have := digitsVal_natDec a [] (by intro c hc; simp at hc)
    rw [List.append_nil] at this
    rw [this, digitsVal_dec7 _ _ hb]
  have h4 : dec7 b ≠ [] := by simp [dec7]
  unfold decimalVal
  simp only [h1, h2, h3, h4, and_false, if_false, expPart, dec7_length]
  norm_num
  ring

theorem isDigit_cases {c : Char} (h : isDigit c = true) :
    c ∈ ['0', '1', '2', '3', '4', '5', '6', '7', '8', '9'] := by
  simp only [isDigit, Bool.and_eq_true, decide_eq_true_eq] at h
  have e : c = Char.ofNat c.toNat := (Char.ofNat_toNat c).symm
  generalize c.toNat = n at h e
  have : n = 48 ∨ n = 49 ∨ n = 50 ∨ n = 51 ∨ n = 52 ∨ n = 53 ∨ n = 54 ∨ n = 55 ∨ n = 56 ∨ n = 57 := by
    omega
  rcases this with h | h | h | h | h | h | h | h | h | h <;> subst h <;> subst e <;> decide

theorem isNonFinite_digit {c : Char} {cs : List Char} (h : isDigit c = true) :
    isNonFinite (c :: cs) = false := by
  have hl : c.toLower ≠ 'i' ∧ c.toLower ≠ 'n' := by
    have := isDigit_cases h
    simp only [List.mem_cons, List.not_mem_nil, or_false] at this
    rcases this with h | h | h | h | h | h | h | h | h | h <;> subst h <;> decide
  simp [isNonFinite, hl.1, hl.2]

theorem strtodVal_neg (a : Nat) (rest : List Char) :
    strtodVal ('-' :: (natDec a ++ rest)) = some (-(decimalVal (natDec a ++ rest))) := by
  obtain ⟨c, cs, e, hc⟩ := natDec_cons a
  unfold strtodVal
  have : skipSpace ('-' :: (natDec a ++ rest)) = '-' :: (natDec a ++ rest) := by
    simp [skipSpace, show isSpace '-' = false by decide]
  rw [this]
  simp only
  rw [e, List.cons_append, isNonFinite_digit hc]; rfl

theorem strtodVal_pos (a : Nat) (rest : List Char) :
    strtodVal (natDec a ++ rest) = some (decimalVal (natDec a ++ rest)) := by
  obtain ⟨c, cs, e, hc⟩ := natDec_cons a
  rw [e, List.cons_append]
  unfold strtodVal
  rw [skipSpace_digit hc]
  have h1 : c ≠ '-' := by rintro rfl; revert hc; decide
  have h2 : c ≠ '+' := by rintro rfl; revert hc; decide
  split
  · rename_i e; simp at e; exact absurd e.1 h1
  · rename_i e; simp at e; exact absurd e.1 h2
  · rw [isNonFinite_digit hc]; rfl

end Osmium.Text

namespace Osmium
open Text

theorem fl_neg_of_neg {q : ℚ} (h : q < 0) : fl q < 0 := by
  obtain ⟨d, hd, e⟩ := fl_eq q
  rw [e]
  unfold ulp at hd
  rw [abs_le] at hd
  have : 0 < 1 + d := by norm_num at hd ⊢; linarith
  exact mul_neg_of_neg_of_pos h this

theorem fl_nonneg {q : ℚ} (h : 0 ≤ q) : 0 ≤ fl q := by
  obtain ⟨d, hd, e⟩ := fl_eq q
  rw [e]
  unfold ulp at hd
  rw [abs_le] at hd
  have : 0 < 1 + d := by norm_num at hd ⊢; linarith
  exact mul_nonneg h this.le

/-- Rounding a coordinate in degrees to seven digits is exact. -/
theorem rne_fix (x : ℤ) (h : InS32 x) : rne (|fixToDouble x| * 10000000) = |x| := by
  apply rne_near
  unfold fixToDouble
  obtain ⟨d, hd, e⟩ := fl_eq ((x : ℚ) / coordinatePrecision)
  rw [e]
  have hpos : 0 < 1 + d := by
    unfold ulp at hd; rw [abs_le] at hd; norm_num at hd ⊢; linarith
  have h1 : |(x : ℚ) / coordinatePrecision * (1 + d)| * 10000000 = |(x : ℚ)| * (1 + d) := by
    unfold coordinatePrecision
    rw [abs_mul, abs_div, abs_of_pos hpos, abs_of_pos (show (0:ℚ) < 10000000 by norm_num)]
    field_simp
  rw [h1]
  push_cast
  have hx := abs_le_of_s32 h
  have : |(x:ℚ)| * (1 + d) - |(x:ℚ)| = |(x:ℚ)| * d := by ring
  rw [this, abs_mul, abs_abs]
  have h2 := abs_nonneg d
  have h3 := abs_nonneg (x:ℚ)
  unfold ulp at hd
  nlinarith

/-- The text is the exact decimal representation of the fixed point coordinate. -/
theorem fmt7_fix (x : ℤ) (h : InS32 x) :
    fmt7 (fixToDouble x) = (if x < 0 then ['-'] else []) ++
      (natDec (x.natAbs / 10000000) ++ '.' :: dec7 (x.natAbs % 10000000)) := by
  unfold fmt7
  rw [rne_fix x h]
  have hs : fixToDouble x < 0 ↔ x < 0 := by
    unfold fixToDouble
    constructor
    · intro h1
      by_contra h2
      have : 0 ≤ (x:ℚ) / coordinatePrecision := by
        unfold coordinatePrecision
        have : (0:ℚ) ≤ x := by exact_mod_cast (not_lt.mp h2)
        positivity
      exact absurd h1 (not_lt.mpr (fl_nonneg this))
    · intro h1
      apply fl_neg_of_neg
      unfold coordinatePrecision
      have : (x:ℚ) < 0 := by exact_mod_cast h1
      exact div_neg_of_neg_of_pos this (by norm_num)
  have hn : (|x|).toNat = x.natAbs := by rw [Int.abs_eq_natAbs]; rfl
  simp only [hs, hn, List.append_assoc]

/-- **C25** (coordinates): reading the text gives the same double again. -/
theorem atof_fmt7 (x : ℤ) (h : InS32 x) : atof (fmt7 (fixToDouble x)) = some (fixToDouble x) := by
  rw [fmt7_fix x h]
  have hd := decimalVal_text (x.natAbs / 10000000) (x.natAbs % 10000000) (by omega)
  have hm : x.natAbs / 10000000 * 10000000 + x.natAbs % 10000000 = x.natAbs := by omega
  rw [hm] at hd
  unfold atof
  split
  · rename_i hx
    rw [List.cons_append, List.nil_append, strtodVal_neg, hd]
    simp only [Option.map_some, fixToDouble, coordinatePrecision]
    congr 2
    have : (x : ℚ) = -((x.natAbs : ℕ) : ℚ) := by
      have : x = -(x.natAbs : ℤ) := by omega
      exact_mod_cast this
    rw [this, neg_div]
  · rename_i hx
    rw [List.nil_append, strtodVal_pos, hd]
    simp only [Option.map_some, fixToDouble, coordinatePrecision]
    congr 2
    have : (x : ℚ) = ((x.natAbs : ℕ) : ℚ) := by
      have : x = (x.natAbs : ℤ) := by omega
      have h2 : ((x : ℤ) : ℚ) = ((x.natAbs : ℤ) : ℚ) := congrArg _ this
      rw [h2, Int.cast_natCast]
    rw [this]

/-- **C25** (coordinates): the fixed point coordinate survives `%.7f` and `atof`. -/
theorem fix_text_fix (x : ℤ) (h : InS32 x) :
    doubleToFixChk (atof (fmt7 (fixToDouble x))) = some x := by
  rw [atof_fmt7 x h]
  simp only [doubleToFixChk, fix_double_fix x h, h, if_true]

end Osmium

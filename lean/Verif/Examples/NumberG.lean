import Verif.Geometry.NumberLemmas

/-
Doubles as text with any number of digits (`operator<<` with the precision of the stream, 6 by default).
-/
namespace Osmium.Text

/-- The `d + 1` significant decimal digits (as a number) and the decimal exponent of a positive double.
(`operator<<` for doubles with the default precision, examples/osmium_find_bbox.cpp 30-33) -/
def sigG (d : Nat) (a : ℚ) : Nat × Int :=
  let e := Int.log 10 a
  let m := (rne (a / (10 : ℚ) ^ (e - d))).toNat
  if m = 10 ^ (d + 1) then (10 ^ d, e + 1) else (m, e)

/-- The digits with the dot at the right place, without zeros at the end: `%g` without the sign.
(`operator<<` for doubles with the default precision, examples/osmium_find_bbox.cpp 30-33) -/
def gTextG (d : Nat) (m : Nat) (e : Int) : List Char :=
  let ds := natDec m
  if -4 ≤ e ∧ e < d + 1 then
    if 0 ≤ e then ds.take (e.toNat + 1) ++ fracPart (stripZeros (ds.drop (e.toNat + 1)))
    else '0' :: fracPart (stripZeros (List.replicate (-e - 1).toNat '0' ++ ds))
  else ds.take 1 ++ fracPart (stripZeros (ds.drop 1)) ++
    'e' :: (if e < 0 then '-' else '+') :: expDigits e.natAbs

/-- `std::ostream << double` with precision `d + 1`, which is `printf("%.*g")`.  Simplification: no infinities, NaN
and negative zero. (examples/osmium_find_bbox.cpp 30-33) -/
def fmtG (d : Nat) (q : ℚ) : List Char :=
  if q = 0 then ['0']
  else (if q < 0 then ['-'] else []) ++ gTextG d (sigG d |q|).1 (sigG d |q|).2

/-- Ten digits are those of the other model. -/
theorem fmtG_ten (q : ℚ) : fmtG 9 q = fmtG10 q := by
  have h1 : ∀ a, sigG 9 a = sig10 a := by
    intro a
    simp only [sigG, sig10]
    norm_num
  have h2 : ∀ m e, gTextG 9 m e = gText m e := by
    intro m e
    simp only [gTextG, gText]
    norm_num
  simp only [fmtG, fmtG10, h1, h2]

/-- The text stands for the digits and the exponent. -/
theorem decimalVal_gTextG (d m : Nat) (e : Int) (h1 : 10 ^ d ≤ m) (h2 : m < 10 ^ (d + 1)) :
    decimalVal (gTextG d m e) = (m : ℚ) * (10 : ℚ) ^ (e - d) := by
  have hlen : (natDec m).length = d + 1 := natDec_length m d h1 h2
  have hdig := natDec_digits m
  have hval := digitsVal_natDec_self m
  have ht : ∀ n, ∀ c ∈ (natDec m).take n, isDigit c = true := fun n c hc => hdig c (List.mem_of_mem_take hc)
  have hd : ∀ n, ∀ c ∈ (natDec m).drop n, isDigit c = true := fun n c hc => hdig c (List.mem_of_mem_drop hc)
  have hne : ∀ n, (natDec m).take (n + 1) ≠ [] := by
    intro n h
    have := congrArg List.length h
    simp [hlen] at this
  unfold gTextG
  simp only
  split
  · rename_i he
    split
    · rename_i h0
      have := decimalVal_frac ((natDec m).take (e.toNat + 1)) (stripZeros ((natDec m).drop (e.toNat + 1))) []
        (hne _) (ht _) (stripZeros_digits (hd _)) (by intro c hc; simp at hc) (by simp)
      rw [List.append_nil] at this
      rw [this, expPart, zero_sub, digitsVal_strip _ _ (ht _) (hd _), List.take_append_drop, hval]
      congr 2
      rw [List.length_drop, hlen]
      omega
    · rename_i h0
      have hz : ∀ c ∈ List.replicate (-e - 1).toNat '0' ++ natDec m, isDigit c = true := by
        intro c hc
        rcases List.mem_append.1 hc with h | h
        · rw [List.eq_of_mem_replicate h]; decide
        · exact hdig c h
      have h0d : ∀ c ∈ ['0'], isDigit c = true := by decide
      have := decimalVal_frac ['0'] (stripZeros (List.replicate (-e - 1).toNat '0' ++ natDec m)) []
        (by simp) h0d (stripZeros_digits hz) (by intro c hc; simp at hc) (by simp)
      rw [List.append_nil, List.singleton_append] at this
      rw [this, expPart, zero_sub, digitsVal_strip _ _ h0d hz]
      rw [List.singleton_append, digitsVal, if_pos (by decide), show digitVal '0' = 0 by decide,
        digitsVal_append_digits _ _ _ (by intro c hc; rw [List.eq_of_mem_replicate hc]; decide), digitsVal_zeros]
      simp only [Nat.zero_mul, Nat.add_zero]
      rw [hval]
      congr 2
      rw [List.length_append, List.length_replicate, hlen]
      omega
  · have hexp := expPart_exp (decide (e < 0)) e.natAbs
    simp only [decide_eq_true_eq] at hexp
    rw [decimalVal_frac ((natDec m).take 1) (stripZeros ((natDec m).drop 1)) _ (hne 0) (ht _)
      (stripZeros_digits (hd _)) (by intro c hc; simp at hc; subst hc; decide) (by simp), hexp]
    have : (if e < 0 then -(e.natAbs : Int) else e.natAbs) = e := by split <;> omega
    rw [this, sub_eq_add_neg, zpow_add₀ (by norm_num), mul_left_comm, digitsVal_strip _ _ (ht _) (hd _),
      List.take_append_drop, hval, List.length_drop, hlen]
    rw [mul_left_comm, ← zpow_add₀ (by norm_num)]
    congr 2

theorem gTextG_head (d m : Nat) (e : Int) : ∃ c cs, gTextG d m e = c :: cs ∧ isDigit c = true := by
  obtain ⟨c, cs, hc, hd⟩ := natDec_cons m
  unfold gTextG
  simp only [hc]
  split
  · split
    · exact ⟨c, _, rfl, hd⟩
    · exact ⟨'0', _, rfl, by decide⟩
  · exact ⟨c, _, rfl, hd⟩

/-- The digits and the exponent of a positive number: the digits are as many as asked for, and the number they stand
for is at most half a unit of the last digit away. -/
theorem sigG_spec (d : Nat) (a : ℚ) (ha : 0 < a) :
    10 ^ d ≤ (sigG d a).1 ∧ (sigG d a).1 < 10 ^ (d + 1) ∧
    |((sigG d a).1 : ℚ) * (10 : ℚ) ^ ((sigG d a).2 - d) - a| ≤ (10 : ℚ) ^ (Int.log 10 a - d) / 2 := by
  have l1 : (10 : ℚ) ^ (Int.log 10 a) ≤ a := by
    have := Int.zpow_log_le_self (b := 10) (by norm_num) ha
    exact_mod_cast this
  have l2 : a < (10 : ℚ) ^ (Int.log 10 a + 1) := by
    have := Int.lt_zpow_succ_log_self (b := 10) (by norm_num) a
    exact_mod_cast this
  generalize he : Int.log 10 a = e at *
  have hp : (0 : ℚ) < (10 : ℚ) ^ (e - d) := zpow_pos (by norm_num) _
  have r1 : ((10 ^ d : ℕ) : ℚ) ≤ a / (10 : ℚ) ^ (e - d) := by
    rw [le_div_iff₀ hp]
    push_cast
    rw [← zpow_natCast, ← zpow_add₀ (by norm_num)]
    rw [show (d : ℤ) + (e - d) = e by omega]
    exact l1
  have r2 : a / (10 : ℚ) ^ (e - d) < ((10 ^ (d + 1) : ℕ) : ℚ) := by
    rw [div_lt_iff₀ hp]
    push_cast
    rw [← zpow_natCast, ← zpow_add₀ (by norm_num)]
    rw [show ((d + 1 : ℕ) : ℤ) + (e - d) = e + 1 by omega]
    exact l2
  have er := rne_err (a / (10 : ℚ) ^ (e - d))
  generalize hM : rne (a / (10 : ℚ) ^ (e - d)) = M at *
  rw [abs_le] at er
  have m1 : ((10 ^ d : ℕ) : ℤ) ≤ M := by
    have : ((10 ^ d : ℕ) : ℚ) < (M : ℚ) + 1 := by linarith [er.1]
    have : (((10 ^ d : ℕ) : ℤ) : ℚ) < ((M + 1 : ℤ) : ℚ) := by push_cast; push_cast at this; exact this
    have := Int.cast_lt.1 this
    omega
  have m2 : M ≤ ((10 ^ (d + 1) : ℕ) : ℤ) := by
    have : (M : ℚ) < ((10 ^ (d + 1) : ℕ) : ℚ) + 1 := by linarith [er.2]
    have : ((M : ℤ) : ℚ) < ((((10 ^ (d + 1) : ℕ) : ℤ) + 1 : ℤ) : ℚ) := by push_cast; push_cast at this; exact this
    have := Int.cast_lt.1 this
    omega
  have hMn : ((M.toNat : ℕ) : ℚ) = (M : ℚ) := by
    have : (0 : ℤ) ≤ M := le_trans (by positivity) m1
    have h2 : ((M.toNat : ℤ) : ℚ) = ((M : ℤ) : ℚ) := by rw [Int.toNat_of_nonneg this]
    exact_mod_cast h2
  have err : |(M : ℚ) * (10 : ℚ) ^ (e - d) - a| ≤ (10 : ℚ) ^ (e - d) / 2 := by
    have : (M : ℚ) * (10 : ℚ) ^ (e - d) - a = ((M : ℚ) - a / (10 : ℚ) ^ (e - d)) * (10 : ℚ) ^ (e - d) := by
      field_simp
    rw [this, abs_mul, abs_of_pos hp]
    have := abs_le.2 er
    nlinarith
  have hs : sigG d a = if M.toNat = 10 ^ (d + 1) then (10 ^ d, e + 1) else (M.toNat, e) := by
    simp only [sigG, he, hM]
  rw [hs]
  split
  · rename_i h
    refine ⟨le_refl _, Nat.pow_lt_pow_right (by norm_num) (by omega), ?_⟩
    have : (((10 ^ d : ℕ) : ℚ)) * (10 : ℚ) ^ (e + 1 - d) = (M : ℚ) * (10 : ℚ) ^ (e - d) := by
      rw [← hMn, h]
      push_cast
      rw [pow_succ, mul_assoc, show e + 1 - (d : ℤ) = 1 + (e - d) by ring, zpow_add₀ (by norm_num), zpow_one]
    simp only [this]
    exact err
  · rename_i h
    refine ⟨by omega, ?_, ?_⟩
    · have : M.toNat ≤ 10 ^ (d + 1) := by omega
      exact lt_of_le_of_ne this h
    · simp only [hMn]
      exact err

/-- What is printed with `d + 1` digits stands for a number that is at most half a unit of the last digit away. -/
theorem strtodVal_fmtG (d : Nat) (q : ℚ) :
    ∃ v, strtodVal (fmtG d q) = some v ∧ |v - q| ≤ (10 : ℚ) ^ (Int.log 10 |q| - d) / 2 := by
  by_cases h0 : q = 0
  · subst h0
    refine ⟨0, ?_, ?_⟩
    · have : strtodVal (natDec 0 ++ []) = some (decimalVal (natDec 0 ++ [])) := strtodVal_pos 0 []
      have e : natDec 0 = ['0'] := by decide
      rw [e, List.append_nil] at this
      unfold fmtG
      rw [if_pos rfl, this]
      simp [decimalVal, spanDigits, isDigit, digitsVal, digitVal]
    · rw [sub_self, abs_zero]
      exact div_nonneg (le_of_lt (zpow_pos (by norm_num) _)) (by norm_num)
  · have ha : 0 < |q| := abs_pos.2 h0
    obtain ⟨s1, s2, s3⟩ := sigG_spec d |q| ha
    have hv := decimalVal_gTextG d _ (sigG d |q|).2 s1 s2
    have hf : fmtG d q = (if q < 0 then ['-'] else []) ++ gTextG d (sigG d |q|).1 (sigG d |q|).2 := by
      unfold fmtG
      rw [if_neg h0]
    obtain ⟨c, cs, hc, hd⟩ := gTextG_head d (sigG d |q|).1 (sigG d |q|).2
    rw [hf]
    rw [hc] at hv ⊢
    by_cases hneg : q < 0
    · refine ⟨-(((sigG d |q|).1 : ℚ) * (10 : ℚ) ^ ((sigG d |q|).2 - d)), ?_, ?_⟩
      · simp only [hneg, if_true, List.cons_append, List.nil_append]
        unfold strtodVal
        have : skipSpace ('-' :: (c :: cs)) = '-' :: (c :: cs) := by
          simp [skipSpace, show isSpace '-' = false by decide]
        rw [this]
        simp only [isNonFinite_digit hd, Bool.false_eq_true, if_false, hv]
      · have : -(((sigG d |q|).1 : ℚ) * (10 : ℚ) ^ ((sigG d |q|).2 - d)) - q =
            -(((sigG d |q|).1 : ℚ) * (10 : ℚ) ^ ((sigG d |q|).2 - d) - |q|) := by
          rw [abs_of_neg hneg]; ring
        rw [this, abs_neg]
        exact s3
    · refine ⟨((sigG d |q|).1 : ℚ) * (10 : ℚ) ^ ((sigG d |q|).2 - d), ?_, ?_⟩
      · simp only [hneg, if_false, List.nil_append]
        unfold strtodVal
        rw [skipSpace_digit hd]
        have h1 : c ≠ '-' := by rintro rfl; revert hd; decide
        have h2 : c ≠ '+' := by rintro rfl; revert hd; decide
        split
        · rename_i e; simp at e; exact absurd e.1 h1
        · rename_i e; simp at e; exact absurd e.1 h2
        · rw [isNonFinite_digit hd]
          simp only [Bool.false_eq_true, if_false, hv]
      · have : |q| = q := abs_of_nonneg (not_lt.1 hneg)
        rw [this] at s3 ⊢
        exact s3

end Osmium.Text

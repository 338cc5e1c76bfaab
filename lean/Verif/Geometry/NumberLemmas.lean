import Verif.Geometry.Number
import Verif.Xml.NumberLemmas

/-
The text of a coordinate stands for exactly that coordinate, and so do its bytes.
-/
namespace Osmium.Text

/-! ### Digits -/

theorem digitsVal_acc (ds : List Char) (acc : Nat) (h : ∀ c ∈ ds, isDigit c = true) :
    digitsVal acc ds = acc * 10 ^ ds.length + digitsVal 0 ds := by
  induction ds generalizing acc with
  | nil => simp [digitsVal]
  | cons d ds ih =>
    have h' : ∀ c ∈ ds, isDigit c = true := fun c hc => h c (by simp [hc])
    simp only [digitsVal, h d (by simp), if_true, List.length_cons]
    rw [ih _ h', ih (0 * 10 + digitVal d) h']
    ring

theorem digitsVal_append (a b : List Char) (ha : ∀ c ∈ a, isDigit c = true) (hb : ∀ c ∈ b, isDigit c = true) :
    digitsVal 0 (a ++ b) = digitsVal 0 a * 10 ^ b.length + digitsVal 0 b := by
  rw [digitsVal_append_digits _ _ _ ha, digitsVal_acc b _ hb]

theorem digitsVal_zeros (k acc : Nat) : digitsVal acc (List.replicate k '0') = acc * 10 ^ k := by
  induction k generalizing acc with
  | zero => simp [digitsVal]
  | succ k ih =>
    rw [List.replicate_succ, digitsVal, if_pos (by decide), ih]
    have : digitVal '0' = 0 := by decide
    rw [this]; ring

theorem stripZeros_spec (ds : List Char) : ∃ k, ds = stripZeros ds ++ List.replicate k '0' := by
  unfold stripZeros
  refine ⟨(ds.reverse.takeWhile (· == '0')).length, ?_⟩
  have h1 := List.takeWhile_append_dropWhile (p := (· == '0')) (l := ds.reverse)
  have h2 : ds.reverse.takeWhile (· == '0') = List.replicate (ds.reverse.takeWhile (· == '0')).length '0' := by
    rw [List.eq_replicate_iff]
    refine ⟨rfl, fun b hb => ?_⟩
    have := (List.all_eq_true.1 (List.all_takeWhile (p := (· == '0')) (l := ds.reverse))) b hb
    simpa using this
  have h3 := congrArg List.reverse h1
  rw [List.reverse_append, List.reverse_reverse] at h3
  conv_lhs => rw [← h3]
  congr 1
  rw [h2, List.reverse_replicate]
  simp

theorem stripZeros_digits {ds : List Char} (h : ∀ c ∈ ds, isDigit c = true) :
    ∀ c ∈ stripZeros ds, isDigit c = true := by
  obtain ⟨k, e⟩ := stripZeros_spec ds
  intro c hc
  apply h
  rw [e]
  exact List.mem_append_left _ hc

theorem natDecAux_length (fuel n k : Nat) (h : n < 2 ^ fuel) (h1 : 10 ^ k ≤ n) (h2 : n < 10 ^ (k + 1)) :
    (natDecAux fuel n).length = k + 1 := by
  induction fuel generalizing n k with
  | zero => have : 0 < 10 ^ k := by positivity
            simp at h; omega
  | succ f ih =>
    unfold natDecAux
    split
    · rename_i hlt
      have : k = 0 := by
        by_contra hk
        have : 10 ^ 1 ≤ 10 ^ k := Nat.pow_le_pow_right (by norm_num) (by omega)
        omega
      simp [this]
    · rename_i hge
      obtain ⟨j, rfl⟩ : ∃ j, k = j + 1 := by
        cases k with
        | zero => simp at h2; omega
        | succ j => exact ⟨j, rfl⟩
      rw [List.length_append, ih (n / 10) j (by rw [Nat.pow_succ] at h; omega)
        (by rw [Nat.pow_succ] at h1; omega) (by rw [Nat.pow_succ] at h2; omega)]
      simp

theorem natDec_length (n k : Nat) (h1 : 10 ^ k ≤ n) (h2 : n < 10 ^ (k + 1)) : (natDec n).length = k + 1 :=
  natDecAux_length _ n k Nat.lt_log2_self h1 h2

theorem digitsVal_natDec_self (n : Nat) : digitsVal 0 (natDec n) = n := by
  have := digitsVal_natDec n [] (by intro c hc; simp at hc)
  rwa [List.append_nil] at this

/-! ### Decimal fractions -/

/-- Digits, possibly a dot and more digits, then no digit and no dot. -/
theorem decimalVal_frac (a b t : List Char) (ha : a ≠ []) (hda : ∀ c ∈ a, isDigit c = true)
    (hdb : ∀ c ∈ b, isDigit c = true) (ht : NoDigitHead t) (ht2 : t.head? ≠ some '.') :
    decimalVal (a ++ fracPart b ++ t) = (digitsVal 0 (a ++ b) : ℚ) * (10 : ℚ) ^ (expPart t - b.length) := by
  unfold decimalVal
  by_cases hb : b = []
  · subst hb
    simp only [fracPart, if_true, List.append_nil]
    rw [spanDigits_append a t hda ht]
    simp only [ha, false_and, if_false, List.length_nil]
    split
    · simp at *
    · simp
  · have h1 : spanDigits (a ++ fracPart b ++ t) = (a, '.' :: (b ++ t)) := by
      simp only [fracPart, hb, if_false, List.append_assoc, List.cons_append]
      exact spanDigits_append a _ hda (by intro c hc; simp at hc; subst hc; decide)
    rw [h1]
    simp only [spanDigits_append b t hdb ht, ha, false_and, if_false]

/-- Zeros at the end of the fraction do not matter. -/
theorem digitsVal_strip (a b : List Char) (hda : ∀ c ∈ a, isDigit c = true) (hdb : ∀ c ∈ b, isDigit c = true) :
    (digitsVal 0 (a ++ stripZeros b) : ℚ) * (10 : ℚ) ^ (-((stripZeros b).length : ℤ)) =
      (digitsVal 0 (a ++ b) : ℚ) * (10 : ℚ) ^ (-(b.length : ℤ)) := by
  obtain ⟨k, e⟩ := stripZeros_spec b
  have hl : b.length = (stripZeros b).length + k := by
    have := congrArg List.length e
    simpa using this
  have hv : digitsVal 0 (a ++ b) = digitsVal 0 (a ++ stripZeros b) * 10 ^ k := by
    conv_lhs => rw [e, ← List.append_assoc]
    rw [digitsVal_append_digits, digitsVal_zeros]
    intro c hc
    rcases List.mem_append.1 hc with h | h
    · exact hda c h
    · exact stripZeros_digits hdb c h
  rw [hv, hl]
  push_cast
  rw [neg_add, zpow_add₀ (by norm_num), zpow_neg (10 : ℚ) (k : ℤ), zpow_natCast]
  field_simp

theorem expPart_exp (neg : Bool) (n : Nat) :
    expPart ('e' :: (if neg then '-' else '+') :: expDigits n) = if neg then -(n : Int) else n := by
  have hv : digitsVal 0 (expDigits n) = n := by
    unfold expDigits
    split
    · rw [digitsVal, if_pos (by decide), show digitVal '0' = 0 by decide]
      exact digitsVal_natDec_self n
    · exact digitsVal_natDec_self n
  cases neg <;> simp [expPart, hv]

/-- The text stands for the digits and the exponent. -/
theorem decimalVal_gText (m : Nat) (e : Int) (h1 : 1000000000 ≤ m) (h2 : m < 10000000000) :
    decimalVal (gText m e) = (m : ℚ) * (10 : ℚ) ^ (e - 9) := by
  have hlen : (natDec m).length = 10 := natDec_length m 9 (by norm_num; exact h1) (by norm_num; exact h2)
  have hdig := natDec_digits m
  have hval := digitsVal_natDec_self m
  have ht : ∀ n, ∀ c ∈ (natDec m).take n, isDigit c = true := fun n c hc => hdig c (List.mem_of_mem_take hc)
  have hd : ∀ n, ∀ c ∈ (natDec m).drop n, isDigit c = true := fun n c hc => hdig c (List.mem_of_mem_drop hc)
  have hne : ∀ n, (natDec m).take (n + 1) ≠ [] := by
    intro n h
    have := congrArg List.length h
    simp [hlen] at this
  unfold gText
  simp only
  split
  · rename_i he
    split
    · rename_i h0
      have := decimalVal_frac ((natDec m).take (e.toNat + 1)) (stripZeros ((natDec m).drop (e.toNat + 1))) []
        (hne _) (ht _) (stripZeros_digits (hd _)) (by intro c hc; simp at hc) (by simp)
      rw [List.append_nil] at this
      rw [this, expPart, zero_sub, digitsVal_strip _ _ (ht _) (hd _), List.take_append_drop, hval]
      congr 2
      rw [List.length_drop, hlen]
      omega
    · rename_i h0
      have hz : ∀ c ∈ List.replicate (-e - 1).toNat '0' ++ natDec m, isDigit c = true := by
        intro c hc
        rcases List.mem_append.1 hc with h | h
        · rw [List.eq_of_mem_replicate h]; decide
        · exact hdig c h
      have h0d : ∀ c ∈ ['0'], isDigit c = true := by decide
      have := decimalVal_frac ['0'] (stripZeros (List.replicate (-e - 1).toNat '0' ++ natDec m)) []
        (by simp) h0d (stripZeros_digits hz) (by intro c hc; simp at hc) (by simp)
      rw [List.append_nil, List.singleton_append] at this
      rw [this, expPart, zero_sub, digitsVal_strip _ _ h0d hz]
      rw [List.singleton_append, digitsVal, if_pos (by decide), show digitVal '0' = 0 by decide,
        digitsVal_append_digits _ _ _ (by intro c hc; rw [List.eq_of_mem_replicate hc]; decide), digitsVal_zeros]
      simp only [Nat.zero_mul, Nat.add_zero]
      rw [hval]
      congr 2
      rw [List.length_append, List.length_replicate, hlen]
      omega
  · have hexp := expPart_exp (decide (e < 0)) e.natAbs
    simp only [decide_eq_true_eq] at hexp
    rw [decimalVal_frac ((natDec m).take 1) (stripZeros ((natDec m).drop 1)) _ (hne 0) (ht _)
      (stripZeros_digits (hd _)) (by intro c hc; simp at hc; subst hc; decide) (by simp), hexp]
    have : (if e < 0 then -(e.natAbs : Int) else e.natAbs) = e := by split <;> omega
    rw [this, sub_eq_add_neg, zpow_add₀ (by norm_num), mul_left_comm, digitsVal_strip _ _ (ht _) (hd _),
      List.take_append_drop, hval, List.length_drop, hlen]
    rw [mul_left_comm, ← zpow_add₀ (by norm_num)]
    congr 2

/-! ### The characters of the text -/

/-- The characters of a number. -/
def isNumChar (c : Char) : Bool := isDigit c || c == '.' || c == 'e' || c == '-' || c == '+'

theorem gText_chars (m : Nat) (e : Int) : ∀ c ∈ gText m e, isNumChar c = true := by
  have hdig : ∀ c ∈ natDec m, isDigit c = true := natDec_digits m
  have hdn : ∀ c, isDigit c = true → isNumChar c = true := by intro c h; simp [isNumChar, h]
  have hfrac : ∀ l : List Char, (∀ c ∈ l, isDigit c = true) → ∀ c ∈ fracPart (stripZeros l), isNumChar c = true := by
    intro l hl c hc
    unfold fracPart at hc
    split at hc
    · simp at hc
    · rcases List.mem_cons.1 hc with rfl | h
      · decide
      · exact hdn c (stripZeros_digits hl c h)
  intro c hc
  unfold gText at hc
  simp only at hc
  split at hc
  · split at hc
    · rcases List.mem_append.1 hc with h | h
      · exact hdn c (hdig c (List.mem_of_mem_take h))
      · exact hfrac _ (fun c hc => hdig c (List.mem_of_mem_drop hc)) c h
    · rcases List.mem_cons.1 hc with rfl | h
      · decide
      · refine hfrac _ ?_ c h
        intro c hc
        rcases List.mem_append.1 hc with h | h
        · rw [List.eq_of_mem_replicate h]; decide
        · exact hdig c h
  · rcases List.mem_append.1 hc with h | h
    · rcases List.mem_append.1 h with h | h
      · exact hdn c (hdig c (List.mem_of_mem_take h))
      · exact hfrac _ (fun c hc => hdig c (List.mem_of_mem_drop hc)) c h
    · rcases List.mem_cons.1 h with rfl | h
      · decide
      · rcases List.mem_cons.1 h with rfl | h
        · split <;> decide
        · apply hdn
          unfold expDigits at h
          split at h
          · rcases List.mem_cons.1 h with rfl | h
            · decide
            · exact natDec_digits _ c h
          · exact natDec_digits _ c h

theorem gText_head (m : Nat) (e : Int) : ∃ c cs, gText m e = c :: cs ∧ isDigit c = true := by
  obtain ⟨c, cs, hc, hd⟩ := natDec_cons m
  unfold gText
  simp only [hc]
  split
  · split
    · exact ⟨c, _, rfl, hd⟩
    · exact ⟨'0', _, rfl, by decide⟩
  · exact ⟨c, _, rfl, hd⟩

theorem fmtG10_chars (q : ℚ) : ∀ c ∈ fmtG10 q, isNumChar c = true := by
  intro c hc
  unfold fmtG10 at hc
  split at hc
  · simp at hc; subst hc; decide
  · rcases List.mem_append.1 hc with h | h
    · split at h
      · simp at h; subst h; decide
      · simp at h
    · exact gText_chars _ _ c h

end Osmium.Text

namespace Osmium
open Text

/-! ### Coordinates as text -/

/-- The ten digits of a coordinate are all its digits. -/
theorem sig10_fix (x : ℤ) (h : InS32 x) (h0 : x ≠ 0) (l : Nat) (h1 : 10 ^ l ≤ x.natAbs) (h2 : x.natAbs < 10 ^ (l + 1)) :
    sig10 |fixToDouble x| = (x.natAbs * 10 ^ (9 - l), (l : ℤ) - 7) := by
  have hN : x.natAbs ≤ 2147483648 := by unfold InS32 at h; omega
  have hl : l ≤ 9 := by
    by_contra hc
    have : 10 ^ 10 ≤ 10 ^ l := Nat.pow_le_pow_right (by norm_num) (by omega)
    omega
  obtain ⟨d, hd, e⟩ := fl_eq ((x : ℚ) / coordinatePrecision)
  have hd' := hd
  unfold ulp at hd'
  rw [abs_le] at hd'
  have hpos : 0 < 1 + d := by norm_num at hd' ⊢; linarith
  have ha : |fixToDouble x| = (x.natAbs : ℚ) / 10000000 * (1 + d) := by
    unfold fixToDouble
    rw [e]
    unfold coordinatePrecision
    rw [abs_mul, abs_div, abs_of_pos hpos, abs_of_pos (show (0:ℚ) < 10000000 by norm_num)]
    congr 2
    rw [← Int.cast_abs, Int.abs_eq_natAbs, Int.cast_natCast]
  rw [ha]
  generalize x.natAbs = N at *
  clear ha e h0 h
  have hNq : (N : ℚ) ≤ 2147483648 := by exact_mod_cast hN
  have h1q : (10 : ℚ) ^ l ≤ N := by exact_mod_cast h1
  have h2q : (N : ℚ) ≤ (10 : ℚ) ^ (l + 1) - 1 := by
    have : N + 1 ≤ 10 ^ (l + 1) := h2
    have : ((N + 1 : ℕ) : ℚ) ≤ ((10 ^ (l + 1) : ℕ) : ℚ) := by exact_mod_cast this
    push_cast at this; linarith
  have hlpos : (1 : ℚ) ≤ (10 : ℚ) ^ l := one_le_pow₀ (by norm_num)
  have hNpos : (0 : ℚ) < N := by linarith
  set a : ℚ := (N : ℚ) / 10000000 * (1 + d) with hadef
  have hapos : 0 < a := by positivity
  -- the exponent
  have hup : a < (10 : ℚ) ^ ((l : ℤ) - 6) := by
    have : (10 : ℚ) ^ ((l : ℤ) - 6) = (10 : ℚ) ^ (l + 1) / 10000000 := by
      rw [show ((l : ℤ) - 6) = ((l + 1 : ℕ) : ℤ) - 7 by push_cast; ring, zpow_sub₀ (by norm_num), zpow_natCast]
      norm_num
    rw [this, hadef, div_mul_eq_mul_div]
    apply div_lt_div_of_pos_right _ (by norm_num)
    nlinarith
  have hlow : (10 : ℚ) ^ ((l : ℤ) - 8) ≤ a := by
    have : (10 : ℚ) ^ ((l : ℤ) - 8) = (10 : ℚ) ^ l / 100000000 := by
      rw [zpow_sub₀ (by norm_num), zpow_natCast]; norm_num
    rw [this, hadef, div_mul_eq_mul_div, div_le_div_iff₀ (by norm_num) (by norm_num)]
    nlinarith
  have hlogup : Int.log 10 a < (l : ℤ) - 6 := (Int.lt_zpow_iff_log_lt (by norm_num) hapos).1 (by exact_mod_cast hup)
  have hloglow : (l : ℤ) - 8 ≤ Int.log 10 a := (Int.zpow_le_iff_le_log (by norm_num) hapos).1 (by exact_mod_cast hlow)
  have hscale : ∀ j : Nat, a / (10 : ℚ) ^ ((l : ℤ) - 7 - 9 - j) = (N : ℚ) * (10 : ℚ) ^ (9 - l) * (10 : ℚ) ^ j * (1 + d) := by
    intro j
    rw [hadef]
    rw [show ((l : ℤ) - 7 - 9 - j) = -7 + -(((9 - l : ℕ) : ℤ) + j) by omega, zpow_add₀ (by norm_num), zpow_neg (10 : ℚ) (_ + _),
      zpow_add₀ (by norm_num), zpow_natCast, zpow_natCast]
    field_simp
    norm_num
  have hM : N * 10 ^ (9 - l) < 10000000000 := by
    have h9 : 10 ^ (l + 1) * 10 ^ (9 - l) = 10 ^ 10 := by rw [← pow_add]; congr 1; omega
    have : N * 10 ^ (9 - l) < 10 ^ (l + 1) * 10 ^ (9 - l) := Nat.mul_lt_mul_of_pos_right h2 (by positivity)
    rw [h9] at this; simpa using this
  have hMq : (N : ℚ) * (10 : ℚ) ^ (9 - l) ≤ 10000000000 := by exact_mod_cast hM.le
  have hMpos : (0 : ℚ) ≤ (N : ℚ) * (10 : ℚ) ^ (9 - l) := by positivity
  by_cases hcase : Int.log 10 a = (l : ℤ) - 7
  · have hr : rne (a / (10 : ℚ) ^ ((l : ℤ) - 7 - 9)) = ((N * 10 ^ (9 - l) : ℕ) : ℤ) := by
      apply rne_near
      have := hscale 0
      simp only [Nat.cast_zero, sub_zero, pow_zero, mul_one] at this
      rw [this]
      push_cast
      rw [show (N : ℚ) * 10 ^ (9 - l) * (1 + d) - N * 10 ^ (9 - l) = N * 10 ^ (9 - l) * d by ring, abs_mul, abs_of_nonneg hMpos]
      unfold ulp at hd
      have := abs_nonneg d
      nlinarith
    unfold sig10
    simp only [hcase, hr, Int.toNat_natCast]
    rw [if_neg (by omega)]
  · have hcase' : Int.log 10 a = (l : ℤ) - 8 := by omega
    -- then `a` is just below a power of ten
    have hlt : a < (10 : ℚ) ^ ((l : ℤ) - 7) := by
      have : Int.log 10 a < (l : ℤ) - 7 := by omega
      exact_mod_cast (Int.lt_zpow_iff_log_lt (by norm_num) hapos).2 this
    have hN' : N = 10 ^ l := by
      have h3 : (N : ℚ) * (1 + d) < (10 : ℚ) ^ l := by
        have h4 : (10 : ℚ) ^ ((l : ℤ) - 7) = (10 : ℚ) ^ l / 10000000 := by
          rw [zpow_sub₀ (by norm_num), zpow_natCast]; norm_num
        rw [h4, hadef, div_mul_eq_mul_div] at hlt
        exact (div_lt_div_iff_of_pos_right (by norm_num)).1 hlt
      have h5 : (N : ℚ) < (10 : ℚ) ^ l + 1 := by nlinarith
      have h6 : N < 10 ^ l + 1 := by exact_mod_cast h5
      omega
    have h9 : N * 10 ^ (9 - l) = 1000000000 := by
      rw [hN', ← pow_add, show l + (9 - l) = 9 by omega]
      norm_num
    have hr : rne (a / (10 : ℚ) ^ ((l : ℤ) - 8 - 9)) = ((10000000000 : ℕ) : ℤ) := by
      apply rne_near
      have := hscale 1
      rw [show (l : ℤ) - 7 - 9 - (1 : ℕ) = (l : ℤ) - 8 - 9 by push_cast; ring] at this
      rw [this]
      have h9q : (N : ℚ) * (10 : ℚ) ^ (9 - l) = 1000000000 := by exact_mod_cast h9
      rw [h9q]
      push_cast
      rw [show (1000000000 : ℚ) * 10 ^ 1 * (1 + d) - 10000000000 = 10000000000 * d by ring, abs_mul]
      unfold ulp at hd
      rw [abs_of_pos (by norm_num)]
      have := abs_nonneg d
      nlinarith
    unfold sig10
    simp only [hcase', hr, Int.toNat_natCast, if_true, h9]
    congr 1
    ring

/-- The text of a coordinate, without doubles. -/
theorem fmtG10_fix (x : ℤ) (h : InS32 x) :
    fmtG10 (fixToDouble x) = if x = 0 then ['0'] else (if x < 0 then ['-'] else []) ++
      gText (x.natAbs * 10 ^ (9 - Nat.log 10 x.natAbs)) ((Nat.log 10 x.natAbs : ℤ) - 7) := by
  by_cases h0 : x = 0
  · subst h0
    simp [fixToDouble, fl_zero, fmtG10]
  · have hs : fixToDouble x < 0 ↔ x < 0 := by
      unfold fixToDouble
      constructor
      · intro h1
        by_contra h2
        have : 0 ≤ (x:ℚ) / coordinatePrecision := by
          unfold coordinatePrecision
          have : (0:ℚ) ≤ x := by exact_mod_cast (not_lt.mp h2)
          positivity
        exact absurd h1 (not_lt.mpr (fl_nonneg this))
      · intro h1
        apply fl_neg_of_neg
        unfold coordinatePrecision
        have : (x:ℚ) < 0 := by exact_mod_cast h1
        exact div_neg_of_neg_of_pos this (by norm_num)
    have hne : fixToDouble x ≠ 0 := by
      intro e
      have := rne_fix x h
      rw [e] at this
      simp only [abs_zero, zero_mul] at this
      rw [show (0 : ℚ) = ((0 : ℤ) : ℚ) by simp, rne_int] at this
      exact h0 (abs_eq_zero.1 this.symm)
    have hN : x.natAbs ≠ 0 := by omega
    have := sig10_fix x h h0 (Nat.log 10 x.natAbs) (Nat.pow_log_le_self 10 hN) (Nat.lt_pow_succ_log_self (by norm_num) _)
    simp only [fmtG10, hne, if_false, this, hs, h0]

/-- **C55** (coordinates): the text stands for exactly the coordinate. -/
theorem strtodVal_fmtG10 (x : ℤ) (h : InS32 x) :
    strtodVal (fmtG10 (fixToDouble x)) = some ((x : ℚ) / 10000000) := by
  rw [fmtG10_fix x h]
  by_cases h0 : x = 0
  · subst h0
    simp only [if_true]
    have : strtodVal (natDec 0 ++ []) = some (decimalVal (natDec 0 ++ [])) := strtodVal_pos 0 []
    have e : natDec 0 = ['0'] := by decide
    rw [e, List.append_nil] at this
    rw [this]
    simp [decimalVal, spanDigits, isDigit, digitsVal, digitVal]
  · rw [if_neg h0]
    have hN : x.natAbs ≠ 0 := by omega
    have hl : Nat.log 10 x.natAbs ≤ 9 := by
      have : x.natAbs < 10 ^ 10 := by unfold InS32 at h; norm_num; omega
      have := (Nat.log_lt_iff_lt_pow (by norm_num) hN).2 this
      omega
    have h1 := Nat.pow_log_le_self 10 hN
    have h2 := Nat.lt_pow_succ_log_self (b := 10) (by norm_num) x.natAbs
    generalize Nat.log 10 x.natAbs = l at *
    have hm1 : 1000000000 ≤ x.natAbs * 10 ^ (9 - l) := by
      have : 10 ^ l * 10 ^ (9 - l) = 10 ^ 9 := by rw [← pow_add]; congr 1; omega
      have h3 := Nat.mul_le_mul_right (10 ^ (9 - l)) h1
      rw [this] at h3; simpa using h3
    have hm2 : x.natAbs * 10 ^ (9 - l) < 10000000000 := by
      have : 10 ^ (l + 1) * 10 ^ (9 - l) = 10 ^ 10 := by rw [← pow_add]; congr 1; omega
      have h3 : x.natAbs * 10 ^ (9 - l) < 10 ^ (l + 1) * 10 ^ (9 - l) := Nat.mul_lt_mul_of_pos_right h2 (by positivity)
      rw [this] at h3; simpa using h3
    have hv := decimalVal_gText _ ((l : ℤ) - 7) hm1 hm2
    have hq : ((x.natAbs * 10 ^ (9 - l) : ℕ) : ℚ) * (10 : ℚ) ^ ((l : ℤ) - 7 - 9) = (x.natAbs : ℚ) / 10000000 := by
      push_cast
      rw [show ((l : ℤ) - 7 - 9) = -7 + -((9 - l : ℕ) : ℤ) by omega, zpow_add₀ (by norm_num), zpow_neg (10 : ℚ) ((9 - l : ℕ) : ℤ), zpow_natCast]
      field_simp
      norm_num
    rw [hq] at hv
    obtain ⟨c, cs, hc, hd⟩ := gText_head (x.natAbs * 10 ^ (9 - l)) ((l : ℤ) - 7)
    rw [hc] at hv ⊢
    by_cases hneg : x < 0
    · simp only [hneg, if_true, List.cons_append, List.nil_append]
      unfold strtodVal
      have : skipSpace ('-' :: (c :: cs)) = '-' :: (c :: cs) := by
        simp [skipSpace, show isSpace '-' = false by decide]
      rw [this]
      simp only [isNonFinite_digit hd, Bool.false_eq_true, if_false, hv]
      congr 1
      have : (x : ℚ) = -((x.natAbs : ℕ) : ℚ) := by
        have : x = -(x.natAbs : ℤ) := by omega
        exact_mod_cast this
      rw [this, neg_div]
    · simp only [hneg, if_false, List.nil_append]
      unfold strtodVal
      rw [skipSpace_digit hd]
      have h1 : c ≠ '-' := by rintro rfl; revert hd; decide
      have h2 : c ≠ '+' := by rintro rfl; revert hd; decide
      have hx : (x : ℚ) = ((x.natAbs : ℕ) : ℚ) := by
        have : x = (x.natAbs : ℤ) := by omega
        have h2 : ((x : ℤ) : ℚ) = ((x.natAbs : ℤ) : ℚ) := congrArg _ this
        rw [h2, Int.cast_natCast]
      split
      · rename_i e; simp at e; exact absurd e.1 h1
      · rename_i e; simp at e; exact absurd e.1 h2
      · rw [isNonFinite_digit hd]
        simp only [Bool.false_eq_true, if_false, hv, hx]

end Osmium

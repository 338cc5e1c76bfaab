import Verif.Geometry.NumberLemmas

/-
The bytes of a coordinate stand for exactly the double.
-/
namespace Osmium

namespace Spec

/-- The number that a binary64 bit pattern stands for (IEEE 754); infinities and NaN stand for none. -/
def ieeeVal (b : Nat) : Option ℚ :=
  let s : ℚ := if b / 9223372036854775808 % 2 = 1 then -1 else 1
  let ex := b / 4503599627370496 % 2048
  let m := b % 4503599627370496
  if ex = 2047 then none
  else if ex = 0 then some (s * (m : ℚ) * (2 : ℚ) ^ (-1074 : ℤ))
  else some (s * ((4503599627370496 + m : ℕ) : ℚ) * (2 : ℚ) ^ ((ex : ℤ) - 1075))

/-- The unsigned number in memory, little endian. (specification, no counterpart in /repo) -/
def leVal : List UInt8 → Nat
  | [] => 0
  | b :: bs => b.toNat + 256 * leVal bs

end Spec
open Spec

/-- A number with 53 significant bits in the range of the normal doubles has a bit pattern. -/
theorem doubleBits_normal (k : Nat) (neg : Bool) (e : ℤ) (hk1 : 4503599627370496 ≤ k) (hk2 : k < 9007199254740992)
    (he1 : -1022 ≤ e) (he2 : e ≤ 1023) :
    doubleBits ((if neg then -1 else 1) * (k : ℚ) * (2 : ℚ) ^ (e - 52)) < 18446744073709551616 ∧
      ieeeVal (doubleBits ((if neg then -1 else 1) * (k : ℚ) * (2 : ℚ) ^ (e - 52))) =
      some ((if neg then -1 else 1) * (k : ℚ) * (2 : ℚ) ^ (e - 52)) := by
  set v : ℚ := (if neg then -1 else 1) * (k : ℚ) * (2 : ℚ) ^ (e - 52) with hv
  have hkq1 : (4503599627370496 : ℚ) ≤ k := by exact_mod_cast hk1
  have hkq2 : (k : ℚ) < 9007199254740992 := by exact_mod_cast hk2
  have hp : (0 : ℚ) < (2 : ℚ) ^ (e - 52) := zpow_pos (by norm_num) _
  have habs : |v| = (k : ℚ) * (2 : ℚ) ^ (e - 52) := by
    rw [hv, abs_mul, abs_mul, abs_of_pos hp]
    have h1 : |(k : ℚ)| = k := abs_of_pos (by linarith)
    rw [h1]
    cases neg <;> simp
  have hapos : 0 < |v| := by rw [habs]; exact mul_pos (by linarith) hp
  have hv0 : v ≠ 0 := abs_pos.1 hapos
  have hneg : v < 0 ↔ neg = true := by
    have : 0 < (k : ℚ) * (2 : ℚ) ^ (e - 52) := by rw [← habs]; exact hapos
    cases neg
    · simp only [Bool.false_eq_true, if_false, one_mul] at hv
      rw [hv]; simp [not_lt, this.le]
    · simp only [if_true, neg_one_mul] at hv
      rw [neg_mul] at hv
      rw [hv]; simp [this]
  have hlog : Int.log 2 |v| = e := by
    have h1 : e ≤ Int.log 2 |v| := (Int.zpow_le_iff_le_log (by norm_num) hapos).1 (by
      rw [habs]; push_cast
      calc (2 : ℚ) ^ e = 4503599627370496 * (2 : ℚ) ^ (e - 52) := by
            rw [zpow_sub₀ (by norm_num)]; field_simp; norm_num
        _ ≤ _ := by nlinarith)
    have h2 : Int.log 2 |v| < e + 1 := (Int.lt_zpow_iff_log_lt (by norm_num) hapos).1 (by
      rw [habs]; push_cast
      calc (k : ℚ) * (2 : ℚ) ^ (e - 52) < 9007199254740992 * (2 : ℚ) ^ (e - 52) := by nlinarith
        _ = (2 : ℚ) ^ (e + 1) := by
            rw [zpow_sub₀ (by norm_num), zpow_add₀ (by norm_num)]; field_simp; norm_num)
    omega
  have hbits : doubleBits v = (if neg then 9223372036854775808 else 0) + (e + 1023).toNat * 4503599627370496 +
      (k - 4503599627370496) := by
    unfold doubleBits
    rw [if_neg hv0]
    simp only [hlog, hneg]
    congr 2
    rw [habs, mul_div_assoc, div_self hp.ne', mul_one, Int.floor_natCast, Int.toNat_natCast]
  obtain ⟨m, rfl⟩ : ∃ m, k = 4503599627370496 + m := ⟨k - 4503599627370496, by omega⟩
  obtain ⟨x, hx⟩ : ∃ x : ℕ, e + 1023 = (x : ℤ) := ⟨(e + 1023).toNat, by omega⟩
  have hx1 : 1 ≤ x := by omega
  have hx2 : x ≤ 2046 := by omega
  have hm : m < 4503599627370496 := by omega
  rw [hx, Int.toNat_natCast] at hbits
  have hee : e - 52 = (x : ℤ) - 1075 := by omega
  have key : ∀ s : Nat, s ≤ 1 → ieeeVal (s * 9223372036854775808 + x * 4503599627370496 + m) =
      some ((if s = 1 then -1 else 1) * ((4503599627370496 + m : ℕ) : ℚ) * (2 : ℚ) ^ ((x : ℤ) - 1075)) := by
    intro s hs
    have e1 : (s * 9223372036854775808 + x * 4503599627370496 + m) / 9223372036854775808 % 2 = s := by omega
    have e2 : (s * 9223372036854775808 + x * 4503599627370496 + m) / 4503599627370496 % 2048 = x := by omega
    have e3 : (s * 9223372036854775808 + x * 4503599627370496 + m) % 4503599627370496 = m := by omega
    unfold ieeeVal
    simp only [e1, e2, e3]
    rw [if_neg (by omega), if_neg (by omega)]
  constructor
  · rw [hbits]; cases neg <;> simp <;> omega
  · rw [hbits, hv, hee]
    cases neg
    · have := key 0 (by omega)
      simpa using this
    · have := key 1 (by omega)
      simpa using this

/-- The result of a floating point operation has a bit pattern that stands for it. -/
theorem ieeeVal_fl (q : ℚ) (h : q = 0 ∨ ((2 : ℚ) ^ (-1022 : ℤ) ≤ |q| ∧ |q| < (2 : ℚ) ^ (1023 : ℤ))) :
    doubleBits (fl q) < 18446744073709551616 ∧ ieeeVal (doubleBits (fl q)) = some (fl q) := by
  by_cases h0 : q = 0
  · subst h0
    rw [fl_zero]
    simp [doubleBits, ieeeVal]
  obtain ⟨h1, h2⟩ := h.resolve_left h0
  have hapos : 0 < |q| := abs_pos.2 h0
  have hlog1 : -1022 ≤ Int.log 2 |q| := (Int.zpow_le_iff_le_log (by norm_num) hapos).1 (by exact_mod_cast h1)
  have hlog2 : Int.log 2 |q| < 1023 := (Int.lt_zpow_iff_log_lt (by norm_num) hapos).1 (by exact_mod_cast h2)
  have hle : (2 : ℚ) ^ Int.log 2 |q| ≤ |q| := by
    have := Int.zpow_log_le_self (b := 2) (by norm_num) hapos
    exact_mod_cast this
  have hlt : |q| < (2 : ℚ) ^ (Int.log 2 |q| + 1) := by
    have := Int.lt_zpow_succ_log_self (b := 2) (by norm_num) |q|
    exact_mod_cast this
  unfold fl
  rw [if_neg h0]
  simp only
  generalize Int.log 2 |q| = e at *
  have hp : (0 : ℚ) < (2 : ℚ) ^ (e - 52) := zpow_pos (by norm_num) _
  set r : ℚ := q / (2 : ℚ) ^ (e - 52) with hr
  have hrabs : |r| = |q| / (2 : ℚ) ^ (e - 52) := by rw [hr, abs_div, abs_of_pos hp]
  have hr1 : 4503599627370496 ≤ |r| := by
    rw [hrabs, le_div_iff₀ hp]
    calc (4503599627370496 : ℚ) * (2 : ℚ) ^ (e - 52) = (2 : ℚ) ^ e := by
          rw [zpow_sub₀ (by norm_num)]; field_simp; norm_num
      _ ≤ _ := hle
  have hr2 : |r| < 9007199254740992 := by
    rw [hrabs, div_lt_iff₀ hp]
    calc |q| < _ := hlt
      _ = 9007199254740992 * (2 : ℚ) ^ (e - 52) := by
          rw [zpow_sub₀ (by norm_num), zpow_add₀ (by norm_num)]; field_simp; norm_num
  have herr := rne_err r
  obtain ⟨n, hn⟩ : ∃ n : ℤ, n = rne r := ⟨_, rfl⟩
  rw [← hn] at herr ⊢
  have hn1 : 4503599627370496 ≤ |n| := by
    have h3 : |r| - |(n : ℚ)| ≤ 1/2 := by
      have := abs_sub_abs_le_abs_sub r (n : ℚ)
      rw [abs_sub_comm] at this
      linarith
    have h4 : (4503599627370495 : ℚ) < ((|n| : ℤ) : ℚ) := by rw [Int.cast_abs]; linarith
    have h5 : (4503599627370495 : ℤ) < |n| := by exact_mod_cast h4
    omega
  have hn2 : |n| ≤ 9007199254740992 := by
    have h3 : |(n : ℚ)| - |r| ≤ 1/2 := by
      have := abs_sub_abs_le_abs_sub (n : ℚ) r
      linarith
    have h4 : ((|n| : ℤ) : ℚ) < 9007199254740993 := by rw [Int.cast_abs]; linarith
    have h5 : |n| < (9007199254740993 : ℤ) := by exact_mod_cast h4
    omega
  have hnq : (n : ℚ) = (if decide (n < 0) then -1 else 1) * ((n.natAbs : ℕ) : ℚ) := by
    by_cases hneg : n < 0
    · simp only [hneg, if_true, decide_true]
      have h2 : ((n : ℤ) : ℚ) = ((-(n.natAbs : ℤ) : ℤ) : ℚ) := congrArg _ (by omega)
      rw [h2, Int.cast_neg, Int.cast_natCast]; ring
    · simp only [hneg, decide_false, Bool.false_eq_true, if_false, one_mul]
      have h2 : ((n : ℤ) : ℚ) = ((n.natAbs : ℤ) : ℚ) := congrArg _ (by omega)
      rw [h2, Int.cast_natCast]
  have hna : (n.natAbs : ℤ) = |n| := (Int.abs_eq_natAbs n).symm
  by_cases hmax : n.natAbs = 9007199254740992
  · have h7 : (n : ℚ) * (2 : ℚ) ^ (e - 52) = (if decide (n < 0) then -1 else 1) * ((4503599627370496 : ℕ) : ℚ) * (2 : ℚ) ^ (e + 1 - 52) := by
      rw [hnq, hmax, show e + 1 - 52 = (e - 52) + 1 by ring, zpow_add₀ (by norm_num)]
      push_cast; ring
    rw [h7]
    exact doubleBits_normal _ _ _ (by omega) (by omega) (by omega) (by omega)
  · rw [hnq]
    exact doubleBits_normal _ _ _ (by omega) (by omega) (by omega) (by omega)

/-- **C54** (coordinates): the bit pattern stands for exactly the double. -/
theorem ieeeVal_fix (x : ℤ) (h : InS32 x) :
    doubleBits (fixToDouble x) < 18446744073709551616 ∧ ieeeVal (doubleBits (fixToDouble x)) = some (fixToDouble x) := by
  apply ieeeVal_fl
  by_cases h0 : x = 0
  · left; subst h0; simp
  · right
    have h1 : (1 : ℚ) ≤ |(x : ℚ)| := by
      have : 1 ≤ |x| := Int.one_le_abs h0
      exact_mod_cast this
    have h2 := abs_le_of_s32 h
    rw [abs_div]
    unfold coordinatePrecision
    rw [abs_of_pos (show (0 : ℚ) < 10000000 by norm_num)]
    constructor
    · calc (2 : ℚ) ^ (-1022 : ℤ) ≤ (2 : ℚ) ^ (-24 : ℤ) := zpow_le_zpow_right₀ (by norm_num) (by norm_num)
        _ ≤ 1 / 10000000 := by norm_num
        _ ≤ _ := by apply div_le_div_of_nonneg_right h1 (by norm_num)
    · calc |(x : ℚ)| / 10000000 ≤ 2147483648 / 10000000 := div_le_div_of_nonneg_right h2 (by norm_num)
        _ < (2 : ℚ) ^ (8 : ℤ) := by norm_num
        _ ≤ _ := zpow_le_zpow_right₀ (by norm_num) (by norm_num)

/-! ### Bytes -/

theorem leBytes_length (k n : Nat) : (leBytes k n).length = k := by
  induction k generalizing n with
  | zero => rfl
  | succ k ih => simp [leBytes, ih]

theorem leVal_leBytes (k n : Nat) (h : n < 256 ^ k) : leVal (leBytes k n) = n := by
  induction k generalizing n with
  | zero => simp at h; simp [leBytes, leVal, h]
  | succ k ih =>
    rw [pow_succ] at h
    simp only [leBytes, leVal]
    rw [ih (n / 256) (by omega)]
    have : (UInt8.ofNat (n % 256)).toNat = n % 256 := by
      rw [UInt8.toNat_ofNat']; omega
    rw [this]
    omega

end Osmium

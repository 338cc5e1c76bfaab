import Verif.Xml.Meaning

/-
C27: which texts of coordinates can be converted, without reference to the functions of the model.
-/
namespace Osmium

open Text

namespace Spec

/-- `atof` makes infinity or NaN of this text: perhaps white space, perhaps a sign, then `inf` or `nan` in
any mixture of upper and lower case, then anything. (specification, no counterpart in /repo) -/
def NotFiniteText (s : String) : Prop :=
  ∃ space sign word rest : List Char, s.toList = space ++ sign ++ word ++ rest ∧
    (∀ c ∈ space, c = ' ' ∨ c = '\t' ∨ c = '\n') ∧ (sign = [] ∨ sign = ['+'] ∨ sign = ['-']) ∧
    (word.map Char.toLower = "inf".toList ∨ word.map Char.toLower = "nan".toList)

/-- All coordinates in the document are decimal numbers between -214.7483646 and 214.7483646. -/
def CoordinatesInRange (evs : List XEv) : Prop :=
  ∀ n as, XEv.start n as ∈ evs → ∀ a ∈ as, isCoordinate a.1 → ∃ v, DegreesText a.2 v ∧ |v| ≤ 2147483646 / 10000000

end Spec

open Spec

theorem fix_near_q (v : ℚ) : ∃ e : ℚ, |e| ≤ |v| * 10000000 * (3 * ulp) ∧
    doubleToFix (fl v) = cround (v * 10000000 + e) := by
  unfold doubleToFix
  obtain ⟨d1, h1, e1⟩ := fl_eq v
  obtain ⟨d2, h2, e2⟩ := fl_eq (fl v * coordinatePrecision)
  have he := err2 h1 h2
  refine ⟨v * 10000000 * ((1 + d1) * (1 + d2) - 1), ?_, ?_⟩
  · rw [abs_mul, abs_mul]
    exact mul_le_mul (le_of_eq (by norm_num)) he (abs_nonneg _) (by positivity)
  · rw [e2, e1]
    congr 1
    unfold coordinatePrecision; ring

theorem cround_half (q : ℚ) : |(cround q : ℚ) - q| ≤ 1 / 2 := by
  unfold cround
  rw [abs_le]
  split
  · have h1 := Int.floor_le (q + 1 / 2)
    have h2 := Int.lt_floor_add_one (q + 1 / 2)
    constructor <;> linarith
  · have h1 := Int.le_ceil (q - 1 / 2)
    have h2 := Int.ceil_lt_add_one (q - 1 / 2)
    constructor <;> linarith

/-- C27: a decimal number between -214.7483646 and 214.7483646 is converted. -/
theorem coordinate_in_range (s : String) (v : ℚ) (h : DegreesText s v) (hv : |v| ≤ 2147483646 / 10000000) :
    ∃ x, textToFix s = some x ∧ InS32 x := by
  have hb : InS32 (doubleToFix (fl v)) := by
    obtain ⟨e, he, hd⟩ := fix_near_q v
    rw [hd]
    have h2 := cround_half (v * 10000000 + e)
    have h3 : |e| ≤ 1 / 4 := by
      refine he.trans ?_
      calc |v| * 10000000 * (3 * ulp) ≤ 2147483646 / 10000000 * 10000000 * (3 * ulp) := by
            have : (0 : ℚ) ≤ 3 * ulp := by unfold ulp; norm_num
            nlinarith
        _ ≤ 1 / 4 := by unfold ulp; norm_num
    rw [abs_le] at hv h2 h3
    have h4 : (cround (v * 10000000 + e) : ℚ) < 2147483648 := by linarith [hv.2, h2.2, h3.2]
    have h5 : (-2147483648 : ℚ) < (cround (v * 10000000 + e) : ℚ) := by linarith [hv.1, h2.1, h3.1]
    have h6 : cround (v * 10000000 + e) < 2147483648 := by exact_mod_cast h4
    have h7 : -2147483648 < cround (v * 10000000 + e) := by exact_mod_cast h5
    unfold InS32; omega
  refine ⟨_, ?_, hb⟩
  unfold textToFix atof
  rw [degreesText_val h]
  simp only [Option.map_some, doubleToFixChk, hb, if_true]

/-- C27: for a decimal number below -214.748365 or above 214.748365 the conversion is undefined. -/
theorem coordinate_out_of_range (s : String) (v : ℚ) (h : DegreesText s v) (hv : 2147483650 / 10000000 ≤ |v|) :
    textToFix s = none := by
  have hb : ¬ InS32 (doubleToFix (fl v)) := by
    obtain ⟨e, he, hd⟩ := fix_near_q v
    rw [hd]
    have h2 := cround_half (v * 10000000 + e)
    have h3 : |e| ≤ |v| * (1 / 1000) := by
      refine he.trans ?_
      have : (0 : ℚ) ≤ |v| := abs_nonneg v
      have h9 : 10000000 * (3 * ulp) ≤ (1 : ℚ) / 1000 := by unfold ulp; norm_num
      nlinarith
    intro hc
    unfold InS32 at hc
    have h6 : (cround (v * 10000000 + e) : ℚ) ≤ 2147483647 := by exact_mod_cast (by omega)
    have h7 : (-2147483648 : ℚ) ≤ (cround (v * 10000000 + e) : ℚ) := by exact_mod_cast hc.1
    rw [abs_le] at h2 h3
    rcases abs_cases v with ⟨ha, -⟩ | ⟨ha, -⟩ <;> rw [ha] at hv h3 <;> nlinarith [h2.1, h2.2, h3.1, h3.2]
  unfold textToFix atof
  rw [degreesText_val h]
  simp only [Option.map_some, doubleToFixChk, hb, if_false]

theorem skipSpace_append (a b : List Char) (h : ∀ c ∈ a, c = ' ' ∨ c = '\t' ∨ c = '\n') :
    skipSpace (a ++ b) = skipSpace b := by
  induction a with
  | nil => rfl
  | cons c a ih =>
    have hc : isSpace c = true := by
      rcases h c (by simp) with rfl | rfl | rfl <;> decide
    simp only [List.cons_append, skipSpace, hc, if_true]
    exact ih fun c hc => h c (by simp [hc])

/-- C27: for infinity and NaN the conversion is undefined. -/
theorem coordinate_not_finite (s : String) (h : NotFiniteText s) : textToFix s = none := by
  obtain ⟨space, sign, word, rest, e, hsp, hsg, hw⟩ := h
  obtain ⟨c0, c1, c2, rfl⟩ : ∃ c0 c1 c2, word = [c0, c1, c2] := by
    rcases hw with hw | hw
    all_goals
      have := congrArg List.length hw
      simp only [List.length_map] at this
      exact List.length_eq_three.1 this
  have hn : isNonFinite ([c0, c1, c2] ++ rest) = true := by
    rcases hw with hw | hw
    all_goals
      simp only [isNonFinite, List.cons_append, List.nil_append, List.take_succ_cons, List.take_zero, hw]
      decide
  have hns : isSpace c0 = false ∧ c0 ≠ '-' ∧ c0 ≠ '+' := by
    have h0 : c0.toLower = 'i' ∨ c0.toLower = 'n' := by
      rcases hw with hw | hw
      · exact .inl (List.cons.inj hw).1
      · exact .inr (List.cons.inj hw).1
    refine ⟨?_, ?_, ?_⟩
    · by_contra hc
      simp only [Bool.not_eq_false, isSpace, Bool.or_eq_true, beq_iff_eq, Bool.and_eq_true, decide_eq_true_eq] at hc
      have hl : c0.toLower = c0 := by
        unfold Char.toLower
        rw [dif_neg]
        intro h
        have := h.1
        rw [ge_iff_le, UInt32.le_iff_toNat_le] at this
        have h5 : c0.val.toNat = c0.toNat := rfl
        rw [h5] at this
        have h6 : (65 : UInt32).toNat = 65 := rfl
        simp at this
        omega
      rw [hl] at h0
      rcases h0 with rfl | rfl <;> revert hc <;> decide
    · rintro rfl; revert h0; decide
    · rintro rfl; revert h0; decide
  have hv : strtodVal s.toList = none := by
    unfold strtodVal
    rw [e, List.append_assoc, List.append_assoc, skipSpace_append _ _ hsp]
    rcases hsg with rfl | rfl | rfl
    · rw [List.nil_append, show skipSpace ([c0, c1, c2] ++ rest) = [c0, c1, c2] ++ rest by simp [skipSpace, hns.1]]
      split
      · rename_i h; exact absurd (List.cons.inj h).1 hns.2.1
      · rename_i h; exact absurd (List.cons.inj h).1 hns.2.2
      · rw [if_pos hn]
    · simp only [List.cons_append, List.nil_append, skipSpace, show isSpace '+' = false by decide] at *
      simp [hn]
    · simp only [List.cons_append, List.nil_append, skipSpace, show isSpace '-' = false by decide] at *
      simp [hn]
  unfold textToFix atof
  rw [hv]; rfl

/-- C27 (partial: for documents of the usual shape): if all coordinates are decimal numbers in range, reading the
document returns or throws an exception; no assertion fails and nothing is undefined. -/
theorem xml_no_abort_numbers_partial (ft : FileType) (h : Stops) (evs : List XEv) (hd : UsualDocument evs)
    (hc : CoordinatesInRange evs) :
    (xmlParse ft h ⟨evs, none⟩).2 = .returned ∨
    ∃ msg, (xmlParse ft h ⟨evs, none⟩).2 = .threw (.exn msg) := by
  refine xml_no_abort_partial ft h evs hd ?_
  intro n as hm a ha hi
  obtain ⟨v, h1, h2⟩ := hc n as hm a ha hi
  obtain ⟨x, h3, -⟩ := coordinate_in_range _ v h1 h2
  exact ⟨x, h3⟩

/-- C27, why this is needed: a node whose longitude or latitude is infinite, NaN or out of range makes the reader
do something undefined, whatever the rest of the document is. -/
theorem xml_coordinate_undefined_text (ft : FileType) (h : Stops) (hh : ∀ l, h l = false) (k s : String)
    (hk : k = "lon" ∨ k = "lat")
    (hs : NotFiniteText s ∨ ∃ v, DegreesText s v ∧ 2147483650 / 10000000 ≤ |v|) (as : XAttrs) (rest : List XEv)
    (err : Option Fail) :
    (xmlParse ft h ⟨.start "osm" [("version", "0.6")] :: .start "node" ((k, s) :: as) :: rest, err⟩).2 = .threw .ub := by
  have ht : textToFix s = none := by
    rcases hs with hs | ⟨v, h1, h2⟩
    · exact coordinate_not_finite s hs
    · exact coordinate_out_of_range s v h1 h2
  have hi : ∀ hn : Bool, hn = true → initAttrs .node hn ((k, s) :: as) = ([], some .ub) := by
    rintro _ rfl
    rcases hk with rfl | rfl <;> simp [initAttrs, ht]
  have e : (xmlRun (XCtl.init ft) (.start "osm" [("version", "0.6")] :: .start "node" ((k, s) :: as) :: rest)).2 =
      .error .ub := by
    rw [xmlRun_cons]
    simp only [xmlStep, startElement, XCtl.init, rootAttrs]
    simp only [true_or, if_true, if_false, String.reduceEq, ne_eq, not_true_eq_false]
    rw [xmlRun_cons]
    simp [xmlStep, startElement, startObject, hi]
  unfold xmlParse
  rcases hr : xmlRun (XCtl.init ft) (.start "osm" [("version", "0.6")] :: .start "node" ((k, s) :: as) :: rest) with ⟨ops, r⟩
  rw [hr] at e
  simp only at e
  subst e
  simp only [no_stop _ _ h hh]

/-- The hypotheses can be met. -/
example : NotFiniteText " -Infinity" ∧ NotFiniteText "nAn(7)" ∧
    (∃ v, DegreesText "214.74836500" v ∧ 2147483650 / 10000000 ≤ |v|) ∧
    (∃ v, DegreesText "-214.7483646" v ∧ |v| ≤ 2147483646 / 10000000) ∧
    (∃ v, DegreesText "+21474.8364E-2" v ∧ |v| ≤ 2147483646 / 10000000) := by
  have hd : ∀ (l : List Char), (∀ c ∈ l, isDigit c = true) → ∀ c ∈ l, Digit c := fun l h c hc => digit_of (h c hc)
  refine ⟨⟨[' '], ['-'], ['I', 'n', 'f'], ['i', 'n', 'i', 't', 'y'], by decide +kernel, by simp, by simp, by decide +kernel⟩,
    ⟨[], [], ['n', 'A', 'n'], ['(', '7', ')'], by decide +kernel, by simp, by simp, by decide +kernel⟩,
    ⟨_, ⟨[], "214".toList, "74836500".toList, [], 0, by simp, by decide +kernel, hd _ (by decide +kernel), .inl ⟨rfl, rfl⟩, .inl (by decide +kernel), rfl⟩, ?_⟩,
    ⟨_, ⟨['-'], "214".toList, "7483646".toList, [], 0, by simp, by decide +kernel, hd _ (by decide +kernel), .inl ⟨rfl, rfl⟩, .inl (by decide +kernel), rfl⟩, ?_⟩,
    ⟨_, ⟨['+'], "21474".toList, "8364".toList, "E-2".toList, -2, by simp, by decide +kernel, hd _ (by decide +kernel),
      .inr ⟨'E', ['-'], ['2'], .inr rfl, by simp, by simp, hd _ (by decide +kernel), by decide +kernel, by decide +kernel⟩,
      .inl (by decide +kernel), rfl⟩, ?_⟩⟩
  · rw [show decimal ("214".toList ++ "74836500".toList) = 21474836500 by decide +kernel]
    norm_num [show ("74836500".toList).length = 8 by decide +kernel]
  · rw [show decimal ("214".toList ++ "7483646".toList) = 2147483646 by decide +kernel]
    norm_num [show ("7483646".toList).length = 7 by decide +kernel]
  · rw [show decimal ("21474".toList ++ "8364".toList) = 214748364 by decide +kernel, if_neg (by decide)]
    norm_num [show ("8364".toList).length = 4 by decide +kernel]

end Osmium

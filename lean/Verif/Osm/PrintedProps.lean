import Verif.Osm.Printed
import Verif.Geometry.Props
import Verif.Examples.SmallProps

/-
C121: what can be read from printed positions, bounding boxes and tags.
-/
namespace Osmium
open Text Spec

namespace Spec

/-- Numbers in parentheses with commas between them. (specification, no counterpart in /repo) -/
def parenNumbers (s : List Char) : Option (List ℚ) :=
  ((dropPre ['('] s).bind (dropSuf [')'])).bind fun b => allSome ((splitOn ',' b).map wktNumber)

/-- The number `v` of degrees is closer to the coordinate `x` (in 10^-7 degrees) than to any other one.
(specification, no counterpart in /repo) -/
def ClosestTo (v : ℚ) (x : Int) : Prop := ∀ y : Int, y ≠ x → |v - (x : ℚ) / 10000000| < |v - (y : ℚ) / 10000000|

end Spec

/-! ### Numbers -/

theorem gTextG_chars (d m : Nat) (e : Int) : ∀ c ∈ gTextG d m e, isNumChar c = true := by
  have hdig : ∀ c ∈ natDec m, isDigit c = true := natDec_digits m
  have hdn : ∀ c, isDigit c = true → isNumChar c = true := by intro c h; simp [isNumChar, h]
  have hfrac : ∀ l : List Char, (∀ c ∈ l, isDigit c = true) → ∀ c ∈ fracPart (stripZeros l), isNumChar c = true := by
    intro l hl c hc
    unfold fracPart at hc
    split at hc
    · simp at hc
    · rcases List.mem_cons.1 hc with rfl | h
      · decide
      · exact hdn c (stripZeros_digits hl c h)
  intro c hc
  unfold gTextG at hc
  simp only at hc
  split at hc
  · split at hc
    · rcases List.mem_append.1 hc with h | h
      · exact hdn c (hdig c (List.mem_of_mem_take h))
      · exact hfrac _ (fun c hc => hdig c (List.mem_of_mem_drop hc)) c h
    · rcases List.mem_cons.1 hc with rfl | h
      · decide
      · refine hfrac _ ?_ c h
        intro c hc
        rcases List.mem_append.1 hc with h | h
        · rw [List.eq_of_mem_replicate h]; decide
        · exact hdig c h
  · rcases List.mem_append.1 hc with h | h
    · rcases List.mem_append.1 h with h | h
      · exact hdn c (hdig c (List.mem_of_mem_take h))
      · exact hfrac _ (fun c hc => hdig c (List.mem_of_mem_drop hc)) c h
    · rcases List.mem_cons.1 h with rfl | h
      · decide
      · rcases List.mem_cons.1 h with rfl | h
        · split <;> decide
        · apply hdn
          unfold expDigits at h
          split at h
          · rcases List.mem_cons.1 h with rfl | h
            · decide
            · exact natDec_digits _ c h
          · exact natDec_digits _ c h

theorem fmtG_chars (d : Nat) (q : ℚ) : ∀ c ∈ fmtG d q, isNumChar c = true := by
  intro c hc
  unfold fmtG at hc
  split at hc
  · simp at hc; subst hc; decide
  · rcases List.mem_append.1 hc with h | h
    · split at h
      · simp at h; subst h; decide
      · simp at h
    · exact gTextG_chars _ _ _ c h

theorem fmtG_ne (d : Nat) (q : ℚ) : fmtG d q ≠ [] := by
  intro e
  unfold fmtG at e
  split at e
  · simp at e
  · obtain ⟨c, cs, hc, _⟩ := gTextG_head d (sigG d |q|).1 (sigG d |q|).2
    rw [hc] at e
    simp at e

/-- A printed coordinate is wrong by at most half a unit of the last digit (of a number with three digits before the
dot), and what the rounding to a double adds. -/
theorem wktNumber_fmtG (d : Nat) (x : Int) (h : InS32 x) :
    ∃ v, wktNumber (fmtG d (fixToDouble x)) = some v ∧
      |v - (x : ℚ) / 10000000| ≤ (10 : ℚ) ^ (2 - (d : Int)) / 2 + 1 / 1000000000 := by
  obtain ⟨v, h1, h2⟩ := strtodVal_fmtG d (fixToDouble x)
  refine ⟨v, ?_, ?_⟩
  · unfold wktNumber
    rw [if_pos ⟨fmtG_ne d _, List.all_eq_true.2 (fmtG_chars d _)⟩, h1]
  have herr := fl_err ((x : ℚ) / coordinatePrecision)
  have hx : |(x : ℚ) / 10000000| ≤ 215 := by
    rw [abs_le]
    unfold InS32 at h
    have a : (-2147483648 : ℚ) ≤ x := by exact_mod_cast h.1
    have b : (x : ℚ) ≤ 2147483647 := by exact_mod_cast h.2
    constructor <;> linarith
  have he : |fixToDouble x - (x : ℚ) / 10000000| ≤ 1 / 1000000000 := by
    unfold fixToDouble
    have e : coordinatePrecision = 10000000 := rfl
    rw [e] at herr ⊢
    refine le_trans herr ?_
    unfold ulp
    have := abs_nonneg ((x : ℚ) / 10000000)
    nlinarith
  have hd : |fixToDouble x| < 1000 := by
    have := abs_sub_abs_le_abs_sub (fixToDouble x) ((x : ℚ) / 10000000)
    linarith
  have hlog : (10 : ℚ) ^ (Int.log 10 |fixToDouble x| - (d : ℕ)) ≤ (10 : ℚ) ^ (2 - (d : Int)) := by
    have hl : Int.log 10 |fixToDouble x| ≤ 2 := by
      by_cases h0 : |fixToDouble x| = 0
      · rw [h0, Int.log_zero_right]; omega
      · have hp : 0 < |fixToDouble x| := lt_of_le_of_ne (abs_nonneg _) (Ne.symm h0)
        have := (Int.lt_zpow_iff_log_lt (b := 10) (by norm_num) hp (x := 3)).1 (by
          have : ((10 : ℕ) : ℚ) ^ (3 : ℤ) = 1000 := by norm_num
          rw [this]
          exact hd)
        omega
    exact zpow_le_zpow_right₀ (a := (10 : ℚ)) (by norm_num) (by omega)
  have := abs_sub_le v (fixToDouble x) ((x : ℚ) / 10000000)
  linarith

/-- With ten digits or more the coordinate can be told. -/
theorem wktNumber_closest (d : Nat) (hd : 9 ≤ d) (x : Int) (h : InS32 x) :
    ∃ v, wktNumber (fmtG d (fixToDouble x)) = some v ∧ ClosestTo v x := by
  have key : ∀ v : ℚ, |v - (x : ℚ) / 10000000| < 1 / 20000000 → ClosestTo v x := by
    intro v hv y hy
    have h1 : (1 : ℚ) / 10000000 ≤ |(y : ℚ) / 10000000 - (x : ℚ) / 10000000| := by
      have : (1 : ℚ) ≤ |(y : ℚ) - (x : ℚ)| := by
        have : (1 : Int) ≤ |y - x| := Int.one_le_abs (sub_ne_zero.2 hy)
        exact_mod_cast this
      rw [← sub_div, abs_div, abs_of_pos (show (0 : ℚ) < 10000000 by norm_num)]
      gcongr
    have h2 := abs_sub_le ((y : ℚ) / 10000000) v ((x : ℚ) / 10000000)
    rw [abs_sub_comm ((y : ℚ) / 10000000) v] at h2
    linarith
  rcases Nat.lt_or_ge 9 d with h10 | h9
  · obtain ⟨v, h1, h2⟩ := wktNumber_fmtG d x h
    refine ⟨v, h1, key v (lt_of_le_of_lt h2 ?_)⟩
    have : (10 : ℚ) ^ (2 - (d : Int)) ≤ (10 : ℚ) ^ (-8 : Int) :=
      zpow_le_zpow_right₀ (a := (10 : ℚ)) (by norm_num) (by omega)
    have e : (10 : ℚ) ^ (-8 : Int) = 1 / 100000000 := by norm_num
    rw [e] at this
    linarith
  · have : d = 9 := by omega
    subst this
    rw [fmtG_ten]
    refine ⟨_, wktNumber_fmt x h, key _ ?_⟩
    rw [sub_self, abs_zero]
    norm_num

theorem closestTo_unique {v : ℚ} {x y : Int} (h1 : ClosestTo v x) (h2 : ClosestTo v y) : x = y := by
  by_contra hne
  exact absurd (h1 y (Ne.symm hne)) (not_lt.2 (le_of_lt (h2 x hne)))

theorem dropPre_paren (s : List Char) : (dropPre ['('] ('(' :: s ++ [')'])).bind (dropSuf [')']) = some s := by
  show dropSuf [')'] (s ++ [')']) = some s
  exact dropSuf_append [')'] s

theorem comma_not {d : Nat} {q : ℚ} : ∀ c ∈ fmtG d q, c ≠ ',' :=
  fun c hc => isNumChar_ne (by decide) (fmtG_chars d q c hc)

theorem parenNumbers_position (d : Nat) (p : Position) : parenNumbers (positionText d p) =
    allSome [wktNumber (fmtG d p.lon), wktNumber (fmtG d p.lat)] := by
  have e : positionText d p = '(' :: (fmtG d p.lon ++ ',' :: fmtG d p.lat) ++ [')'] := by simp [positionText]
  unfold parenNumbers
  rw [e, dropPre_paren]
  simp only [Option.bind_some]
  rw [splitOn_append _ _ _ comma_not, splitOn_none _ _ comma_not]
  rfl

theorem parenNumbers_bounds (d : Nat) (b : Bounds) : parenNumbers (boundsText d b) =
    allSome [wktNumber (fmtG d b.bottomLeft.lon), wktNumber (fmtG d b.bottomLeft.lat),
      wktNumber (fmtG d b.topRight.lon), wktNumber (fmtG d b.topRight.lat)] := by
  have e : boundsText d b = '(' :: (fmtG d b.bottomLeft.lon ++ ',' :: (fmtG d b.bottomLeft.lat ++ ',' ::
      (fmtG d b.topRight.lon ++ ',' :: fmtG d b.topRight.lat))) ++ [')'] := by simp [boundsText]
  unfold parenNumbers
  rw [e, dropPre_paren]
  simp only [Option.bind_some]
  rw [splitOn_append _ _ _ comma_not, splitOn_append _ _ _ comma_not, splitOn_append _ _ _ comma_not,
    splitOn_none _ _ comma_not]
  rfl

/-! ### Positions and bounding boxes -/

/-- **C121.**  A position written with ten digits or more is two numbers in parentheses, longitude and latitude, from
which the coordinates can be told. -/
theorem position_printed_partial (d : Nat) (hd : 9 ≤ d) (p : Position) (h : p.WF) :
    ∃ lon lat, parenNumbers (positionText d p) = some [lon, lat] ∧ ClosestTo lon p.x ∧ ClosestTo lat p.y := by
  obtain ⟨v, h1, h2⟩ := wktNumber_closest d hd p.x h.1
  obtain ⟨w, g1, g2⟩ := wktNumber_closest d hd p.y h.2
  refine ⟨v, w, ?_, h2, g2⟩
  rw [parenNumbers_position]
  unfold Position.lon Position.lat
  rw [h1, g1]
  rfl

/-- **C121.**  So do the four numbers of a bounding box: left, bottom, right, top. -/
theorem bounds_printed_partial (d : Nat) (hd : 9 ≤ d) (b : Bounds) (h1 : b.bottomLeft.WF) (h2 : b.topRight.WF) :
    ∃ left bottom right top, parenNumbers (boundsText d b) = some [left, bottom, right, top] ∧
      ClosestTo left b.bottomLeft.x ∧ ClosestTo bottom b.bottomLeft.y ∧
      ClosestTo right b.topRight.x ∧ ClosestTo top b.topRight.y := by
  obtain ⟨v1, a1, c1⟩ := wktNumber_closest d hd _ h1.1
  obtain ⟨v2, a2, c2⟩ := wktNumber_closest d hd _ h1.2
  obtain ⟨v3, a3, c3⟩ := wktNumber_closest d hd _ h2.1
  obtain ⟨v4, a4, c4⟩ := wktNumber_closest d hd _ h2.2
  refine ⟨v1, v2, v3, v4, ?_, c1, c2, c3, c4⟩
  rw [parenNumbers_bounds]
  unfold Position.lon Position.lat
  rw [a1, a2, a3, a4]
  rfl

/-- **C121.**  Different positions have different texts, if they are written with ten digits or more. -/
theorem position_text_injective_partial (d : Nat) (hd : 9 ≤ d) (p q : Position) (hp : p.WF) (hq : q.WF)
    (h : positionText d p = positionText d q) : p = q := by
  obtain ⟨a, b, e1, x1, y1⟩ := position_printed_partial d hd p hp
  obtain ⟨a', b', e2, x2, y2⟩ := position_printed_partial d hd q hq
  rw [h, e2] at e1
  simp only [Option.some.injEq, List.cons.injEq, and_true] at e1
  obtain ⟨rfl, rfl⟩ := e1
  cases p; cases q
  simp only [Position.mk.injEq]
  exact ⟨closestTo_unique x1 x2, closestTo_unique y1 y2⟩

/-- **C121.**  With any other number of digits the numbers are still right up to a unit of the last digit that is
printed: with the six digits that are the default up to 0.000501 degrees. -/
theorem position_printed_near (d : Nat) (p : Position) (h : p.WF) :
    ∃ lon lat, parenNumbers (positionText d p) = some [lon, lat] ∧
      |lon - (p.x : ℚ) / 10000000| ≤ (10 : ℚ) ^ (2 - (d : Int)) / 2 + 1 / 1000000000 ∧
      |lat - (p.y : ℚ) / 10000000| ≤ (10 : ℚ) ^ (2 - (d : Int)) / 2 + 1 / 1000000000 := by
  obtain ⟨v, h1, h2⟩ := wktNumber_fmtG d p.x h.1
  obtain ⟨w, g1, g2⟩ := wktNumber_fmtG d p.y h.2
  refine ⟨v, w, ?_, h2, g2⟩
  rw [parenNumbers_position]
  unfold Position.lon Position.lat
  rw [h1, g1]
  rfl

/-- **C121.**  The same for the bounding box. -/
theorem bounds_printed_near (d : Nat) (b : Bounds) (h1 : b.bottomLeft.WF) (h2 : b.topRight.WF) :
    ∃ left bottom right top, parenNumbers (boundsText d b) = some [left, bottom, right, top] ∧
      |left - (b.bottomLeft.x : ℚ) / 10000000| ≤ (10 : ℚ) ^ (2 - (d : Int)) / 2 + 1 / 1000000000 ∧
      |bottom - (b.bottomLeft.y : ℚ) / 10000000| ≤ (10 : ℚ) ^ (2 - (d : Int)) / 2 + 1 / 1000000000 ∧
      |right - (b.topRight.x : ℚ) / 10000000| ≤ (10 : ℚ) ^ (2 - (d : Int)) / 2 + 1 / 1000000000 ∧
      |top - (b.topRight.y : ℚ) / 10000000| ≤ (10 : ℚ) ^ (2 - (d : Int)) / 2 + 1 / 1000000000 := by
  obtain ⟨v1, a1, c1⟩ := wktNumber_fmtG d _ h1.1
  obtain ⟨v2, a2, c2⟩ := wktNumber_fmtG d _ h1.2
  obtain ⟨v3, a3, c3⟩ := wktNumber_fmtG d _ h2.1
  obtain ⟨v4, a4, c4⟩ := wktNumber_fmtG d _ h2.2
  refine ⟨v1, v2, v3, v4, ?_, c1, c2, c3, c4⟩
  rw [parenNumbers_bounds]
  unfold Position.lon Position.lat
  rw [a1, a2, a3, a4]
  rfl

/-- **C121 fails** with the digits a stream has by default: two positions that are some meters apart have the same
text. -/
theorem position_text_collision : positionText 5 ⟨133777777, 525162222⟩ = "(13.3778,52.5162)".toList ∧
    positionText 5 ⟨133778222, 525161777⟩ = "(13.3778,52.5162)".toList := by
  constructor <;> decide +kernel

/-- **C121 fails** for nine digits, too. -/
theorem position_text_collision_nine : positionText 8 ⟨1333777771, 0⟩ = positionText 8 ⟨1333777772, 0⟩ := by
  decide +kernel

/-- With ten digits. -/
example : positionText 9 ⟨133777777, -525162222⟩ = "(13.3777777,-52.5162222)".toList := by decide +kernel
example : boundsText 9 ⟨⟨-1800000000, -5⟩, ⟨1800000000, 900000000⟩⟩ = "(-180,-5e-07,180,90)".toList := by decide +kernel
/-- An undefined position. -/
example : positionText 9 Position.undef = "(214.7483647,214.7483647)".toList := by decide +kernel

/-! ### Tags -/

/-- **C121.**  A tag without `=` in its key can be told from its text: the key is what is before the first `=`. -/
theorem tag_printed_partial (t : Tag) (h : '=' ∉ t.key.toList) :
    (printedTag t).takeWhile (· ≠ '=') = t.key.toList ∧
    (printedTag t).dropWhile (· ≠ '=') = '=' :: t.value.toList := by
  have hk : ∀ c ∈ t.key.toList, decide (c ≠ '=') = true := by
    intro c hc
    simp only [ne_eq, decide_eq_true_eq]
    rintro rfl
    exact h hc
  unfold printedTag
  rw [List.takeWhile_append_of_pos hk, List.dropWhile_append_of_pos hk]
  simp

/-- **C121 fails** for keys with `=` in them. -/
theorem tag_text_collision : printedTag ⟨"a=b", "c"⟩ = printedTag ⟨"a", "b=c"⟩ ∧
    (⟨"a=b", "c"⟩ : Tag) ≠ ⟨"a", "b=c"⟩ := by decide

/-- (the hypothesis can be met) -/
example : '=' ∉ (Tag.mk "highway" "a=b").key.toList ∧ printedTag ⟨"highway", "a=b"⟩ = "highway=a=b".toList := by decide

end Osmium

import Verif.Time.Model
import Verif.Time.Spec
import Mathlib.Data.Int.Basic
/-
Helper lemmas about the calendar arithmetic.
-/
namespace Osmium.Time
open Text

theorem daysTo_succ (y : Int) : daysTo (y + 1) = daysTo y + 365 + leapDay y := by
  unfold daysTo leapDay isLeap
  have : (y + 1 - 1) = y := by omega
  rw [this]
  split
  · rename_i h; simp at h; omega
  · rename_i h; simp at h; omega

theorem leapDay_bound (y : Int) : 0 ≤ leapDay y ∧ leapDay y ≤ 1 := by
  unfold leapDay; split <;> omega

theorem yearOf_spec (n : Int) : daysTo (yearOf n) ≤ n ∧ n < daysTo (yearOf n + 1) := by
  unfold yearOf
  simp only
  generalize hg : 400 * n / 146097 + 1 = g
  have h1 : daysTo (g - 1) ≤ n := by unfold daysTo; omega
  have h2 : n < daysTo (g + 2) := by unfold daysTo; omega
  have e : g + 1 + 1 = g + 2 := by omega
  have e' : g - 1 + 1 = g := by omega
  split
  · rw [e]; omega
  · split
    · rw [e']; omega
    · omega

theorem daysTo_mono {y y' : Int} (h : y ≤ y') : daysTo y ≤ daysTo y' := by
  unfold daysTo; omega

theorem yearOf_unique {n y : Int} (h1 : daysTo y ≤ n) (h2 : n < daysTo (y + 1)) : yearOf n = y := by
  have ⟨a, b⟩ := yearOf_spec n
  rcases Int.lt_trichotomy (yearOf n) y with h | h | h
  · have := daysTo_mono (show yearOf n + 1 ≤ y by omega); omega
  · exact h
  · have := daysTo_mono (show y + 1 ≤ yearOf n by omega); omega

theorem daysInMonth_feb (y : Int) : Spec.daysInMonth y 2 = 28 + leapDay y := by
  unfold Spec.daysInMonth leapDay isLeap
  simp only [Bool.and_eq_true, Bool.or_eq_true, beq_iff_eq, bne_iff_ne]
  rw [if_neg (by omega), if_pos trivial]
  split <;> split <;> omega

theorem monthOf_spec (y d : Int) (h0 : 0 ≤ d) :
    1 ≤ monthOf y d ∧ monthOf y d ≤ 12 ∧ monthStart y (monthOf y d) ≤ d ∧
    (d < 365 + leapDay y → d < monthStart y (monthOf y d) + Spec.daysInMonth y (monthOf y d)) := by
  have := leapDay_bound y
  have hl := daysInMonth_feb y
  unfold monthOf
  repeat' split
  all_goals (first | rw [hl] | skip)
  all_goals simp [monthStart, Spec.daysInMonth] at *
  all_goals omega

theorem monthOf_unique (y m d : Int) (h1 : 1 ≤ m) (h2 : m ≤ 12) (h3 : monthStart y m ≤ d)
    (h4 : d < monthStart y m + Spec.daysInMonth y m) : monthOf y d = m := by
  have := leapDay_bound y
  have hl := daysInMonth_feb y
  have : m = 1 ∨ m = 2 ∨ m = 3 ∨ m = 4 ∨ m = 5 ∨ m = 6 ∨ m = 7 ∨ m = 8 ∨ m = 9 ∨ m = 10 ∨
    m = 11 ∨ m = 12 := by omega
  rcases this with h | h | h | h | h | h | h | h | h | h | h | h <;> subst h
  all_goals (first | rw [hl] at h4 | skip)
  all_goals simp [monthStart, Spec.daysInMonth] at h3 h4
  all_goals simp [monthOf, monthStart]
  all_goals omega

/-- The day number of a date (days since the epoch). -/
def dayNum (y m d : Int) : Int := daysTo y - 719162 + monthStart y m + (d - 1)

theorem monthEnd_le (y m : Int) (h1 : 1 ≤ m) (h2 : m ≤ 12) :
    0 ≤ monthStart y m ∧ monthStart y m + Spec.daysInMonth y m ≤ 365 + leapDay y ∧
    (m < 12 → monthStart y (m + 1) = monthStart y m + Spec.daysInMonth y m) ∧
    (m = 12 → monthStart y m + Spec.daysInMonth y m = 365 + leapDay y) := by
  have := leapDay_bound y
  have hl := daysInMonth_feb y
  have : m = 1 ∨ m = 2 ∨ m = 3 ∨ m = 4 ∨ m = 5 ∨ m = 6 ∨ m = 7 ∨ m = 8 ∨ m = 9 ∨ m = 10 ∨
    m = 11 ∨ m = 12 := by omega
  rcases this with h | h | h | h | h | h | h | h | h | h | h | h <;> subst h
  all_goals (first | rw [hl] | skip)
  all_goals simp [monthStart, Spec.daysInMonth]
  all_goals omega

/-- The date of a day number, as computed by `gmtime`. -/
def civil (n : Int) : Spec.Date :=
  let y := yearOf (n + 719162)
  let d := n + 719162 - daysTo y
  ⟨y, monthOf y d, d - monthStart y (monthOf y d) + 1⟩

theorem civil_valid (n : Int) : (civil n).Valid := by
  have ⟨a, b⟩ := yearOf_spec (n + 719162)
  rw [daysTo_succ] at b
  have ⟨m1, m2, m3, m4⟩ := monthOf_spec (yearOf (n + 719162)) (n + 719162 - daysTo (yearOf (n + 719162))) (by omega)
  have m4 := m4 (by omega)
  unfold civil Spec.Date.Valid
  simp only
  omega

theorem dayNum_civil (n : Int) : dayNum (civil n).year (civil n).month (civil n).day = n := by
  unfold dayNum civil; simp only; omega

/-- `civil` inverts `dayNum` on dates that exist. -/
theorem civil_dayNum (d : Spec.Date) (h : d.Valid) : civil (dayNum d.year d.month d.day) = d := by
  obtain ⟨y, m, d⟩ := d
  obtain ⟨h1, h2, h3, h4⟩ := h
  simp only at *
  have ⟨a, b, _, _⟩ := monthEnd_le y m h1 h2
  have hy : yearOf (dayNum y m d + 719162) = y := by
    apply yearOf_unique
    · unfold dayNum; omega
    · rw [daysTo_succ]; unfold dayNum; omega
  have hd : dayNum y m d + 719162 - daysTo y = monthStart y m + (d - 1) := by unfold dayNum; omega
  have hm : monthOf y (monthStart y m + (d - 1)) = m :=
    monthOf_unique y m _ h1 h2 (by omega) (by omega)
  unfold civil
  simp only [hy, hd, hm]
  congr 1
  omega

theorem next_valid (d : Spec.Date) (h : d.Valid) : d.next.Valid := by
  obtain ⟨y, m, d⟩ := d
  obtain ⟨h1, h2, h3, h4⟩ := h
  simp only at *
  have pos : ∀ y m : Int, 1 ≤ Spec.daysInMonth y m := by
    intro y m; unfold Spec.daysInMonth; repeat' split
    all_goals omega
  unfold Spec.Date.next Spec.Date.Valid
  have p1 := pos y (m + 1)
  have p2 := pos (y + 1) 1
  split
  · simp only at *; omega
  · split
    · simp only at *; omega
    · simp only at *; omega

theorem dayNum_next (d : Spec.Date) (h : d.Valid) :
    dayNum d.next.year d.next.month d.next.day = dayNum d.year d.month d.day + 1 := by
  obtain ⟨y, m, d⟩ := d
  obtain ⟨h1, h2, h3, h4⟩ := h
  simp only at *
  have ⟨_, _, c, e⟩ := monthEnd_le y m h1 h2
  unfold Spec.Date.next
  split
  · simp [dayNum]; omega
  · simp only at *
    split
    · rename_i hm
      have c := c hm
      simp only [dayNum]; omega
    · have e := e (by omega)
      simp only [dayNum, daysTo_succ]
      have : monthStart (y + 1) 1 = 0 := by simp [monthStart]
      rw [this]
      omega

theorem civil_isCalendar : Spec.IsCalendar civil := by
  refine ⟨by decide, civil_valid, fun n => ?_⟩
  have h := dayNum_next (civil n) (civil_valid n)
  rw [dayNum_civil] at h
  rw [← h, civil_dayNum _ (next_valid _ (civil_valid n))]

/-- A calendar is unique. -/
theorem calendar_unique (cal : Int → Spec.Date) (h : Spec.IsCalendar cal) : cal = civil := by
  have key : ∀ n, dayNum (cal n).year (cal n).month (cal n).day = n := by
    have h0 : dayNum (cal 0).year (cal 0).month (cal 0).day = 0 := by rw [h.epoch]; decide
    intro n
    induction n using Int.induction_on with
    | zero => exact h0
    | succ n ih =>
      rw [h.next, dayNum_next _ (h.valid _), ih]
    | pred n ih =>
      have e : (-(n:Int)) = (-(n:Int) - 1) + 1 := by omega
      rw [e, h.next, dayNum_next _ (h.valid _)] at ih
      omega
  funext n
  rw [← civil_dayNum (cal n) (h.valid n), key]

end Osmium.Time

/-! ### Text -/
namespace Osmium.Text

theorem natDecAux_length_le (fuel n k : Nat) (hk : 1 ≤ k) (h : n < 10 ^ k) :
    (natDecAux fuel n).length ≤ k := by
  induction fuel generalizing n k with
  | zero => simp [natDecAux]
  | succ f ih =>
    unfold natDecAux
    split
    · simpa using hk
    · cases k with
      | zero => omega
      | succ k =>
        rw [Nat.pow_succ] at h
        have hk' : 1 ≤ k := by
          cases k with
          | zero => simp at h; omega
          | succ k => omega
        have := ih (n / 10) k hk' (by omega)
        simp; omega

theorem natDec_length_le (n k : Nat) (hk : 1 ≤ k) (h : n < 10 ^ k) : (natDec n).length ≤ k :=
  natDecAux_length_le _ _ _ hk h

theorem digitsVal_lt (ds : List Char) (acc : Nat) :
    digitsVal acc ds < (acc + 1) * 10 ^ ds.length := by
  induction ds generalizing acc with
  | nil => simp [digitsVal]
  | cons c cs ih =>
    simp only [digitsVal, List.length_cons]
    split
    · rename_i hc
      have h := ih (acc * 10 + digitVal c)
      have hd : digitVal c ≤ 9 := by
        simp [isDigit] at hc; unfold digitVal; omega
      calc _ < _ := h
        _ ≤ ((acc + 1) * 10) * 10 ^ cs.length := Nat.mul_le_mul_right _ (by omega)
        _ = _ := by rw [Nat.pow_succ, Nat.mul_assoc, Nat.mul_comm 10]
    · have : 0 < 10 ^ (cs.length + 1) := Nat.pow_pos (by omega)
      have := Nat.le_mul_of_pos_right (acc + 1) this
      omega

theorem natDec_lt_pow_length (n : Nat) : n < 10 ^ (natDec n).length := by
  have h := digitsVal_lt (natDec n) 0
  have := digitsVal_natDec n [] (by intro c; simp)
  rw [List.append_nil] at this
  rw [this] at h
  simpa using h

theorem digitsVal_mono (ds : List Char) (acc : Nat) : acc ≤ digitsVal acc ds := by
  induction ds generalizing acc with
  | nil => simp [digitsVal]
  | cons c cs ih =>
    simp only [digitsVal]; split
    · have := ih (acc * 10 + digitVal c); omega
    · omega

theorem digitsVal_inj_aux (a b : List Char) (h : a.length = b.length) (x y : Nat)
    (ha : ∀ c ∈ a, isDigit c = true) (hb : ∀ c ∈ b, isDigit c = true)
    (hv : digitsVal x a = digitsVal y b) : x = y ∧ a = b := by
  induction a generalizing b x y with
  | nil =>
    cases b with
    | nil => simpa [digitsVal] using hv
    | cons _ _ => simp at h
  | cons c cs ih =>
    cases b with
    | nil => simp at h
    | cons d ds =>
      simp only [digitsVal, ha c (by simp), hb d (by simp), if_true] at hv
      have ⟨e, e2⟩ := ih ds (by simpa using h) _ _ (fun z hz => ha z (by simp [hz]))
        (fun z hz => hb z (by simp [hz])) hv
      have hc := ha c (by simp)
      have hd := hb d (by simp)
      simp only [isDigit, Bool.and_eq_true, decide_eq_true_eq, digitVal] at hc hd e
      refine ⟨by omega, ?_⟩
      rw [e2]
      congr 1
      have : c.toNat = d.toNat := by omega
      exact Char.toNat_inj.mp this

/-- Texts of digits of the same length with the same value are equal. -/
theorem digitsVal_inj (a b : List Char) (h : a.length = b.length)
    (ha : ∀ c ∈ a, isDigit c = true) (hb : ∀ c ∈ b, isDigit c = true)
    (hv : digitsVal 0 a = digitsVal 0 b) : a = b :=
  (digitsVal_inj_aux a b h 0 0 ha hb hv).2

theorem padded_length (k n : Nat) : (Spec.padded k n).length = k := by
  induction k generalizing n with
  | zero => rfl
  | succ k ih => simp [Spec.padded, ih]

theorem padded_digits (k n : Nat) : ∀ c ∈ Spec.padded k n, isDigit c = true := by
  induction k generalizing n with
  | zero => simp [Spec.padded]
  | succ k ih =>
    simp only [Spec.padded, List.mem_append, List.mem_singleton]
    rintro c (h | rfl)
    · exact ih _ c h
    · exact isDigit_digitChar (d := n % 10) (by omega)

theorem digitsVal_padded (k n : Nat) (h : n < 10 ^ k) : digitsVal 0 (Spec.padded k n) = n := by
  induction k generalizing n with
  | zero => simp at h; subst h; rfl
  | succ k ih =>
    simp only [Spec.padded]
    rw [digitsVal_append_digits _ _ _ (padded_digits _ _), ih _ (by rw [Nat.pow_succ] at h; omega)]
    have := isDigit_digitChar (d := n % 10) (by omega)
    have h2 := digitVal_digitChar (d := n % 10) (by omega)
    unfold digitChar at this h2
    simp only [digitsVal, this, if_true, h2]; omega

theorem natDec_eq_padded (n k : Nat) (hk : 1 ≤ k) (h : n < 10 ^ k) (h' : 10 ^ (k - 1) ≤ n) :
    natDec n = Spec.padded k n := by
  apply digitsVal_inj
  · rw [padded_length]
    have h1 := natDec_length_le n k hk h
    have h2 := natDec_lt_pow_length n
    have h3 : ¬ (natDec n).length ≤ k - 1 := by
      intro hc
      have := Nat.pow_le_pow_right (n := 10) (by omega) hc
      omega
    omega
  · exact natDec_digits n
  · exact padded_digits k n
  · rw [digitsVal_padded k n h]
    have := digitsVal_natDec n [] (by intro c; simp)
    simpa using this

end Osmium.Text

namespace Osmium.Time
open Text

theorem dec2_eq_padded (n : Int) : dec2 n = Spec.padded 2 n.toNat := by
  simp [dec2, Spec.padded, digitChar]

theorem getDigits_digits (to_ k val : Nat) (ds rest : List Char) (hd : ∀ c ∈ ds, isDigit c = true)
    (hl : ds.length ≤ k) (hv : digitsVal val ds ≤ to_) (hr : NoDigitHead rest) :
    getDigits to_ k val (ds ++ rest) = (digitsVal val ds, rest) := by
  induction ds generalizing k val with
  | nil =>
    simp only [List.nil_append, digitsVal]
    cases rest with
    | nil => simp [getDigits]
    | cons c cs =>
      cases k with
      | zero => simp [getDigits]
      | succ k => simp [getDigits, hr c rfl]
  | cons c cs ih =>
    cases k with
    | zero => simp at hl
    | succ k =>
      have hc := hd c (by simp)
      simp only [digitsVal, hc, if_true] at hv
      have := digitsVal_mono cs (val * 10 + digitVal c)
      simp only [List.cons_append, getDigits, hc, digitsVal, if_true]
      rw [if_pos (by simp; omega)]
      exact ih k _ (fun z hz => hd z (by simp [hz])) (by simpa using hl) hv

theorem getNumber_digits (from_ to_ n : Nat) (ds rest : List Char)
    (hne : ds ≠ []) (hd : ∀ c ∈ ds, isDigit c = true) (hl : ds.length ≤ n)
    (h1 : from_ ≤ digitsVal 0 ds) (h2 : digitsVal 0 ds ≤ to_) (hr : NoDigitHead rest) :
    getNumber from_ to_ n (ds ++ rest) = some ((digitsVal 0 ds : Int), rest) := by
  cases ds with
  | nil => exact absurd rfl hne
  | cons c cs =>
    have hc := hd c (by simp)
    simp only [digitsVal, hc, if_true, Nat.zero_mul, Nat.zero_add] at h1 h2
    unfold getNumber
    rw [List.cons_append, skipSpace_digit hc]
    simp only [hc, if_true]
    rw [getDigits_digits to_ (n-1) _ cs rest (fun z hz => hd z (by simp [hz]))
      (by simp at hl; omega) h2 hr]
    simp [digitsVal, hc, h1, h2]

theorem getNumber_padded2 (from_ to_ : Nat) (n : Int) (rest : List Char) (h0 : (from_ : Int) ≤ n)
    (h1 : n ≤ to_) (h2 : to_ < 100) (hr : NoDigitHead rest) :
    getNumber from_ to_ 2 (Spec.padded 2 n.toNat ++ rest) = some (n, rest) := by
  have hv := digitsVal_padded 2 n.toNat (by simp; omega)
  rw [getNumber_digits from_ to_ 2 _ rest (by simp [Spec.padded]) (padded_digits _ _)
    (by rw [padded_length]) (by rw [hv]; omega) (by rw [hv]; omega) hr, hv]
  simp only [Option.some.injEq, Prod.mk.injEq, and_true]
  omega

theorem noDigitHead_cons (c : Char) (cs : List Char) (h : isDigit c = false) :
    NoDigitHead (c :: cs) := by intro d hd; simp at hd; subst hd; exact h

/-- Parsing a text made of a year in digits and the two-digit fields. -/
theorem parseIso_text (ytext : List Char) (y : Nat) (mo d h mi s : Int) (tail : List Char)
    (hy : ytext ≠ []) (hyd : ∀ c ∈ ytext, isDigit c = true) (hyl : ytext.length ≤ 4)
    (hyv : digitsVal 0 ytext = y) (hy9 : y ≤ 9999)
    (h1 : 1 ≤ mo ∧ mo ≤ 12) (h2 : 1 ≤ d ∧ d ≤ 31) (h3 : 0 ≤ h ∧ h ≤ 23) (h4 : 0 ≤ mi ∧ mi ≤ 59)
    (h5 : 0 ≤ s ∧ s ≤ 61) :
    parseIso (ytext ++ '-' :: (Spec.padded 2 mo.toNat ++ '-' :: (Spec.padded 2 d.toNat ++ 'T' ::
      (Spec.padded 2 h.toNat ++ ':' :: (Spec.padded 2 mi.toNat ++ ':' ::
        (Spec.padded 2 s.toNat ++ 'Z' :: tail)))))) = some (timegm ⟨y, mo, d, h, mi, s⟩) := by
  unfold parseIso
  rw [getNumber_digits 0 9999 4 ytext _ hy hyd hyl (by omega) (by omega)
    (noDigitHead_cons _ _ (by decide))]
  simp only [bind, Option.bind_some, lit, if_true]
  rw [getNumber_padded2 1 12 mo _ (by omega) (by omega) (by omega) (noDigitHead_cons _ _ (by decide))]
  simp only [Option.bind_some, lit, if_true]
  rw [getNumber_padded2 1 31 d _ (by omega) (by omega) (by omega) (noDigitHead_cons _ _ (by decide))]
  simp only [Option.bind_some, lit, if_true]
  rw [getNumber_padded2 0 23 h _ (by omega) (by omega) (by omega) (noDigitHead_cons _ _ (by decide))]
  simp only [Option.bind_some, lit, if_true]
  rw [getNumber_padded2 0 59 mi _ (by omega) (by omega) (by omega) (noDigitHead_cons _ _ (by decide))]
  simp only [Option.bind_some, lit, if_true]
  rw [getNumber_padded2 0 61 s _ (by omega) (by omega) (by omega) (noDigitHead_cons _ _ (by decide))]
  simp [hyv, pure]

theorem gmtime_date (t : Int) :
    (civil (t / 86400)) = ⟨(gmtime t).year, (gmtime t).mon, (gmtime t).mday⟩ := by
  unfold civil gmtime; rfl

theorem daysInMonth_le (y m : Int) : Spec.daysInMonth y m ≤ 31 := by
  unfold Spec.daysInMonth; repeat' split
  all_goals omega

theorem timegm_gmtime (t : Int) : timegm (gmtime t) = t := by
  have h := dayNum_civil (t / 86400)
  rw [gmtime_date] at h
  simp only [dayNum] at h
  unfold timegm
  rw [show daysTo (gmtime t).year - 719162 + monthStart (gmtime t).year (gmtime t).mon +
      ((gmtime t).mday - 1) = t / 86400 from h]
  simp only [gmtime]; omega

theorem gmtime_ranges (t : Int) :
    (1 ≤ (gmtime t).mon ∧ (gmtime t).mon ≤ 12) ∧ (1 ≤ (gmtime t).mday ∧ (gmtime t).mday ≤ 31) ∧
    (0 ≤ (gmtime t).hour ∧ (gmtime t).hour ≤ 23) ∧ (0 ≤ (gmtime t).min ∧ (gmtime t).min ≤ 59) ∧
    (0 ≤ (gmtime t).sec ∧ (gmtime t).sec ≤ 59) := by
  have h := civil_valid (t / 86400)
  rw [gmtime_date] at h
  obtain ⟨a, b, c, d⟩ := h
  simp only at a b c d
  have := daysInMonth_le (gmtime t).year (gmtime t).mon
  refine ⟨⟨a, b⟩, ⟨c, by omega⟩, ?_⟩
  simp only [gmtime]; omega

theorem gmtime_year_le (t : Int) : (gmtime t).year ≤ 9999 ↔ t ≤ 253402300799 := by
  have ⟨a, b⟩ := yearOf_spec (t / 86400 + 719162)
  have h10 : daysTo 10000 = 3652059 := by decide
  simp only [gmtime]
  constructor
  · intro h; have := daysTo_mono (show yearOf (t / 86400 + 719162) + 1 ≤ 10000 by omega); omega
  · intro h
    apply Decidable.byContradiction; intro hc
    have := daysTo_mono (show 10000 ≤ yearOf (t / 86400 + 719162) by omega); omega

theorem gmtime_year_ge (t : Int) : 0 ≤ (gmtime t).year ↔ -62167219200 ≤ t := by
  have ⟨a, b⟩ := yearOf_spec (t / 86400 + 719162)
  have h10 : daysTo 0 = -366 := by decide
  simp only [gmtime]
  constructor
  · intro h; have := daysTo_mono (show 0 ≤ yearOf (t / 86400 + 719162) by omega); omega
  · intro h
    apply Decidable.byContradiction; intro hc
    have := daysTo_mono (show yearOf (t / 86400 + 719162) + 1 ≤ 0 by omega); omega

theorem gmtime_year_ge1000 (t : Int) : 1000 ≤ (gmtime t).year ↔ -30610224000 ≤ t := by
  have ⟨a, b⟩ := yearOf_spec (t / 86400 + 719162)
  have h10 : daysTo 1000 = 364877 := by decide
  simp only [gmtime]
  constructor
  · intro h; have := daysTo_mono (show 1000 ≤ yearOf (t / 86400 + 719162) by omega); omega
  · intro h
    apply Decidable.byContradiction; intro hc
    have := daysTo_mono (show yearOf (t / 86400 + 719162) + 1 ≤ 1000 by omega); omega

theorem gmtime_year_int_le (t : Int) : (gmtime t).year - 1900 ≤ 2147483647 ↔ t ≤ 67768036191676799 := by
  have ⟨a, b⟩ := yearOf_spec (t / 86400 + 719162)
  have h10 : daysTo 2147485548 = 784352989899 := by decide
  simp only [gmtime]
  constructor
  · intro h; have := daysTo_mono (show yearOf (t / 86400 + 719162) + 1 ≤ 2147485548 by omega); omega
  · intro h
    apply Decidable.byContradiction; intro hc
    have := daysTo_mono (show 2147485548 ≤ yearOf (t / 86400 + 719162) by omega); omega

theorem gmtime_year_int_ge (t : Int) : -2147483648 ≤ (gmtime t).year - 1900 ↔ -67768040609740800 ≤ t := by
  have ⟨a, b⟩ := yearOf_spec (t / 86400 + 719162)
  have h10 : daysTo (-2147481748) = -784351602710 := by decide
  simp only [gmtime]
  constructor
  · intro h; have := daysTo_mono (show -2147481748 ≤ yearOf (t / 86400 + 719162) by omega); omega
  · intro h
    apply Decidable.byContradiction; intro hc
    have := daysTo_mono (show yearOf (t / 86400 + 719162) + 1 ≤ -2147481748 by omega); omega

theorem isoText_length (tm : Tm) : (isoText tm).length = (intDec tm.year).length + 16 := by
  simp [isoText, dec2]

end Osmium.Time

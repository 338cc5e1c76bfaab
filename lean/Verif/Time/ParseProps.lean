import Verif.Time.Props
/-
Property C10: exactly which texts are parsed as timestamps, and as which.
-/
namespace Osmium
open Time Text

namespace Spec

/-- The number that decimal digits stand for. -/
def decimal (ds : List Char) : Nat := ds.foldl (fun v c => 10 * v + (c.toNat - '0'.toNat)) 0

/-- A decimal digit. -/
def Digit (c : Char) : Prop := '0' ≤ c ∧ c ≤ '9'

/-- White space of the "C" locale: blank, tab, new line, vertical tab, form feed, return. -/
def Blank (c : Char) : Prop := c.toNat = 32 ∨ (9 ≤ c.toNat ∧ c.toNat ≤ 13)

/-- A field of a timestamp: the number `v` between `lo` and `hi` with at most `n` digits, after any
amount of white space. -/
def Field (lo hi n : Nat) (text : List Char) (v : Nat) : Prop :=
  ∃ blanks digits, text = blanks ++ digits ∧ (∀ c ∈ blanks, Blank c) ∧ (∀ c ∈ digits, Digit c) ∧
    digits ≠ [] ∧ digits.length ≤ n ∧ decimal digits = v ∧ lo ≤ v ∧ v ≤ hi

/-- The texts that are accepted as timestamps, and the time they stand for: year, month, day of
month, hour, minute, second as fields, separated as in `yyyy-mm-ddThh:mm:ssZ`, then anything.  The
day is counted from the first of the month, so the 31st of April is the first of May, and a minute
can have up to 62 seconds. -/
def IsoText (cal : Int → Date) (s : List Char) (t : Int) : Prop :=
  ∃ ys ms ds hs mins ss rest, ∃ y m d h min sec : Nat, ∃ first : Int,
    s = ys ++ '-' :: (ms ++ '-' :: (ds ++ 'T' :: (hs ++ ':' :: (mins ++ ':' :: (ss ++ 'Z' :: rest))))) ∧
    Field 0 9999 4 ys y ∧ Field 1 12 2 ms m ∧ Field 1 31 2 ds d ∧ Field 0 23 2 hs h ∧
    Field 0 59 2 mins min ∧ Field 0 61 2 ss sec ∧
    cal first = ⟨y, m, 1⟩ ∧
    t = (first + (d - 1)) * 86400 + h * 3600 + min * 60 + sec

end Spec

namespace Time

theorem digit_iff (c : Char) : Spec.Digit c ↔ isDigit c = true := by
  unfold Spec.Digit isDigit
  simp only [Bool.and_eq_true, decide_eq_true_eq, Char.le_def, UInt32.le_iff_toNat_le]
  exact Iff.rfl

theorem blank_iff (c : Char) : Spec.Blank c ↔ isSpace c = true := by
  unfold Spec.Blank isSpace
  simp

theorem decimal_eq_aux (ds : List Char) (v : Nat) (h : ∀ c ∈ ds, isDigit c = true) :
    ds.foldl (fun v c => 10 * v + (c.toNat - '0'.toNat)) v = digitsVal v ds := by
  induction ds generalizing v with
  | nil => rfl
  | cons c cs ih =>
    simp only [List.foldl_cons, digitsVal, h c (by simp), if_true]
    rw [ih _ (fun x hx => h x (by simp [hx]))]
    congr 1
    unfold digitVal
    rw [Nat.mul_comm]
    rfl

theorem decimal_eq (ds : List Char) (h : ∀ c ∈ ds, isDigit c = true) :
    Spec.decimal ds = digitsVal 0 ds := decimal_eq_aux ds 0 h

theorem skipSpace_split (s : List Char) : ∃ b, s = b ++ skipSpace s ∧ ∀ c ∈ b, isSpace c = true := by
  induction s with
  | nil => exact ⟨[], rfl, by simp⟩
  | cons c cs ih =>
    unfold skipSpace
    split
    · rename_i h
      obtain ⟨b, e, hb⟩ := ih
      refine ⟨c :: b, by rw [List.cons_append, ← e], ?_⟩
      intro x hx
      rcases List.mem_cons.mp hx with rfl | hx
      · exact h
      · exact hb x hx
    · exact ⟨[], rfl, by simp⟩

theorem skipSpace_blanks (b s : List Char) (h : ∀ c ∈ b, isSpace c = true) :
    skipSpace (b ++ s) = skipSpace s := by
  induction b with
  | nil => rfl
  | cons c cs ih =>
    simp only [List.cons_append, skipSpace, h c (by simp), if_true]
    exact ih (fun x hx => h x (by simp [hx]))

theorem getDigits_split (to_ k val : Nat) (s : List Char) :
    ∃ ds, s = ds ++ (getDigits to_ k val s).2 ∧ (∀ c ∈ ds, isDigit c = true) ∧ ds.length ≤ k ∧
      (getDigits to_ k val s).1 = digitsVal val ds := by
  induction k generalizing val s with
  | zero => cases s <;> exact ⟨[], by simp [getDigits, digitsVal]⟩
  | succ k ih =>
    cases s with
    | nil => exact ⟨[], by simp [getDigits, digitsVal]⟩
    | cons c cs =>
      unfold getDigits
      split
      · rename_i h
        rw [Bool.and_eq_true] at h
        obtain ⟨ds, e, hd, hl, hv⟩ := ih (val * 10 + digitVal c) cs
        refine ⟨c :: ds, by rw [List.cons_append, ← e], ?_, by simpa using hl, ?_⟩
        · intro x hx
          rcases List.mem_cons.mp hx with rfl | hx
          · exact h.2
          · exact hd x hx
        · rw [hv]; simp [digitsVal, h.2]
      · exact ⟨[], by simp [digitsVal]⟩

theorem getNumber_field {lo hi n : Nat} (hn : 1 ≤ n) {s rest : List Char} {v : Int}
    (h : getNumber lo hi n s = some (v, rest)) :
    ∃ text, ∃ w : Nat, v = w ∧ s = text ++ rest ∧ Spec.Field lo hi n text w := by
  unfold getNumber at h
  obtain ⟨b, hb, hbs⟩ := skipSpace_split s
  cases hs : skipSpace s with
  | nil => rw [hs] at h; simp at h
  | cons c cs =>
    rw [hs] at h hb
    simp only at h
    split at h
    · rename_i hc
      obtain ⟨ds, e, hd, hl, hv⟩ := getDigits_split hi (n - 1) (digitVal c) cs
      split at h
      · rename_i hr
        simp only [Option.some.injEq, Prod.mk.injEq] at h
        obtain ⟨h1, h2⟩ := h
        have hds : ∀ x ∈ c :: ds, isDigit x = true := by
          intro x hx
          rcases List.mem_cons.mp hx with rfl | hx
          · exact hc
          · exact hd x hx
        refine ⟨b ++ (c :: ds), (getDigits hi (n - 1) (digitVal c) cs).1, h1.symm, ?_, b, c :: ds, rfl,
          fun x hx => (blank_iff x).mpr (hbs x hx), fun x hx => (digit_iff x).mpr (hds x hx), by simp,
          by simp; omega, ?_, hr⟩
        · rw [h2] at e
          rw [hb]
          conv => lhs; rw [e]
          simp
        · rw [decimal_eq _ hds, hv]; simp [digitsVal, hc]
      · cases h
    · cases h

theorem field_getNumber {lo hi n : Nat} {text rest : List Char} {v : Nat}
    (h : Spec.Field lo hi n text v) (hr : NoDigitHead rest) :
    getNumber lo hi n (text ++ rest) = some ((v : Int), rest) := by
  obtain ⟨b, ds, rfl, hb, hd, hne, hl, hv, h1, h2⟩ := h
  have hd' : ∀ c ∈ ds, isDigit c = true := fun c hc => (digit_iff c).mp (hd c hc)
  rw [decimal_eq _ hd'] at hv
  subst hv
  rw [← getNumber_digits lo hi n ds rest hne hd' hl h1 h2 hr, List.append_assoc]
  unfold getNumber
  rw [skipSpace_blanks b _ (fun c hc => (blank_iff c).mp (hb c hc))]

theorem lit_some {c : Char} {s r : List Char} (h : lit c s = some r) : s = c :: r := by
  cases s with
  | nil => cases h
  | cons d ds =>
    simp only [lit] at h
    split at h
    · cases h; subst_vars; rfl
    · cases h

theorem timegm_first (y m d h mi s : Int) :
    timegm ⟨y, m, d, h, mi, s⟩ = (dayNum y m 1 + (d - 1)) * 86400 + h * 3600 + mi * 60 + s := by
  unfold timegm dayNum
  generalize monthStart y m = a
  generalize daysTo y = b
  simp only
  omega

end Time

theorem option_bind_some {α β : Type} {x : Option α} {f : α → Option β} {b : β}
    (h : (x >>= f) = some b) : ∃ a, x = some a ∧ f a = some b := by
  cases x with
  | none => cases h
  | some a => exact ⟨a, rfl, h⟩

/-- **C10** (parse, exactly): a text is accepted as a timestamp if and only if it has the form
described by `Spec.IsoText`, and then it is the time described there; otherwise
`std::invalid_argument` is thrown. -/
theorem parse_iso_iff (cal : Int → Spec.Date) (hcal : Spec.IsCalendar cal) (s : List Char) (t : Int) :
    parseIso s = some t ↔ Spec.IsoText cal s t := by
  rw [calendar_unique cal hcal]
  constructor
  · intro h
    unfold parseIso at h
    obtain ⟨⟨y, s1⟩, e1, h⟩ := option_bind_some h
    obtain ⟨s2, e2, h⟩ := option_bind_some h
    obtain ⟨⟨mo, s3⟩, e3, h⟩ := option_bind_some h
    obtain ⟨s4, e4, h⟩ := option_bind_some h
    obtain ⟨⟨d, s5⟩, e5, h⟩ := option_bind_some h
    obtain ⟨s6, e6, h⟩ := option_bind_some h
    obtain ⟨⟨hh, s7⟩, e7, h⟩ := option_bind_some h
    obtain ⟨s8, e8, h⟩ := option_bind_some h
    obtain ⟨⟨mi, s9⟩, e9, h⟩ := option_bind_some h
    obtain ⟨s10, e10, h⟩ := option_bind_some h
    obtain ⟨⟨sec, s11⟩, e11, h⟩ := option_bind_some h
    obtain ⟨s12, e12, hfin⟩ := option_bind_some h
    obtain ⟨ty, y, rfl, rfl, fy⟩ := getNumber_field (by omega) e1
    obtain ⟨tm, m, rfl, q3, fm⟩ := getNumber_field (by omega) e3
    obtain ⟨td, d, rfl, q5, fd⟩ := getNumber_field (by omega) e5
    obtain ⟨th, hh, rfl, q7, fh⟩ := getNumber_field (by omega) e7
    obtain ⟨tmi, mi, rfl, q9, fmi⟩ := getNumber_field (by omega) e9
    obtain ⟨ts, sec, rfl, q11, fs⟩ := getNumber_field (by omega) e11
    have p2 := lit_some e2
    have p4 := lit_some e4
    have p6 := lit_some e6
    have p8 := lit_some e8
    have p10 := lit_some e10
    have p12 := lit_some e12
    subst p12 q11 p10 q9 p8 q7 p6 q5 p4 q3 p2
    have m12 : 1 ≤ m ∧ m ≤ 12 := by
      obtain ⟨_, _, _, _, _, _, _, _, m1, m2⟩ := fm
      exact ⟨m1, m2⟩
    obtain ⟨m1, m2⟩ := m12
    have hv : (⟨(y : Int), (m : Int), 1⟩ : Spec.Date).Valid := by
      refine ⟨by simp; omega, by simp; omega, by simp, ?_⟩
      show 1 ≤ Spec.daysInMonth y m
      unfold Spec.daysInMonth
      repeat' split
      all_goals omega
    have hcd := civil_dayNum _ hv
    simp only at hcd
    refine ⟨ty, tm, td, th, tmi, ts, s12, y, m, d, hh, mi, sec, dayNum y m 1, rfl, fy, fm, fd, fh, fmi,
      fs, hcd, ?_⟩
    simp only [Option.pure_def, Option.some.injEq] at hfin
    rw [← hfin]
    exact timegm_first _ _ _ _ _ _
  · rintro ⟨ys, ms, ds, hs, mins, ss, rest, y, m, d, h, min, sec, first, rfl, fy, fm, fd, fh, fmi, fs, hc,
      rfl⟩
    have nd : ∀ (c : Char) cs, isDigit c = false → NoDigitHead (c :: cs) := fun c cs hc =>
      noDigitHead_cons c cs hc
    unfold parseIso
    rw [field_getNumber fy (nd _ _ (by decide))]
    simp only [Option.bind_eq_bind, Option.bind_some, lit, if_true]
    rw [field_getNumber fm (nd _ _ (by decide))]
    simp only [Option.bind_some, if_true]
    rw [field_getNumber fd (nd _ _ (by decide))]
    simp only [Option.bind_some, if_true]
    rw [field_getNumber fh (nd _ _ (by decide))]
    simp only [Option.bind_some, if_true]
    rw [field_getNumber fmi (nd _ _ (by decide))]
    simp only [Option.bind_some, if_true]
    rw [field_getNumber fs (nd _ _ (by decide))]
    simp only [Option.bind_some, if_true]
    have := dayNum_civil first
    rw [hc] at this
    simp only [dayNum] at this
    simp only [timegm, Option.pure_def, Option.some.injEq]
    omega

/-- Accepted: white space before the numbers, short numbers, text after the `Z`, the 31st of April;
not accepted: missing `Z`, month 13, too many digits. -/
example : parseIso "2012-4-31T 0:00:00Z and more".toList = some 1335830400 ∧
    parseIso "2012-05-01T00:00:00Z".toList = some 1335830400 ∧
    parseIso "2012-05-01T00:00:00".toList = none ∧
    parseIso "2012-13-01T00:00:00Z".toList = none ∧
    parseIso "02012-05-01T00:00:00Z".toList = none := by decide +kernel

end Osmium

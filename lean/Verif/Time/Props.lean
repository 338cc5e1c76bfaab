import Verif.Time.Lemmas
/-
Property C10: ISO timestamps.
-/
namespace Osmium
open Time Text

/-- The timestamps of the years 0 to 9999. -/
def InIsoRange (t : Int) : Prop := -62167219200 ≤ t ∧ t ≤ 253402300799

/-- The Gregorian calendar exists and is unique. -/
theorem calendar_exists : ∃ cal, Spec.IsCalendar cal := ⟨civil, civil_isCalendar⟩

/-- **C10** (form): for every timestamp of the years 1000 to 9999 except 0, the text is
`yyyy-mm-ddThh:mm:ssZ` with the date the Gregorian calendar gives. -/
theorem to_iso_form (cal : Int → Spec.Date) (hcal : Spec.IsCalendar cal) (t : Int) (h0 : t ≠ 0)
    (h1 : -30610224000 ≤ t) (h2 : t ≤ 253402300799) :
    toIso t = Spec.isoForm (cal (t / 86400)) (t % 86400 / 3600) (t % 3600 / 60) (t % 60) := by
  rw [calendar_unique cal hcal]
  have y1 := (gmtime_year_ge1000 t).2 h1
  have y2 := (gmtime_year_le t).2 h2
  have hy : intDec (gmtime t).year = Spec.padded 4 (gmtime t).year.toNat := by
    unfold intDec
    rw [if_neg (by omega)]
    rw [natDec_eq_padded _ 4 (by omega) (by simp; omega) (by simp; omega)]
    congr 1; omega
  unfold toIso
  rw [if_neg h0]
  simp only [isoText_length, hy, padded_length]
  rw [if_pos (by omega)]
  rw [gmtime_date]
  simp only [isoText, Spec.isoForm, hy, dec2_eq_padded]
  have e1 : (gmtime t).hour = t % 86400 / 3600 := rfl
  have e2 : (gmtime t).min = t % 3600 / 60 := by
    show t % 86400 % 3600 / 60 = _; omega
  have e3 : (gmtime t).sec = t % 60 := by show t % 86400 % 60 = _; omega
  rw [e1, e2, e3]
  simp

/-- **C10** (parse): the text of any existing date and time of the years 0 to 9999 is parsed as
the number of seconds since the epoch. -/
theorem parse_iso_form (cal : Int → Spec.Date) (hcal : Spec.IsCalendar cal) (n h m s : Int)
    (hy : 0 ≤ (cal n).year ∧ (cal n).year ≤ 9999)
    (hh : 0 ≤ h ∧ h < 24) (hm : 0 ≤ m ∧ m < 60) (hs : 0 ≤ s ∧ s < 60) :
    parseIso (Spec.isoForm (cal n) h m s) = some (n * 86400 + h * 3600 + m * 60 + s) := by
  rw [calendar_unique cal hcal] at *
  have hv := civil_valid n
  have hd := dayNum_civil n
  obtain ⟨v1, v2, v3, v4⟩ := hv
  have := daysInMonth_le (civil n).year (civil n).month
  unfold Spec.isoForm
  simp only [List.append_assoc, List.cons_append, List.nil_append]
  rw [parseIso_text (Spec.padded 4 (civil n).year.toNat) (civil n).year.toNat _ _ _ _ _ []
    (by simp [Spec.padded]) (padded_digits _ _) (by rw [padded_length])
    (digitsVal_padded _ _ (by simp; omega)) (by omega) ⟨v1, v2⟩ ⟨v3, by omega⟩ (by omega)
    (by omega) (by omega)]
  unfold dayNum at hd
  simp only [timegm, Option.some.injEq]
  rw [show ((civil n).year.toNat : Int) = (civil n).year by omega, hd]

/-- **C10** (round trip): every timestamp of the years 0 to 9999 except 0 survives formatting and
parsing. -/
theorem iso_roundtrip (t : Int) (h0 : t ≠ 0) (h : InIsoRange t) :
    parseIso (toIso t) = some t := by
  have y1 := (gmtime_year_ge t).2 h.1
  have y2 := (gmtime_year_le t).2 h.2
  have hy : intDec (gmtime t).year = natDec (gmtime t).year.toNat := by
    unfold intDec
    rw [if_neg (by omega)]; congr 1; omega
  have hl := natDec_length_le (gmtime t).year.toNat 4 (by omega) (by simp; omega)
  have hv := digitsVal_natDec (gmtime t).year.toNat [] (by intro c; simp)
  rw [List.append_nil] at hv
  obtain ⟨r1, r2, r3, r4, r5⟩ := gmtime_ranges t
  unfold toIso
  rw [if_neg h0]
  simp only [isoText_length, hy]
  rw [if_pos (by omega)]
  have : isoText (gmtime t) = natDec (gmtime t).year.toNat ++ '-' ::
      (Spec.padded 2 (gmtime t).mon.toNat ++ '-' :: (Spec.padded 2 (gmtime t).mday.toNat ++ 'T' ::
      (Spec.padded 2 (gmtime t).hour.toNat ++ ':' :: (Spec.padded 2 (gmtime t).min.toNat ++ ':' ::
        (Spec.padded 2 (gmtime t).sec.toNat ++ 'Z' :: []))))) := by
    simp only [isoText, hy, dec2_eq_padded]; simp
  rw [this, parseIso_text _ _ _ _ _ _ _ [] (by
    obtain ⟨c, cs, e, _⟩ := natDec_cons (gmtime t).year.toNat; simp [e]) (natDec_digits _) hl hv
    (by omega) r1 r2 r3 r4 (by omega)]
  have := timegm_gmtime t
  rw [show ((gmtime t).year.toNat : Int) = (gmtime t).year by omega]
  rw [show (⟨(gmtime t).year, (gmtime t).mon, (gmtime t).mday, (gmtime t).hour, (gmtime t).min,
    (gmtime t).sec⟩ : Tm) = gmtime t from rfl, this]

/-- **C10** (limits): outside the years 0 to 9999, and for the timestamp 0 (which means "unset"),
the text produced cannot be parsed. -/
theorem iso_out_of_range (t : Int) (h : t = 0 ∨ ¬ InIsoRange t) : parseIso (toIso t) = none := by
  rcases h with rfl | h
  · decide
  · by_cases h0 : t = 0
    · subst h0; decide
    · by_cases hr : t ≤ 253402300799
      · have hneg : (gmtime t).year < 0 := by
          have := (gmtime_year_ge t); unfold InIsoRange at h; omega
        unfold toIso
        rw [if_neg h0]
        simp only
        split
        · have : ∃ cs, isoText (gmtime t) = '-' :: cs := by
            simp [isoText, intDec, hneg]
          obtain ⟨cs, e⟩ := this
          rw [e]
          simp [parseIso, getNumber, skipSpace, show isSpace '-' = false by decide,
            show isDigit '-' = false by decide]
        · decide
      · have hy : 9999 < (gmtime t).year := by
          have := (gmtime_year_le t); omega
        have h2 := natDec_lt_pow_length (gmtime t).year.natAbs
        have h3 : ¬ (natDec (gmtime t).year.natAbs).length ≤ 4 := by
          intro hc
          have := Nat.pow_le_pow_right (n := 10) (by omega) hc
          omega
        have : toIso t = [] := by
          unfold toIso
          rw [if_neg h0]
          simp only [isoText_length]
          unfold intDec
          rw [if_neg (by omega : ¬ (gmtime t).year < 0)]
          rw [if_neg (by omega)]
        rw [this]; decide

/-- **C10** (limits): for which times there is a text at all.  Outside the given range (times that a PBF file can
contain) the call is undefined behaviour. -/
theorem to_iso_defined (t : Int) :
    toIsoFull t = if -67768040609740800 ≤ t ∧ t ≤ 67768036191676799 then .ok (toIso t) else .error .ub := by
  unfold toIsoFull
  simp only [gmtime_year_int_le, gmtime_year_int_ge]
  by_cases h : t = 0
  · subst h; rfl
  · rw [if_neg h]

example : toIsoFull 1353000000 = .ok "2012-11-15T17:20:00Z".toList ∧ InS64 (2 ^ 60) ∧ toIsoFull (2 ^ 60) = .error .ub := by
  rw [to_iso_defined, to_iso_defined]
  refine ⟨by rw [if_pos (by decide)]; exact congrArg _ (by decide +kernel), by unfold InS64; decide, by rw [if_neg (by decide)]⟩

/-- **C10**: the parser throws on texts that do not start with a digit (after white space), in
particular on the empty text. -/
theorem parse_iso_rejects (s : List Char) (h : NoDigitHead (skipSpace s)) : parseIso s = none := by
  unfold parseIso getNumber
  cases e : skipSpace s with
  | nil => simp
  | cons c cs => rw [e] at h; simp [h c rfl]

example : InIsoRange 1353000000 ∧ toIso 1353000000 = "2012-11-15T17:20:00Z".toList ∧
    parseIso "2012-11-15T17:20:00Z".toList = some 1353000000 := by
  refine ⟨⟨by decide, by decide⟩, by decide +kernel, by decide +kernel⟩
example : toIso 253402300799 = "9999-12-31T23:59:59Z".toList ∧ toIso 253402300800 = [] ∧
    toIso (-1) = "1969-12-31T23:59:59Z".toList ∧ toIso 951782400 = "2000-02-29T00:00:00Z".toList := by
  decide +kernel

end Osmium

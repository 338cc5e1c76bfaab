import Verif.Common.Num
/-
Decimal text: the number formatting and parsing done by the C library on behalf of osmium
(`printf("%d")`, `printf("%" PRId64)`, `atoll`, `atol`).  Text is a `List Char`.
-/
namespace Osmium.Text

/-- The decimal digit `d` as character. (C library; part of the conversions called in
osm/types.hpp 55-72, utils/timestamp.hpp 65 and 76, output/xml.hpp 85-188) -/
def digitChar (d : Nat) : Char := Char.ofNat (48 + d)
/-- C `isdigit`. (C library; part of the conversions called in osm/types.hpp 55-72,
utils/timestamp.hpp 65 and 76, output/xml.hpp 85-188) -/
def isDigit (c : Char) : Bool := 48 ≤ c.toNat && c.toNat ≤ 57
/-- Value of a digit character. (C library; part of the conversions called in osm/types.hpp
55-72, utils/timestamp.hpp 65 and 76, output/xml.hpp 85-188) -/
def digitVal (c : Char) : Nat := c.toNat - 48
/-- C `isspace` in the "C" locale. (C library; part of the conversions called in osm/types.hpp
55-72, utils/timestamp.hpp 65 and 76, output/xml.hpp 85-188) -/
def isSpace (c : Char) : Bool := c.toNat == 32 || (9 ≤ c.toNat && c.toNat ≤ 13)

/-- Digits of `n`, most significant first; `fuel` bounds the number of digits. (C library; part
of the conversions called in osm/types.hpp 55-72, utils/timestamp.hpp 65 and 76, output/xml.hpp
85-188) -/
def natDecAux : Nat → Nat → List Char
  | 0, _ => []
  | fuel + 1, n => if n < 10 then [digitChar n] else natDecAux fuel (n / 10) ++ [digitChar (n % 10)]

/-- `printf("%u")`: decimal digits of a natural number. (C library; part of the conversions
called in osm/types.hpp 55-72, utils/timestamp.hpp 65 and 76, output/xml.hpp 85-188) -/
def natDec (n : Nat) : List Char := natDecAux (n.log2 + 1) n

/-- `printf("%d")` / `printf("%" PRId64)`. (`operator<<` and `printf` of integers, for example in output/xml.hpp 123,
172-187) -/
def intDec (n : Int) : List Char := if n < 0 then '-' :: natDec n.natAbs else natDec n.natAbs

/-- Value of the leading digits, accumulated onto `acc`. (C library; part of the conversions
called in osm/types.hpp 55-72, utils/timestamp.hpp 65 and 76, output/xml.hpp 85-188) -/
def digitsVal : Nat → List Char → Nat
  | acc, [] => acc
  | acc, c :: cs => if isDigit c then digitsVal (acc * 10 + digitVal c) cs else acc

/-- Skip white space. (C library; part of the conversions called in osm/types.hpp 55-72,
utils/timestamp.hpp 65 and 76, output/xml.hpp 85-188) -/
def skipSpace : List Char → List Char
  | [] => []
  | c :: cs => if isSpace c then skipSpace cs else c :: cs

/-- `strtol`-style conversion to an unbounded integer: white space, optional sign, digits. (C
library; part of the conversions called in osm/types.hpp 55-72, utils/timestamp.hpp 65 and 76,
output/xml.hpp 85-188) -/
def strtoZ (s : List Char) : Int :=
  match skipSpace s with
  | '-' :: cs => -(digitsVal 0 cs : Int)
  | '+' :: cs => (digitsVal 0 cs : Int)
  | cs => (digitsVal 0 cs : Int)

/-- `atoll` and (with 64-bit `long`) `atol`: saturating, as in glibc where they are `strtoll` and
`strtol` (the C standard leaves out-of-range values undefined). -/
def atoll (s : List Char) : Int :=
  let v := strtoZ s
  if v < -9223372036854775808 then -9223372036854775808
  else if v > 9223372036854775807 then 9223372036854775807 else v

/-! ### Round trip -/

theorem toNat_digitChar {d : Nat} (h : d < 10) : (digitChar d).toNat = 48 + d := by
  have : d = 0 ∨ d = 1 ∨ d = 2 ∨ d = 3 ∨ d = 4 ∨ d = 5 ∨ d = 6 ∨ d = 7 ∨ d = 8 ∨ d = 9 := by omega
  rcases this with h | h | h | h | h | h | h | h | h | h <;> subst h <;> decide

@[simp] theorem isDigit_digitChar {d : Nat} (h : d < 10) : isDigit (digitChar d) = true := by
  simp [isDigit, toNat_digitChar h]; omega

@[simp] theorem digitVal_digitChar {d : Nat} (h : d < 10) : digitVal (digitChar d) = d := by
  simp [digitVal, toNat_digitChar h]

theorem isSpace_of_isDigit {c : Char} (h : isDigit c = true) : isSpace c = false := by
  simp only [isDigit, isSpace, Bool.and_eq_true, decide_eq_true_eq] at *
  simp; omega

/-- A text that does not start with a digit. (helper for statements and proofs, no counterpart in
/repo) -/
def NoDigitHead (s : List Char) : Prop := ∀ c, s.head? = some c → isDigit c = false

theorem digitsVal_stop (acc : Nat) (rest : List Char) (h : NoDigitHead rest) :
    digitsVal acc rest = acc := by
  cases rest with
  | nil => rfl
  | cons c cs => simp [digitsVal, h c rfl]

theorem natDecAux_digits (fuel n : Nat) : ∀ c ∈ natDecAux fuel n, isDigit c = true := by
  induction fuel generalizing n with
  | zero => simp [natDecAux]
  | succ f ih =>
    unfold natDecAux
    split
    · simp; exact isDigit_digitChar (by omega)
    · simp only [List.mem_append, List.mem_singleton]
      rintro c (h | rfl)
      · exact ih _ c h
      · exact isDigit_digitChar (by omega)

theorem natDec_digits (n : Nat) : ∀ c ∈ natDec n, isDigit c = true := natDecAux_digits _ n

theorem digitsVal_append_digits (ds rest : List Char) (acc : Nat)
    (h : ∀ c ∈ ds, isDigit c = true) :
    digitsVal acc (ds ++ rest) = digitsVal (digitsVal acc ds) rest := by
  induction ds generalizing acc with
  | nil => simp [digitsVal]
  | cons d ds ih =>
    simp only [List.cons_append, digitsVal, h d (by simp), if_true]
    exact ih _ (fun c hc => h c (by simp [hc]))

theorem digitsVal_natDecAux (fuel n : Nat) (h : n < 2 ^ fuel) :
    digitsVal 0 (natDecAux fuel n) = n := by
  induction fuel generalizing n with
  | zero => simp at h; subst h; simp [natDecAux, digitsVal]
  | succ f ih =>
    unfold natDecAux
    split
    · rename_i hlt; simp [digitsVal, isDigit_digitChar hlt, digitVal_digitChar hlt]
    · rw [digitsVal_append_digits _ _ _ (natDecAux_digits _ _), ih (n/10) (by
        rw [Nat.pow_succ] at h; omega)]
      have : n % 10 < 10 := by omega
      simp [digitsVal, isDigit_digitChar this, digitVal_digitChar this]; omega

theorem digitsVal_natDec (n : Nat) (rest : List Char) (h : NoDigitHead rest) :
    digitsVal 0 (natDec n ++ rest) = n := by
  rw [digitsVal_append_digits _ _ _ (natDec_digits n)]
  have : digitsVal 0 (natDec n) = n := digitsVal_natDecAux _ _ Nat.lt_log2_self
  rw [this, digitsVal_stop _ _ h]

theorem natDec_cons (n : Nat) : ∃ c cs, natDec n = c :: cs ∧ isDigit c = true := by
  have h := natDec_digits n
  cases e : natDec n with
  | nil =>
    exfalso
    unfold natDec natDecAux at e
    split at e <;> simp at e
  | cons c cs => exact ⟨c, cs, rfl, h c (by simp [e])⟩

theorem skipSpace_digit {c : Char} {cs : List Char} (h : isDigit c = true) :
    skipSpace (c :: cs) = c :: cs := by
  simp [skipSpace, isSpace_of_isDigit h]

/-- Parsing the decimal text of an integer (followed by anything that is not a digit) yields
the integer. -/
theorem strtoZ_intDec (n : Int) (rest : List Char) (h : NoDigitHead rest) :
    strtoZ (intDec n ++ rest) = n := by
  unfold intDec
  have key := digitsVal_natDec n.natAbs rest h
  split
  · simp only [List.cons_append, strtoZ]
    have : skipSpace ('-' :: (natDec n.natAbs ++ rest)) = '-' :: (natDec n.natAbs ++ rest) := by
      simp [skipSpace, show isSpace '-' = false by decide]
    rw [this]; simp only [key]; omega
  · obtain ⟨c, cs, e, hc⟩ := natDec_cons n.natAbs
    rw [e] at key ⊢
    simp only [List.cons_append] at *
    unfold strtoZ
    rw [skipSpace_digit hc]
    have h1 : c ≠ '-' := by rintro rfl; revert hc; decide
    have h2 : c ≠ '+' := by rintro rfl; revert hc; decide
    split
    · rename_i e; simp at e; exact absurd e.1 h1
    · rename_i e; simp at e; exact absurd e.1 h2
    · rw [key]; omega

/-- `atoll(sprintf("%" PRId64, n)) == n`. -/
theorem atoll_intDec (n : Int) (h : InS64 n) : atoll (intDec n) = n := by
  have := strtoZ_intDec n [] (by intro c; simp)
  rw [List.append_nil] at this
  unfold InS64 at h
  simp only [atoll, this]
  split
  · omega
  · split <;> omega

theorem atoll_in (s : List Char) : InS64 (atoll s) := by
  unfold atoll InS64; simp only; split
  · omega
  · split <;> omega

end Osmium.Text

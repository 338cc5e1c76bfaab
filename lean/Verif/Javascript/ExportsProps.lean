import Verif.Javascript.Exports

/-
C84: files written by scripts.
-/
namespace Osmium
open Text

namespace Spec

/-- A text in a field of `width` bytes: as many whole characters from the beginning as fit, in UTF-8; the
text ends at a zero character, if there is one. -/
def StoredText (width : Nat) (cs : List Char) (b : List UInt8) : Prop :=
  ∃ pre post, cs = pre ++ post ∧ (utf8 pre).length ≤ width ∧
    (∀ c rest, post = c :: rest → width < (utf8 (pre ++ [c])).length) ∧
    b = utf8 (pre.takeWhile (· ≠ '\x00'))

/-- How a text is understood in a field for truth values: by its first letter; otherwise as a number (as the C
library reads one from the beginning of a text), of which only the low 32 bits count. -/
def truthOf (cs : List Char) : DbfValue :=
  match cs with
  | 'T' :: _ => .bool true
  | 't' :: _ => .bool true
  | 'Y' :: _ => .bool true
  | 'y' :: _ => .bool true
  | 'F' :: _ => .bool false
  | 'f' :: _ => .bool false
  | 'N' :: _ => .bool false
  | 'n' :: _ => .bool false
  | ['0'] => .bool false
  | _ => if atoll cs % 4294967296 = 1 then .bool true else .null

/-- The value in a field for what the script gives: nothing for a missing value; for texts see above (the
script's text may go on with something else, if its beginning is too long for the field anyway). -/
def CellOf (f : DbfField) (a : ScriptAttr) (v : DbfValue) : Prop :=
  match a with
  | .missing => v = .null
  | .empty => v = .null
  | .value text i =>
    match f.type with
    | .string => ∃ cs rest b, text = utf16 cs ++ rest ∧ (rest = [] ∨ f.width < (utf8 cs).length) ∧
        StoredText f.width.toNat cs b ∧ v = .string b
    | .integer => v = .int i
    | .double => False
    | .logical => ∀ cs, text = utf16 cs → v = truthOf (cs.takeWhile (· ≠ '\x00'))

/-- A record: one value for each field, in order. -/
def RowOf (fields : List DbfField) (attrs : String → ScriptAttr) (row : DbfRow) : Prop :=
  row.length = fields.length ∧
    ∀ (n : Nat) (f : DbfField), fields[n]? = some f → ∃ v, row[n]? = some (n, v) ∧ CellOf f (attrs f.name) v

/-- The field described by three or four arguments: name, type, width, decimals. -/
def FieldOf (args : List (String × Int)) (f : DbfField) : Prop :=
  (args.length = 3 ∨ args.length = 4) ∧ (∃ x, args[0]? = some (f.name, x)) ∧
  ∃ type width, (∃ x, args[1]? = some (type, x)) ∧ (∃ x, args[2]? = some (x, width)) ∧
    ((type = "string" ∧ f.type = .string ∧ f.width = width ∧ width ≤ 255) ∨
     (type = "integer" ∧ f.type = .integer ∧ f.width = width ∧ width ≤ 255) ∨
     (type = "double" ∧ f.type = .double ∧ f.width = width ∧ width ≤ 255) ∨
     (type = "bool" ∧ f.type = .logical ∧ f.width = 1))

/-- What the files contain after the calls of a script: a shape with its record for each `add` whose
geometry is of the type of the file, in order. -/
def Rows (type : ShpType) : List DbfField → List ShpCall → List (ShpShape × DbfRow) → Prop
  | _, [], L => L = []
  | fields, .close :: cs, L => Rows type fields cs L
  | fields, .addField args :: cs, L => ∃ f, FieldOf args f ∧ Rows type (fields ++ [f]) cs L
  | fields, .add g attrs :: cs, L =>
    ((∀ s, g = some s → s.type ≠ type) ∧ Rows type fields cs L) ∨
      ∃ s row L', g = some s ∧ s.type = type ∧ RowOf fields attrs row ∧ L = (s, row) :: L' ∧
        Rows type fields cs L'

end Spec
open Spec

/-! ### Texts in fields -/

theorem fitUtf8_spec : ∀ (cs : List Char) (cap : Nat), ∃ pre post, cs = pre ++ post ∧
    (utf8 pre).length ≤ cap ∧ (∀ c rest, post = c :: rest → cap < (utf8 (pre ++ [c])).length) ∧
    fitUtf8 cap cs = utf8 pre := by
  intro cs
  induction cs with
  | nil => intro cap; exact ⟨[], [], rfl, by simp [utf8], by simp, rfl⟩
  | cons c cs ih =>
    intro cap
    by_cases h : (String.utf8EncodeChar c).length ≤ cap
    · obtain ⟨pre, post, h1, h2, h3, h4⟩ := ih (cap - (String.utf8EncodeChar c).length)
      refine ⟨c :: pre, post, by rw [h1]; rfl, ?_, ?_, ?_⟩
      · simp only [utf8, List.flatMap_cons, List.length_append] at h2 ⊢
        omega
      · intro d rest hd
        have := h3 d rest hd
        simp only [utf8, List.cons_append, List.flatMap_cons, List.length_append] at this ⊢
        omega
      · simp only [fitUtf8, if_pos h, h4]
        rfl
    · refine ⟨[], c :: cs, rfl, by simp [utf8], ?_, by rw [fitUtf8, if_neg h]; rfl⟩
      intro d rest hd
      cases hd
      simp only [utf8, List.nil_append, List.flatMap_cons, List.flatMap_nil, List.append_nil]
      omega

theorem cString_utf8_cut (cs : List Char) : cString (utf8 cs) = utf8 (cs.takeWhile (· ≠ '\x00')) := by
  induction cs with
  | nil => rfl
  | cons c cs ih =>
    by_cases hc : c = '\x00'
    · subst hc
      rfl
    · have h1 : (utf8 (c :: cs)) = utf8 [c] ++ utf8 cs := by simp [utf8]
      have h0 : ∀ b ∈ utf8 [c], b ≠ 0 := by
        have := cString_utf8 (cs := [c]) (by simpa using fun e => hc e.symm)
        intro b hb e
        subst e
        unfold cString at this
        rw [← this] at hb
        have hm := List.all_eq_true.1 List.all_takeWhile 0 hb
        simp at hm
      have h2 : (c :: cs).takeWhile (fun x => decide (x ≠ '\x00')) = c :: cs.takeWhile (fun x => decide (x ≠ '\x00')) := by
        simp [hc]
      rw [h2, h1]
      have h3 : utf8 (c :: cs.takeWhile (fun x => decide (x ≠ '\x00'))) =
          utf8 [c] ++ utf8 (cs.takeWhile (fun x => decide (x ≠ '\x00'))) := by simp [utf8]
      rw [h3, ← ih]
      unfold cString
      rw [List.takeWhile_append_of_pos (by intro b hb; simpa using h0 b hb)]

theorem utf16_length_le_utf8 (cs : List Char) : (utf16 cs).length ≤ (utf8 cs).length := by
  induction cs with
  | nil => exact Nat.le_refl 0
  | cons c cs ih =>
    have h : (utf16Char c).length ≤ (String.utf8EncodeChar c).length := by
      rw [utf8Size_eq]
      unfold utf16Char
      split
      · split <;> (try split) <;> (try split) <;> simp
      · rename_i hc
        simp only [List.length_cons, List.length_nil]
        split
        · omega
        · split
          · omega
          · split <;> omega
    rw [utf16_eq] at ih ⊢
    simp only [utf8, List.flatMap_cons, List.length_append] at ih ⊢
    omega

/-- **C84** (texts): what is stored for a text in a field of at most 255 bytes: as many characters as fit. -/
theorem script_text_stored (width : Int) (hw : width ≤ 255) (text : JsString) (b : List UInt8)
    (h : scriptString width text = .ok b) :
    ∃ cs rest, text = utf16 cs ++ rest ∧ (rest = [] ∨ width < (utf8 cs).length) ∧
      StoredText width.toNat cs b := by
  unfold scriptString at h
  split at h
  · cases h
  · rename_i hw0
    have ht : (text.take 256).take (min 256 text.length) = text.take 256 := by
      rw [List.take_take]
      by_cases hl : text.length ≤ 256
      · rw [List.take_of_length_le (by omega), List.take_of_length_le (by omega)]
      · congr 1; omega
    rw [ht] at h
    unfold strToUTF8 at h
    cases hd : decodeUtf16 (text.take 256) with
    | none => rw [hd] at h; cases h
    | some cs =>
      rw [hd] at h
      have hb : b = cString (fitUtf8 width.toNat cs) := by
        simp only at h
        split at h
        · cases h
        · rename_i heq
          cases heq
          cases h
          rfl
      have he := (decodeUtf16_iff _ _).1 hd
      obtain ⟨pre, post, h1, h2, h3, h4⟩ := fitUtf8_spec cs width.toNat
      refine ⟨cs, text.drop 256, by rw [← he, List.take_append_drop], ?_, pre, post, h1, h2, h3, ?_⟩
      · by_cases hl : text.length ≤ 256
        · exact Or.inl (List.drop_eq_nil_of_le hl)
        · right
          have := utf16_length_le_utf8 cs
          rw [← he, List.length_take] at this
          omega
      · rw [hb, h4, cString_utf8_cut]

/-- **C84** (texts): a text is stored unless its 256th unit is the first half of a pair. -/
theorem script_text_accepted_iff (width : Int) (hw : 0 ≤ width) (cs : List Char) :
    (∃ b, scriptString width (utf16 cs) = .ok b) ↔ ∀ u, (utf16 cs)[255]? = some u → isLead u = false := by
  have key : (∃ b, scriptString width (utf16 cs) = .ok b) ↔ ∃ ds, (utf16 cs).take 256 = utf16 ds := by
    unfold scriptString
    rw [if_neg (by omega)]
    have ht : ((utf16 cs).take 256).take (min 256 (utf16 cs).length) = (utf16 cs).take 256 := by
      rw [List.take_take]
      by_cases hl : (utf16 cs).length ≤ 256
      · rw [List.take_of_length_le (by omega), List.take_of_length_le (by omega)]
      · congr 1; omega
    rw [ht]
    unfold strToUTF8
    cases hd : decodeUtf16 ((utf16 cs).take 256) with
    | none =>
      simp only [reduceCtorEq, exists_false, false_iff, not_exists]
      intro ds hds
      rw [(decodeUtf16_iff _ _).2 hds] at hd
      cases hd
    | some ds =>
      have he := (decodeUtf16_iff _ _).1 hd
      refine ⟨fun _ => ⟨ds, he⟩, fun _ => ?_⟩
      simp only
      unfold icuCode
      split
      · rename_i heq
        split at heq <;> (try split at heq) <;> simp at heq
      · exact ⟨_, rfl⟩
  rw [key]
  -- the beginning of a text in UTF-16
  have gen : ∀ (cs : List Char) (n : Nat),
      (∃ ds, (utf16 cs).take (n + 1) = utf16 ds) ↔ ∀ u, (utf16 cs)[n]? = some u → isLead u = false := by
    intro cs
    induction cs with
    | nil => intro n; simp only [utf16, List.flatMap_nil, List.take_nil]; exact ⟨fun _ u hu => by simp at hu, fun _ => ⟨[], rfl⟩⟩
    | cons c cs ih =>
      intro n
      have hcons : utf16 (c :: cs) = utf16Char c ++ utf16 cs := by simp [utf16_eq]
      rw [hcons]
      by_cases h1 : c.toNat < 0x10000
      · have hu : utf16Char c = [UInt16.ofNat c.toNat] := by unfold utf16Char; rw [if_pos h1]
        have hlead : isLead (UInt16.ofNat c.toNat) = false := by
          unfold isLead
          rw [u16_toNat h1]
          have := char_valid c
          simp only [Bool.and_eq_false_iff, decide_eq_false_iff_not]
          omega
        rw [hu]
        cases n with
        | zero =>
          constructor
          · intro _ u hu'
            simp only [List.cons_append, List.getElem?_cons_zero, Option.some.injEq] at hu'
            rw [← hu']; exact hlead
          · intro _
            exact ⟨[c], by simp [utf16_eq, hu]⟩
        | succ n =>
          simp only [List.cons_append, List.nil_append, List.take_succ_cons, List.getElem?_cons_succ]
          rw [← ih n]
          constructor
          · rintro ⟨ds, hds⟩
            cases ds with
            | nil => simp [utf16] at hds
            | cons d ds =>
              have hd1 : decodeUtf16 (UInt16.ofNat c.toNat :: (utf16 cs).take (n + 1)) = some (d :: ds) :=
                (decodeUtf16_iff _ _).2 hds
              have := decodeUtf16_char c ((utf16 cs).take (n + 1))
              rw [hu] at this
              rw [List.cons_append, List.nil_append, hd1] at this
              cases hd2 : decodeUtf16 ((utf16 cs).take (n + 1)) with
              | none => rw [hd2] at this; cases this
              | some es => exact ⟨es, (decodeUtf16_iff _ _).1 hd2⟩
          · rintro ⟨ds, hds⟩
            refine ⟨c :: ds, ?_⟩
            rw [hds]
            simp [utf16_eq, hu]
      · have hu : utf16Char c = [UInt16.ofNat (0xD800 + (c.toNat - 0x10000) / 0x400),
            UInt16.ofNat (0xDC00 + (c.toNat - 0x10000) % 0x400)] := by unfold utf16Char; rw [if_neg h1]
        have hv := char_valid c
        have hlead : isLead (UInt16.ofNat (0xD800 + (c.toNat - 0x10000) / 0x400)) = true := by
          unfold isLead
          rw [u16_toNat (by omega)]
          simp only [Bool.and_eq_true, decide_eq_true_eq]
          omega
        have htrail : isLead (UInt16.ofNat (0xDC00 + (c.toNat - 0x10000) % 0x400)) = false := by
          unfold isLead
          rw [u16_toNat (by omega)]
          simp only [Bool.and_eq_false_iff, decide_eq_false_iff_not]
          omega
        rw [hu]
        cases n with
        | zero =>
          constructor
          · rintro ⟨ds, hds⟩
            have hd : decodeUtf16 [UInt16.ofNat (0xD800 + (c.toNat - 0x10000) / 0x400)] = some ds :=
              (decodeUtf16_iff _ _).2 (by simpa using hds)
            simp only [decodeUtf16, hlead, Bool.true_or, if_true, reduceCtorEq] at hd
          · intro h
            have := h (UInt16.ofNat (0xD800 + (c.toNat - 0x10000) / 0x400)) (by simp only [List.cons_append, List.getElem?_cons_zero])
            rw [hlead] at this
            cases this
        | succ n =>
          cases n with
          | zero =>
            constructor
            · intro _ u hu'
              simp only [List.cons_append, List.getElem?_cons_zero, List.getElem?_cons_succ, Option.some.injEq] at hu'
              rw [← hu']; exact htrail
            · intro _
              exact ⟨[c], by simp [utf16_eq, hu]⟩
          | succ n =>
            simp only [List.cons_append, List.nil_append, List.take_succ_cons, List.getElem?_cons_succ]
            rw [← ih n]
            constructor
            · rintro ⟨ds, hds⟩
              have hd1 := (decodeUtf16_iff _ _).2 hds
              have := decodeUtf16_char c ((utf16 cs).take (n + 1))
              rw [hu] at this
              rw [List.cons_append, List.cons_append, List.nil_append, hd1] at this
              cases hd2 : decodeUtf16 ((utf16 cs).take (n + 1)) with
              | none => rw [hd2] at this; cases this
              | some es => exact ⟨es, (decodeUtf16_iff _ _).1 hd2⟩
            · rintro ⟨ds, hds⟩
              refine ⟨c :: ds, ?_⟩
              rw [hds]
              simp [utf16_eq, hu]
  exact gen cs 255

/-- **C84, disagreement** (texts): a text that would fit can be refused: 255 times `a`, then a character outside
of the first 65536. -/
theorem script_text_refused (width : Int) (hw : 0 ≤ width) :
    scriptString width (utf16 (List.replicate 255 'a' ++ ['😀'])) = .error (.exn "UTF-16 to UTF-8 conversion failed") := by
  have h := script_text_accepted_iff width hw (List.replicate 255 'a' ++ ['😀'])
  cases hs : scriptString width (utf16 (List.replicate 255 'a' ++ ['😀'])) with
  | error e =>
    unfold scriptString at hs
    rw [if_neg (by omega)] at hs
    split at hs
    · cases hs; rfl
    · cases hs
  | ok b =>
    have := h.1 ⟨b, hs⟩ 0xD83D (by decide +kernel)
    exact absurd this (by decide)

theorem utf8Value_utf16 (cs : List Char) : utf8Value (utf16 cs) = cs := by
  have gen : ∀ (us : JsString) (cs : List Char), decodeUtf16 us = some cs → utf8Value us = cs := by
    intro us
    induction us using utf8Value.induct with
    | case1 => intro cs h; simp only [decodeUtf16, Option.some.injEq] at h; rw [← h]; rfl
    | case2 u =>
      intro cs h
      simp only [decodeUtf16] at h
      split at h
      · cases h
      · rename_i hu
        cases h
        rw [utf8Value, if_neg hu]
    | case3 u v us huv ih =>
      intro cs h
      rw [Bool.and_eq_true] at huv
      simp only [decodeUtf16, huv.1, huv.2, if_true] at h
      cases hd : decodeUtf16 us with
      | none => rw [hd] at h; cases h
      | some ds =>
        rw [hd] at h
        cases h
        rw [utf8Value, huv.1, huv.2, ih ds hd]
        rfl
    | case4 u v us huv ih =>
      intro cs h
      simp only [decodeUtf16] at h
      by_cases hl : isLead u = true
      · rw [if_pos hl] at h
        by_cases ht : isTrail v = true
        · simp [hl, ht] at huv
        · rw [if_neg ht] at h; cases h
      · rw [if_neg hl] at h
        by_cases ht : isTrail u = true
        · rw [if_pos ht] at h; cases h
        · rw [if_neg ht] at h
          cases hd : decodeUtf16 (v :: us) with
          | none => rw [hd] at h; cases h
          | some ds =>
            rw [hd] at h
            cases h
            rw [utf8Value, if_neg huv, if_neg (by simp [hl, ht]), ih ds hd]
  exact gen _ _ (decode_utf16 cs)

theorem atoi_letter {c : Char} {cs : List Char} (h : isSpace c = false) (hd : isDigit c = false)
    (h1 : c ≠ '-') (h2 : c ≠ '+') : atoi (c :: cs) = 0 := by
  have : strtoZ (c :: cs) = 0 := by
    unfold strtoZ
    simp only [skipSpace, h, Bool.false_eq_true, if_false]
    split
    · rename_i heq; cases heq; exact absurd rfl h1
    · rename_i heq; cases heq; exact absurd rfl h2
    · simp [digitsVal, hd]
  unfold atoi atoll
  rw [this]
  decide

/-- **C84** (truth values). -/
theorem script_truth (cs : List Char) : scriptLogical (utf16 cs) = truthOf (cs.takeWhile (· ≠ '\x00')) := by
  unfold scriptLogical
  rw [utf8Value_utf16]
  generalize cs.takeWhile (fun x => decide (x ≠ '\x00')) = s
  unfold truthOf
  split
  all_goals try (simp only [startsWithLetter]; simp; done)
  · simp only [startsWithLetter, atoi_letter (c := 'F') (by decide) (by decide) (by decide) (by decide)]; simp
  · simp only [startsWithLetter, atoi_letter (c := 'f') (by decide) (by decide) (by decide) (by decide)]; simp
  · simp only [startsWithLetter, atoi_letter (c := 'N') (by decide) (by decide) (by decide) (by decide)]; simp
  · simp only [startsWithLetter, atoi_letter (c := 'n') (by decide) (by decide) (by decide) (by decide)]; simp
  · decide
  · rename_i h1 h2 h3 h4 h5 h6 h7 h8 h9
    have e : ∀ {x : Char}, (∀ t, s = x :: t → False) → (s.head? = some x ↔ False) := by
      intro x hx
      cases s with
      | nil => simp
      | cons a t =>
        simp only [List.head?_cons, Option.some.injEq, iff_false]
        intro e; subst e; exact hx t rfl
    simp only [startsWithLetter, e h1, e h2, e h3, e h4, e h5, e h6, e h7, e h8, decide_false, Bool.or_false,
      Bool.false_eq_true, or_false]
    have h0 : s = ['0'] ↔ False := by
      simp only [iff_false]; intro e; exact h9 e
    have hw : wrapS32 (atoll s) = 1 ↔ atoll s % 4294967296 = 1 := by unfold wrapS32; omega
    simp only [h0, if_false, atoi, hw]

/-- **C84** (truth values given as numbers): 1 is true, 0 is false; other numbers are unknown, except those that
are 1 modulo 2^32, which are taken for true. -/
theorem script_truth_number (n : Int) (h : InS64 n) :
    scriptLogical (utf16 (intDec n)) =
      if n % 4294967296 = 1 then .bool true else if n = 0 then .bool false else .null := by
  have hd : ∀ c ∈ intDec n, c = '-' ∨ isDigit c = true := by
    intro c hc
    unfold intDec at hc
    split at hc
    · rcases List.mem_cons.1 hc with rfl | hc
      · exact .inl rfl
      · exact .inr (natDec_digits _ c hc)
    · exact .inr (natDec_digits _ c hc)
  have ht : (intDec n).takeWhile (· ≠ '\x00') = intDec n := by
    have : ∀ l : List Char, (∀ c ∈ l, c = '-' ∨ isDigit c = true) → l.takeWhile (· ≠ '\x00') = l := by
      intro l
      induction l with
      | nil => intro _; rfl
      | cons c l ih =>
        intro hl
        have hc : c ≠ '\x00' := by
          rintro rfl
          rcases hl _ List.mem_cons_self with e | e
          · exact absurd e (by decide)
          · exact absurd e (by decide)
        rw [List.takeWhile_cons_of_pos (by simpa using hc), ih (fun d hd => hl d (List.mem_cons_of_mem _ hd))]
    exact this _ hd
  rw [script_truth, ht]
  have hv := atoll_intDec n h
  have nl : ∀ {x : Char} {t : List Char}, intDec n = x :: t → x ≠ '-' → isDigit x = false → False := by
    intro x t e h1 h2
    rcases hd x (by rw [e]; exact List.mem_cons_self) with e | e
    · exact h1 e
    · rw [h2] at e; cases e
  unfold truthOf
  split
  case h_9 heq =>
    rw [heq] at hv
    have : n = 0 := by rw [← hv]; decide
    subst this
    rfl
  case h_10 _ _ _ _ _ _ _ _ h0 =>
    rw [hv]
    by_cases h1 : n % 4294967296 = 1
    · rw [if_pos h1, if_pos h1]
    · rw [if_neg h1, if_neg h1, if_neg]
      rintro rfl
      exact h0 (by decide)
  all_goals
    rename_i heq
    exact (nl heq (by decide) (by decide)).elim

example : scriptLogical (utf16 "4294967297".toList) = .bool true ∧ InS64 4294967297 := by
  refine ⟨by decide +kernel, by decide⟩

/-! ### Shapefiles -/

theorem step_attr_base {fits : DbfField → DbfValue → Bool} {t t' : ShpTable} {k : Nat} {v : DbfValue}
    (h : t.step fits (.attr k v) = .ok t') : t'.base = t.base := by
  simp only [ShpTable.step, bind, Except.bind] at h
  split at h
  · cases h
  · cases h; rfl

theorem scriptValue_cell {f : DbfField} (hf : f.width ≤ 255) {a : ScriptAttr} {v : DbfValue}
    (h : scriptValue f a = .ok v) : CellOf f a v := by
  unfold scriptValue at h
  cases a with
  | missing => cases h; rfl
  | empty => cases h; rfl
  | value text i =>
    simp only at h
    unfold CellOf
    simp only
    cases ht : f.type with
    | string =>
      rw [ht] at h
      simp only at h ⊢
      cases hs : scriptString f.width text with
      | error e => rw [hs] at h; cases h
      | ok b =>
        rw [hs] at h
        cases h
        obtain ⟨cs, rest, h1, h2, h3⟩ := script_text_stored f.width hf text b hs
        exact ⟨cs, rest, b, h1, h2, h3, rfl⟩
    | integer => rw [ht] at h; cases h; rfl
    | double => rw [ht] at h; cases h
    | logical =>
      rw [ht] at h
      cases h
      simp only
      rintro cs rfl
      exact script_truth cs

theorem scriptFields_inv {fits : DbfField → DbfValue → Bool} {attrs : String → ScriptAttr} :
    ∀ (fs : List DbfField) (n : Nat) (t t' : ShpTable) (told : List (ShpShape × DbfRow)) (s : ShpShape)
      (r : DbfRow), (∀ f ∈ fs, f.width ≤ 255) → TableInv t (told ++ [(s, r)]) →
      scriptFields fits attrs t n fs = .ok t' →
      ∃ row, TableInv t' (told ++ [(s, r ++ row)]) ∧ t'.base = t.base ∧ row.length = fs.length ∧
        ∀ (m : Nat) (f : DbfField), fs[m]? = some f →
          ∃ v, row[m]? = some (n + m, v) ∧ CellOf f (attrs f.name) v := by
  intro fs
  induction fs with
  | nil =>
    intro n t t' told s r _ hi h
    cases h
    exact ⟨[], by simpa using hi, rfl, rfl, by simp⟩
  | cons f fs ih =>
    intro n t t' told s r hw hi h
    unfold scriptFields at h
    cases hv : scriptValue f (attrs f.name) with
    | error e => rw [hv] at h; cases h
    | ok v =>
      rw [hv] at h
      simp only at h
      cases hs : t.step fits (.attr n v) with
      | error e => rw [hs] at h; cases h
      | ok t1 =>
        rw [hs] at h
        simp only at h
        have h1 := tableInv_attribute hi (by simp) hs
        rw [modify_last told _ _ _ (by simp)] at h1
        obtain ⟨row, i1, i2, i3, i4⟩ := ih (n + 1) t1 t' told s _ (fun g hg => hw g (List.mem_cons_of_mem _ hg)) h1 h
        refine ⟨(n, v) :: row, by simpa using i1, by rw [i2, step_attr_base hs], by simp [i3], ?_⟩
        intro m g hg
        cases m with
        | zero =>
          simp only [List.getElem?_cons_zero, Option.some.injEq] at hg
          subst hg
          exact ⟨v, by simp, scriptValue_cell (hw f List.mem_cons_self) hv⟩
        | succ m =>
          rw [List.getElem?_cons_succ] at hg
          obtain ⟨w, hw1, hw2⟩ := i4 m g hg
          exact ⟨w, by rw [List.getElem?_cons_succ, hw1]; congr 2; omega, hw2⟩

theorem step_geometry_error {fits : DbfField → DbfValue → Bool} {t : ShpTable} {s : ShpShape} {e : Fail}
    (h : t.step fits (.geometry s) = .error e) : s.type ≠ t.base.type ∧ e = .exn "IllegalGeometry" := by
  simp only [ShpTable.step, bind, Except.bind] at h
  split at h
  · rename_i e' he
    cases h
    unfold ShapefileObj.addGeometry at he
    split at he
    · rename_i hne; cases he; exact ⟨hne, rfl⟩
    · cases he
  · split at h <;> cases h

theorem step_geometry_base {fits : DbfField → DbfValue → Bool} {t t' : ShpTable} {s : ShpShape}
    (h : t.step fits (.geometry s) = .ok t') :
    t'.base.fields = t.base.fields ∧ t'.base.type = t.base.type ∧ s.type = t.base.type := by
  simp only [ShpTable.step, bind, Except.bind] at h
  split at h
  · cases h
  · rename_i b hb
    obtain ⟨h1, h2, -⟩ := addGeometry_cases hb
    have h3 : b.type = t.base.type := by
      unfold ShapefileObj.addGeometry at hb
      split at hb
      · cases hb
      · simp only [Except.ok.injEq] at hb
        subst hb
        split <;> rfl
    split at h <;> (cases h; exact ⟨h1, h3, h2⟩)

theorem step_field_base {fits : DbfField → DbfValue → Bool} {t t' : ShpTable} {name type : String} {w d : Int}
    (h : t.step fits (.field name type w d) = .ok t') :
    ∃ f, DbfField.ofText name type w d = .ok f ∧ t'.base.fields = t.base.fields ++ [f] ∧
      t'.base.type = t.base.type := by
  simp only [ShpTable.step, bind, Except.bind] at h
  split at h
  · cases h
  · rename_i f hf
    split at h
    · cases h
    · rename_i b hb
      cases h
      refine ⟨f, hf, (addField_files hb).2.2.2, ?_⟩
      unfold ShapefileObj.addField at hb
      split at hb
      · cases hb; rfl
      · cases hb

theorem scriptAddField_field {fits : DbfField → DbfValue → Bool} {t t' : ShpTable} {args : List (String × Int)}
    {r : Int} (h : scriptAddField fits t args = .ok (t', r)) :
    r = 1 ∧ ∃ name type w d, t.step fits (.field name type w d) = .ok t' ∧
      ∀ f, DbfField.ofText name type w d = .ok f → FieldOf args f ∧ f.width ≤ 255 := by
  have key : ∀ (name type width : String × Int) (d : Int) (rest : List (String × Int)),
      (rest = [] ∨ ∃ x, rest = [x]) → args = name :: type :: width :: rest → ∀ f,
      DbfField.ofText name.1 type.1 width.2 d = .ok f → FieldOf args f ∧ f.width ≤ 255 := by
    rintro name type width d rest hr rfl f hf
    obtain ⟨_, _, h1, h2⟩ := (field_accepted_iff _ _ _ _ _).1 hf
    refine ⟨⟨?_, ⟨name.2, by simp [h1]⟩, type.1, width.2, ⟨type.2, by simp⟩, ⟨width.1, by simp⟩, ?_⟩, ?_⟩
    · rcases hr with rfl | ⟨x, rfl⟩ <;> simp
    · rcases h2 with h2 | h2 | h2 | h2
      · exact Or.inl ⟨h2.1, h2.2.1, h2.2.2.1, h2.2.2.2.2⟩
      · exact Or.inr (Or.inl ⟨h2.1, h2.2.1, h2.2.2.1, h2.2.2.2.2⟩)
      · exact Or.inr (Or.inr (Or.inl ⟨h2.1, h2.2.1, h2.2.2.1, h2.2.2.2.2⟩))
      · exact Or.inr (Or.inr (Or.inr ⟨h2.1, h2.2.1, h2.2.2.1⟩))
    · rcases h2 with h2 | h2 | h2 | h2
      · rw [h2.2.2.1]; exact h2.2.2.2.2
      · rw [h2.2.2.1]; exact h2.2.2.2.2
      · rw [h2.2.2.1]; exact h2.2.2.2.2
      · rw [h2.2.2.1]; decide
  unfold scriptAddField at h
  split at h
  · rename_i name type width
    cases hs : t.step fits (.field name.1 type.1 width.2 0) with
    | error e => rw [hs] at h; cases h
    | ok t1 =>
      rw [hs] at h
      cases h
      exact ⟨rfl, _, _, _, _, hs, key _ _ _ _ [] (Or.inl rfl) rfl⟩
  · rename_i name type width decimals
    cases hs : t.step fits (.field name.1 type.1 width.2 decimals.2) with
    | error e => rw [hs] at h; cases h
    | ok t1 =>
      rw [hs] at h
      cases h
      exact ⟨rfl, _, _, _, _, hs, key _ _ _ _ [decimals] (Or.inr ⟨_, rfl⟩) rfl⟩
  · cases h

theorem tableInv_field {fits : DbfField → DbfValue → Bool} {t t' : ShpTable} {told : List (ShpShape × DbfRow)}
    {name type : String} {w d : Int} (h : TableInv t told)
    (hs : t.step fits (.field name type w d) = .ok t') : TableInv t' told := by
  have h0 : (t.run fits [.field name type w d]) = .ok t' := by
    simp only [ShpTable.run, bind, Except.bind, hs]
  have := tableInv_run [.field name type w d] h (Or.inr ?_) h0
  · exact this
  · intro pre k v post e
    have := congrArg (fun l => ShpOp.attr k v ∈ l) e
    simp at this

/-- The result of `add`. -/
theorem scriptAdd_inv {fits : DbfField → DbfValue → Bool} {t t' : ShpTable} {g : Option ShpShape}
    {attrs : String → ScriptAttr} {told : List (ShpShape × DbfRow)} {r : Int}
    (hw : ∀ f ∈ t.base.fields, f.width ≤ 255) (hi : TableInv t told)
    (h : scriptAdd fits t g attrs = .ok (t', r)) :
    r = 1 ∧ t'.base.fields = t.base.fields ∧ t'.base.type = t.base.type ∧
      (((∀ s, g = some s → s.type ≠ t.base.type) ∧ t' = t) ∨
       ∃ s row, g = some s ∧ s.type = t.base.type ∧ RowOf t.base.fields attrs row ∧
         TableInv t' (told ++ [(s, row)])) := by
  unfold scriptAdd at h
  cases g with
  | none => cases h; exact ⟨rfl, rfl, rfl, Or.inl ⟨by simp, rfl⟩⟩
  | some s =>
    simp only at h
    split at h
    · rename_i he
      cases h
      refine ⟨rfl, rfl, rfl, Or.inl ⟨?_, rfl⟩⟩
      rintro s' hs'
      cases hs'
      exact (step_geometry_error he).1
    · cases h
    · rename_i t1 ht1
      obtain ⟨f1, f2, f3⟩ := step_geometry_base ht1
      have i1 := tableInv_geometry hi ht1
      split at h
      · cases h
      · rename_i t2 ht2
        cases h
        obtain ⟨row, j1, j2, j3, j4⟩ := scriptFields_inv _ 0 t1 t' told s [] (by rw [f1]; exact hw) i1 ht2
        refine ⟨rfl, by rw [j2, f1], by rw [j2, f2], Or.inr ⟨s, row, rfl, f3, ⟨by rw [j3, f1], ?_⟩, by simpa using j1⟩⟩
        intro n f hf
        obtain ⟨v, v1, v2⟩ := j4 n f (by rw [f1]; exact hf)
        exact ⟨v, by simpa using v1, v2⟩

/-- **C84** (shapefiles): Take any shapefile opened by a script and any calls without exception.  The files
together contain exactly one shape for each `add` with a geometry of the type of the file, in order, each with
exactly one value for each field there was at the time: the one the script gave under the name of the
field.  All calls return 1. -/
theorem shapefile_of_script_partial (fits : DbfField → DbfValue → Bool) (type : String) (t0 t : ShpTable)
    (calls : List ShpCall) (rs : List Int) (h0 : scriptOpenShp type = .ok t0)
    (h : shpRun fits t0 true calls = .ok (t, rs)) :
    Rows t0.base.type [] calls (contents t) ∧ ∀ r ∈ rs, r = 1 := by
  have gen : ∀ (calls : List ShpCall) (t1 : ShpTable) (o : Bool) (told : List (ShpShape × DbfRow)) (rs : List Int),
      (∀ f ∈ t1.base.fields, f.width ≤ 255) → TableInv t1 told → t1.base.type = t0.base.type →
      shpRun fits t1 o calls = .ok (t, rs) →
      (∃ L, contents t = told ++ L ∧ Rows t0.base.type t1.base.fields calls L) ∧ ∀ r ∈ rs, r = 1 := by
    intro calls
    induction calls with
    | nil =>
      intro t1 o told rs _ hi _ h
      cases h
      exact ⟨⟨[], by rw [hi.same]; simp, rfl⟩, by simp⟩
    | cons c calls ih =>
      intro t1 o told rs hw hi ht h
      cases c with
      | close =>
        obtain ⟨⟨L, h1, h2⟩, h3⟩ := ih t1 false told rs hw hi ht h
        exact ⟨⟨L, h1, h2⟩, h3⟩
      | addField args =>
        unfold shpRun at h
        split at h
        · split at h
          · cases h
          · rename_i t2 r hr
            cases hs : shpRun fits t2 o calls with
            | error e => rw [hs] at h; cases h
            | ok p =>
              rw [hs] at h
              cases h
              obtain ⟨r1, name, ty, w, d, e1, e2⟩ := scriptAddField_field hr
              obtain ⟨f, e3, e4, e5⟩ := step_field_base e1
              obtain ⟨e6, e7⟩ := e2 f e3
              obtain ⟨⟨L, h1, h2⟩, h3⟩ := ih t2 o told p.2 (by
                  rw [e4]
                  intro g hg
                  rcases List.mem_append.1 hg with hg | hg
                  · exact hw g hg
                  · rw [List.mem_singleton.1 hg]; exact e7) (tableInv_field hi e1) (by rw [e5, ht]) hs
              refine ⟨⟨L, h1, f, e6, by rw [← e4]; exact h2⟩, ?_⟩
              intro x hx
              rcases List.mem_cons.1 hx with rfl | hx
              · exact r1
              · exact h3 x hx
        · cases h
      | add g attrs =>
        unfold shpRun at h
        split at h
        · split at h
          · cases h
          · rename_i t2 r hr
            cases hs : shpRun fits t2 o calls with
            | error e => rw [hs] at h; cases h
            | ok p =>
              rw [hs] at h
              cases h
              obtain ⟨r1, e1, e2, e3⟩ := scriptAdd_inv hw hi hr
              have hr1 : (∀ x ∈ p.2, x = 1) → ∀ x ∈ r :: p.2, x = 1 := by
                intro h3 x hx
                rcases List.mem_cons.1 hx with rfl | hx
                · exact r1
                · exact h3 x hx
              rcases e3 with ⟨e3, rfl⟩ | ⟨s, row, rfl, e3, e4, e5⟩
              · obtain ⟨⟨L, h1, h2⟩, h3⟩ := ih t2 o told p.2 hw hi ht hs
                exact ⟨⟨L, h1, Or.inl ⟨by rw [← ht]; exact e3, h2⟩⟩, hr1 h3⟩
              · obtain ⟨⟨L, h1, h2⟩, h3⟩ := ih t2 o (told ++ [(s, row)]) p.2 (by rw [e1]; exact hw) e5 (by rw [e2, ht]) hs
                refine ⟨⟨(s, row) :: L, by rw [h1]; simp, Or.inr ⟨s, row, L, rfl, by rw [← ht]; exact e3, e4, rfl, ?_⟩⟩, hr1 h3⟩
                rw [← e1]; exact h2
        · cases h
  have hn : TableInv t0 [] ∧ t0.base.fields = [] := by
    unfold scriptOpenShp at h0
    split at h0
    · cases h0; exact ⟨tableInv_new _, rfl⟩
    · split at h0
      · cases h0; exact ⟨tableInv_new _, rfl⟩
      · split at h0
        · cases h0; exact ⟨tableInv_new _, rfl⟩
        · cases h0
  obtain ⟨⟨L, h1, h2⟩, h3⟩ := gen calls t0 true [] rs (by rw [hn.2]; simp) hn.1 rfl h
  rw [hn.2] at h2
  simp only [List.nil_append] at h1
  rw [h1]
  exact ⟨h2, h3⟩

/-- The types of the files. -/
theorem shapefile_of_script_type (type : String) :
    (scriptOpenShp type).toOption.map (·.base.type) =
      if type = "point" then some .point else if type = "line" then some .arc
      else if type = "polygon" then some .polygon else none := by
  unfold scriptOpenShp
  split
  · rfl
  · split
    · rfl
    · split <;> rfl

theorem scriptFields_ok {fits : DbfField → DbfValue → Bool} {attrs : String → ScriptAttr} :
    ∀ (fs : List DbfField) (n : Nat) (t : ShpTable), t.current ≤ t.rows.length → t.rows.length ≤ t.current + 1 →
      t.base.fields.drop n = fs →
      (∀ f ∈ fs, ∃ v, scriptValue f (attrs f.name) = .ok v ∧ fits f v = true) →
      ∃ t', scriptFields fits attrs t n fs = .ok t' ∧ t'.base = t.base ∧
        t'.rows.length = if fs = [] then t.rows.length else t.current + 1 := by
  intro fs
  induction fs with
  | nil => intro n t _ _ _ _; exact ⟨t, rfl, rfl, rfl⟩
  | cons f fs ih =>
    intro n t h1 h2 h3 h4
    obtain ⟨v, v1, v2⟩ := h4 f List.mem_cons_self
    have hf : t.base.fields[n]? = some f := by
      have := congrArg List.head? h3
      rwa [List.head?_drop, List.head?_cons] at this
    have hd : t.base.fields.drop (n + 1) = fs := by
      have := congrArg List.tail h3
      rwa [List.tail_drop, List.tail_cons] at this
    have hs : ∃ t1, t.step fits (.attr n v) = .ok t1 ∧ t1.base = t.base ∧ t1.current = t.current ∧
        t1.rows.length = t.current + 1 := by
      simp only [ShpTable.step, bind, Except.bind, dbfWrite, hf]
      rw [if_neg (by rw [v2]; simp; omega)]
      by_cases he : t.current = t.rows.length
      · rw [if_pos he]
        exact ⟨_, rfl, rfl, rfl, by simp [he]⟩
      · rw [if_neg he]
        exact ⟨_, rfl, rfl, rfl, by simp; omega⟩
    obtain ⟨t1, s1, s2, s3, s4⟩ := hs
    obtain ⟨t', r1, r2, r3⟩ := ih (n + 1) t1 (by omega) (by omega) (by rw [s2]; exact hd)
      (fun g hg => h4 g (List.mem_cons_of_mem _ hg))
    refine ⟨t', ?_, by rw [r2, s2], ?_⟩
    · unfold scriptFields
      rw [v1]
      simp only [s1, r1]
    · rw [r3, s4, s3]
      simp

/-- **C84** (shapefiles): adding does not fail: in a shapefile with fields, if all shapes so far have their
records, and the geometry is of the right type, and all values can be converted and fit into the fields. -/
theorem script_add_succeeds (fits : DbfField → DbfValue → Bool) (t : ShpTable) (s : ShpShape)
    (attrs : String → ScriptAttr) (hs : s.type = t.base.type) (hf : t.base.fields ≠ [])
    (hc : t.rows.length = t.base.cur.shapes.length)
    (hv : ∀ f ∈ t.base.fields, ∃ v, scriptValue f (attrs f.name) = .ok v ∧ fits f v = true) :
    ∃ t', scriptAdd fits t (some s) attrs = .ok (t', 1) ∧ t'.base.fields = t.base.fields ∧
      t'.base.type = t.base.type ∧ t'.rows.length = t'.base.cur.shapes.length := by
  have hg : ∃ t1, t.step fits (.geometry s) = .ok t1 ∧ t1.current = t1.rows.length ∧
      t1.base.cur.shapes.length = t1.current + 1 := by
    cases hst : t.step fits (.geometry s) with
    | error e => exact absurd hs (step_geometry_error hst).1
    | ok t1 =>
      refine ⟨t1, rfl, ?_⟩
      simp only [ShpTable.step, bind, Except.bind] at hst
      split at hst
      · cases hst
      · rename_i b hb
        obtain ⟨_, _, h | h⟩ := addGeometry_cases hb
        · rw [if_pos h.1] at hst
          cases hst
          simp only [h.2.2, List.length_append, List.length_singleton, hc]
          omega
        · rw [if_neg (by omega)] at hst
          cases hst
          simp [h.2.2]
  obtain ⟨t1, g1, g2, g3⟩ := hg
  obtain ⟨b1, b2, -⟩ := step_geometry_base g1
  obtain ⟨t', r1, r2, r3⟩ := scriptFields_ok (attrs := attrs) (fits := fits) t1.base.fields 0 t1 (by omega) (by omega) rfl
    (by rw [b1]; exact hv)
  refine ⟨t', ?_, by rw [r2, b1], by rw [r2, b2], ?_⟩
  · unfold scriptAdd
    simp only [g1, r1]
  · rw [r3, if_neg (by rw [b1]; exact hf), r2]
    omega

/-- **C84** (shapefiles): so a script that first adds fields and then shapes gets along without exception. -/
theorem shapefile_of_script_succeeds (fits : DbfField → DbfValue → Bool) (t : ShpTable) (hf : t.base.fields ≠ [])
    (hc : t.rows.length = t.base.cur.shapes.length) (adds : List (ShpShape × (String → ScriptAttr)))
    (ha : ∀ a ∈ adds, a.1.type = t.base.type ∧
      ∀ f ∈ t.base.fields, ∃ v, scriptValue f (a.2 f.name) = .ok v ∧ fits f v = true) :
    ∃ t', shpRun fits t true (adds.map fun a => .add (some a.1) a.2) = .ok (t', adds.map fun _ => 1) := by
  induction adds generalizing t with
  | nil => exact ⟨t, rfl⟩
  | cons a adds ih =>
    obtain ⟨h1, h2⟩ := ha a List.mem_cons_self
    obtain ⟨t1, s1, s2, s3, s4⟩ := script_add_succeeds fits t a.1 a.2 h1 hf hc h2
    obtain ⟨t', r⟩ := ih t1 (by rw [s2]; exact hf) s4 (fun b hb => by
      rw [s2, s3]; exact ha b (List.mem_cons_of_mem _ hb))
    refine ⟨t', ?_⟩
    simp only [List.map_cons, shpRun, true_or, if_true, s1, r]
    rfl

/-- **C84, disagreement**: a geometry that cannot be added is not noticed by the script: the result is 1 and nothing is
added (the wrapper means to return 0). -/
theorem script_add_illegal (fits : DbfField → DbfValue → Bool) (t : ShpTable) (g : Option ShpShape)
    (attrs : String → ScriptAttr) (h : ∀ s, g = some s → s.type ≠ t.base.type) :
    scriptAdd fits t g attrs = .ok (t, 1) := by
  unfold scriptAdd
  cases g with
  | none => rfl
  | some s =>
    simp only
    cases hs : t.step fits (.geometry s) with
    | ok t1 => exact absurd (step_geometry_base hs).2.2 (h s rfl)
    | error e => rw [(step_geometry_error hs).2]; rfl

/-- **C84, disagreement**: a value for a field of type "double" ends the script. -/
theorem script_double_refused (f : DbfField) (hf : f.type = .double) (text : JsString) (i : Int) :
    scriptValue f (.value text i) = .error (.exn "fields of type double not implemented") := by
  unfold scriptValue
  rw [hf]

/-- **C84, disagreement**: adding to a closed file is undefined. -/
theorem script_add_closed (fits : DbfField → DbfValue → Bool) (t : ShpTable) (s : ShpShape)
    (attrs : String → ScriptAttr) (cs : List ShpCall) :
    shpRun fits t true (.close :: .add (some s) attrs :: cs) = .error .ub := by
  simp [shpRun]

/-- A file of points with a name, a number and a truth value. (data for the examples) -/
def demoShpCalls : List ShpCall :=
  [.addField [("name", 0), ("string", 0), ("", 4)],
   .addField [("n", 0), ("integer", 0), ("", 5), ("", 0)],
   .addField [("ok", 0), ("bool", 0), ("", 1)],
   .add (some ⟨.point, 0, 1, 7⟩) (fun k => if k = "name" then .value (utf16 "Straße".toList) 0
      else if k = "n" then .value (utf16 "12".toList) 12 else .missing),
   .add (some ⟨.arc, 1, 2, 8⟩) (fun _ => .missing),
   .add none (fun _ => .missing),
   .add (some ⟨.point, 0, 1, 9⟩) (fun k => if k = "ok" then .value (utf16 "yes".toList) 0
      else if k = "name" then .empty else .missing),
   .close]

/-- The script gets along, and this is what is in the file. -/
example : ∃ t0 t rs, scriptOpenShp "point" = .ok t0 ∧
    shpRun (fun _ _ => true) t0 true demoShpCalls = .ok (t, rs) ∧
    contents t = [(⟨.point, 0, 1, 7⟩, [(0, .string (utf8 "Stra".toList)), (1, .int 12), (2, .null)]),
      (⟨.point, 0, 1, 9⟩, [(0, .null), (1, .null), (2, .bool true)])] := by
  refine ⟨ShpTable.new .point, _, _, rfl, rfl, ?_⟩
  decide +kernel

/-- A text with a character that does not fit any more. -/
example : (scriptString 5 (utf16 "Straße".toList)).toOption = some (utf8 "Stra".toList) ∧
    (scriptString 6 (utf16 "Straße".toList)).toOption = some (utf8 "Straß".toList) := by
  decide +kernel

/-! ### Text files -/

namespace Spec

/-- A line: the texts with a tab between two of them, and the end of the line. -/
def csvLine (texts : List (List Char)) : List Char := (['\t'].intercalate texts) ++ ['\n']

/-- The columns of the lines of a text. -/
def csvColumns (text : List Char) : List (List (List Char)) :=
  (text.splitOn '\n').dropLast.map (·.splitOn '\t')

/-- A text of the script that can be printed: without zero characters and not longer than about 2^29 units. -/
def Printable (t : List Char) : Prop := '\x00' ∉ t ∧ (utf16 t).length < 536870911

end Spec
open Spec

theorem v8ToStream_printable {t : List Char} (h : Printable t) : v8ToStream (utf16 t) = .ok (utf8 t) :=
  (text_printed_partial _ h.2 _).2 ⟨t, rfl, (cString_utf8 h.1).symm⟩

theorem csvArgs_printable (o : List UInt8) (i : Nat) (l : List (List Char)) (h : ∀ t ∈ l, Printable t) :
    csvArgs ⟨o, true⟩ i ((l.map utf16).map v8ToStream) =
      (⟨o ++ (if i = 0 then utf8 (['\t'].intercalate l) else utf8 (l.flatMap ('\t' :: ·))), true⟩, none) := by
  have h9 : utf8 ['\t'] = [9] := rfl
  have cons9 : ∀ t, utf8 ('\t' :: t) = 9 :: utf8 t := fun t => rfl
  have gen : ∀ (l : List (List Char)), (∀ t ∈ l, Printable t) → ∀ (o : List UInt8) (i : Nat), i ≠ 0 →
      csvArgs ⟨o, true⟩ i ((l.map utf16).map v8ToStream) = (⟨o ++ utf8 (l.flatMap ('\t' :: ·)), true⟩, none) := by
    intro l
    induction l with
    | nil =>
      intro _ o i _
      show (_, none) = ((⟨o ++ [], true⟩ : CsvFile), none)
      rw [List.append_nil]
    | cons t l ih =>
      intro h o i hi
      have ht := v8ToStream_printable (h t List.mem_cons_self)
      rw [List.map_cons, List.map_cons, ht, csvArgs, if_pos hi]
      simp only [CsvFile.write, if_true]
      rw [ih (fun u hu => h u (List.mem_cons_of_mem _ hu)) _ _ (by omega)]
      rw [List.flatMap_cons, utf8_append, cons9, List.append_assoc, List.append_assoc]
      rfl
  by_cases hi : i = 0
  · subst hi
    rw [if_pos rfl]
    cases l with
    | nil =>
      show (_, none) = ((⟨o ++ [], true⟩ : CsvFile), none)
      rw [List.append_nil]
    | cons t l =>
      have ht := v8ToStream_printable (h t List.mem_cons_self)
      rw [List.map_cons, List.map_cons, ht, csvArgs, if_neg (by simp)]
      simp only [CsvFile.write, if_true]
      rw [gen l (fun u hu => h u (List.mem_cons_of_mem _ hu)) _ _ (by omega)]
      have e : ∀ (t : List Char) (l : List (List Char)), ['\t'].intercalate (t :: l) = t ++ l.flatMap ('\t' :: ·) := by
        intro t l
        induction l generalizing t with
        | nil => simp [List.intercalate]
        | cons u l ih =>
          have : ['\t'].intercalate (t :: u :: l) = t ++ '\t' :: ['\t'].intercalate (u :: l) := by
            simp [List.intercalate]
          rw [this, ih]
          simp
      rw [e, utf8_append, List.append_assoc]
  · rw [if_neg hi, gen l h o i hi]

theorem csvRun_prints (o : List UInt8) (L : List (List (List Char))) (h : ∀ l ∈ L, ∀ t ∈ l, Printable t)
    (rest : List CsvCall) : csvRun ⟨o, true⟩ (L.map (fun l => .print (l.map utf16)) ++ rest) =
      csvRun ⟨o ++ utf8 (L.flatMap csvLine), true⟩ rest := by
  induction L generalizing o with
  | nil =>
    show _ = csvRun ⟨o ++ [], true⟩ rest
    rw [List.append_nil]
    rfl
  | cons l L ih =>
    have ha := csvArgs_printable o 0 l (h l List.mem_cons_self)
    rw [if_pos rfl] at ha
    simp only [List.map_cons, List.cons_append, csvRun, csvPrint, ha, CsvFile.write, if_true]
    rw [ih _ (fun m hm => h m (List.mem_cons_of_mem _ hm))]
    congr 2
    simp only [List.flatMap_cons, utf8_append, csvLine, List.append_assoc]
    rfl

theorem csvArgs_closed (f : CsvFile) (hf : f.isOpen = false) (i : Nat)
    (l : List (Res (List UInt8))) : (csvArgs f i l).1 = f := by
  induction l generalizing i with
  | nil => rfl
  | cons a l ih =>
    have hw : ∀ b, f.write b = f := by intro b; unfold CsvFile.write; rw [hf]; rfl
    cases a with
    | error e => simp only [csvArgs, hw, ite_self]
    | ok b => simp only [csvArgs, hw, ite_self]; exact ih _

theorem csvRun_closed (f : CsvFile) (hf : f.isOpen = false) (calls : List CsvCall) : (csvRun f calls).1 = f := by
  induction calls with
  | nil => rfl
  | cons c calls ih =>
    cases c with
    | close =>
      have : csvClose f = f := by unfold csvClose; rw [← hf]
      simp only [csvRun, this, ih]
    | print args =>
      have h1 := csvArgs_closed f hf 0 (args.map v8ToStream)
      have hw : ∀ b, f.write b = f := by intro b; unfold CsvFile.write; rw [hf]; rfl
      simp only [csvRun, csvPrint]
      cases he : csvArgs f 0 (args.map v8ToStream) with
      | mk g e =>
        rw [he] at h1
        simp only at h1
        subst h1
        cases e with
        | none => simp only [hw]; exact ih
        | some e => rfl

/-- **C84** (text files): a script that prints lines of texts and closes the file: the file contains these lines,
in UTF-8, with tabs between the texts; what is printed after `close` is lost. -/
theorem csv_of_script_partial (L : List (List (List Char))) (h : ∀ l ∈ L, ∀ t ∈ l, Printable t)
    (after : List CsvCall) :
    csvRun CsvFile.new (L.map fun l => .print (l.map utf16)) = (⟨utf8 (L.flatMap csvLine), true⟩, none) ∧
    (csvRun CsvFile.new (L.map (fun l => .print (l.map utf16)) ++ .close :: after)).1 =
      ⟨utf8 (L.flatMap csvLine), false⟩ := by
  constructor
  · have := csvRun_prints [] L h []
    rw [List.append_nil, List.nil_append] at this
    rw [CsvFile.new, this]
    rfl
  · have := csvRun_prints [] L h (.close :: after)
    rw [List.nil_append] at this
    rw [CsvFile.new, this]
    simp only [csvRun, csvClose]
    rw [csvRun_closed _ rfl]

/-- **C84** (text files): if the texts have no tabs and ends of line, they can be read back from the
file: line by line, column by column. -/
theorem csv_readable (L : List (List (List Char))) (h : ∀ l ∈ L, l ≠ [] ∧ ∀ t ∈ l, '\t' ∉ t ∧ '\n' ∉ t) :
    csvColumns (L.flatMap csvLine) = L := by
  unfold csvColumns
  have hline : ∀ l ∈ L, '\n' ∉ ['\t'].intercalate l := by
    intro l hl hm
    obtain ⟨-, h2⟩ := h l hl
    clear hl
    induction l with
    | nil => simp [List.intercalate] at hm
    | cons t l ih =>
      cases l with
      | nil =>
        simp only [List.intercalate, List.intersperse, List.flatten_cons, List.flatten_nil, List.append_nil] at hm
        exact (h2 t List.mem_cons_self).2 hm
      | cons u l =>
        have : ['\t'].intercalate (t :: u :: l) = t ++ '\t' :: ['\t'].intercalate (u :: l) := by
          simp [List.intercalate]
        rw [this, List.mem_append, List.mem_cons] at hm
        rcases hm with hm | hm | hm
        · exact (h2 t List.mem_cons_self).2 hm
        · exact absurd hm (by decide)
        · exact ih hm (fun v hv => h2 v (List.mem_cons_of_mem _ hv))
  have hs : (L.flatMap csvLine).splitOn '\n' = (L.map (['\t'].intercalate ·)) ++ [[]] := by
    clear h
    induction L with
    | nil => rfl
    | cons l L ih =>
      simp only [List.flatMap_cons, csvLine, List.append_assoc, List.cons_append, List.nil_append, List.map_cons]
      rw [List.splitOn_append_cons_self_of_not_mem (hline l List.mem_cons_self)]
      congr 1
      exact ih (fun m hm => hline m (List.mem_cons_of_mem _ hm))
  rw [hs, List.dropLast_concat, List.map_map]
  refine (List.map_congr_left (g := id) ?_).trans (List.map_id L)
  intro l hl
  obtain ⟨h1, h2⟩ := h l hl
  simp only [Function.comp_apply, id_eq]
  exact List.splitOn_intercalate '\t' (fun t ht => (h2 t ht).1) h1

/-- **C84, disagreement** (text files): texts with tabs or ends of line are not quoted, so different calls give the
same file. -/
theorem csv_not_quoted :
    csvRun CsvFile.new [.print [utf16 ['a', '\t', 'b']]] = csvRun CsvFile.new [.print [utf16 ['a'], utf16 ['b']]] ∧
    csvRun CsvFile.new [.print [utf16 ['a', '\n', 'b']]] =
      csvRun CsvFile.new [.print [utf16 ['a']], .print [utf16 ['b']]] := by
  have p : ∀ t : List Char, '\x00' ∉ t → (utf16 t).length < 536870911 → Printable t := fun _ a b => ⟨a, b⟩
  have e := fun L h => (csv_of_script_partial L h []).1
  constructor
  · refine (e [[['a', '\t', 'b']]] ?_).trans (e [[['a'], ['b']]] ?_).symm
    · simp only [List.mem_singleton, forall_eq]; exact p _ (by decide) (by decide)
    · simp only [List.mem_singleton, forall_eq, List.mem_cons, forall_eq_or_imp]
      simp only [List.not_mem_nil, false_imp_iff, implies_true, and_true]
      exact ⟨p _ (by decide) (by decide), p _ (by decide) (by decide)⟩
  · refine (e [[['a', '\n', 'b']]] ?_).trans (e [[['a']], [['b']]] ?_).symm
    · simp only [List.mem_singleton, forall_eq]; exact p _ (by decide) (by decide)
    · simp only [List.mem_cons, forall_eq_or_imp, List.not_mem_nil, false_imp_iff, implies_true, and_true]
      exact ⟨p _ (by decide) (by decide), p _ (by decide) (by decide)⟩

/-- **C84** (text files): a text that is not UTF-16 ends the script; the lines printed before are in the file. -/
theorem csv_bad_text (L : List (List (List Char))) (h : ∀ l ∈ L, ∀ t ∈ l, Printable t) (args : List JsString)
    (hb : ∃ a ∈ args, ∀ cs, a ≠ utf16 cs) (after : List CsvCall) :
    let r := csvRun CsvFile.new (L.map (fun l => .print (l.map utf16)) ++ .print args :: after)
    r.2 ≠ none ∧ ∃ more, r.1.out = utf8 (L.flatMap csvLine) ++ more := by
  simp only
  have := csvRun_prints [] L h (.print args :: after)
  rw [List.nil_append] at this
  rw [CsvFile.new, this]
  have gen : ∀ (args : List JsString) (i : Nat) (f : CsvFile), f.isOpen = true → (∃ a ∈ args, ∀ cs, a ≠ utf16 cs) →
      ∃ g e more, csvArgs f i (args.map v8ToStream) = (g, some e) ∧ g.out = f.out ++ more := by
    intro args
    induction args with
    | nil => intro i f _ ⟨a, ha, _⟩; cases ha
    | cons a args ih =>
      intro i f hf hb
      obtain ⟨m, hm⟩ : ∃ m, (if i ≠ 0 then f.write [9] else f) = ⟨f.out ++ m, true⟩ := by
        split
        · exact ⟨[9], by unfold CsvFile.write; rw [hf]; rfl⟩
        · exact ⟨[], by rw [List.append_nil, ← hf]⟩
      cases hv : v8ToStream a with
      | error e => exact ⟨_, e, m, by rw [List.map_cons, hv, csvArgs, hm], rfl⟩
      | ok b =>
        have ha : ∃ cs, a = utf16 cs := by
          by_cases hl : a.length < 536870911
          · obtain ⟨cs, hc, -⟩ := (text_printed_partial a hl b).1 hv
            exact ⟨cs, hc⟩
          · rw [text_printed_overflow a (by omega)] at hv; cases hv
        obtain ⟨g, e, more, g1, g2⟩ := ih (i + 1) ⟨f.out ++ m ++ b, true⟩ rfl (by
          obtain ⟨x, hx, hn⟩ := hb
          rcases List.mem_cons.1 hx with rfl | hx
          · obtain ⟨cs, hc⟩ := ha; exact absurd hc (hn cs)
          · exact ⟨x, hx, hn⟩)
        refine ⟨g, e, m ++ b ++ more, ?_, by rw [g2]; simp⟩
        rw [List.map_cons, hv, csvArgs, hm]
        exact g1
  obtain ⟨g, e, more, g1, g2⟩ := gen args 0 ⟨utf8 (L.flatMap csvLine), true⟩ rfl hb
  simp only [csvRun, csvPrint, g1]
  exact ⟨by simp, more, g2⟩

/-- Two lines. -/
example : Printable "Straße".toList ∧ Printable "1".toList ∧
    csvLine ["Straße".toList, "1".toList] = "Straße\t1\n".toList ∧
    csvColumns "Straße\t1\n\t2\n".toList = [["Straße".toList, "1".toList], [[], "2".toList]] := by
  refine ⟨⟨by decide, by decide⟩, ⟨by decide, by decide⟩, by decide, by decide⟩

/-- Half a pair is not UTF-16. -/
example : ∀ cs, [0xD83D] ≠ utf16 cs := by
  intro cs h
  have := (decodeUtf16_iff _ _).2 h
  exact absurd this (by rw [show decodeUtf16 [0xD83D] = none by decide]; simp)

end Osmium

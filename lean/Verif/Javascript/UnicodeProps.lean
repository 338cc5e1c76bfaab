import Verif.Javascript.Unicode

/-
C79: texts to and from scripts.
-/
namespace Osmium

namespace Spec

/-- UTF-16: a unit for each character below 65536, a pair of units for each of the others. -/
def utf16 (cs : List Char) : JsString :=
  cs.flatMap fun c =>
    if c.toNat < 65536 then [UInt16.ofNat c.toNat]
    else [UInt16.ofNat (55296 + (c.toNat - 65536) / 1024), UInt16.ofNat (56320 + (c.toNat - 65536) % 1024)]

end Spec
open Spec

theorem utf16_eq (cs : List Char) : utf16 cs = cs.flatMap utf16Char := rfl

/-! ### UTF-16 -/

theorem char_valid (c : Char) : c.toNat < 0xD800 ∨ 0xDFFF < c.toNat ∧ c.toNat < 0x110000 := by
  exact c.valid

theorem char_ofNat_toNat {n : Nat} (h : n < 0xD800 ∨ 0xDFFF < n ∧ n < 0x110000) : (Char.ofNat n).toNat = n := by
  have hv : n.isValidChar := by simpa [Nat.isValidChar] using h
  simp [Char.ofNat, hv, Char.ofNatAux, Char.toNat]

theorem char_toNat_inj {c d : Char} (h : c.toNat = d.toNat) : c = d := by
  apply Char.ext
  apply UInt32.toNat_inj.1
  exact h

theorem u16_toNat {n : Nat} (h : n < 65536) : (UInt16.ofNat n).toNat = n := by
  simp [Nat.mod_eq_of_lt h]

theorem u16_ext {u v : UInt16} (h : u.toNat = v.toNat) : u = v := UInt16.toNat_inj.1 h

theorem utf16Char_length (c : Char) : (utf16Char c).length = 1 ∨ (utf16Char c).length = 2 := by
  unfold utf16Char; split <;> simp

theorem decodeUtf16_single {u : UInt16} (us : JsString) (h1 : isLead u = false) (h2 : isTrail u = false) :
    decodeUtf16 (u :: us) = (decodeUtf16 us).map (Char.ofNat u.toNat :: ·) := by
  cases us with
  | nil => simp [decodeUtf16, h1, h2]
  | cons v us => simp [decodeUtf16, h1, h2]

theorem decodeUtf16_char (c : Char) (us : JsString) :
    decodeUtf16 (utf16Char c ++ us) = (decodeUtf16 us).map (c :: ·) := by
  have hv := char_valid c
  unfold utf16Char
  split
  · rename_i h
    have e := u16_toNat h
    have h1 : isLead (UInt16.ofNat c.toNat) = false := by
      unfold isLead; rw [e]; simp; omega
    have h2 : isTrail (UInt16.ofNat c.toNat) = false := by
      unfold isTrail; rw [e]; simp; omega
    rw [List.cons_append, List.nil_append, decodeUtf16_single us h1 h2, e,
      char_toNat_inj (char_ofNat_toNat hv : (Char.ofNat c.toNat).toNat = c.toNat)]
  · rename_i h
    have e1 : (UInt16.ofNat (0xD800 + (c.toNat - 0x10000) / 0x400)).toNat = 0xD800 + (c.toNat - 0x10000) / 0x400 :=
      u16_toNat (by omega)
    have e2 : (UInt16.ofNat (0xDC00 + (c.toNat - 0x10000) % 0x400)).toNat = 0xDC00 + (c.toNat - 0x10000) % 0x400 :=
      u16_toNat (by omega)
    have h1 : isLead (UInt16.ofNat (0xD800 + (c.toNat - 0x10000) / 0x400)) = true := by
      unfold isLead; rw [e1]; simp; omega
    have h2 : isTrail (UInt16.ofNat (0xDC00 + (c.toNat - 0x10000) % 0x400)) = true := by
      unfold isTrail; rw [e2]; simp; omega
    have hp : pairChar (UInt16.ofNat (0xD800 + (c.toNat - 0x10000) / 0x400))
        (UInt16.ofNat (0xDC00 + (c.toNat - 0x10000) % 0x400)) = c := by
      unfold pairChar
      rw [e1, e2]
      apply char_toNat_inj
      rw [show 0x10000 + (0xD800 + (c.toNat - 0x10000) / 0x400 - 0xD800) * 0x400 +
        (0xDC00 + (c.toNat - 0x10000) % 0x400 - 0xDC00) = c.toNat by omega]
      exact char_ofNat_toNat hv
    simp only [List.cons_append, List.nil_append, decodeUtf16, h1, h2, if_true, hp]

theorem decode_utf16 (cs : List Char) : decodeUtf16 (utf16 cs) = some cs := by
  induction cs with
  | nil => rfl
  | cons c cs ih =>
    have : utf16 (c :: cs) = utf16Char c ++ utf16 cs := by simp [utf16_eq]
    rw [this, decodeUtf16_char, ih]
    rfl

/-- What decodes is an encoding. -/
theorem decodeUtf16_sound (us : JsString) : ∀ cs, decodeUtf16 us = some cs → us = utf16 cs := by
  have one : ∀ u : UInt16, isLead u = false → isTrail u = false → utf16Char (Char.ofNat u.toNat) = [u] := by
    intro u h1 h2
    have hu := u.toNat_lt
    have hv : u.toNat < 0xD800 ∨ 0xDFFF < u.toNat ∧ u.toNat < 0x110000 := by
      simp [isLead, isTrail] at h1 h2
      omega
    have e := char_ofNat_toNat hv
    unfold utf16Char
    rw [e, if_pos (by omega)]
    simp
  have two : ∀ u v : UInt16, isLead u = true → isTrail v = true → utf16Char (pairChar u v) = [u, v] := by
    intro u v h1 h2
    simp only [isLead, isTrail, Bool.and_eq_true, decide_eq_true_eq] at h1 h2
    have e := char_ofNat_toNat (n := 0x10000 + (u.toNat - 0xD800) * 0x400 + (v.toNat - 0xDC00)) (by omega)
    unfold utf16Char pairChar
    rw [e, if_neg (by omega)]
    have e1 : 0xD800 + (0x10000 + (u.toNat - 0xD800) * 0x400 + (v.toNat - 0xDC00) - 0x10000) / 0x400 = u.toNat := by omega
    have e2 : 0xDC00 + (0x10000 + (u.toNat - 0xD800) * 0x400 + (v.toNat - 0xDC00) - 0x10000) % 0x400 = v.toNat := by omega
    rw [e1, e2]
    simp
  fun_induction decodeUtf16 us with
  | case1 => intro cs h; cases h; rfl
  | case2 u h => intro cs h; cases h
  | case3 u h =>
    intro cs hc
    cases hc
    simp at h
    simp [utf16_eq, one u h.1 h.2]
  | case4 u v us h1 h2 ih =>
    intro cs hc
    obtain ⟨ds, hd, rfl⟩ := Option.map_eq_some_iff.1 hc
    simp [utf16_eq, two u v h1 h2]
    exact ih ds hd
  | case5 => intro cs h; cases h
  | case6 => intro cs h; cases h
  | case7 u v us h1 h2 ih =>
    intro cs hc
    obtain ⟨ds, hd, rfl⟩ := Option.map_eq_some_iff.1 hc
    have := ih ds hd
    simp [utf16_eq, one u (by simpa using h1) (by simpa using h2)]
    exact this

theorem decodeUtf16_iff (us : JsString) (cs : List Char) : decodeUtf16 us = some cs ↔ us = utf16 cs :=
  ⟨decodeUtf16_sound us cs, fun h => h ▸ decode_utf16 cs⟩

theorem utf16_injective {a b : List Char} (h : utf16 a = utf16 b) : a = b := by
  have := decode_utf16 a
  rw [h, decode_utf16] at this
  exact (Option.some.inj this).symm

/-! ### UTF-8 -/

theorem decodeUtf8_iff (b : List UInt8) (cs : List Char) : decodeUtf8 b = some cs ↔ b = utf8 cs := by
  have key : ∀ cs : List Char, cs.utf8Encode = ByteArray.mk (utf8 cs).toArray := by
    intro cs
    unfold List.utf8Encode utf8
    apply ByteArray.ext
    simp
  unfold decodeUtf8
  constructor
  · intro h
    obtain ⟨a, ha, rfl⟩ := Option.map_eq_some_iff.1 h
    have h1 : (ByteArray.mk b.toArray).utf8Decode?.isSome := by rw [ha]; rfl
    have h2 := ByteArray.utf8Encode_get_utf8Decode? (b := ByteArray.mk b.toArray) (h := h1)
    simp only [ha, Option.get_some] at h2
    rw [key] at h2
    simpa using (congrArg (fun x : ByteArray => x.data.toList) h2).symm
  · rintro rfl
    rw [← key, List.utf8Decode?_utf8Encode]
    rfl

theorem utf8_injective {a b : List Char} (h : utf8 a = utf8 b) : a = b := by
  have h1 := (decodeUtf8_iff (utf8 a) a).2 rfl
  have h2 := (decodeUtf8_iff (utf8 a) b).2 h
  rw [h1] at h2
  exact Option.some.inj h2

/-! ### Sizes -/

theorem utf8Char_length (c : Char) : 1 ≤ (String.utf8EncodeChar c).length ∧ (String.utf8EncodeChar c).length ≤ 4 := by
  rw [String.length_utf8EncodeChar]
  exact ⟨c.utf8Size_pos, c.utf8Size_le_four⟩

theorem utf8Size_eq (c : Char) : (String.utf8EncodeChar c).length =
    if c.toNat ≤ 127 then 1 else if c.toNat ≤ 2047 then 2 else if c.toNat ≤ 65535 then 3 else 4 := by
  rw [String.length_utf8EncodeChar]
  have h1 : c.val ≤ UInt32.ofNatLT 127 (by decide) ↔ c.toNat ≤ 127 := UInt32.le_iff_toNat_le
  have h2 : c.val ≤ UInt32.ofNatLT 2047 (by decide) ↔ c.toNat ≤ 2047 := UInt32.le_iff_toNat_le
  have h3 : c.val ≤ UInt32.ofNatLT 65535 (by decide) ↔ c.toNat ≤ 65535 := UInt32.le_iff_toNat_le
  unfold Char.utf8Size
  simp only [h1, h2, h3]

theorem utf8Char_length_units (c : Char) : (String.utf8EncodeChar c).length ≤ 3 * (utf16Char c).length := by
  rw [utf8Size_eq]
  unfold utf16Char
  split <;> simp <;> split <;> (try simp) <;> (try split) <;> (try simp) <;> (try split) <;> (try simp) <;> omega

theorem utf8_length_le (cs : List Char) : (utf8 cs).length ≤ 4 * cs.length := by
  induction cs with
  | nil => simp [utf8]
  | cons c cs ih =>
    have := utf8Char_length c
    simp only [utf8, List.flatMap_cons, List.length_append, List.length_cons] at ih ⊢
    omega

theorem utf16_length_le (cs : List Char) : (utf16 cs).length ≤ 2 * cs.length := by
  induction cs with
  | nil => simp [utf16_eq]
  | cons c cs ih =>
    have := utf16Char_length c
    simp only [utf16_eq, List.flatMap_cons, List.length_append, List.length_cons] at ih ⊢
    omega

theorem utf8_length_units (cs : List Char) : (utf8 cs).length ≤ 3 * (utf16 cs).length := by
  induction cs with
  | nil => simp [utf8]
  | cons c cs ih =>
    have := utf8Char_length_units c
    simp only [utf8, utf16_eq, List.flatMap_cons, List.length_append] at ih ⊢
    omega

theorem fitUtf8_all (cs : List Char) : ∀ cap, (utf8 cs).length ≤ cap → fitUtf8 cap cs = utf8 cs := by
  induction cs with
  | nil => intro cap _; rfl
  | cons c cs ih =>
    intro cap h
    simp only [utf8, List.flatMap_cons, List.length_append] at h ih ⊢
    unfold fitUtf8
    rw [if_pos (by omega), ih _ (by omega)]

theorem icuCode_zero {n cap : Nat} : icuCode n cap = .zeroError ↔ n < cap := by
  unfold icuCode
  split
  · simp [*]
  · split <;> simp [*]

/-! ### The conversions -/

/-- **C79.**  A C string becomes a string of the script exactly if it is UTF-8 and shorter than the buffer
(2 units for each of the `characters`, one of which must stay free); then it is the same text. -/
theorem text_to_script_iff (characters : Nat) (cstring : List UInt8) (s : JsString) :
    utf8ToV8 characters cstring = .ok s ↔
      ∃ cs, cstring = utf8 cs ∧ (utf16 cs).length < 2 * characters ∧ s = utf16 cs := by
  unfold utf8ToV8 strFromUTF8
  cases hd : decodeUtf8 cstring with
  | none =>
    simp only [reduceCtorEq, false_iff, not_exists]
    rintro cs ⟨h, -⟩
    rw [(decodeUtf8_iff _ _).2 h] at hd
    cases hd
  | some cs =>
    have hb := (decodeUtf8_iff _ _).1 hd
    have e : ∀ ds, cstring = utf8 ds ↔ ds = cs := by
      intro ds
      rw [hb]
      exact ⟨fun h => (utf8_injective h).symm, fun h => h ▸ rfl⟩
    simp only [e]
    change (match ((utf16 cs).take (characters * 2), icuCode (utf16 cs).length (characters * 2)) with
      | (out, .zeroError) => Except.ok out | _ => Except.error _) = Except.ok s ↔ _
    by_cases h : (utf16 cs).length < characters * 2
    · rw [icuCode_zero.2 h]
      simp only [Except.ok.injEq]
      rw [List.take_of_length_le (by omega)]
      constructor
      · rintro rfl; exact ⟨cs, rfl, by omega, rfl⟩
      · rintro ⟨_, rfl, -, rfl⟩; rfl
    · have : icuCode (utf16 cs).length (characters * 2) ≠ .zeroError := fun e => h (icuCode_zero.1 e)
      generalize icuCode (utf16 cs).length (characters * 2) = k at this
      constructor
      · intro hh
        cases k <;> simp_all
      · rintro ⟨_, rfl, h', -⟩; omega

/-- Otherwise there is an exception. -/
theorem text_to_script_total (characters : Nat) (cstring : List UInt8) :
    (∃ s, utf8ToV8 characters cstring = .ok s) ∨
      utf8ToV8 characters cstring = .error (.exn "UTF8_to_UTF16_Conversion_Error") := by
  unfold utf8ToV8
  split
  · exact .inl ⟨_, rfl⟩
  · exact .inr rfl

theorem v8ToUtf8_iff (characters : Nat) (s : JsString) (b : List UInt8) :
    v8ToUtf8 characters s = .ok b ↔
      ∃ cs, s.take (2 * characters) = utf16 cs ∧ (utf8 cs).length < 4 * characters ∧ b = cString (utf8 cs) := by
  have ht : (s.take (characters * 2)).take (min (characters * 2) s.length) = s.take (2 * characters) := by
    rw [List.take_take, Nat.mul_comm characters 2]
    by_cases h : 2 * characters ≤ s.length
    · rw [Nat.min_eq_left h, Nat.min_self]
    · rw [Nat.min_eq_right (by omega : s.length ≤ 2 * characters), Nat.min_eq_left (by omega),
        List.take_of_length_le (by omega), List.take_of_length_le (by omega)]
  unfold v8ToUtf8 strToUTF8
  rw [ht]
  cases hd : decodeUtf16 (s.take (2 * characters)) with
  | none =>
    simp only [reduceCtorEq, false_iff, not_exists]
    rintro cs ⟨h, -⟩
    rw [(decodeUtf16_iff _ _).2 h] at hd
    cases hd
  | some cs =>
    have hb := (decodeUtf16_iff _ _).1 hd
    have e : ∀ ds, s.take (2 * characters) = utf16 ds ↔ ds = cs := by
      intro ds
      rw [hb]
      exact ⟨fun h => (utf16_injective h).symm, fun h => h ▸ rfl⟩
    simp only [e]
    change (match (fitUtf8 (characters * 4) cs, icuCode (utf8 cs).length (characters * 4)) with
      | (out, .zeroError) => Except.ok (cString out) | _ => Except.error _) = Except.ok b ↔ _
    by_cases h : (utf8 cs).length < characters * 4
    · rw [icuCode_zero.2 h]
      simp only [Except.ok.injEq]
      rw [fitUtf8_all cs _ (by omega)]
      constructor
      · rintro rfl; exact ⟨cs, rfl, by omega, rfl⟩
      · rintro ⟨_, rfl, -, rfl⟩; rfl
    · have : icuCode (utf8 cs).length (characters * 4) ≠ .zeroError := fun e => h (icuCode_zero.1 e)
      generalize icuCode (utf8 cs).length (characters * 4) = k at this
      constructor
      · intro hh
        cases k <;> simp_all
      · rintro ⟨_, rfl, h', -⟩; omega

theorem cString_utf8 {cs : List Char} (h : '\x00' ∉ cs) : cString (utf8 cs) = utf8 cs := by
  have := cString_eq (utf8 cs) [] (utf8_nonzero cs h) (.inl rfl)
  simpa using this

/-- **C79.**  A text of at most 2 units for each of the `characters` is converted without change, if it
has no zero character and its UTF-8 is shorter than the buffer. -/
theorem text_from_script_partial (characters : Nat) (cs : List Char) (h0 : '\x00' ∉ cs)
    (h1 : (utf16 cs).length ≤ 2 * characters) (h2 : (utf8 cs).length < 4 * characters) :
    v8ToUtf8 characters (utf16 cs) = .ok (utf8 cs) :=
  (v8ToUtf8_iff _ _ _).2 ⟨cs, List.take_of_length_le h1, h2, (cString_utf8 h0).symm⟩

/-- **C79.**  There and back: every text that gets to a script comes back unchanged. -/
theorem text_there_and_back (characters : Nat) (b : List UInt8) (s : JsString) (h0 : 0 ∉ b)
    (h : utf8ToV8 characters b = .ok s) (h2 : b.length < 4 * characters) : v8ToUtf8 characters s = .ok b := by
  obtain ⟨cs, rfl, h1, rfl⟩ := (text_to_script_iff _ _ _).1 h
  refine text_from_script_partial characters cs (fun hz => h0 ?_) (by omega) h2
  exact List.mem_flatMap.2 ⟨_, hz, by decide⟩

/-- **C79.**  Keys, values, user names and roles of up to 255 characters, whatever characters, get to
scripts and back (`characters` is 512 for all of them). -/
theorem osm_texts_pass (cs : List Char) (h0 : '\x00' ∉ cs) (h : cs.length ≤ 255) :
    utf8ToV8 512 (utf8 cs) = .ok (utf16 cs) ∧ v8ToUtf8 512 (utf16 cs) = .ok (utf8 cs) := by
  have h1 := utf16_length_le cs
  have h2 := utf8_length_le cs
  exact ⟨(text_to_script_iff _ _ _).2 ⟨cs, rfl, by omega, rfl⟩, text_from_script_partial _ _ h0 (by omega) (by omega)⟩

/-- **C79, disagreement.**  A longer text is cut without notice: what is converted is the beginning. -/
theorem text_from_script_cut (characters : Nat) (as bs : List Char) (h0 : '\x00' ∉ as)
    (h1 : (utf16 as).length = 2 * characters) (h2 : (utf8 as).length < 4 * characters) :
    v8ToUtf8 characters (utf16 (as ++ bs)) = .ok (utf8 as) := by
  refine (v8ToUtf8_iff _ _ _).2 ⟨as, ?_, h2, (cString_utf8 h0).symm⟩
  rw [← h1]
  simp [utf16_eq]

theorem utf8_replicate (n : Nat) (c : Char) : (utf8 (List.replicate n c)).length = n * (String.utf8EncodeChar c).length := by
  induction n with
  | zero => simp [utf8]
  | succ n ih =>
    simp only [utf8, List.replicate_succ, List.flatMap_cons, List.length_append] at ih ⊢
    rw [ih, Nat.succ_mul, Nat.add_comm]

theorem utf16_replicate (n : Nat) (c : Char) : (utf16 (List.replicate n c)).length = n * (utf16Char c).length := by
  induction n with
  | zero => simp [utf16_eq]
  | succ n ih =>
    simp only [utf16_eq, List.replicate_succ, List.flatMap_cons, List.length_append] at ih ⊢
    rw [ih, Nat.succ_mul, Nat.add_comm]

example : ∃ as bs : List Char, '\x00' ∉ as ∧ (utf16 as).length = 2 * 512 ∧ (utf8 as).length < 4 * 512 ∧ bs ≠ [] :=
  ⟨List.replicate 1024 'a', ['b'], fun h => absurd (List.eq_of_mem_replicate h) (by decide),
    by rw [utf16_replicate]; rfl, by rw [utf8_replicate]; decide, by decide⟩

/-- **C79, disagreement.**  A text of `characters` characters that need pairs of units is refused, although
`characters` is documented as the maximum. -/
theorem text_of_maximal_size_refused (characters : Nat) (c : Char) (hc : 0x10000 ≤ c.toNat) :
    utf8ToV8 characters (utf8 (List.replicate characters c)) = .error (.exn "UTF8_to_UTF16_Conversion_Error") ∧
    v8ToUtf8 characters (utf16 (List.replicate characters c)) = .error (.exn "UTF16_to_UTF8_Conversion_Error") := by
  have e1 : (utf16Char c).length = 2 := by unfold utf16Char; rw [if_neg (by omega)]; rfl
  have e2 : (String.utf8EncodeChar c).length = 4 := by
    rw [utf8Size_eq, if_neg (by omega), if_neg (by omega), if_neg (by omega)]
  have l1 : (utf16 (List.replicate characters c)).length = 2 * characters := by
    rw [utf16_replicate, e1, Nat.mul_comm]
  have l2 : (utf8 (List.replicate characters c)).length = 4 * characters := by
    rw [utf8_replicate, e2, Nat.mul_comm]
  constructor
  · rcases text_to_script_total characters (utf8 (List.replicate characters c)) with ⟨s, h⟩ | h
    · obtain ⟨cs, h1, h2, -⟩ := (text_to_script_iff _ _ _).1 h
      rw [← utf8_injective h1, l1] at h2
      omega
    · exact h
  · cases h : v8ToUtf8 characters (utf16 (List.replicate characters c)) with
    | ok b =>
      obtain ⟨cs, h1, h2, -⟩ := (v8ToUtf8_iff _ _ _).1 h
      rw [List.take_of_length_le (by omega)] at h1
      rw [← utf16_injective h1, l2] at h2
      omega
    | error e =>
      unfold v8ToUtf8 at h
      split at h
      · cases h
      · cases h; rfl

example : 0x10000 ≤ '😀'.toNat := by decide

/-- **C79.**  Texts printed by a script: every text without zero characters is written as UTF-8, up to a
size of about 2^29 units; half pairs are an error. -/
theorem text_printed_partial (s : JsString) (hs : s.length < 536870911) (b : List UInt8) :
    v8ToStream s = .ok b ↔ ∃ cs, s = utf16 cs ∧ b = cString (utf8 cs) := by
  unfold v8ToStream strToUTF8
  have hin : InS32 (4 * ((s.length : Int) + 1)) := by unfold InS32; omega
  simp only [hin, not_true_eq_false, if_false]
  cases hd : decodeUtf16 s with
  | none =>
    simp only [reduceCtorEq, false_iff, not_exists]
    rintro cs ⟨h, -⟩
    rw [(decodeUtf16_iff _ _).2 h] at hd
    cases hd
  | some cs =>
    have hb := (decodeUtf16_iff _ _).1 hd
    have hl := utf8_length_units cs
    rw [← hb] at hl
    have hcap : (4 * ((s.length : Int) + 1)).toNat = 4 * (s.length + 1) := by omega
    rw [hcap]
    change (match (fitUtf8 (4 * (s.length + 1)) cs, icuCode (utf8 cs).length (4 * (s.length + 1))) with
      | (out, .zeroError) => Except.ok (cString out) | _ => Except.error _) = Except.ok b ↔ _
    rw [icuCode_zero.2 (by omega), fitUtf8_all cs _ (by omega)]
    simp only [Except.ok.injEq]
    constructor
    · rintro rfl; exact ⟨cs, hb, rfl⟩
    · rintro ⟨ds, h1, rfl⟩
      rw [hb] at h1
      rw [utf16_injective h1]

/-- **C79, disagreement.**  Printing a text of 2^29 - 1 units is undefined (the size of the buffer does not
fit an `int`). -/
theorem text_printed_overflow (s : JsString) (hs : 536870911 ≤ s.length) : v8ToStream s = .error .ub := by
  unfold v8ToStream
  have hin : ¬ InS32 (4 * ((s.length : Int) + 1)) := by unfold InS32; omega
  simp only [hin, not_false_eq_true, if_true]

/-- The word "Straße 😀" gets to the script and back. -/
example : utf8ToV8 512 (utf8 "Straße 😀".toList) = .ok (utf16 "Straße 😀".toList) ∧
    v8ToUtf8 512 (utf16 "Straße 😀".toList) = .ok (utf8 "Straße 😀".toList) ∧
    utf16 "ß😀".toList = [0xDF, 0xD83D, 0xDE00] := by
  refine ⟨?_, ?_, by decide⟩
  · exact (osm_texts_pass _ (by decide) (by decide)).1
  · exact (osm_texts_pass _ (by decide) (by decide)).2

end Osmium

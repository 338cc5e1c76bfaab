import Verif.Export.Model

/-
C58: clipping a UTF-8 string.
-/
namespace Osmium

namespace Spec

/-- UTF-8. -/
def utf8 (cs : List Char) : List UInt8 := cs.flatMap String.utf8EncodeChar

end Spec
open Spec

/-! ### Bytes -/

/-- The second and later bytes of a character. -/
def IsCont (b : UInt8) : Prop := b &&& 128 ≠ 0 ∧ b &&& 64 = 0 ∧ b &&& 224 ≠ 224 ∧ b &&& 240 ≠ 240 ∧ b ≠ 0

theorem byte_facts (n : Nat) (h : n < 256) :
    (n < 128 → UInt8.ofNat n &&& 128 = 0 ∧ UInt8.ofNat n &&& 240 ≠ 240) ∧
    (128 ≤ n → n < 192 → IsCont (UInt8.ofNat n)) ∧
    (192 ≤ n → UInt8.ofNat n &&& 128 ≠ 0 ∧ UInt8.ofNat n &&& 64 ≠ 0) ∧
    (192 ≤ n → n < 224 → UInt8.ofNat n &&& 224 ≠ 224) ∧
    (224 ≤ n → UInt8.ofNat n &&& 224 = 224) ∧
    (224 ≤ n → n < 240 → UInt8.ofNat n &&& 240 ≠ 240) ∧
    (240 ≤ n → UInt8.ofNat n &&& 240 = 240) ∧
    (0 < n → UInt8.ofNat n ≠ 0) := by
  have key : ∀ n : Fin 256,
    (n.val < 128 → UInt8.ofNat n &&& 128 = 0 ∧ UInt8.ofNat n &&& 240 ≠ 240) ∧
    (128 ≤ n.val → n.val < 192 → UInt8.ofNat n &&& 128 ≠ 0 ∧ UInt8.ofNat n &&& 64 = 0 ∧ UInt8.ofNat n &&& 224 ≠ 224 ∧
      UInt8.ofNat n &&& 240 ≠ 240 ∧ UInt8.ofNat n ≠ 0) ∧
    (192 ≤ n.val → UInt8.ofNat n &&& 128 ≠ 0 ∧ UInt8.ofNat n &&& 64 ≠ 0) ∧
    (192 ≤ n.val → n.val < 224 → UInt8.ofNat n &&& 224 ≠ 224) ∧
    (224 ≤ n.val → UInt8.ofNat n &&& 224 = 224) ∧
    (224 ≤ n.val → n.val < 240 → UInt8.ofNat n &&& 240 ≠ 240) ∧
    (240 ≤ n.val → UInt8.ofNat n &&& 240 = 240) ∧
    (0 < n.val → UInt8.ofNat n ≠ 0) := by decide +kernel
  exact key ⟨n, h⟩

/-- The forms of an encoded character. -/
inductive Utf8Form : List UInt8 → Prop
  | one (a : UInt8) : a &&& 128 = 0 → a &&& 240 ≠ 240 → a ≠ 0 → Utf8Form [a]
  | two (l c1 : UInt8) : l &&& 128 ≠ 0 → l &&& 64 ≠ 0 → l &&& 224 ≠ 224 → l ≠ 0 → IsCont c1 → Utf8Form [l, c1]
  | three (l c1 c2 : UInt8) : l &&& 128 ≠ 0 → l &&& 64 ≠ 0 → l &&& 224 = 224 → l &&& 240 ≠ 240 → l ≠ 0 →
      IsCont c1 → IsCont c2 → Utf8Form [l, c1, c2]
  | four (l c1 c2 c3 : UInt8) : l &&& 128 ≠ 0 → l &&& 64 ≠ 0 → l &&& 224 = 224 → l &&& 240 = 240 → l ≠ 0 →
      IsCont c1 → IsCont c2 → IsCont c3 → Utf8Form [l, c1, c2, c3]

theorem utf8Form (c : Char) (h : c ≠ '\x00') : Utf8Form (String.utf8EncodeChar c) := by
  have hv : c.val.toNat ≠ 0 := by
    intro e
    apply h
    apply Char.ext
    apply UInt32.toNat_inj.1
    rw [e]; rfl
  have cont : ∀ k, IsCont (UInt8.ofNat (k % 64 + 128)) := fun k =>
    (byte_facts (k % 64 + 128) (by omega)).2.1 (by omega) (by omega)
  unfold String.utf8EncodeChar
  simp only
  generalize c.val.toNat = v at hv
  split
  · rename_i h1
    have f := byte_facts v (by omega)
    exact .one _ (f.1 (by omega)).1 (f.1 (by omega)).2 (f.2.2.2.2.2.2.2 (by omega))
  · split
    · have f := byte_facts (v / 64 % 32 + 192) (by omega)
      exact .two _ _ (f.2.2.1 (by omega)).1 (f.2.2.1 (by omega)).2 (f.2.2.2.1 (by omega) (by omega))
        (f.2.2.2.2.2.2.2 (by omega)) (cont _)
    · split
      · have f := byte_facts (v / 4096 % 16 + 224) (by omega)
        exact .three _ _ _ (f.2.2.1 (by omega)).1 (f.2.2.1 (by omega)).2 (f.2.2.2.2.1 (by omega))
          (f.2.2.2.2.2.1 (by omega) (by omega)) (f.2.2.2.2.2.2.2 (by omega)) (cont _) (cont _)
      · have f := byte_facts (v / 262144 % 8 + 240) (by omega)
        exact .four _ _ _ _ (f.2.2.1 (by omega)).1 (f.2.2.1 (by omega)).2 (f.2.2.2.2.1 (by omega))
          (f.2.2.2.2.2.2.1 (by omega)) (f.2.2.2.2.2.2.2 (by omega)) (cont _) (cont _) (cont _)

/-! ### The cut, seen from the end of the buffer -/

theorem destAt_append (a : List UInt8) (b : UInt8) (r : List UInt8) (j : Int) (h : j = a.length) :
    destAt (a ++ b :: r) j = .ok b := by
  subst h
  simp [destAt]

theorem cString_eq (a : List UInt8) (r : List UInt8) (h : ∀ b ∈ a, b ≠ 0) (hr : r = [] ∨ r.head? = some 0) : cString (a ++ r) = a := by
  unfold cString
  rw [List.takeWhile_append_of_pos (by simpa using h)]
  rcases hr with rfl | hr
  · simp
  · cases r with
    | nil => simp at hr
    | cons c cs => simp at hr; subst hr; simp

theorem set_append (a : List UInt8) (b : UInt8) (r : List UInt8) (j : Int) (h : j = a.length) :
    (a ++ b :: r).set j.toNat 0 = a ++ 0 :: r := by
  subst h
  simp

/-- Cut after a whole character that is not the last byte of a character of two bytes at the beginning of
the buffer. -/
theorem cut_keep (a e : List UInt8) (h : Utf8Form e) (hz : a = [] ∨ ∃ a' z, a = a' ++ [z] ∧ z &&& 240 ≠ 240)
    (hbad : ¬ (a = [] ∧ e.length = 2)) : cutUtf8 (a ++ e) = .ok (a ++ e) := by
  cases h with
  | one x h1 h2 h3 =>
    unfold cutUtf8
    simp only
    rw [destAt_append a x [] _ (by simp)]
    simp [h1]
  | two l c1 h1 h2 h3 h4 h5 =>
    rcases hz with rfl | ⟨a', z, rfl, hz⟩
    · exact absurd ⟨rfl, rfl⟩ hbad
    · unfold cutUtf8
      simp only
      have e1 : a' ++ [z] ++ [l, c1] = (a' ++ [z, l]) ++ c1 :: [] := by simp
      have e2 : a' ++ [z] ++ [l, c1] = (a' ++ [z]) ++ l :: [c1] := by simp
      have e3 : a' ++ [z] ++ [l, c1] = a' ++ z :: [l, c1] := by simp
      have d1 := destAt_append (a' ++ [z, l]) c1 [] (((a' ++ [z] ++ [l, c1]).length : Int) - 1) (by simp; omega)
      have d2 := destAt_append (a' ++ [z]) l [c1] (((a' ++ [z] ++ [l, c1]).length : Int) - 1 - 1) (by simp; omega)
      have d3 := destAt_append a' z [l, c1] (((a' ++ [z] ++ [l, c1]).length : Int) - 1 - 2) (by simp; omega)
      rw [← e1] at d1
      rw [← e2] at d2
      rw [← e3] at d3
      simp only [d1, d2, d3]
      rw [if_pos h5.1, if_neg (by simp [h5.2.1]), if_neg h3, if_neg hz]
  | three l c1 c2 h1 h2 h3 h4 h5 h6 h7 =>
    unfold cutUtf8
    simp only
    have e1 : a ++ [l, c1, c2] = (a ++ [l, c1]) ++ c2 :: [] := by simp
    have e2 : a ++ [l, c1, c2] = (a ++ [l]) ++ c1 :: [c2] := by simp
    have d1 := destAt_append (a ++ [l, c1]) c2 [] (((a ++ [l, c1, c2]).length : Int) - 1) (by simp; omega)
    have d2 := destAt_append (a ++ [l]) c1 [c2] (((a ++ [l, c1, c2]).length : Int) - 1 - 1) (by simp; omega)
    have d3 := destAt_append a l [c1, c2] (((a ++ [l, c1, c2]).length : Int) - 1 - 2) (by simp; omega)
    rw [← e1] at d1
    rw [← e2] at d2
    simp only [d1, d2, d3]
    rw [if_pos h7.1, if_neg (by simp [h7.2.1]), if_neg h6.2.2.1, if_neg h4]
  | four l c1 c2 c3 h1 h2 h3 h4 h5 h6 h7 h8 =>
    unfold cutUtf8
    simp only
    have e1 : a ++ [l, c1, c2, c3] = (a ++ [l, c1, c2]) ++ c3 :: [] := by simp
    have e2 : a ++ [l, c1, c2, c3] = (a ++ [l, c1]) ++ c2 :: [c3] := by simp
    have e3 : a ++ [l, c1, c2, c3] = (a ++ [l]) ++ c1 :: [c2, c3] := by simp
    have d1 := destAt_append (a ++ [l, c1, c2]) c3 [] (((a ++ [l, c1, c2, c3]).length : Int) - 1) (by simp; omega)
    have d2 := destAt_append (a ++ [l, c1]) c2 [c3] (((a ++ [l, c1, c2, c3]).length : Int) - 1 - 1) (by simp; omega)
    have d3 := destAt_append (a ++ [l]) c1 [c2, c3] (((a ++ [l, c1, c2, c3]).length : Int) - 1 - 2) (by simp; omega)
    rw [← e1] at d1
    rw [← e2] at d2
    rw [← e3] at d3
    simp only [d1, d2, d3]
    rw [if_pos h8.1, if_neg (by simp [h8.2.1]), if_neg h7.2.2.1, if_neg h6.2.2.2.1]

/-- Cut after a part of a character. -/
theorem cut_part (a e : List UInt8) (h : Utf8Form e) (k : Nat) (h1 : 0 < k) (h2 : k < e.length) :
    ∃ r, cutUtf8 (a ++ e.take k) = .ok (a ++ 0 :: r) := by
  have lead : ∀ l : UInt8, l &&& 128 ≠ 0 → l &&& 64 ≠ 0 → cutUtf8 (a ++ [l]) = .ok (a ++ 0 :: []) := by
    intro l hl1 hl2
    unfold cutUtf8
    simp only
    rw [destAt_append a l [] _ (by simp)]
    simp only
    rw [if_pos hl1, if_pos hl2, set_append a l [] _ (by simp)]
  have pair : ∀ l c1 : UInt8, l &&& 224 = 224 → IsCont c1 → cutUtf8 (a ++ [l, c1]) = .ok (a ++ 0 :: [c1]) := by
    intro l c1 hl hc
    unfold cutUtf8
    simp only
    have e1 : a ++ [l, c1] = (a ++ [l]) ++ c1 :: [] := by simp
    have d1 := destAt_append (a ++ [l]) c1 [] (((a ++ [l, c1]).length : Int) - 1) (by simp; omega)
    have d2 := destAt_append a l [c1] (((a ++ [l, c1]).length : Int) - 1 - 1) (by simp; omega)
    rw [← e1] at d1
    simp only [d1, d2]
    rw [if_pos hc.1, if_neg (by simp [hc.2.1]), if_pos hl, set_append a l [c1] _ (by simp; omega)]
  have triple : ∀ l c1 c2 : UInt8, l &&& 240 = 240 → IsCont c1 → IsCont c2 →
      cutUtf8 (a ++ [l, c1, c2]) = .ok (a ++ 0 :: [c1, c2]) := by
    intro l c1 c2 hl hc1 hc2
    unfold cutUtf8
    simp only
    have e1 : a ++ [l, c1, c2] = (a ++ [l, c1]) ++ c2 :: [] := by simp
    have e2 : a ++ [l, c1, c2] = (a ++ [l]) ++ c1 :: [c2] := by simp
    have d1 := destAt_append (a ++ [l, c1]) c2 [] (((a ++ [l, c1, c2]).length : Int) - 1) (by simp; omega)
    have d2 := destAt_append (a ++ [l]) c1 [c2] (((a ++ [l, c1, c2]).length : Int) - 1 - 1) (by simp; omega)
    have d3 := destAt_append a l [c1, c2] (((a ++ [l, c1, c2]).length : Int) - 1 - 2) (by simp; omega)
    rw [← e1] at d1
    rw [← e2] at d2
    simp only [d1, d2, d3]
    rw [if_pos hc2.1, if_neg (by simp [hc2.2.1]), if_neg hc1.2.2.1, if_pos hl, set_append a l [c1, c2] _ (by simp; omega)]
  cases h with
  | one => simp at h2; omega
  | two l c1 g1 g2 =>
    simp at h2
    have : k = 1 := by omega
    subst this
    exact ⟨_, lead l g1 g2⟩
  | three l c1 c2 g1 g2 g3 g4 g5 g6 =>
    simp at h2
    have : k = 1 ∨ k = 2 := by omega
    rcases this with rfl | rfl
    · exact ⟨_, lead l g1 g2⟩
    · exact ⟨_, pair l c1 g3 g6⟩
  | four l c1 c2 c3 g1 g2 g3 g4 g5 g6 g7 =>
    simp at h2
    have : k = 1 ∨ k = 2 ∨ k = 3 := by omega
    rcases this with rfl | rfl | rfl
    · exact ⟨_, lead l g1 g2⟩
    · exact ⟨_, pair l c1 g3 g6⟩
    · exact ⟨_, triple l c1 c2 g4 g6 g7⟩

theorem utf8_append (a b : List Char) : utf8 (a ++ b) = utf8 a ++ utf8 b := by simp [utf8]

theorem utf8Form_nonzero {e : List UInt8} (h : Utf8Form e) : ∀ b ∈ e, b ≠ 0 := by
  cases h with
  | one x h1 h2 h3 => simpa using h3
  | two l c1 h1 h2 h3 h4 h5 => simp [h4, h5.2.2.2.2]
  | three l c1 c2 h1 h2 h3 h4 h5 h6 h7 => simp [h5, h6.2.2.2.2, h7.2.2.2.2]
  | four l c1 c2 c3 h1 h2 h3 h4 h5 h6 h7 h8 => simp [h5, h6.2.2.2.2, h7.2.2.2.2, h8.2.2.2.2]

theorem utf8Form_length {e : List UInt8} (h : Utf8Form e) : e.length ≤ 4 := by cases h <;> simp

theorem utf8_nonzero (cs : List Char) (h : '\x00' ∉ cs) : ∀ b ∈ utf8 cs, b ≠ 0 := by
  intro b hb
  obtain ⟨c, hc, hb⟩ := List.mem_flatMap.1 hb
  exact utf8Form_nonzero (utf8Form c (fun e => h (e ▸ hc))) b hb

/-- The last byte of a text. -/
theorem utf8_last (cs : List Char) (h : '\x00' ∉ cs) :
    utf8 cs = [] ∨ ∃ a' z, utf8 cs = a' ++ [z] ∧ z &&& 240 ≠ 240 := by
  rcases List.eq_nil_or_concat cs with rfl | ⟨cs', c, rfl⟩
  · left; rfl
  · right
    simp only [List.concat_eq_append] at *
    have hc : c ≠ '\x00' := by rintro rfl; simp at h
    have e : utf8 (cs' ++ [c]) = utf8 cs' ++ String.utf8EncodeChar c := by simp [utf8]
    rw [e]
    generalize String.utf8EncodeChar c = u at *
    have hf : Utf8Form (String.utf8EncodeChar c) := utf8Form c hc
    revert e
    intro e
    have hu : u = String.utf8EncodeChar c := by
      have := e; simp [utf8] at this; exact this.symm
    rw [← hu] at hf
    cases hf with
    | one x h1 h2 h3 => exact ⟨utf8 cs', x, rfl, h2⟩
    | two l c1 h1 h2 h3 h4 h5 => exact ⟨utf8 cs' ++ [l], c1, by simp, h5.2.2.2.1⟩
    | three l c1 c2 h1 h2 h3 h4 h5 h6 h7 => exact ⟨utf8 cs' ++ [l, c1], c2, by simp, h7.2.2.2.1⟩
    | four l c1 c2 c3 h1 h2 h3 h4 h5 h6 h7 h8 => exact ⟨utf8 cs' ++ [l, c1, c2], c3, by simp, h8.2.2.2.1⟩

/-- A text has a longest beginning that fits. -/
theorem longest_fit (cs : List Char) (w : Nat) :
    ∃ k, k ≤ cs.length ∧ (utf8 (cs.take k)).length ≤ w ∧ (k = cs.length ∨ w < (utf8 (cs.take (k + 1))).length) := by
  induction cs generalizing w with
  | nil => exact ⟨0, by simp, by simp [utf8], Or.inl rfl⟩
  | cons c cs ih =>
    by_cases h : (String.utf8EncodeChar c).length ≤ w
    · obtain ⟨k, h1, h2, h3⟩ := ih (w - (String.utf8EncodeChar c).length)
      refine ⟨k + 1, by simp; omega, ?_, ?_⟩
      · simp only [List.take_succ_cons, utf8, List.flatMap_cons, List.length_append] at h2 ⊢; omega
      · rcases h3 with h3 | h3
        · left; simp [h3]
        · right
          simp only [List.take_succ_cons, utf8, List.flatMap_cons, List.length_append] at h3 ⊢; omega
    · exact ⟨0, by simp, by simp [utf8], Or.inr (by simp [utf8] at h ⊢; omega)⟩

/-- The characters encoded in two bytes. -/
theorem utf8_two_bytes (c : Char) :
    (String.utf8EncodeChar c).length = 2 ↔ 128 ≤ c.toNat ∧ c.toNat < 2048 := by
  unfold String.utf8EncodeChar
  simp only
  have : c.toNat = c.val.toNat := rfl
  rw [this]
  split
  · simp; omega
  · split
    · simp; omega
    · split <;> simp <;> omega

end Osmium
namespace Osmium.Spec

/-- The field widths for which the code works: not 0, and not 2 for a text that starts with a character that is
encoded in two bytes (U+0080 to U+07FF). -/
def ClipWidth (w : Nat) (cs : List Char) : Prop :=
  w ≠ 0 ∧ (w = 2 → ∀ c ∈ cs.head?, ¬ (128 ≤ c.toNat ∧ c.toNat < 2048))

end Osmium.Spec
namespace Osmium
open Spec

/-- C58 (partial: not for width 0, nor for width 2 if the text starts with a character of two bytes): a text is
clipped after the last character that fits into the field. -/
theorem truncate_utf8_partial (cs : List Char) (w : Nat) (h0 : '\x00' ∉ cs) (hw : ClipWidth w cs) :
    ∃ k, k ≤ cs.length ∧ truncateAttribute w (utf8 cs) = .ok (utf8 (cs.take k)) ∧ (utf8 (cs.take k)).length ≤ w ∧
      (k = cs.length ∨ w < (utf8 (cs.take (k + 1))).length) := by
  obtain ⟨k, hk1, hk2, hk3⟩ := longest_fit cs w
  refine ⟨k, hk1, ?_, hk2, hk3⟩
  have hpre : '\x00' ∉ cs.take k := fun h => h0 (List.mem_of_mem_take h)
  have hsplit : utf8 cs = utf8 (cs.take k) ++ utf8 (cs.drop k) := by rw [← utf8_append, List.take_append_drop]
  have hnz := utf8_nonzero _ hpre
  unfold truncateAttribute
  simp only
  by_cases hlt : (utf8 cs).length < w
  · -- everything fits, with a zero byte after it
    have hkl : k = cs.length := by
      rcases hk3 with h | h
      · exact h
      · exfalso
        have e : utf8 cs = utf8 (cs.take (k + 1)) ++ utf8 (cs.drop (k + 1)) := by
          rw [← utf8_append, List.take_append_drop]
        rw [e, List.length_append] at hlt
        omega
    subst hkl
    rw [List.take_of_length_le (Nat.le_of_lt hlt), List.take_length] at *
    obtain ⟨n, hn⟩ : ∃ n, w - (utf8 cs).length = n + 1 := ⟨w - (utf8 cs).length - 1, by omega⟩
    rw [hn]
    have e : utf8 cs ++ List.replicate (n + 1) 0 = (utf8 cs ++ List.replicate n 0) ++ (0 : UInt8) :: [] := by
      rw [List.replicate_succ', List.append_assoc]
    have hcut : cutUtf8 (utf8 cs ++ List.replicate (n + 1) 0) = .ok (utf8 cs ++ List.replicate (n + 1) 0) := by
      unfold cutUtf8
      simp only
      have := destAt_append (utf8 cs ++ List.replicate n 0) 0 [] (((utf8 cs ++ List.replicate (n + 1) (0 : UInt8)).length : Int) - 1)
        (by simp; omega)
      rw [← e] at this
      rw [this]
      simp
    rw [hcut]
    simp only
    rw [cString_eq _ _ hnz (Or.inr (by simp [List.replicate_succ]))]
  · have hge : w ≤ (utf8 cs).length := by omega
    have hrep : w - (utf8 cs).length = 0 := by omega
    rw [hrep, List.replicate_zero, List.append_nil]
    by_cases hfull : (utf8 (cs.take k)).length = w
    · -- cut between two characters
      have ht : (utf8 cs).take w = utf8 (cs.take k) := by rw [hsplit, List.take_left' hfull]
      rw [ht]
      rcases List.eq_nil_or_concat (cs.take k) with e | ⟨cs', c, e⟩
      · rw [e] at hfull; simp [utf8] at hfull; exact absurd hfull.symm hw.1
      · simp only [List.concat_eq_append] at e
        have hc : c ≠ '\x00' := by rintro rfl; rw [e] at hpre; simp at hpre
        have hcs' : '\x00' ∉ cs' := by intro h; rw [e] at hpre; simp [h] at hpre
        have e2 : utf8 (cs' ++ [c]) = utf8 cs' ++ String.utf8EncodeChar c := by simp [utf8]
        have hkeep : cutUtf8 (utf8 (cs.take k)) = .ok (utf8 (cs.take k)) := by
          rw [e, e2]
          apply cut_keep _ _ (utf8Form c hc) (utf8_last cs' hcs')
          rintro ⟨g1, g2⟩
          have hcs'0 : cs' = [] := by
            cases cs' with
            | nil => rfl
            | cons d ds =>
              have hd : d ≠ '\x00' := by rintro rfl; simp at hcs'
              have hform := utf8Form d hd
              have hl : utf8 (d :: ds) = String.utf8EncodeChar d ++ utf8 ds := by simp [utf8]
              rw [hl] at g1
              rw [(List.append_eq_nil_iff.1 g1).1] at hform
              cases hform
          have hhead : cs.head? = some c := by
            rw [hcs'0, List.nil_append] at e
            have := congrArg List.head? e
            rw [List.head?_take] at this
            split at this
            · simp at this
            · simpa using this
          rw [e, e2, List.length_append, g1, g2] at hfull
          exact hw.2 (by simpa using hfull.symm) c (by rw [hhead]; rfl) ((utf8_two_bytes c).1 g2)
        rw [hkeep]
        simp only
        have := cString_eq (utf8 (cs.take k)) [] hnz (Or.inl rfl)
        rw [List.append_nil] at this
        rw [this]
    · -- cut inside of a character
      have hk4 : w < (utf8 (cs.take (k + 1))).length := by
        rcases hk3 with h | h
        · subst h; rw [List.take_length] at *; omega
        · exact h
      have hkl : k < cs.length := by
        refine Nat.lt_of_not_le fun hcon => ?_
        have : cs.take (k + 1) = cs.take k := by
          rw [List.take_of_length_le (by omega), List.take_of_length_le (by omega)]
        rw [this] at hk4; omega
      have hc0 : cs[k] ≠ '\x00' := fun e => h0 (e ▸ List.getElem_mem _)
      have e1 : cs.take (k + 1) = cs.take k ++ [cs[k]] := by simp
      have e2 : utf8 (cs.take (k + 1)) = utf8 (cs.take k) ++ String.utf8EncodeChar cs[k] := by
        rw [e1, utf8_append]; simp [utf8]
      have e3 : utf8 cs = utf8 (cs.take k) ++ (String.utf8EncodeChar cs[k] ++ utf8 (cs.drop (k + 1))) := by
        rw [← List.append_assoc, ← e2, ← utf8_append, List.take_append_drop]
      rw [e2, List.length_append] at hk4
      have ht : (utf8 cs).take w = utf8 (cs.take k) ++ (String.utf8EncodeChar cs[k]).take (w - (utf8 (cs.take k)).length) := by
        rw [e3, List.take_append, List.take_of_length_le hk2, List.take_append_of_le_length (by omega)]
      rw [ht]
      obtain ⟨r, hr⟩ := cut_part (utf8 (cs.take k)) _ (utf8Form _ hc0) (w - (utf8 (cs.take k)).length) (by omega) (by omega)
      rw [hr]
      simp only
      rw [cString_eq _ _ hnz (Or.inr rfl)]

/-- C58: if something was clipped, at most three bytes of the field are unused. -/
theorem truncate_utf8_tight_partial (cs : List Char) (w : Nat) (h0 : '\x00' ∉ cs) (hw : ClipWidth w cs) (r : List UInt8)
    (h : truncateAttribute w (utf8 cs) = .ok r) (hclip : r ≠ utf8 cs) : w ≤ r.length + 3 ∧ r <+: utf8 cs := by
  obtain ⟨k, hk1, hk2, hk3, hk4⟩ := truncate_utf8_partial cs w h0 hw
  rw [hk2] at h
  simp only [Except.ok.injEq] at h
  subst h
  have hsplit : utf8 cs = utf8 (cs.take k) ++ utf8 (cs.drop k) := by rw [← utf8_append, List.take_append_drop]
  refine ⟨?_, ⟨_, hsplit.symm⟩⟩
  rcases hk4 with h | h
  · subst h; rw [List.take_length] at hclip; exact absurd rfl hclip
  · have hkl : k < cs.length := by
      refine Nat.lt_of_not_le fun hcon => ?_
      have e : cs.take k = cs := List.take_of_length_le (by omega)
      rw [e] at hclip; exact hclip rfl
    have hc0 : cs[k] ≠ '\x00' := fun e => h0 (e ▸ List.getElem_mem _)
    have e1 : cs.take (k + 1) = cs.take k ++ [cs[k]] := by simp
    have hlen : (String.utf8EncodeChar cs[k]).length ≤ 4 := by
      exact utf8Form_length (utf8Form _ hc0)
    rw [e1, utf8_append, List.length_append] at h
    have : utf8 [cs[k]] = String.utf8EncodeChar cs[k] := by simp [utf8]
    rw [this] at h
    omega

/-- A character cut in the middle. -/
example : truncateAttribute 4 (utf8 ['a', 'b', 'c', 'ß']) = .ok (utf8 ['a', 'b', 'c']) ∧
    truncateAttribute 5 (utf8 ['a', 'b', 'c', 'ß']) = .ok (utf8 ['a', 'b', 'c', 'ß']) ∧
    truncateAttribute 6 (utf8 ['a', 'b', '😀', 'x']) = .ok (utf8 ['a', 'b', '😀']) ∧
    truncateAttribute 5 (utf8 ['a', 'b', '😀', 'x']) = .ok (utf8 ['a', 'b']) := by
  refine ⟨?_, ?_, ?_, ?_⟩ <;> rfl

/-- Every width from 3 on works for every text, and so does 1. -/
theorem clipWidth_of (cs : List Char) (w : Nat) (h : w = 1 ∨ 3 ≤ w) : ClipWidth w cs :=
  ⟨by omega, fun e => by omega⟩

/-- C58: for which widths and texts the behaviour is undefined: exactly for those excluded above. -/
theorem truncate_undefined_iff (cs : List Char) (w : Nat) (h0 : '\x00' ∉ cs) :
    truncateAttribute w (utf8 cs) = .error .ub ↔
      w = 0 ∨ w = 2 ∧ ∃ c rest, cs = c :: rest ∧ 128 ≤ c.toNat ∧ c.toNat < 2048 := by
  constructor
  · intro h
    refine Classical.byContradiction fun hcon => ?_
    have hw : ClipWidth w cs := by
      refine ⟨fun e => hcon (Or.inl e), fun e c hc hcc => hcon (Or.inr ⟨e, ?_⟩)⟩
      cases cs with
      | nil => simp at hc
      | cons d ds => simp at hc; subst hc; exact ⟨_, _, rfl, hcc⟩
    obtain ⟨k, _, h2, _⟩ := truncate_utf8_partial cs w h0 hw
    rw [h] at h2
    cases h2
  · rintro (rfl | ⟨rfl, c, rest, rfl, hc⟩)
    · simp [truncateAttribute, cutUtf8, destAt]
    · have hc0 : c ≠ '\x00' := by rintro rfl; simp at h0
      have hl := (utf8_two_bytes c).2 hc
      have hf := utf8Form c hc0
      have e : utf8 (c :: rest) = String.utf8EncodeChar c ++ utf8 rest := by simp [utf8]
      rw [e]
      generalize String.utf8EncodeChar c = u at hl hf
      cases hf with
      | two l c1 h1 h2 h3 h4 h5 =>
        have g2 : ¬ (l &&& 224 = 224) := h3
        have g1 : ¬ (c1 &&& 64 ≠ 0) := by simp [h5.2.1]
        simp [truncateAttribute, cutUtf8, destAt, h5.1, g2, h5.2.1]
      | _ => simp at hl

example : truncateAttribute 2 (utf8 ['ß', 'x']) = .error .ub ∧ truncateAttribute 2 (utf8 ['x', 'ß']) = .ok (utf8 ['x']) ∧
    truncateAttribute 2 (utf8 ['€']) = .ok [] ∧ truncateAttribute 1 (utf8 ['ß']) = .ok [] := by
  refine ⟨?_, ?_, ?_, ?_⟩ <;> rfl

/-- C58 fails for narrow fields: undefined behaviour for every text in a field of width 0, and in a field of
width 2 for a text of one two-byte character. -/
theorem truncate_narrow (value : List UInt8) :
    truncateAttribute 0 value = .error .ub ∧ truncateAttribute 2 (utf8 ['ß']) = .error .ub := by
  refine ⟨?_, ?_⟩
  · simp [truncateAttribute, cutUtf8, destAt]
  · rfl

end Osmium

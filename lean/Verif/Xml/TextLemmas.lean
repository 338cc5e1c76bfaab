import Verif.Xml.Text
/-
Lemmas about the text of XML files.
-/
namespace Osmium

theorem XTok.run_append (t : XTok) (a b : List Char) :
    t.run (a ++ b) =
      match t.run a with
      | (e, none) => (e, none)
      | (e, some t1) => (e ++ (t1.run b).1, (t1.run b).2) := by
  induction a generalizing t with
  | nil => simp [XTok.run]
  | cons c a ih =>
    simp only [List.cons_append, XTok.run]
    cases t.step c with
    | none => rfl
    | some p =>
      obtain ⟨e, t1⟩ := p
      simp only [ih t1]
      rcases t1.run a with ⟨e2, r⟩
      cases r with
      | none => rfl
      | some t2 => simp [List.append_assoc]

theorem XTok.run_ok {t t1 : XTok} {a : List Char} {e : List XEv} (h : t.run a = (e, some t1)) (b : List Char) :
    t.run (a ++ b) = (e ++ (t1.run b).1, (t1.run b).2) := by
  rw [XTok.run_append, h]

theorem XTok.run_one {t t1 : XTok} {c : Char} {e : List XEv} (h : t.step c = some (e, t1)) :
    t.run [c] = (e, some t1) := by
  simp [XTok.run, h]

/-- Two parts one after the other. -/
theorem XTok.run_seq {t t1 t2 : XTok} {a b : List Char} {e1 e2 : List XEv} (h1 : t.run a = (e1, some t1))
    (h2 : t1.run b = (e2, some t2)) : t.run (a ++ b) = (e1 ++ e2, some t2) := by
  rw [XTok.run_ok h1, h2]

/-! ### Numbers -/

theorem digitIn_hexDigit : ∀ d, d < 16 → digitIn 16 (hexDigit d) = some d := by decide

theorem numberIn_append (base : Nat) (a : List Char) (c : Char) (acc : Nat) :
    numberIn base acc (a ++ [c]) =
      match numberIn base acc a with
      | none => none
      | some v => (digitIn base c).map (v * base + ·) := by
  induction a generalizing acc with
  | nil =>
    simp only [List.nil_append, numberIn]
    cases digitIn base c <;> rfl
  | cons x a ih =>
    simp only [List.cons_append, numberIn]
    cases digitIn base x with
    | none => rfl
    | some d => exact ih _

theorem numberIn_hexAux (f n : Nat) (h : n < 16 ^ f) (hf : 0 < f) : numberIn 16 0 (hexAux f n) = some n := by
  induction f generalizing n with
  | zero => omega
  | succ f ih =>
    unfold hexAux
    split
    · next hn => simp [numberIn, digitIn_hexDigit n hn]
    · next hn =>
      have h1 : n / 16 < 16 ^ f := by
        rw [Nat.div_lt_iff_lt_mul (by decide)]
        rw [Nat.pow_succ] at h
        exact h
      have hf' : 0 < f := by
        rcases Nat.eq_zero_or_pos f with rfl | h'
        · simp at h; omega
        · exact h'
      rw [numberIn_append, ih _ h1 hf', digitIn_hexDigit _ (Nat.mod_lt _ (by decide))]
      simp only [Option.map_some]
      congr 1
      omega

theorem hexAux_digit (f n : Nat) : ∀ c ∈ hexAux f n, ∃ d, d < 16 ∧ c = hexDigit d := by
  induction f generalizing n with
  | zero => simp [hexAux]
  | succ f ih =>
    unfold hexAux
    split
    · next hn => intro c hc; exact ⟨n, hn, by simpa using hc⟩
    · intro c hc
      rcases List.mem_append.1 hc with hc | hc
      · exact ih _ c hc
      · exact ⟨n % 16, Nat.mod_lt _ (by decide), by simpa using hc⟩

theorem hexAux_ne_nil (f n : Nat) : hexAux (f + 1) n ≠ [] := by
  unfold hexAux
  split <;> simp

theorem char_lt (c : Char) : c.toNat < 16 ^ 6 := by
  have h : c.toNat < 1114112 := by
    rcases c.valid with h | h
    · exact Nat.lt_of_lt_of_le h (by decide)
    · exact h.2
  omega

/-! ### Values -/

/-- The characters of a reference are collected. -/
theorem run_ref (st : List String) (dn : Bool) (n : String) (as : XAttrs) (k : String) (q : Char) (v : List Char)
    (r r0 : List Char) (hr : ∀ c ∈ r, c ≠ ';') (x : Char) (hx : decodeRef (r0 ++ r) = some x) :
    XTok.run ⟨.valueRef n as k q v r0, st, dn⟩ (r ++ [';']) = ([], some ⟨.value n as k q (v ++ [x]), st, dn⟩) := by
  induction r generalizing r0 with
  | nil =>
    rw [List.append_nil] at hx
    simp [XTok.run, XTok.step, hx]
  | cons c r ih =>
    have h1 : c ≠ ';' := hr c (by simp)
    have h2 := ih (r0 ++ [c]) (fun a ha => hr a (by simp [ha])) (by simpa using hx)
    simp only [List.cons_append, XTok.run, XTok.step, h1, if_false, h2, List.append_nil]

/-- A reference in a value. -/
theorem run_amp (st : List String) (dn : Bool) (n : String) (as : XAttrs) (k : String) (v r : List Char)
    (hr : ∀ c ∈ r, c ≠ ';') (x : Char) (hx : decodeRef r = some x) :
    XTok.run ⟨.value n as k '"' v, st, dn⟩ ('&' :: r ++ [';']) = ([], some ⟨.value n as k '"' (v ++ [x]), st, dn⟩) := by
  have h1 := run_ref st dn n as k '"' v r [] hr x (by simpa using hx)
  simp only [List.cons_append, XTok.run, XTok.step]
  rw [if_neg (by decide), if_neg (by decide), if_pos trivial]
  simp only [h1, List.append_nil]

theorem decodeRef_hex (d : Char) (ds : List Char) :
    decodeRef ('#' :: 'x' :: d :: ds) = charRef (numberIn 16 0 (d :: ds)) := by
  unfold decodeRef
  rw [if_neg (by simp), if_neg (by simp), if_neg (by simp), if_neg (by simp), if_neg (by simp)]
  rfl

theorem charRef_self (c : Char) (h : isXmlChar c.toNat = true) : charRef (some c.toNat) = some c := by
  simp [charRef, h]

/-- An escaped character is read as itself. -/
theorem run_escChar (st : List String) (dn : Bool) (n : String) (as : XAttrs) (k : String) (v : List Char) (c : Char)
    (hc : isXmlChar c.toNat = true) :
    XTok.run ⟨.value n as k '"' v, st, dn⟩ (escChar c) = ([], some ⟨.value n as k '"' (v ++ [c]), st, dn⟩) := by
  unfold escChar
  split
  · next h => subst h; exact run_amp st dn n as k v "#10".toList (by decide) '\n' (by decide)
  split
  · next h => subst h; exact run_amp st dn n as k v "#13".toList (by decide) '\r' (by decide)
  split
  · next h => subst h; exact run_amp st dn n as k v "#9".toList (by decide) '\t' (by decide)
  split
  · next h => subst h; exact run_amp st dn n as k v "quot".toList (by decide) '"' (by decide)
  split
  · next h => subst h; exact run_amp st dn n as k v "lt".toList (by decide) '<' (by decide)
  split
  · next h => subst h; exact run_amp st dn n as k v "gt".toList (by decide) '>' (by decide)
  split
  · next h => subst h; exact run_amp st dn n as k v "amp".toList (by decide) '&' (by decide)
  next h1 h2 h3 h4 h5 h6 h7 =>
  split
  · have hd := hexAux_digit 6 c.toNat
    have h9 : ∀ d, d < 16 → hexDigit d ≠ ';' := by decide
    have key := run_amp st dn n as k v ('#' :: 'x' :: hexAux 6 c.toNat) (by
      intro a ha
      simp only [List.mem_cons] at ha
      rcases ha with rfl | rfl | ha
      · decide
      · decide
      · obtain ⟨d, hd1, rfl⟩ := hd a ha
        exact h9 d hd1) c (by
      have hne := hexAux_ne_nil 5 c.toNat
      cases hh : hexAux 6 c.toNat with
      | nil => exact absurd hh hne
      | cons d ds =>
        rw [decodeRef_hex d ds, ← hh, numberIn_hexAux 6 _ (char_lt c) (by decide)]
        exact charRef_self c hc)
    simpa using key
  · next h8 =>
    have hsp : isXmlSpace c = false ∨ c = ' ' := by
      by_cases h : c = ' '
      · exact Or.inr h
      · left; simp [isXmlSpace, h, h1, h2, h3]
    rcases hsp with hsp | rfl
    · simp [XTok.run, XTok.step, h4, h5, h7, hsp, hc]
    · simp [XTok.run, XTok.step, isXmlSpace]

theorem run_value (st : List String) (dn : Bool) (n : String) (as : XAttrs) (k : String) (cs v : List Char)
    (hc : ∀ c ∈ cs, isXmlChar c.toNat = true) :
    XTok.run ⟨.value n as k '"' v, st, dn⟩ (cs.flatMap escChar) = ([], some ⟨.value n as k '"' (v ++ cs), st, dn⟩) := by
  induction cs generalizing v with
  | nil => simp [XTok.run]
  | cons c cs ih =>
    rw [List.flatMap_cons]
    have h1 := run_escChar st dn n as k v c (hc c (by simp))
    have h2 := ih (v ++ [c]) (fun a ha => hc a (by simp [ha]))
    have := XTok.run_seq h1 h2
    simpa using this

/-! ### Names and tags -/

/-- A name in ASCII. -/
def goodName (n : String) : Bool :=
  match n.toList with
  | [] => false
  | c :: cs => isNameStart c && cs.all isNameChar

theorem goodName_iff {n : String} (h : goodName n = true) :
    ∃ c cs, n.toList = c :: cs ∧ isNameStart c = true ∧ ∀ a ∈ cs, isNameChar a = true := by
  unfold goodName at h
  cases hn : n.toList with
  | nil => rw [hn] at h; cases h
  | cons c cs =>
    rw [hn] at h
    simp only [Bool.and_eq_true, List.all_eq_true] at h
    exact ⟨c, cs, rfl, h.1, h.2⟩

theorem run_startName (st : List String) (dn : Bool) (cs n : List Char) (hc : ∀ a ∈ cs, isNameChar a = true) :
    XTok.run ⟨.startName n, st, dn⟩ cs = ([], some ⟨.startName (n ++ cs), st, dn⟩) := by
  induction cs generalizing n with
  | nil => simp [XTok.run]
  | cons c cs ih =>
    have h1 := hc c (by simp)
    simp [XTok.run, XTok.step, h1, ih (n ++ [c]) (fun a ha => hc a (by simp [ha]))]

theorem run_attrName (st : List String) (dn : Bool) (n : String) (as : XAttrs) (cs k : List Char)
    (hc : ∀ a ∈ cs, isNameChar a = true) :
    XTok.run ⟨.attrName n as k, st, dn⟩ cs = ([], some ⟨.attrName n as (k ++ cs), st, dn⟩) := by
  induction cs generalizing k with
  | nil => simp [XTok.run]
  | cons c cs ih =>
    have h1 := hc c (by simp)
    simp [XTok.run, XTok.step, h1, ih (k ++ [c]) (fun a ha => hc a (by simp [ha]))]

theorem run_endName (st : List String) (dn : Bool) (cs n : List Char) (hc : ∀ a ∈ cs, isNameChar a = true) :
    XTok.run ⟨.endName n, st, dn⟩ cs = ([], some ⟨.endName (n ++ cs), st, dn⟩) := by
  induction cs generalizing n with
  | nil => simp [XTok.run]
  | cons c cs ih =>
    have h1 := hc c (by simp)
    simp [XTok.run, XTok.step, h1, ih (n ++ [c]) (fun a ha => hc a (by simp [ha]))]

theorem nameStart_nameChar {c : Char} (h : isNameStart c = true) : isNameChar c = true := by
  simp [isNameChar, h]

/-- No name begins with one of these. -/
theorem nameStart_ne {c : Char} (h : isNameStart c = true) :
    c ≠ '?' ∧ c ≠ '!' ∧ c ≠ '/' ∧ isXmlSpace c = false := by
  refine ⟨?_, ?_, ?_, ?_⟩
  · rintro rfl; revert h; decide
  · rintro rfl; revert h; decide
  · rintro rfl; revert h; decide
  · unfold isXmlSpace
    by_cases h1 : c = ' '
    · subst h1; revert h; decide
    by_cases h2 : c = '\n'
    · subst h2; revert h; decide
    by_cases h3 : c = '\t'
    · subst h3; revert h; decide
    by_cases h4 : c = '\r'
    · subst h4; revert h; decide
    simp [h1, h2, h3, h4]

theorem run_indent (st : List String) (dn : Bool) (i : Nat) :
    XTok.run ⟨.content, st, dn⟩ (indentText i) = ([], some ⟨.content, st, dn⟩) := by
  induction i with
  | zero => simp [indentText, XTok.run]
  | succ i ih =>
    have h1 : indentText (i + 1) = ' ' :: ' ' :: indentText i := by simp [indentText, List.replicate_succ]
    rw [h1]
    have h2 : XTok.step ⟨.content, st, dn⟩ ' ' = some ([], ⟨.content, st, dn⟩) := by
      cases st <;> simp [XTok.step, isXmlSpace, isXmlChar]
    simp [XTok.run, h2, ih]

theorem run_newline (st : List String) (dn : Bool) :
    XTok.run ⟨.content, st, dn⟩ ['\n'] = ([], some ⟨.content, st, dn⟩) := by
  apply XTok.run_one
  cases st <;> simp [XTok.step, isXmlSpace, isXmlChar]

/-- The beginning of a start tag. -/
theorem run_open (st : List String) (dn : Bool) (n : String) (hn : goodName n = true) (hd : ¬(st = [] ∧ dn = true)) :
    XTok.run ⟨.content, st, dn⟩ ('<' :: n.toList) = ([], some ⟨.startName n.toList, st, dn⟩) := by
  obtain ⟨c, cs, hcs, h1, h2⟩ := goodName_iff hn
  rw [hcs]
  obtain ⟨a1, a2, a3, _⟩ := nameStart_ne h1
  have e1 : XTok.step ⟨.content, st, dn⟩ '<' = some ([], ⟨.lt, st, dn⟩) := by simp [XTok.step]
  have hd' : ¬(st.isEmpty = true ∧ dn = true) := by simpa using hd
  have e2 : XTok.step ⟨.lt, st, dn⟩ c = some ([], ⟨.startName [c], st, dn⟩) := by
    simp only [XTok.step, a1, a2, a3, if_false, h1, true_and]
    rw [if_pos hd']
  have e3 := run_startName st dn cs [c] h2
  simp [XTok.run, e1, e2, e3]

/-- An end tag. -/
theorem run_end (st : List String) (dn : Bool) (n : String) (hn : goodName n = true) :
    XTok.run ⟨.content, n :: st, dn⟩ ("</".toList ++ n.toList ++ ">\n".toList) =
      ([.stop n], some ⟨.content, st, dn || st.isEmpty⟩) := by
  obtain ⟨c, cs, hcs, h1, h2⟩ := goodName_iff hn
  have e1 : XTok.run ⟨.content, n :: st, dn⟩ "</".toList = ([], some ⟨.endName [], n :: st, dn⟩) := by
    simp [XTok.run, XTok.step]
  have e2 := run_endName (n :: st) dn n.toList [] (by
    rw [hcs]
    intro a ha
    rcases List.mem_cons.1 ha with rfl | ha
    · exact nameStart_nameChar h1
    · exact h2 a ha)
  have e3 : XTok.run ⟨.endName ([] ++ n.toList), n :: st, dn⟩ ['>'] =
      ([.stop n], some ⟨.content, st, dn || st.isEmpty⟩) := by
    apply XTok.run_one
    have g1 : isNameChar '>' = false := by decide
    have g2 : isXmlSpace '>' = false := by decide
    simp [XTok.step, g1, g2, XTok.closed]
  have e4 := run_newline st (dn || st.isEmpty)
  have := XTok.run_seq (XTok.run_seq (XTok.run_seq e1 e2) e3) e4
  simpa using this

/-- The start of an attribute, behind the name of the element or another attribute. -/
def tagPos (n : String) (as : XAttrs) : XPos := if as = [] then .startName n.toList else .afterValue n as

theorem tagPos_space (st : List String) (dn : Bool) (n : String) (as : XAttrs) :
    XTok.step ⟨tagPos n as, st, dn⟩ ' ' = some ([], ⟨.inTag n as, st, dn⟩) := by
  have g1 : isNameChar ' ' = false := by decide
  have g2 : isXmlSpace ' ' = true := by decide
  unfold tagPos
  by_cases h : as = []
  · subst h; simp [XTok.step, g1, g2]
  · simp [XTok.step, h, g2]

theorem tagPos_gt (st : List String) (dn : Bool) (n : String) (as : XAttrs) :
    XTok.step ⟨tagPos n as, st, dn⟩ '>' = some ([.start n as], ⟨.content, n :: st, dn⟩) := by
  have g1 : isNameChar '>' = false := by decide
  have g2 : isXmlSpace '>' = false := by decide
  unfold tagPos
  by_cases h : as = []
  · subst h; simp [XTok.step, g1, g2, XTok.opened]
  · simp [XTok.step, h, g2, XTok.opened]

theorem tagPos_slash (st : List String) (dn : Bool) (n : String) (as : XAttrs) :
    XTok.step ⟨tagPos n as, st, dn⟩ '/' = some ([], ⟨.slash n as, st, dn⟩) := by
  have g1 : isNameChar '/' = false := by decide
  have g2 : isXmlSpace '/' = false := by decide
  unfold tagPos
  by_cases h : as = []
  · subst h; simp [XTok.step, g1, g2]
  · simp [XTok.step, h, g2]

/-- An attribute up to the beginning of its value. -/
theorem run_attr_begin (st : List String) (dn : Bool) (n : String) (as : XAttrs) (k : String) (hk : goodName k = true)
    (hnew : k ∉ as.map Prod.fst) :
    XTok.run ⟨tagPos n as, st, dn⟩ (' ' :: k.toList ++ "=\"".toList) = ([], some ⟨.value n as k '"' [], st, dn⟩) := by
  obtain ⟨c, cs, hcs, h1, h2⟩ := goodName_iff hk
  obtain ⟨_, _, _, h3⟩ := nameStart_ne h1
  have e1 : XTok.run ⟨tagPos n as, st, dn⟩ [' '] = ([], some ⟨.inTag n as, st, dn⟩) := XTok.run_one (tagPos_space st dn n as)
  have e2 : XTok.run ⟨.inTag n as, st, dn⟩ [c] = ([], some ⟨.attrName n as [c], st, dn⟩) := by
    apply XTok.run_one
    simp [XTok.step, h3, h1]
  have e3 := run_attrName st dn n as cs [c] h2
  have hk' : [c] ++ cs = k.toList := by simp [hcs]
  rw [hk'] at e3
  have e4 : XTok.run ⟨.attrName n as k.toList, st, dn⟩ ['='] = ([], some ⟨.attrEq n as k, st, dn⟩) := by
    apply XTok.run_one
    have g1 : isNameChar '=' = false := by decide
    have g2 : isXmlSpace '=' = false := by decide
    simp only [XTok.step, g1, g2, Bool.false_eq_true, if_false, String.ofList_toList]
    rw [if_neg hnew]
    simp
  have e5 : XTok.run ⟨.attrEq n as k, st, dn⟩ ['"'] = ([], some ⟨.value n as k '"' [], st, dn⟩) := by
    apply XTok.run_one
    simp [XTok.step, isXmlSpace]
  have := XTok.run_seq (XTok.run_seq (XTok.run_seq (XTok.run_seq e1 e2) e3) e4) e5
  simpa [hcs] using this

/-- An attribute. -/
theorem run_attr (st : List String) (dn : Bool) (n : String) (as : XAttrs) (k v : String) (hk : goodName k = true)
    (hnew : k ∉ as.map Prod.fst) (hv : ∀ c ∈ v.toList, isXmlChar c.toNat = true) :
    XTok.run ⟨tagPos n as, st, dn⟩ (' ' :: k.toList ++ "=\"".toList ++ v.toList.flatMap escChar ++ ['"']) =
      ([], some ⟨tagPos n (as ++ [(k, v)]), st, dn⟩) := by
  have e1 := run_attr_begin st dn n as k hk hnew
  have e2 := run_value st dn n as k v.toList [] hv
  have e3 : XTok.run ⟨.value n as k '"' ([] ++ v.toList), st, dn⟩ ['"'] =
      ([], some ⟨.afterValue n (as ++ [(k, v)]), st, dn⟩) := by
    apply XTok.run_one
    simp [XTok.step]
  have h4 : tagPos n (as ++ [(k, v)]) = .afterValue n (as ++ [(k, v)]) := by simp [tagPos]
  rw [h4]
  exact XTok.run_seq (XTok.run_seq e1 e2) e3

/-- The end of a start tag. -/
theorem run_gt (st : List String) (dn : Bool) (n : String) (as : XAttrs) :
    XTok.run ⟨tagPos n as, st, dn⟩ ">\n".toList = ([.start n as], some ⟨.content, n :: st, dn⟩) :=
  XTok.run_seq (a := ['>']) (b := ['\n']) (XTok.run_one (tagPos_gt st dn n as)) (run_newline _ _)

/-- The end of an empty element. -/
theorem run_slash_gt (st : List String) (dn : Bool) (n : String) (as : XAttrs) :
    XTok.run ⟨tagPos n as, st, dn⟩ "/>\n".toList =
      ([.start n as, .stop n], some ⟨.content, st, dn || st.isEmpty⟩) := by
  have e1 := XTok.run_one (tagPos_slash st dn n as)
  have e2 : XTok.run ⟨.slash n as, st, dn⟩ ['>'] = ([.start n as, .stop n], some ⟨.content, st, dn || st.isEmpty⟩) := by
    apply XTok.run_one
    simp [XTok.step]
  exact XTok.run_seq (a := ['/', '>']) (b := ['\n']) (XTok.run_seq e1 e2) (run_newline _ _)

end Osmium

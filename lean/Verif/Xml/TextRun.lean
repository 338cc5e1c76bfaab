import Verif.Xml.TextLemmas
/-
The parser follows the text writer.
-/
namespace Osmium

/-- What has to be known about the calls so far: the number of open elements, whether the root element has been closed, and
the attributes of the start tag that is not yet finished. (helper for statements and proofs, no counterpart in /repo) -/
structure CS where
  depth : Nat
  done : Bool
  keys : Option (List String)
deriving DecidableEq, Repr

/-- Calls that make one well-formed document, whatever the values of attributes are. (helper for statements and
proofs, no counterpart in /repo) -/
def CS.step (s : CS) : WCall → Option CS
  | .start n => if goodName n && !(s.depth == 0 && s.done) then some ⟨s.depth + 1, s.done, some []⟩ else none
  | .attr k _ =>
    match s.keys with
    | none => none
    | some ks => if goodName k && !ks.contains k then some { s with keys := some (ks ++ [k]) } else none
  | .close => if s.depth = 0 then none else some ⟨s.depth - 1, s.done || s.depth == 1, none⟩

/-- A sequence of calls. (helper for statements and proofs, no counterpart in /repo) -/
def CS.run : CS → List WCall → Option CS
  | s, [] => some s
  | s, c :: cs => match s.step c with | none => none | some s1 => s1.run cs

theorem CS.run_append (s : CS) (a b : List WCall) :
    s.run (a ++ b) = match s.run a with | none => none | some s1 => s1.run b := by
  induction a generalizing s with
  | nil => rfl
  | cons c a ih =>
    simp only [List.cons_append, CS.run]
    cases s.step c with
    | none => rfl
    | some s1 => exact ih s1

/-- Only characters that are allowed in XML. (helper for statements and proofs, no counterpart in /repo) -/
def XmlText (s : String) : Prop := ∀ c ∈ s.toList, isXmlChar c.toNat = true

/-- The values of attributes have only such characters. (helper for statements and proofs, no counterpart in /repo) -/
def GoodCall : WCall → Prop
  | .attr _ v => XmlText v
  | _ => True

/-- The parser is where the writer is. (helper for statements and proofs, no counterpart in /repo) -/
structure TextRel (w : TW) (t : XTok) (s : CS) : Prop where
  depth : s.depth = w.stack.length
  done : s.done = t.done
  names : ∀ n ∈ w.stack, goodName n = true
  keys : s.keys = w.pending.map fun p => p.2.map Prod.fst
  none : w.pending = none → t.pos = .content ∧ t.stack = w.stack
  some : ∀ n as, w.pending = some (n, as) → t.pos = tagPos n as ∧ w.stack = n :: t.stack

theorem textRel_step {w : TW} {t : XTok} {s s1 : CS} (h : TextRel w t s) (c : WCall) (hc : GoodCall c)
    (hs : s.step c = some s1) :
    ∃ w1 e t1, w.step c = some (w1, e) ∧ t.run (w.text c) = (e, some t1) ∧ TextRel w1 t1 s1 := by
  obtain ⟨tp, ts, td⟩ := t
  have hdone := h.done
  simp only at hdone
  cases c with
  | start n =>
    simp only [CS.step] at hs
    split at hs
    swap
    · cases hs
    next hg =>
    cases hs
    rw [Bool.and_eq_true] at hg
    obtain ⟨hn, hd⟩ := hg
    have hd' : w.stack.length = 0 → s.done = false := by
      intro hl
      rw [h.depth, hl] at hd
      simpa using hd
    refine ⟨⟨n :: w.stack, some (n, [])⟩, w.flush, ⟨.startName n.toList, w.stack, td⟩, rfl, ?_, ?_⟩
    · cases hp : w.pending with
      | none =>
        obtain ⟨h1, h2⟩ := h.none hp
        simp only at h1 h2
        subst h1 h2
        have e1 := run_indent w.stack td w.stack.length
        have e2 := run_open w.stack td n hn (by
          rintro ⟨a, b⟩
          have := hd' (by simp [a])
          rw [hdone, b] at this
          cases this)
        simpa [TW.text, TW.flush, hp] using XTok.run_seq e1 e2
      | some p =>
        obtain ⟨m, as⟩ := p
        obtain ⟨h1, h2⟩ := h.some m as hp
        simp only at h1 h2
        subst h1
        have e0 := run_gt ts td m as
        rw [← h2] at e0
        have e1 := run_indent w.stack td w.stack.length
        have e2 := run_open w.stack td n hn (by
          rintro ⟨a, b⟩
          rw [a] at h2
          cases h2)
        simpa [TW.text, TW.flush, hp] using XTok.run_seq (XTok.run_seq e0 e1) e2
    · refine ⟨by simp [h.depth], hdone, ?_, rfl, ?_, ?_⟩
      · intro m hm
        rcases List.mem_cons.1 hm with rfl | hm
        · exact hn
        · exact h.names m hm
      · intro hp; cases hp
      · intro m as hp
        cases hp
        exact ⟨by simp [tagPos], rfl⟩
  | attr k v =>
    simp only [CS.step] at hs
    cases hp : w.pending with
    | none => rw [h.keys, hp] at hs; cases hs
    | some p =>
      obtain ⟨m, as⟩ := p
      obtain ⟨h1, h2⟩ := h.some m as hp
      simp only at h1 h2
      subst h1
      rw [h.keys, hp] at hs
      simp only [Option.map_some] at hs
      split at hs
      swap
      · cases hs
      next hg =>
      cases hs
      rw [Bool.and_eq_true] at hg
      obtain ⟨hk, hnew⟩ := hg
      have hnew' : k ∉ as.map Prod.fst := by simpa using hnew
      refine ⟨{ w with pending := some (m, as ++ [(k, v)]) }, [], ⟨tagPos m (as ++ [(k, v)]), ts, td⟩, ?_, ?_, ?_⟩
      · simp [TW.step, hp]
      · exact run_attr ts td m as k v hk hnew' hc
      · refine ⟨h.depth, hdone, h.names, by simp, ?_, ?_⟩
        · intro hp; cases hp
        · intro m' as' hp'
          cases hp'
          exact ⟨rfl, h2⟩
  | close =>
    simp only [CS.step] at hs
    split at hs
    · cases hs
    next hd =>
    cases hs
    cases hw : w.stack with
    | nil => rw [h.depth, hw] at hd; exact absurd rfl hd
    | cons n st =>
      have hdep : s.depth = st.length + 1 := by rw [h.depth, hw]; rfl
      have hdone2 : (s.done || s.depth == 1) = (td || st.isEmpty) := by
        rw [hdone, hdep]
        cases st <;> simp
      refine ⟨⟨st, none⟩, w.flush ++ [.stop n], ⟨.content, st, td || st.isEmpty⟩, by simp [TW.step, hw], ?_, ?_⟩
      · cases hp : w.pending with
        | none =>
          obtain ⟨h1, h2⟩ := h.none hp
          simp only at h1 h2
          rw [hw] at h2
          subst h1 h2
          have e1 := run_indent (n :: st) td st.length
          have e2 := run_end st td n (h.names n (by simp [hw]))
          simpa [TW.text, TW.flush, hp, hw] using XTok.run_seq e1 e2
        | some p =>
          obtain ⟨m, as⟩ := p
          obtain ⟨h1, h2⟩ := h.some m as hp
          simp only at h1 h2
          rw [hw] at h2
          cases h2
          subst h1
          have e0 := run_slash_gt ts td n as
          simpa [TW.text, TW.flush, hp, hw] using e0
      · refine ⟨by simp [hdep], hdone2, ?_, rfl, fun _ => ⟨rfl, rfl⟩, ?_⟩
        · intro m hm; exact h.names m (by simp [hw, hm])
        · intro m as hp; cases hp

/-- The parser makes the events of the writer from its text. -/
theorem textRel_run {cs : List WCall} {w : TW} {t : XTok} {s s1 : CS} (h : TextRel w t s) (hc : ∀ c ∈ cs, GoodCall c)
    (hs : s.run cs = some s1) :
    ∃ w1 e t1, w.run cs = some (w1, e) ∧ t.run (w.texts cs).flatten = (e, some t1) ∧ TextRel w1 t1 s1 := by
  induction cs generalizing w t s with
  | nil => cases hs; exact ⟨w, [], t, rfl, rfl, h⟩
  | cons c cs ih =>
    simp only [CS.run] at hs
    cases h1 : s.step c with
    | none => rw [h1] at hs; cases hs
    | some s2 =>
      rw [h1] at hs
      obtain ⟨w2, e2, t2, a1, a2, a3⟩ := textRel_step h c (hc c (by simp)) h1
      obtain ⟨w3, e3, t3, b1, b2, b3⟩ := ih a3 (fun x hx => hc x (by simp [hx])) hs
      refine ⟨w3, e2 ++ e3, t3, ?_, ?_, b3⟩
      · simp [TW.run, a1, b1]
      · simp only [TW.texts, a1, List.flatten_cons]
        exact XTok.run_seq a2 b2

/-! ### Characters that are not allowed -/

theorem charRef_bad {n : Nat} (h : isXmlChar n = false) : charRef (some n) = none := by simp [charRef, h]

/-- The parser refuses a reference to a character that is not allowed. -/
theorem run_ref_bad (st : List String) (dn : Bool) (n : String) (as : XAttrs) (k : String) (q : Char) (v : List Char)
    (r r0 : List Char) (hr : ∀ c ∈ r, c ≠ ';') (hx : decodeRef (r0 ++ r) = none) :
    XTok.run ⟨.valueRef n as k q v r0, st, dn⟩ (r ++ [';']) = ([], none) := by
  induction r generalizing r0 with
  | nil =>
    rw [List.append_nil] at hx
    simp [XTok.run, XTok.step, hx]
  | cons c r ih =>
    have h1 : c ≠ ';' := hr c (by simp)
    have h2 := ih (r0 ++ [c]) (fun a ha => hr a (by simp [ha])) (by simpa using hx)
    simp only [List.cons_append, XTok.run, XTok.step, h1, if_false, h2, List.append_nil]

theorem run_escChar_bad (st : List String) (dn : Bool) (n : String) (as : XAttrs) (k : String) (v : List Char) (c : Char)
    (hc : isXmlChar c.toNat = false) : XTok.run ⟨.value n as k '"' v, st, dn⟩ (escChar c) = ([], none) := by
  have hne : ∀ d : Char, isXmlChar d.toNat = true → c ≠ d := by
    rintro d hd rfl
    rw [hc] at hd
    cases hd
  unfold escChar
  rw [if_neg (hne _ (by decide)), if_neg (hne _ (by decide)), if_neg (hne _ (by decide)), if_neg (hne _ (by decide)),
    if_neg (hne _ (by decide)), if_neg (hne _ (by decide)), if_neg (hne _ (by decide))]
  split
  · have hd := hexAux_digit 6 c.toNat
    have h9 : ∀ d, d < 16 → hexDigit d ≠ ';' := by decide
    have key := run_ref_bad st dn n as k '"' v ('#' :: 'x' :: hexAux 6 c.toNat) [] (by
      intro a ha
      simp only [List.mem_cons] at ha
      rcases ha with rfl | rfl | ha
      · decide
      · decide
      · obtain ⟨d, hd1, rfl⟩ := hd a ha
        exact h9 d hd1) (by
      have hne := hexAux_ne_nil 5 c.toNat
      cases hh : hexAux 6 c.toNat with
      | nil => exact absurd hh hne
      | cons d ds =>
        rw [List.nil_append, decodeRef_hex d ds, ← hh, numberIn_hexAux 6 _ (char_lt c) (by decide)]
        exact charRef_bad hc)
    have e1 : XTok.step ⟨.value n as k '"' v, st, dn⟩ '&' = some ([], ⟨.valueRef n as k '"' v [], st, dn⟩) := by
      simp [XTok.step]
    simpa [XTok.run, e1] using key
  · have h1 := hne '"' (by decide)
    have h2 := hne '<' (by decide)
    have h3 := hne '&' (by decide)
    have h4 : isXmlSpace c = false := by
      simp [isXmlSpace, hne ' ' (by decide), hne '\n' (by decide), hne '\t' (by decide), hne '\r' (by decide)]
    simp [XTok.run, XTok.step, h1, h2, h3, h4, hc]

theorem XTok.run_fail {t : XTok} {a : List Char} {e : List XEv} (h : t.run a = (e, none)) (b : List Char) :
    t.run (a ++ b) = (e, none) := by
  rw [XTok.run_append, h]

theorem run_value_bad (st : List String) (dn : Bool) (n : String) (as : XAttrs) (k : String) (cs v : List Char)
    (hc : ∃ c ∈ cs, isXmlChar c.toNat = false) :
    XTok.run ⟨.value n as k '"' v, st, dn⟩ (cs.flatMap escChar) = ([], none) := by
  induction cs generalizing v with
  | nil => obtain ⟨c, hc, _⟩ := hc; cases hc
  | cons c cs ih =>
    rw [List.flatMap_cons]
    cases hx : isXmlChar c.toNat with
    | false => exact XTok.run_fail (run_escChar_bad st dn n as k v c hx) _
    | true =>
      have h1 := run_escChar st dn n as k v c hx
      have h2 := ih (v ++ [c]) (by
        obtain ⟨d, hd, hd2⟩ := hc
        rcases List.mem_cons.1 hd with rfl | hd
        · rw [hx] at hd2; cases hd2
        · exact ⟨d, hd, hd2⟩)
      rw [XTok.run_ok h1, h2]
      rfl

theorem textRel_step_bad {w : TW} {t : XTok} {s s1 : CS} (h : TextRel w t s) (c : WCall) (hc : ¬GoodCall c)
    (hs : s.step c = some s1) : ∃ w1, w.step c = some (w1, []) ∧ t.run (w.text c) = ([], none) := by
  obtain ⟨tp, ts, td⟩ := t
  cases c with
  | start n => exact absurd trivial hc
  | close => exact absurd trivial hc
  | attr k v =>
    simp only [CS.step] at hs
    cases hp : w.pending with
    | none => rw [h.keys, hp] at hs; cases hs
    | some p =>
      obtain ⟨m, as⟩ := p
      obtain ⟨h1, h2⟩ := h.some m as hp
      simp only at h1 h2
      subst h1
      rw [h.keys, hp] at hs
      simp only [Option.map_some] at hs
      split at hs
      swap
      · cases hs
      next hg =>
      rw [Bool.and_eq_true] at hg
      obtain ⟨hk, hnew⟩ := hg
      have hnew' : k ∉ as.map Prod.fst := by simpa using hnew
      refine ⟨{ w with pending := some (m, as ++ [(k, v)]) }, by simp [TW.step, hp], ?_⟩
      have e1 := run_attr_begin ts td m as k hk hnew'
      have hv : ∃ c ∈ v.toList, isXmlChar c.toNat = false := by
        simp only [GoodCall, XmlText, not_forall, Bool.not_eq_true] at hc
        obtain ⟨c, h1, h2⟩ := hc
        exact ⟨c, h1, h2⟩
      have e2 := run_value_bad ts td m as k v.toList [] hv
      have e3 : XTok.run ⟨tagPos m as, ts, td⟩ (' ' :: k.toList ++ "=\"".toList ++ v.toList.flatMap escChar) =
          ([], none) := by
        rw [XTok.run_ok e1, e2]
        rfl
      exact XTok.run_fail e3 _

/-- None of the calls fails. -/
theorem tw_run_some {cs : List WCall} {w : TW} {s s1 : CS} (hd : s.depth = w.stack.length)
    (hk : s.keys = w.pending.map fun p => p.2.map Prod.fst) (hs : s.run cs = some s1) :
    ∃ w1 e, w.run cs = some (w1, e) := by
  induction cs generalizing w s with
  | nil => exact ⟨w, [], rfl⟩
  | cons c cs ih =>
    simp only [CS.run] at hs
    cases h1 : s.step c with
    | none => rw [h1] at hs; cases hs
    | some s2 =>
      rw [h1] at hs
      have key : ∃ w2 e2, w.step c = some (w2, e2) ∧ s2.depth = w2.stack.length ∧
          s2.keys = w2.pending.map fun p => p.2.map Prod.fst := by
        cases c with
        | start n =>
          simp only [CS.step] at h1
          split at h1
          · cases h1; exact ⟨_, _, rfl, by simp [hd], rfl⟩
          · cases h1
        | attr k v =>
          simp only [CS.step] at h1
          cases hp : w.pending with
          | none => rw [hk, hp] at h1; cases h1
          | some p =>
            rw [hk, hp] at h1
            simp only [Option.map_some] at h1
            split at h1
            · cases h1
              exact ⟨{ w with pending := some (p.1, p.2 ++ [(k, v)]) }, [], by simp [TW.step, hp], hd, by simp⟩
            · cases h1
        | close =>
          simp only [CS.step] at h1
          split at h1
          · cases h1
          next hne =>
          cases h1
          cases hw : w.stack with
          | nil => rw [hd, hw] at hne; exact absurd rfl hne
          | cons n st => exact ⟨⟨st, none⟩, w.flush ++ [.stop n], by simp [TW.step, hw], by simp [hd, hw], rfl⟩
      obtain ⟨w2, e2, a1, a2, a3⟩ := key
      obtain ⟨w3, e3, b⟩ := ih a2 a3 hs
      exact ⟨w3, e2 ++ e3, by simp [TW.run, a1, b]⟩

/-- A text that is not allowed makes the parser fail; the events before it are the first of the writer's. -/
theorem textRel_run_bad {cs : List WCall} {w : TW} {t : XTok} {s s1 : CS} (h : TextRel w t s)
    (hc : ∃ c ∈ cs, ¬GoodCall c) (hs : s.run cs = some s1) :
    ∃ w1 e e1, w.run cs = some (w1, e) ∧ e1 <+: e ∧ t.run (w.texts cs).flatten = (e1, none) := by
  induction cs generalizing w t s with
  | nil => obtain ⟨c, hc, _⟩ := hc; cases hc
  | cons c cs ih =>
    simp only [CS.run] at hs
    cases h1 : s.step c with
    | none => rw [h1] at hs; cases hs
    | some s2 =>
      rw [h1] at hs
      by_cases hg : GoodCall c
      · obtain ⟨w2, e2, t2, a1, a2, a3⟩ := textRel_step h c hg h1
        obtain ⟨w3, e3, e4, b1, b2, b3⟩ := ih a3 (by
          obtain ⟨d, hd, hd2⟩ := hc
          rcases List.mem_cons.1 hd with rfl | hd
          · exact absurd hg hd2
          · exact ⟨d, hd, hd2⟩) hs
        refine ⟨w3, e2 ++ e3, e2 ++ e4, by simp [TW.run, a1, b1], (List.prefix_append_right_inj _).2 b2, ?_⟩
        simp only [TW.texts, a1, List.flatten_cons]
        rw [XTok.run_ok a2, b3]
      · obtain ⟨w2, a1, a2⟩ := textRel_step_bad h c hg h1
        obtain ⟨w3, e3, b⟩ := tw_run_some (cs := c :: cs) (s1 := s1) h.depth h.keys (by simp [CS.run, h1, hs])
        refine ⟨w3, e3, [], b, List.nil_prefix, ?_⟩
        simp only [TW.texts, a1, List.flatten_cons]
        exact XTok.run_fail a2 _

end Osmium

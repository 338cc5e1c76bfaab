import Verif.Xml.TextFile
import Verif.Xml.MoreProps
import Verif.Xml.ChunksProps
/-
C108: the bytes of an XML file are read as what was written, and a file that has been cut is noticed.
-/
namespace Osmium

namespace Spec

/-- The texts of an object that end up in an XML file. -/
def objTexts (o : OsmObj) : List String :=
  (if o.obj.uid > 0 then [o.obj.user] else []) ++ o.obj.tags.flatMap (fun t => [t.key, t.value]) ++
  (match o with | .relation r => r.members.map Member.role | _ => [])

/-- The texts of a file: the name of the program and those of the objects. -/
def fileTexts (gen : String) (os : List OsmObj) : List String := gen :: os.flatMap objTexts

/-- A text without NUL (a C string has none), U+FFFE and U+FFFF. -/
def CText (s : String) : Prop := ∀ c ∈ s.toList, c.toNat ≠ 0 ∧ c.toNat ≠ 65534 ∧ c.toNat ≠ 65535

/-- A text with a control character: one below the space, other than tab, newline and carriage return. -/
def HasControl (s : String) : Prop := ∃ c ∈ s.toList, c.toNat < 32 ∧ c.toNat ≠ 9 ∧ c.toNat ≠ 10 ∧ c.toNat ≠ 13

/-- The bounds are in order. -/
def BoundsOk (m : Meta) : Prop :=
  m.bounds.defined = true → m.bounds.bottomLeft.WF ∧ m.bounds.topRight.WF ∧
    m.bounds.bottomLeft.x ≤ m.bounds.topRight.x ∧ m.bounds.bottomLeft.y ≤ m.bounds.topRight.y

end Spec
open Spec

/-! ### The parser -/

theorem xmlTok_streaming : Streaming xmlTok where
  nothing := fun s => rfl
  append := by
    intro s a b
    simp only [xmlTok, asciiChars, List.map_append]
    rw [XTok.run_append]
    rcases s.run _ with ⟨e, _ | t⟩ <;> rfl
  finish := fun s => rfl

/-! ### The text of a file -/

theorem run_decl : XTok.init.run xmlDecl = ([], some XTok.init) := by decide

theorem textRel_init : TextRel TW.init XTok.init ⟨0, false, none⟩ where
  depth := rfl
  done := rfl
  names := by intro n hn; cases hn
  keys := rfl
  none := fun _ => ⟨rfl, rfl⟩
  some := by intro n as h; cases h

theorem ascii_file (ft : FileType) (gen : String) (m : Meta) (os : List OsmObj) :
    Ascii (xmlTexts ft gen m os).flatten := by
  unfold xmlTexts
  rw [List.flatten_cons]
  exact (ascii_dec (by decide)).append
    (ascii_texts _ TW.init _ _ (by intro n hn; cases hn) (writeFile_run ft gen m os))

/-- The parser, after the whole file. -/
theorem run_file {ft : FileType} {gen : String} {m : Meta} {os : List OsmObj} (h : AllGood (writeFile ft gen m os)) :
    ∃ e, xmlWrite ft gen m os = some e ∧
      XTok.init.run (xmlTexts ft gen m os).flatten = (e, some ⟨.content, [], true⟩) := by
  obtain ⟨w, e, t, h1, h2, h3⟩ := textRel_run textRel_init h (writeFile_run ft gen m os)
  have hp : w.pending = none := by
    have := h3.keys
    simp only at this
    cases hq : w.pending with
    | none => rfl
    | some p => rw [hq] at this; cases this
  have hst : w.stack = [] := List.length_eq_zero_iff.1 h3.depth.symm
  obtain ⟨a1, a2⟩ := h3.none hp
  have a3 := h3.done
  refine ⟨e, ?_, ?_⟩
  · unfold xmlWrite
    rw [h1]
    simp [TW.flush, hp]
  · unfold xmlTexts
    rw [List.flatten_cons, XTok.run_ok run_decl, h2]
    obtain ⟨p, st, dn⟩ := t
    simp only at a1 a2 a3
    rw [a1, a2, hst, ← a3]
    rfl

theorem run_file_bad {ft : FileType} {gen : String} {m : Meta} {os : List OsmObj} (h : ¬AllGood (writeFile ft gen m os)) :
    ∃ e more, xmlWrite ft gen m os = some (e ++ more) ∧ XTok.init.run (xmlTexts ft gen m os).flatten = (e, none) := by
  have hb : ∃ c ∈ writeFile ft gen m os, ¬GoodCall c := by
    simpa [AllGood, not_forall] using h
  obtain ⟨w, e, e1, h1, ⟨m1, h2⟩, h3⟩ := textRel_run_bad textRel_init hb (writeFile_run ft gen m os)
  refine ⟨e1, m1 ++ w.flush, ?_, ?_⟩
  · unfold xmlWrite
    rw [h1]
    simp [← h2]
  · unfold xmlTexts
    rw [List.flatten_cons, XTok.run_ok run_decl, h3]
    rfl

theorem fileTexts_good (ft : FileType) (gen : String) (m : Meta) (os : List OsmObj) :
    AllGood (writeFile ft gen m os) ↔ ∀ s ∈ fileTexts gen os, XmlText s := by
  rw [allGood_file]
  simp only [fileTexts, List.forall_mem_cons, List.mem_flatMap, forall_exists_index, and_imp]
  refine and_congr Iff.rfl ?_
  have key : ∀ o, AllGood (writeBody ft o) ↔ ∀ s ∈ objTexts o, XmlText s := by
    intro o
    rw [allGood_body]
    simp only [objTexts, List.forall_mem_append, and_assoc]
    refine and_congr ?_ (and_congr ?_ ?_)
    · split
      · next h => simp [h]
      · next h => simp [h]
    · simp only [List.mem_flatMap, forall_exists_index, and_imp]
      constructor
      · intro h s t ht hs
        rcases List.mem_cons.1 hs with rfl | hs
        · exact (h t ht).1
        · rw [List.mem_singleton.1 hs]; exact (h t ht).2
      · intro h t ht
        exact ⟨h _ t ht (by simp), h _ t ht (by simp)⟩
    · cases o <;> simp
  constructor
  · intro h s o ho hs
    exact (key o).1 (h o ho) s hs
  · intro h o ho
    exact (key o).2 fun s hs => h s o ho hs

theorem document_xmlBytes (ft : FileType) (gen : String) (m : Meta) (os : List OsmObj) :
    document xmlTok (xmlBytes ft gen m os) =
      match XTok.init.run (xmlTexts ft gen m os).flatten with
      | (ev, none) => (ev, false)
      | (ev, some s) => (ev, (xmlTok.finish s).2) := by
  unfold document xmlBytes
  have : xmlTok.feed xmlTok.start (asciiBytes (xmlTexts ft gen m os).flatten) =
      XTok.init.run (xmlTexts ft gen m os).flatten := by
    simp only [xmlTok, asciiChars_asciiBytes (ascii_file ft gen m os)]
  rw [this]
  rcases XTok.init.run (xmlTexts ft gen m os).flatten with ⟨e, _ | t⟩ <;> rfl

/-- C108: an XML parser that gets the bytes of the file makes the events of the document that was written, if all texts
consist of characters that are allowed in XML. -/
theorem xml_text_document (ft : FileType) (gen : String) (m : Meta) (os : List OsmObj)
    (ht : ∀ s ∈ fileTexts gen os, XmlText s) :
    ∃ evs, xmlWrite ft gen m os = some evs ∧ document xmlTok (xmlBytes ft gen m os) = (evs, true) := by
  obtain ⟨e, h1, h2⟩ := run_file ((fileTexts_good ft gen m os).2 ht)
  refine ⟨e, h1, ?_⟩
  rw [document_xmlBytes, h2]
  simp [xmlTok]

/-- C108: write any objects to an XML file and read its bytes, in whatever portions they come.  If all texts consist of
characters that are allowed in XML, the calls are those of the protocol for these objects, up to the normalisation
`xmlKept`. -/
theorem xml_bytes_roundtrip_partial (ft : FileType) (gen : String) (m : Meta) (hb : BoundsOk m)
    (os : List OsmObj) (hne : os ≠ []) (ho : ∀ o ∈ os, XmlOk o) (ht : ∀ s ∈ fileTexts gen os, XmlText s)
    (ps : List (List UInt8)) (hp : Portions ps) (hps : ps.flatten = xmlBytes ft gen m os) (rest : List XRead)
    (h : Stops) (hh : ∀ l, h l = false) :
    xmlParseReads xmlTok ft h (ps.map .data ++ .data [] :: rest) =
      (protocol (xmlReadMeta ft gen m) (os.map (xmlKept ft)), .returned) := by
  obtain ⟨evs, h1, h2⟩ := xml_text_document ft gen m os ht
  rw [xml_any_portions xmlTok xmlTok_streaming ft h ps hp rest, hps]
  have : wholeFile xmlTok (xmlBytes ft gen m os) = ⟨evs, none⟩ := by
    unfold wholeFile
    rw [h2]
    rfl
  rw [this]
  exact xml_roundtrip ft gen m hb os hne ho evs h1 h hh

theorem xmlText_iff {s : String} (h : CText s) : XmlText s ↔ ¬HasControl s := by
  have key : ∀ c : Char, (c.toNat ≠ 0 ∧ c.toNat ≠ 65534 ∧ c.toNat ≠ 65535) →
      (isXmlChar c.toNat = true ↔ ¬(c.toNat < 32 ∧ c.toNat ≠ 9 ∧ c.toNat ≠ 10 ∧ c.toNat ≠ 13)) := by
    intro c hc
    have hv : c.toNat < 55296 ∨ 57343 < c.toNat ∧ c.toNat < 1114112 := c.valid
    simp only [isXmlChar, Bool.or_eq_true, Bool.and_eq_true, decide_eq_true_eq, beq_iff_eq]
    omega
  unfold XmlText HasControl
  constructor
  · rintro h1 ⟨c, hc, h2⟩
    exact (key c (h c hc)).1 (h1 c hc) h2
  · intro h1 c hc
    exact (key c (h c hc)).2 fun h2 => h1 ⟨c, hc, h2⟩

/-- C108: what cannot be read again: as soon as one text (of C strings without U+FFFE and U+FFFF) has a control character.
The file is written without any complaint, and reading it throws an exception after some of the calls. -/
theorem xml_bytes_control (ft : FileType) (gen : String) (m : Meta) (hb : BoundsOk m)
    (os : List OsmObj) (hne : os ≠ []) (ho : ∀ o ∈ os, XmlOk o) (hc : ∀ s ∈ fileTexts gen os, CText s)
    (hbad : ∃ s ∈ fileTexts gen os, HasControl s)
    (ps : List (List UInt8)) (hp : Portions ps) (hps : ps.flatten = xmlBytes ft gen m os) (rest : List XRead)
    (h : Stops) (hh : ∀ l, h l = false) :
    (xmlWrite ft gen m os).isSome = true ∧
    ∃ calls, xmlParseReads xmlTok ft h (ps.map .data ++ .data [] :: rest) = (calls, .threw (.exn "XML parsing error")) ∧
      calls <+: protocol (xmlReadMeta ft gen m) (os.map (xmlKept ft)) := by
  have hg : ¬AllGood (writeFile ft gen m os) := by
    rw [fileTexts_good]
    obtain ⟨s, hs, h1⟩ := hbad
    intro h2
    exact (xmlText_iff (hc s hs)).1 (h2 s hs) h1
  obtain ⟨e, more, h1, h2⟩ := run_file_bad hg
  refine ⟨by rw [h1]; rfl, ?_⟩
  have hr := xml_roundtrip ft gen m hb os hne ho _ h1 h hh
  obtain ⟨calls, a1, a2, _⟩ := xml_truncated ft h hh e more (.exn "XML parsing error") _ hr
  refine ⟨calls, ?_, a2⟩
  rw [xml_any_portions xmlTok xmlTok_streaming ft h ps hp rest, hps]
  have : wholeFile xmlTok (xmlBytes ft gen m os) = ⟨e, some (.exn "XML parsing error")⟩ := by
    unfold wholeFile
    rw [document_xmlBytes, h2]
    rfl
  rw [this]
  exact a1

/-- C108: a file can be read again if and only if none of its texts has a control character. -/
theorem xml_bytes_readable_iff (ft : FileType) (gen : String) (m : Meta) (hb : BoundsOk m)
    (os : List OsmObj) (hne : os ≠ []) (ho : ∀ o ∈ os, XmlOk o) (hc : ∀ s ∈ fileTexts gen os, CText s)
    (ps : List (List UInt8)) (hp : Portions ps) (hps : ps.flatten = xmlBytes ft gen m os) (rest : List XRead)
    (h : Stops) (hh : ∀ l, h l = false) :
    (xmlParseReads xmlTok ft h (ps.map .data ++ .data [] :: rest)).2 = .returned ↔
      ∀ s ∈ fileTexts gen os, ¬HasControl s := by
  constructor
  · intro h1 s hs h2
    obtain ⟨_, calls, a, _⟩ := xml_bytes_control ft gen m hb os hne ho hc ⟨s, hs, h2⟩ ps hp hps rest h hh
    rw [a] at h1
    cases h1
  · intro h1
    rw [xml_bytes_roundtrip_partial ft gen m hb os hne ho (fun s hs => (xmlText_iff (hc s hs)).2 (h1 s hs)) ps hp hps rest h hh]

/-! ### Files that have been cut -/

/-- Only `>` can close the root element. -/
theorem step_done {t t1 : XTok} {c : Char} {e : List XEv} (h : t.step c = some (e, t1)) (hc : c ≠ '>') :
    t1.done = t.done := by
  unfold XTok.step at h
  revert h
  simp only [hc, if_false, false_and, XTok.opened, XTok.closed]
  repeat' split
  all_goals intro h; first | cases h; rfl | cases h

/-- The root element stays closed. -/
theorem step_done_mono {t t1 : XTok} {c : Char} {e : List XEv} (h : t.step c = some (e, t1)) (hd : t.done = true) :
    t1.done = true := by
  unfold XTok.step at h
  revert h
  simp only [XTok.opened, XTok.closed]
  repeat' split
  all_goals intro h; first | (cases h; simp [hd]) | cases h

theorem run_done {t t1 : XTok} {cs : List Char} {e : List XEv} (h : t.run cs = (e, some t1)) (hc : '>' ∉ cs) :
    t1.done = t.done := by
  induction cs generalizing t e with
  | nil => cases h; rfl
  | cons c cs ih =>
    simp only [XTok.run] at h
    cases hs : t.step c with
    | none => rw [hs] at h; cases h
    | some r =>
      obtain ⟨e1, t2⟩ := r
      rw [hs] at h
      simp only [Prod.mk.injEq] at h
      rw [← step_done hs (by rintro rfl; simp at hc)]
      exact ih (e := (t2.run cs).1) (by rw [← h.2]) (by intro hm; exact hc (by simp [hm]))

theorem run_done_mono {t t1 : XTok} {cs : List Char} {e : List XEv} (h : t.run cs = (e, some t1)) (hd : t.done = true) :
    t1.done = true := by
  induction cs generalizing t e with
  | nil => cases h; exact hd
  | cons c cs ih =>
    simp only [XTok.run] at h
    cases hs : t.step c with
    | none => rw [hs] at h; cases h
    | some r =>
      obtain ⟨e1, t2⟩ := r
      rw [hs] at h
      simp only [Prod.mk.injEq] at h
      exact ih (e := (t2.run cs).1) (by rw [← h.2]) (step_done_mono hs hd)

theorem texts_append {a b : List WCall} {w w1 : TW} {e : List XEv} (h : w.run a = some (w1, e)) :
    w.texts (a ++ b) = w.texts a ++ w1.texts b := by
  induction a generalizing w e with
  | nil => cases h; rfl
  | cons c a ih =>
    cases hs : w.step c with
    | none => simp [TW.run, hs] at h
    | some r =>
      obtain ⟨w2, e2⟩ := r
      cases hr : w2.run a with
      | none => simp [TW.run, hs, hr] at h
      | some r2 =>
        obtain ⟨w3, e3⟩ := r2
        simp [TW.run, hs, hr] at h
        obtain ⟨rfl, _⟩ := h
        simp only [List.cons_append, TW.texts, hs]
        rw [ih hr]

theorem name_no_gt {n : String} (h : goodName n = true) : '>' ∉ n.toList := by
  obtain ⟨c, cs, hcs, h1, h2⟩ := goodName_iff h
  rw [hcs]
  intro hm
  rcases List.mem_cons.1 hm with rfl | hm
  · exact absurd h1 (by decide)
  · exact absurd (h2 _ hm) (by decide)

theorem indent_no_gt (n : Nat) : '>' ∉ indentText n := by
  intro h
  simp only [indentText, List.mem_flatten, List.mem_replicate] at h
  obtain ⟨l, ⟨_, rfl⟩, h⟩ := h
  exact absurd h (by decide)

/-- Before its last two characters the document is not complete. -/
theorem run_file_before {ft : FileType} {gen : String} {m : Meta} {os : List OsmObj}
    (h : AllGood (writeFile ft gen m os)) :
    ∃ a e t, (xmlTexts ft gen m os).flatten = a ++ ['>', '\n'] ∧ XTok.init.run a = (e, some t) ∧ t.done = false := by
  obtain ⟨cs, k, h1, h2⟩ := writeFile_run0 ft gen m os
  rw [h1, allGood_append] at h
  obtain ⟨w, e, t, a1, a2, a3⟩ := textRel_run textRel_init h.1 h2
  have hd : t.done = false := a3.done.symm
  have hl : w.stack.length = 1 := a3.depth.symm
  cases hw : w.stack with
  | nil => rw [hw] at hl; cases hl
  | cons n st =>
    rw [hw] at hl
    have hst : st = [] := List.length_eq_zero_iff.1 (by simpa using hl)
    subst hst
    have hx : ∃ x, '>' ∉ x ∧ w.text .close = x ++ ['>', '\n'] := by
      cases hp : w.pending with
      | some p => exact ⟨['/'], by decide, by simp [TW.text, hw, hp]⟩
      | none =>
        refine ⟨indentText 0 ++ "</".toList ++ n.toList, ?_, by simp [TW.text, hw, hp]⟩
        simp only [List.mem_append, not_or]
        exact ⟨⟨indent_no_gt 0, by decide⟩, name_no_gt (a3.names n (by simp [hw]))⟩
    obtain ⟨x, hx1, hx2⟩ := hx
    have htext : (xmlTexts ft gen m os).flatten = xmlDecl ++ (TW.init.texts cs).flatten ++ x ++ ['>', '\n'] := by
      unfold xmlTexts
      rw [h1, texts_append a1]
      have : w.texts [.close] = [w.text .close] := by simp [TW.texts, TW.step, hw]
      rw [this, List.flatten_cons, List.flatten_append, hx2]
      simp
    have hrun0 : XTok.init.run (xmlDecl ++ (TW.init.texts cs).flatten) = (e, some t) := by
      rw [XTok.run_ok run_decl, a2]
      rfl
    have hg : AllGood (writeFile ft gen m os) := by rw [h1, allGood_append]; exact h
    obtain ⟨e2, _, hfull⟩ := run_file hg
    rw [htext] at hfull
    rcases hr : XTok.init.run (xmlDecl ++ (TW.init.texts cs).flatten ++ x) with ⟨e3, r⟩
    cases r with
    | none =>
      rw [XTok.run_fail hr] at hfull
      cases hfull
    | some t2 =>
      refine ⟨_, e3, t2, htext, hr, ?_⟩
      rw [XTok.run_ok hrun0] at hr
      rcases hr2 : t.run x with ⟨e4, r4⟩
      rw [hr2] at hr
      simp only [Prod.mk.injEq] at hr
      rw [hr.2] at hr2
      rw [run_done hr2 hx1, hd]

/-- C108: the beginning of a file is no complete document, if more than the newline at the end is missing. -/
theorem xml_cut_incomplete (ft : FileType) (gen : String) (m : Meta) (os : List OsmObj)
    (ht : ∀ s ∈ fileTexts gen os, XmlText s) (p missing : List UInt8)
    (hp : p ++ missing = xmlBytes ft gen m os) (hm : missing.length ≥ 2) :
    (document xmlTok p).2 = false := by
  obtain ⟨a, e, t, h1, h2, h3⟩ := run_file_before ((fileTexts_good ft gen m os).2 ht)
  have hasc : Ascii a := by
    have := ascii_file ft gen m os
    rw [h1] at this
    intro c hc
    exact this c (by simp [hc])
  have hb : p ++ missing = asciiBytes a ++ asciiBytes ['>', '\n'] := by
    rw [hp, xmlBytes, h1]
    simp [asciiBytes]
  obtain ⟨r, hr⟩ : ∃ r, asciiBytes a = p ++ r := by
    have hlen := congrArg List.length hb
    simp only [List.length_append] at hlen
    have h2 : (asciiBytes ['>', '\n']).length = 2 := rfl
    have : p <+: asciiBytes a := by
      refine List.prefix_of_prefix_length_le (l₃ := p ++ missing) (List.prefix_append _ _) ?_ (by omega)
      rw [hb]
      exact List.prefix_append _ _
    obtain ⟨r, hr⟩ := this
    exact ⟨r, hr.symm⟩
  have hrun : XTok.init.run (asciiChars p ++ asciiChars r) = (e, some t) := by
    have : asciiChars p ++ asciiChars r = a := by
      rw [← asciiChars_asciiBytes hasc, hr]
      simp [asciiChars]
    rw [this, h2]
  unfold document
  rcases hq : xmlTok.feed xmlTok.start p with ⟨e1, r1⟩
  cases r1 with
  | none => rfl
  | some t1 =>
    have hq' : XTok.init.run (asciiChars p) = (e1, some t1) := hq
    rw [XTok.run_ok hq'] at hrun
    simp only [Prod.mk.injEq] at hrun
    have hnd : t1.done ≠ true := by
      intro hd
      have := run_done_mono (t := t1) (e := (t1.run (asciiChars r)).1) (t1 := t) (by rw [← hrun.2]) hd
      rw [h3] at this
      cases this
    simp [xmlTok, hnd]

/-- C108: if a file is cut anywhere, so that more than the newline at the end is missing, reading it throws an exception,
after calls that are the first of those for the whole file. -/
theorem xml_bytes_cut (ft : FileType) (gen : String) (m : Meta) (hb : BoundsOk m)
    (os : List OsmObj) (hne : os ≠ []) (ho : ∀ o ∈ os, XmlOk o) (ht : ∀ s ∈ fileTexts gen os, XmlText s)
    (ps : List (List UInt8)) (hp : Portions ps) (missing : List UInt8)
    (hps : ps.flatten ++ missing = xmlBytes ft gen m os) (hm : missing.length ≥ 2) (rest : List XRead)
    (h : Stops) (hh : ∀ l, h l = false) :
    ∃ calls, xmlParseReads xmlTok ft h (ps.map .data ++ .data [] :: rest) = (calls, .threw (.exn "XML parsing error")) ∧
      calls <+: protocol (xmlReadMeta ft gen m) (os.map (xmlKept ft)) := by
  have hcut := xml_cut_incomplete ft gen m os ht _ missing hps hm
  obtain ⟨more, h1⟩ := document_append xmlTok_streaming ps.flatten missing
  obtain ⟨evs, h2, h3⟩ := xml_text_document ft gen m os ht
  rw [hps, h3] at h1
  simp only at h1
  have hr := xml_roundtrip ft gen m hb os hne ho evs h2 h hh
  rw [h1] at hr
  obtain ⟨calls, a1, a2, _⟩ := xml_truncated ft h hh _ more (.exn "XML parsing error") _ hr
  refine ⟨calls, ?_, a2⟩
  rw [xml_any_portions xmlTok xmlTok_streaming ft h ps hp rest]
  have : wholeFile xmlTok ps.flatten = ⟨(document xmlTok ps.flatten).1, some (.exn "XML parsing error")⟩ := by
    simp [wholeFile, hcut]
  rw [this]
  exact a1

/-- A newline does not complete anything. -/
theorem step_newline {t : XTok} {e : List XEv} {st : List String} {dn : Bool}
    (h : t.step '\n' = some (e, ⟨.content, st, dn⟩)) : t = ⟨.content, st, dn⟩ ∧ e = [] := by
  obtain ⟨p, st2, dn2⟩ := t
  revert h
  cases p <;> simp [XTok.step, isXmlSpace, isNameChar, isNameStart, isXmlChar, XTok.opened, XTok.closed] <;>
    (try split) <;> (try split) <;> (try simp) <;> grind

/-- C108: the newline at the end of a file is not needed. -/
theorem xml_bytes_newline (ft : FileType) (gen : String) (m : Meta) (os : List OsmObj)
    (ht : ∀ s ∈ fileTexts gen os, XmlText s) (p missing : List UInt8)
    (hp : p ++ missing = xmlBytes ft gen m os) (hm : missing.length ≤ 1) :
    document xmlTok p = document xmlTok (xmlBytes ft gen m os) := by
  obtain ⟨a, _, _, h1, _, _⟩ := run_file_before ((fileTexts_good ft gen m os).2 ht)
  obtain ⟨e2, _, hfull⟩ := run_file ((fileTexts_good ft gen m os).2 ht)
  match missing, hm with
  | [], _ => rw [← hp, List.append_nil]
  | [b], _ =>
    have hsplit : (xmlTexts ft gen m os).flatten = (a ++ ['>']) ++ ['\n'] := by rw [h1]; simp
    have hb : p ++ [b] = asciiBytes (a ++ ['>']) ++ asciiBytes ['\n'] := by
      rw [hp, xmlBytes, hsplit]
      simp [asciiBytes]
    have hpp : p = asciiBytes (a ++ ['>']) := by
      have := congrArg List.dropLast hb
      simpa [asciiBytes] using this
    have hasc : Ascii (a ++ ['>']) := by
      have := ascii_file ft gen m os
      rw [hsplit] at this
      intro c hc
      exact this c (List.mem_append_left _ hc)
    rw [document_xmlBytes, hfull]
    rw [hsplit] at hfull
    rcases hr : XTok.init.run (a ++ ['>']) with ⟨e3, r⟩
    cases r with
    | none => rw [XTok.run_fail hr] at hfull; cases hfull
    | some t =>
      rw [XTok.run_ok hr] at hfull
      simp only [XTok.run] at hfull
      cases hs : t.step '\n' with
      | none => rw [hs] at hfull; cases hfull
      | some q =>
        obtain ⟨e4, t4⟩ := q
        rw [hs] at hfull
        simp only [List.append_nil, Prod.mk.injEq, Option.some.injEq] at hfull
        obtain ⟨h5, h6⟩ := hfull
        subst h6
        obtain ⟨h7, h8⟩ := step_newline hs
        subst h8
        have hfeed : xmlTok.feed xmlTok.start p = (e3, some t) := by
          rw [hpp]
          simp only [xmlTok, asciiChars_asciiBytes hasc]
          exact hr
        unfold document
        rw [hfeed, h7]
        simp [← h5]

/-! ### Concrete cases -/

/-- A node with the text `v` as value of a tag. -/
def tdemoObj (v : String) : OsmObj :=
  .node ⟨{ Obj.new with id := -5, tags := [⟨"a\"<", v⟩] }, Position.undef⟩

/-- The text of the file with this node. -/
example : (xmlTexts .osm "x" (Meta.new false) [tdemoObj "é\n\'"]).flatten =
    ("<?xml version=\"1.0\"?>\n<osm version=\"0.6\" generator=\"x\">\n" ++
     "  <node id=\"-5\">\n    <tag k=\"a&quot;&lt;\" v=\"&#xE9;&#10;'\"/>\n  </node>\n</osm>\n").toList := by
  decide +kernel

/-- The hypotheses of the theorems above are met by this file. -/
theorem tdemo_ok (v : String) : ∀ o ∈ [tdemoObj v], XmlOk o := by
  intro o ho
  rw [List.mem_singleton.1 ho]
  refine ⟨⟨⟨?_, ?_, ?_, ?_, ?_, ?_⟩, Or.inl rfl, by simp only [Obj.new]; decide⟩,
    by simp only [Position.WF, Position.undef]; decide⟩ <;> simp only [Obj.new] <;> decide

example : ∀ s ∈ fileTexts "x" [tdemoObj "é\n\'"], XmlText s := by
  have : fileTexts "x" [tdemoObj "é\n\'"] = ["x", "a\"<", "é\n\'"] := by decide
  rw [this]
  unfold XmlText
  decide

/-- C108: an example of a file that cannot be read again: a tag with the character U+0001. -/
theorem xml_bytes_roundtrip_fails (ps : List (List UInt8)) (hp : Portions ps)
    (hps : ps.flatten = xmlBytes .osm "x" (Meta.new false) [tdemoObj "\x01"]) (rest : List XRead) :
    ∃ calls, xmlParseReads xmlTok .osm (fun _ => false) (ps.map .data ++ .data [] :: rest) =
      (calls, .threw (.exn "XML parsing error")) := by
  have ht : fileTexts "x" [tdemoObj "\x01"] = ["x", "a\"<", "\x01"] := by decide
  obtain ⟨_, calls, h, _⟩ := xml_bytes_control .osm "x" (Meta.new false) (by intro h; cases h) [tdemoObj "\x01"] (by simp)
    (tdemo_ok _) (by rw [ht]; unfold CText; decide) (by rw [ht]; exact ⟨"\x01", by simp, Char.ofNat 1, by decide⟩)
    ps hp hps rest (fun _ => false) (fun _ => rfl)
  exact ⟨calls, h⟩

/-- Reading the file of the example above, byte by byte. -/
example : xmlParseReads xmlTok .osm (fun _ => false)
      (((xmlBytes .osm "x" (Meta.new false) [tdemoObj "é\n\'"]).map fun b => .data [b]) ++ [.data []]) =
    (protocol ⟨Bounds.empty, "x", false⟩ [tdemoObj "é\n\'"], .returned) := by
  decide +kernel

/-! ### Elements are nested -/

/-- The elements that are open after events, the innermost first; `none` if an end does not fit. -/
def Spec.openAfter : List String → List XEv → Option (List String)
  | st, [] => some st
  | st, .start n _ :: es => Spec.openAfter (n :: st) es
  | [], .stop _ :: _ => none
  | m :: st, .stop n :: es => if n = m then Spec.openAfter st es else none

theorem openAfter_append (a b : List XEv) : ∀ st, openAfter st (a ++ b) = (openAfter st a).bind fun st => openAfter st b := by
  induction a with
  | nil => intro st; rfl
  | cons e a ih =>
    intro st
    cases e with
    | start n as => exact ih (n :: st)
    | stop n =>
      cases st with
      | nil => rfl
      | cons m st =>
        simp only [List.cons_append, openAfter]
        by_cases h : n = m
        · simp only [if_pos h]; exact ih st
        · simp only [if_neg h]; rfl

theorem step_nested {t t1 : XTok} {c : Char} {e : List XEv} (h : t.step c = some (e, t1)) :
    openAfter t.stack e = some t1.stack := by
  have hc : ∀ n e t1, t.closed n = some (e, t1) → openAfter t.stack e = some t1.stack := by
    intro n e t1 h
    unfold XTok.closed at h
    cases hs : t.stack with
    | nil => rw [hs] at h; cases h
    | cons m st =>
      rw [hs] at h
      simp only at h
      by_cases hn : n = m
      · rw [if_pos hn] at h
        cases h
        simp [openAfter, hn]
      · rw [if_neg hn] at h; cases h
  have ho : ∀ n as e t1, t.opened n as = some (e, t1) → openAfter t.stack e = some t1.stack := by
    intro n as e t1 h
    unfold XTok.opened at h
    cases h
    rfl
  unfold XTok.step at h
  dsimp only at h
  split at h <;> (repeat' split at h) <;>
    first
      | (cases h; done)
      | (cases h; rfl)
      | (cases h; simp [openAfter]; done)
      | exact ho _ _ _ _ h
      | exact hc _ _ _ h

/-- **C108** (nesting): whatever the bytes are and whatever portions they come in, the events of the parser are nested:
each end belongs to the element opened last; a document with another end tag is not accepted. -/
theorem xml_nested (cs : List Char) (t t1 : XTok) (e : List XEv) (h : t.run cs = (e, some t1)) :
    openAfter t.stack e = some t1.stack := by
  induction cs generalizing t e with
  | nil => cases h; rfl
  | cons c cs ih =>
    simp only [XTok.run] at h
    cases hs : t.step c with
    | none => rw [hs] at h; cases h
    | some p =>
      obtain ⟨e1, t2⟩ := p
      rw [hs] at h
      simp only [Prod.mk.injEq] at h
      rw [← h.1, openAfter_append, step_nested hs]
      exact ih t2 _ (Prod.ext rfl h.2)

/-- Three elements, one of them closed; and a wrong end tag. -/
example : (XTok.init.run "<a><b x='1'></b><c>".toList).1 = [.start "a" [], .start "b" [("x", "1")], .stop "b", .start "c" []] ∧
    (XTok.init.run "<a><b x='1'></b><c>".toList).2.map XTok.stack = some ["c", "a"] ∧
    (XTok.init.run "<a></b>".toList).2 = none := by
  decide +kernel

/-! ### Names -/

/-- The characters a name can begin with are the letters, `_` and `:`. -/
theorem isNameStart_iff (c : Char) : isNameStart c = true ↔
    c ∈ "abcdefghijklmnopqrstuvwxyzABCDEFGHIJKLMNOPQRSTUVWXYZ_:".toList := by
  by_cases h : c.toNat < 128
  · have : ∀ n : Fin 128, isNameStart (Char.ofNat n) = true ↔
        Char.ofNat n ∈ "abcdefghijklmnopqrstuvwxyzABCDEFGHIJKLMNOPQRSTUVWXYZ_:".toList := by decide +kernel
    simpa using this ⟨c.toNat, h⟩
  · have h1 : ∀ d ∈ "abcdefghijklmnopqrstuvwxyzABCDEFGHIJKLMNOPQRSTUVWXYZ_:".toList, d.toNat < 128 := by decide +kernel
    refine ⟨fun hs => ?_, fun hm => absurd (h1 c hm) h⟩
    simp only [isNameStart, Bool.or_eq_true, Bool.and_eq_true, decide_eq_true_eq, beq_iff_eq] at hs
    rcases hs with (⟨_, h2⟩ | ⟨_, h2⟩) | rfl | rfl <;> first | omega | exact absurd (by decide) h

/-- The other characters of a name can be digits, `-` and `.` as well. -/
theorem isNameChar_iff (c : Char) : isNameChar c = true ↔
    c ∈ "abcdefghijklmnopqrstuvwxyzABCDEFGHIJKLMNOPQRSTUVWXYZ_:0123456789-.".toList := by
  by_cases h : c.toNat < 128
  · have : ∀ n : Fin 128, isNameChar (Char.ofNat n) = true ↔
        Char.ofNat n ∈ "abcdefghijklmnopqrstuvwxyzABCDEFGHIJKLMNOPQRSTUVWXYZ_:0123456789-.".toList := by decide +kernel
    simpa using this ⟨c.toNat, h⟩
  · have h1 : ∀ d ∈ "abcdefghijklmnopqrstuvwxyzABCDEFGHIJKLMNOPQRSTUVWXYZ_:0123456789-.".toList, d.toNat < 128 := by
      decide +kernel
    refine ⟨fun hs => ?_, fun hm => absurd (h1 c hm) h⟩
    simp only [isNameChar, isNameStart, Bool.or_eq_true, Bool.and_eq_true, decide_eq_true_eq, beq_iff_eq] at hs
    rcases hs with ((((⟨_, h2⟩ | ⟨_, h2⟩) | rfl | rfl) | ⟨_, h2⟩) | rfl) | rfl <;>
      first | omega | exact absurd (by decide) h

end Osmium

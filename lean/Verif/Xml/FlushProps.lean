import Verif.Xml.Flush
import Verif.Xml.TextProps
/-
C109: what is in an XML file if writing it fails or is interrupted.
-/
namespace Osmium

namespace Spec

/-- No `write` call fails. -/
def NoFailure (as : List CallAct) : Prop := ∀ a ∈ as, ∀ x ∈ a.acts, x.2.isSome = true

end Spec
open Spec

theorem put_failed (s : XBuf) (hs : s.failed = true) (text : List UInt8) (acts : List BufAct) :
    s.put text acts = s := by
  cases acts with
  | nil => simp [XBuf.put, hs]
  | cons b bs => simp [XBuf.put, hs]

/-- Without an error all that was put is in the file or in the buffer; with an error what is in the file is a beginning. -/
theorem put_content (acts : List BufAct) (s : XBuf) (text : List UInt8) (hs : s.failed = false) :
    ((s.put text acts).failed = false → (s.put text acts).file ++ (s.put text acts).buf = s.file ++ s.buf ++ text) ∧
    (s.put text acts).file <+: s.file ++ s.buf ++ text := by
  induction acts generalizing s text with
  | nil =>
    simp only [XBuf.put, hs]
    simp
  | cons a acts ih =>
    obtain ⟨k, r⟩ := a
    obtain ⟨f, b, fl⟩ := s
    simp only at hs
    subst hs
    simp only [XBuf.put, Bool.false_eq_true, if_false]
    cases r with
    | none =>
      rw [put_failed _ rfl]
      exact ⟨(fun h => by cases h), by simp [XBuf.write, List.append_assoc]⟩
    | some n =>
      have h1 := ih (XBuf.write ⟨f, b ++ text.take k, false⟩ (some n)) (text.drop k) rfl
      have h3 : f ++ (b ++ text.take k).take n ++ (b ++ text.take k).drop n ++ text.drop k = f ++ b ++ text := by
        rw [List.append_assoc f, List.take_append_drop]
        simp [List.append_assoc]
      simp only [XBuf.write] at h1 ⊢
      rwa [h3] at h1

theorem put_fails_iff (acts : List BufAct) (s : XBuf) (text : List UInt8) (hs : s.failed = false) :
    (s.put text acts).failed = true ↔ ∃ x ∈ acts, x.2 = none := by
  induction acts generalizing s text with
  | nil => simp [XBuf.put, hs]
  | cons a acts ih =>
    obtain ⟨k, r⟩ := a
    simp only [XBuf.put, hs, Bool.false_eq_true, if_false]
    cases r with
    | none =>
      rw [put_failed _ rfl]
      simp [XBuf.write]
    | some n =>
      rw [ih _ _ rfl]
      simp

theorem calls_content (ts : List (List UInt8)) (s : XBuf) (as : List CallAct) (hs : s.failed = false) :
    ((s.calls ts as).1.failed = false → (s.calls ts as).2 = false ∧
      (s.calls ts as).1.file ++ (s.calls ts as).1.buf = s.file ++ s.buf ++ ts.flatten) ∧
    (s.calls ts as).1.file <+: s.file ++ s.buf ++ ts.flatten := by
  induction ts generalizing s as with
  | nil => simp [XBuf.calls]
  | cons t ts ih =>
    obtain ⟨h1, h2⟩ := put_content (as.headD ⟨[], false⟩).acts s t hs
    simp only [XBuf.calls, hs, Bool.false_or]
    generalize (as.headD ⟨[], false⟩).silent = sil
    generalize s.put t (as.headD ⟨[], false⟩).acts = s1 at h1 h2 ⊢
    have h2' : s1.file <+: s.file ++ s.buf ++ (t :: ts).flatten := by
      rw [List.flatten_cons, ← List.append_assoc]
      exact h2.trans (List.prefix_append _ _)
    cases hf : s1.failed with
    | false =>
      simp only [Bool.false_and, Bool.false_eq_true, if_false]
      have := ih s1 as.tail hf
      rw [h1 hf] at this
      simpa [List.append_assoc] using this
    | true =>
      cases sil with
      | false =>
        simp only [Bool.not_false, Bool.and_self, if_true]
        exact ⟨(fun h => by rw [hf] at h; cases h), h2'⟩
      | true =>
        simp only [Bool.not_true, Bool.and_false, Bool.false_eq_true, if_false]
        cases ts with
        | nil => exact ⟨(fun h => by simp only [XBuf.calls] at h; rw [hf] at h; cases h), h2'⟩
        | cons t2 ts =>
          simp only [XBuf.calls, hf, Bool.true_or, if_true, put_failed s1 hf]
          exact ⟨(fun h => by cases h), h2'⟩

theorem flatten_asciiBytes (ts : List (List Char)) : (ts.map asciiBytes).flatten = asciiBytes ts.flatten := by
  induction ts with
  | nil => rfl
  | cons t ts ih => rw [List.map_cons, List.flatten_cons, ih]; simp [asciiBytes]

/-- C109: whatever the library and the operating system do, what is in the file after writing is the beginning of the
document. -/
theorem xml_store_prefix (ft : FileType) (gen : String) (m : Meta) (os : List OsmObj) (as : List CallAct)
    (last : Option Nat) : (xmlStore ft gen m os as last).1 <+: xmlBytes ft gen m os := by
  obtain ⟨h1, h2⟩ := calls_content ((xmlTexts ft gen m os).map asciiBytes) XBuf.init as rfl
  rw [flatten_asciiBytes] at h1 h2
  have h2' : (XBuf.init.calls ((xmlTexts ft gen m os).map asciiBytes) as).1.file <+: xmlBytes ft gen m os := h2
  unfold xmlStore
  dsimp only
  split
  · exact h2'
  · unfold XBuf.close
    split
    · exact h2'
    · next hf =>
      obtain ⟨_, h3⟩ := h1 (by simpa using hf)
      cases last with
      | none => exact h2'
      | some k =>
        have h4 : xmlBytes ft gen m os = _ := h3.symm
        rw [h4]
        simp only [XBuf.write]
        exact (List.prefix_append_right_inj _).2 (List.take_prefix _ _)

/-- C109: the same if the program ends before it has made all calls. -/
theorem xml_store_until_prefix (ft : FileType) (gen : String) (m : Meta) (os : List OsmObj) (as : List CallAct)
    (n : Nat) : xmlStoreUntil ft gen m os as n <+: asciiBytes ((xmlTexts ft gen m os).take n).flatten := by
  obtain ⟨_, h2⟩ := calls_content (((xmlTexts ft gen m os).take n).map asciiBytes) XBuf.init as rfl
  rw [flatten_asciiBytes] at h2
  exact h2

theorem calls_failed (ts : List (List UInt8)) (s : XBuf) (as : List CallAct) (hs : s.failed = false)
    (h : NoFailure as) : (s.calls ts as).1.failed = false ∧ (s.calls ts as).2 = false := by
  induction ts generalizing s as with
  | nil => exact ⟨hs, rfl⟩
  | cons t ts ih =>
    have h1 : (s.put t (as.headD ⟨[], false⟩).acts).failed = false := by
      rw [← Bool.not_eq_true, put_fails_iff _ s t hs]
      rintro ⟨x, hx, hn⟩
      cases as with
      | nil => cases hx
      | cons a as =>
        have := h a (by simp) x hx
        rw [hn] at this
        cases this
    simp only [XBuf.calls, hs, h1, Bool.false_and, Bool.or_self, Bool.false_eq_true, if_false]
    exact ih _ _ h1 fun a ha => h a (List.mem_of_mem_tail ha)

/-- C109: if no `write` fails, no exception is thrown; and if the last one writes all it is given, the file is complete. -/
theorem xml_store_complete (ft : FileType) (gen : String) (m : Meta) (os : List OsmObj) (as : List CallAct)
    (k : Nat) (h : NoFailure as) (hk : (xmlBytes ft gen m os).length ≤ k) :
    xmlStore ft gen m os as (some k) = (xmlBytes ft gen m os, false) := by
  obtain ⟨h1, h2⟩ := calls_failed ((xmlTexts ft gen m os).map asciiBytes) XBuf.init as rfl h
  obtain ⟨_, h3⟩ := (calls_content ((xmlTexts ft gen m os).map asciiBytes) XBuf.init as rfl).1 h1
  rw [flatten_asciiBytes] at h3
  have h4 : _ = xmlBytes ft gen m os := h3
  unfold xmlStore
  dsimp only
  rw [h2]
  simp only [Bool.false_eq_true, if_false, XBuf.close, h1, XBuf.write, Prod.mk.injEq, and_true]
  rw [List.take_of_length_le, h4]
  have := congrArg List.length h4
  rw [List.length_append] at this
  omega

/-- C109: if a `write` fails during a call, `XMLWriteError` is thrown, by this call or the next one. -/
theorem calls_reported (pre : List CallAct) (a : CallAct) (post : List CallAct) (ts : List (List UInt8)) (s : XBuf)
    (hs : s.failed = false) (hpre : NoFailure pre) (ha : ∃ x ∈ a.acts, x.2 = none)
    (hlen : pre.length + 1 < ts.length ∨ pre.length < ts.length ∧ a.silent = false) :
    (s.calls ts (pre ++ a :: post)).2 = true := by
  induction pre generalizing s ts with
  | nil =>
    cases ts with
    | nil => simp at hlen
    | cons t ts =>
      have h1 := (put_fails_iff a.acts s t hs).2 ha
      simp only [List.nil_append, XBuf.calls, List.headD_cons, hs, h1, Bool.false_or, Bool.true_and, List.tail_cons]
      cases hsil : a.silent with
      | false => simp
      | true =>
        simp only [Bool.not_true, Bool.false_eq_true, if_false]
        cases ts with
        | nil => simp [hsil] at hlen
        | cons t2 ts => simp [XBuf.calls, h1]
  | cons b pre ih =>
    cases ts with
    | nil => simp at hlen
    | cons t ts =>
      have h1 : (s.put t b.acts).failed = false := by
        rw [← Bool.not_eq_true, put_fails_iff _ s t hs]
        rintro ⟨x, hx, hn⟩
        have := hpre b (by simp) x hx
        rw [hn] at this
        cases this
      simp only [List.cons_append, XBuf.calls, List.headD_cons, hs, h1, Bool.false_and, Bool.or_self,
        Bool.false_eq_true, if_false, List.tail_cons]
      refine ih ts _ h1 (fun c hc => hpre c (by simp [hc])) ?_
      simp only [List.length_cons] at hlen
      rcases hlen with h | ⟨h, h'⟩
      · exact Or.inl (by omega)
      · exact Or.inr ⟨by omega, h'⟩

/-- C109: an error of `write` before the last call of the library is reported: `XMLWriteError` is thrown. -/
theorem xml_store_reported (ft : FileType) (gen : String) (m : Meta) (os : List OsmObj) (pre : List CallAct)
    (a : CallAct) (post : List CallAct) (last : Option Nat) (hpre : NoFailure pre) (ha : ∃ x ∈ a.acts, x.2 = none)
    (hlen : pre.length + 1 < (xmlTexts ft gen m os).length) :
    (xmlStore ft gen m os (pre ++ a :: post) last).2 = true := by
  have := calls_reported pre a post ((xmlTexts ft gen m os).map asciiBytes) XBuf.init rfl hpre ha
    (Or.inl (by simpa using hlen))
  unfold xmlStore
  dsimp only
  rw [this]
  rfl

theorem calls_buffered (ts : List (List UInt8)) (s : XBuf) (as : List CallAct) (hs : s.failed = false)
    (h : ∀ a ∈ as, a.acts = []) : s.calls ts as = (⟨s.file, s.buf ++ ts.flatten, false⟩, false) := by
  induction ts generalizing s as with
  | nil =>
    obtain ⟨f, b, fl⟩ := s
    simp only at hs
    subst hs
    simp [XBuf.calls]
  | cons t ts ih =>
    have h0 : (as.headD ⟨[], false⟩).acts = [] := by
      cases as with
      | nil => rfl
      | cons a as => exact h a (by simp)
    simp only [XBuf.calls, h0, XBuf.put, hs, Bool.false_and, Bool.or_self, Bool.false_eq_true, if_false]
    rw [ih _ _ rfl fun a ha => h a (List.mem_of_mem_tail ha)]
    simp [List.append_assoc]

/-- C109, the code does not have it for the last `write`: a document that fits into the buffer is written by
`xmlFreeTextWriter` only.  If that fails the file is empty, and if only some bytes are written the rest is lost; no exception
is thrown in either case. -/
theorem xml_store_lost (ft : FileType) (gen : String) (m : Meta) (os : List OsmObj) (as : List CallAct)
    (h : ∀ a ∈ as, a.acts = []) :
    xmlStore ft gen m os as none = ([], false) ∧
    ∀ k, xmlStore ft gen m os as (some k) = ((xmlBytes ft gen m os).take k, false) := by
  have h1 := calls_buffered ((xmlTexts ft gen m os).map asciiBytes) XBuf.init as rfl h
  rw [flatten_asciiBytes] at h1
  constructor
  · unfold xmlStore
    rw [h1]
    rfl
  · intro k
    unfold xmlStore
    rw [h1]
    rfl

theorem calls_ok (ts : List (List UInt8)) (s : XBuf) (as : List CallAct) (hs : s.failed = false)
    (hlast : ∀ a, as[ts.length - 1]? = some a → ∀ x ∈ a.acts, x.2.isSome = true)
    (h : (s.calls ts as).2 = false) : (s.calls ts as).1.failed = false := by
  induction ts generalizing s as with
  | nil => exact hs
  | cons t ts ih =>
    have h0 := put_fails_iff (as.headD ⟨[], false⟩).acts s t hs
    simp only [XBuf.calls, hs, Bool.false_or] at h ⊢
    generalize (as.headD ⟨[], false⟩).silent = sil at h ⊢
    generalize s.put t (as.headD ⟨[], false⟩).acts = s1 at h h0 ⊢
    cases hf : s1.failed with
    | false =>
      simp only [hf, Bool.false_and, Bool.false_eq_true, if_false] at h ⊢
      cases ts with
      | nil => exact hf
      | cons t2 ts =>
        refine ih s1 as.tail hf ?_ h
        intro a ha
        rw [List.getElem?_tail] at ha
        exact hlast a (by simpa using ha)
    | true =>
      cases ts with
      | nil =>
        obtain ⟨x, hx, hn⟩ := h0.1 hf
        cases as with
        | nil => cases hx
        | cons a as =>
          have := hlast a rfl x hx
          rw [hn] at this
          cases this
      | cons t2 ts =>
        rw [hf] at h
        cases sil <;> simp [XBuf.calls, hf] at h

/-- C109: the file is complete whenever no exception was thrown, if errors of the last call and of `xmlFreeTextWriter` are
excluded. -/
theorem xml_store_partial (ft : FileType) (gen : String) (m : Meta) (os : List OsmObj) (as : List CallAct) (k : Nat)
    (hlast : ∀ a, as[(xmlTexts ft gen m os).length - 1]? = some a → ∀ x ∈ a.acts, x.2.isSome = true)
    (hk : (xmlBytes ft gen m os).length ≤ k) (hex : (xmlStore ft gen m os as (some k)).2 = false) :
    (xmlStore ft gen m os as (some k)).1 = xmlBytes ft gen m os := by
  have h2 : (XBuf.init.calls ((xmlTexts ft gen m os).map asciiBytes) as).2 = false := by
    unfold xmlStore at hex
    dsimp only at hex
    cases hc : (XBuf.init.calls ((xmlTexts ft gen m os).map asciiBytes) as).2 with
    | false => rfl
    | true => rw [hc] at hex; cases hex
  have h1 := calls_ok _ XBuf.init as rfl (by simpa using hlast) h2
  obtain ⟨_, h3⟩ := (calls_content ((xmlTexts ft gen m os).map asciiBytes) XBuf.init as rfl).1 h1
  rw [flatten_asciiBytes] at h3
  have h4 : _ = xmlBytes ft gen m os := h3
  unfold xmlStore
  dsimp only
  rw [h2]
  simp only [Bool.false_eq_true, if_false, XBuf.close, h1, XBuf.write]
  rw [List.take_of_length_le, h4]
  have := congrArg List.length h4
  rw [List.length_append] at this
  omega

/-! ### Reading such a file -/

theorem tw_run_append {a b : List WCall} {w w2 : TW} {e : List XEv} (h : w.run (a ++ b) = some (w2, e)) :
    ∃ w1 e1 e2, w.run a = some (w1, e1) ∧ w1.run b = some (w2, e2) := by
  induction a generalizing w e with
  | nil => exact ⟨w, [], e, rfl, h⟩
  | cons c a ih =>
    cases hs : w.step c with
    | none => simp [TW.run, hs] at h
    | some r =>
      obtain ⟨w3, e3⟩ := r
      cases hr : w3.run (a ++ b) with
      | none => simp [TW.run, hs, hr] at h
      | some q =>
        obtain ⟨w4, e4⟩ := q
        simp [TW.run, hs, hr] at h
        obtain ⟨rfl, _⟩ := h
        obtain ⟨w1, e1, e2, h1, h2⟩ := ih hr
        exact ⟨w1, e3 ++ e1, e2, by simp [TW.run, hs, h1], h2⟩

/-- The last call adds at least two characters. -/
theorem xmlTexts_last (ft : FileType) (gen : String) (m : Meta) (os : List OsmObj) :
    ∃ ts l, xmlTexts ft gen m os = ts ++ [l] ∧ 2 ≤ l.length := by
  obtain ⟨cs, k, h1, h2⟩ := writeFile_run0 ft gen m os
  obtain ⟨w, e, h3⟩ := tw_run_some (w := TW.init) rfl rfl (writeFile_run ft gen m os)
  rw [h1] at h3
  obtain ⟨w1, e1, e2, a1, a2⟩ := tw_run_append h3
  cases hw : w1.stack with
  | nil => simp [TW.run, TW.step, hw] at a2
  | cons n st =>
    refine ⟨xmlDecl :: TW.init.texts cs, w1.text .close, ?_, ?_⟩
    · unfold xmlTexts
      rw [h1, texts_append a1]
      simp [TW.texts, TW.step, hw]
    · simp only [TW.text, hw]
      split
      · decide
      · simp
        omega

/-- C109: a file whose writing was interrupted before the last call is never taken for a whole one: reading it throws an
exception, after calls that are the first of those for all objects. -/
theorem xml_interrupted_noticed (ft : FileType) (gen : String) (m : Meta) (hb : BoundsOk m)
    (os : List OsmObj) (hne : os ≠ []) (ho : ∀ o ∈ os, XmlOk o) (ht : ∀ s ∈ fileTexts gen os, XmlText s)
    (as : List CallAct) (n : Nat) (hn : n < (xmlTexts ft gen m os).length)
    (ps : List (List UInt8)) (hp : Portions ps) (hps : ps.flatten = xmlStoreUntil ft gen m os as n) (rest : List XRead)
    (h : Stops) (hh : ∀ l, h l = false) :
    ∃ calls, xmlParseReads xmlTok ft h (ps.map .data ++ .data [] :: rest) = (calls, .threw (.exn "XML parsing error")) ∧
      calls <+: protocol (xmlReadMeta ft gen m) (os.map (xmlKept ft)) := by
  obtain ⟨r1, hr1⟩ := xml_store_until_prefix ft gen m os as n
  have hsplit : xmlBytes ft gen m os =
      asciiBytes ((xmlTexts ft gen m os).take n).flatten ++ asciiBytes ((xmlTexts ft gen m os).drop n).flatten := by
    unfold xmlBytes
    conv_lhs => rw [← List.take_append_drop n (xmlTexts ft gen m os), List.flatten_append]
    exact List.map_append
  refine xml_bytes_cut ft gen m hb os hne ho ht ps hp (r1 ++ asciiBytes ((xmlTexts ft gen m os).drop n).flatten) ?_ ?_
    rest h hh
  · rw [hps, ← List.append_assoc, hr1, hsplit]
  · obtain ⟨ts, l, hl, h2⟩ := xmlTexts_last ft gen m os
    have hlen : n ≤ ts.length := by
      rw [hl] at hn
      simp at hn
      omega
    rw [hl, List.drop_append_of_le_length hlen]
    simp [asciiBytes]
    omega

/-- C109: what reading makes of a file after writing it, whatever happened: either all calls, or an exception after some
of them.  The former exactly if nothing is missing but the newline at the end. -/
theorem xml_stored_read (ft : FileType) (gen : String) (m : Meta) (hb : BoundsOk m)
    (os : List OsmObj) (hne : os ≠ []) (ho : ∀ o ∈ os, XmlOk o) (ht : ∀ s ∈ fileTexts gen os, XmlText s)
    (as : List CallAct) (last : Option Nat)
    (ps : List (List UInt8)) (hp : Portions ps) (hps : ps.flatten = (xmlStore ft gen m os as last).1) (rest : List XRead)
    (h : Stops) (hh : ∀ l, h l = false) :
    if (xmlBytes ft gen m os).length ≤ ps.flatten.length + 1 then
      xmlParseReads xmlTok ft h (ps.map .data ++ .data [] :: rest) =
        (protocol (xmlReadMeta ft gen m) (os.map (xmlKept ft)), .returned)
    else
      ∃ calls, xmlParseReads xmlTok ft h (ps.map .data ++ .data [] :: rest) =
        (calls, .threw (.exn "XML parsing error")) ∧
        calls <+: protocol (xmlReadMeta ft gen m) (os.map (xmlKept ft)) := by
  obtain ⟨missing, hm⟩ := xml_store_prefix ft gen m os as last
  rw [← hps] at hm
  have hlen := congrArg List.length hm
  rw [List.length_append] at hlen
  split
  · next hle =>
    have h1 := xml_bytes_newline ft gen m os ht _ missing hm (by omega)
    obtain ⟨evs, h2, h3⟩ := xml_text_document ft gen m os ht
    rw [xml_any_portions xmlTok xmlTok_streaming ft h ps hp rest]
    have : wholeFile xmlTok ps.flatten = ⟨evs, none⟩ := by
      unfold wholeFile
      rw [h1, h3]
      rfl
    rw [this]
    exact xml_roundtrip ft gen m hb os hne ho evs h2 h hh
  · exact xml_bytes_cut ft gen m hb os hne ho ht ps hp missing hm (by omega) rest h hh

/-! ### Concrete cases -/

/-- A full disk: the first 30 bytes are written during the second call, then `write` fails in the third one. -/
example : xmlStore .osm "x" (Meta.new false) [tdemoObj "v"] [⟨[], false⟩, ⟨[(3, some 30)], false⟩, ⟨[(0, none)], true⟩]
      none = ("<?xml version=\"1.0\"?>\n<os".toUTF8.toList, true) := by
  decide +kernel

/-- The buffer is written twice, the second time by `xmlFreeTextWriter`: the hypotheses of `xml_store_complete` are met. -/
example : NoFailure [⟨[], false⟩, ⟨[(3, some 10)], false⟩] ∧ (xmlBytes .osm "x" (Meta.new false) [tdemoObj "v"]).length ≤ 1000 := by
  refine ⟨?_, by decide +kernel⟩
  simp [NoFailure]

/-- The hypotheses of `xml_store_reported` and `xml_interrupted_noticed` are met. -/
example : NoFailure [⟨[(3, some 10)], false⟩] ∧ (∃ x ∈ ([(0, none)] : List BufAct), x.2 = none) ∧
    1 + 1 < (xmlTexts .osm "x" (Meta.new false) [tdemoObj "v"]).length ∧
    (∀ s ∈ fileTexts "x" [tdemoObj "v"], XmlText s) := by
  refine ⟨by simp [NoFailure], ⟨(0, none), by simp, rfl⟩, by decide +kernel, ?_⟩
  have : fileTexts "x" [tdemoObj "v"] = ["x", "a\"<", "v"] := by decide
  rw [this]
  unfold XmlText
  decide

end Osmium

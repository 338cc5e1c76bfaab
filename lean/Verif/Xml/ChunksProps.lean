import Verif.Xml.Chunks
import Verif.Xml.ReaderLemmas
import Verif.Input.Deliver

/-
C106: the result of reading an XML file does not depend on the portions in which the data arrives, and a file of which only
a part can be read is never taken for a whole one.  (And, for C102, what becomes of the expat parser.)
-/
namespace Osmium

namespace Spec

/-- What is known about expat: bytes given in two portions have the effect of the same bytes given in one; giving nothing
has none; and all events have been made when the last byte has been given. -/
structure Streaming {σ : Type} (ex : Expat σ) : Prop where
  nothing : ∀ s, ex.feed s [] = ([], some s)
  append : ∀ s a b, ex.feed s (a ++ b) =
    match ex.feed s a with
    | (ev, none) => (ev, none)
    | (ev, some s1) => (ev ++ (ex.feed s1 b).1, (ex.feed s1 b).2)
  finish : ∀ s, (ex.finish s).1 = []

/-- The events of a whole file, and whether it is a complete and correct document. -/
def document {σ : Type} (ex : Expat σ) (bytes : List UInt8) : List XEv × Bool :=
  match ex.feed ex.start bytes with
  | (ev, none) => (ev, false)
  | (ev, some s) => (ev, (ex.finish s).2)

/-- A file as `parse` sees it if it is there in one piece. -/
def wholeFile {σ : Type} (ex : Expat σ) (bytes : List UInt8) : XInput :=
  ⟨(document ex bytes).1, if (document ex bytes).2 then none else some (.exn "XML parsing error")⟩

/-- Portions of a file: each has at least one byte. -/
def Portions (ps : List (List UInt8)) : Prop := ∀ p ∈ ps, p ≠ []

end Spec
open Spec

/-- The loop, for some portions and what follows. -/
theorem expatLoop_portions {σ : Type} {ex : Expat σ} (hx : Streaming ex) (ps : List (List UInt8)) (hp : Portions ps)
    (s : σ) (rest : List XRead) :
    expatLoop ex s (ps.map .data ++ rest) =
      match ex.feed s ps.flatten with
      | (ev, none) => ⟨ev, some xmlError⟩
      | (ev, some s1) => ⟨ev ++ (expatLoop ex s1 rest).events, (expatLoop ex s1 rest).error⟩ := by
  induction ps generalizing s with
  | nil => simp [hx.nothing]
  | cons p ps ih =>
    have hne := hp p (by simp)
    cases p with
    | nil => exact absurd rfl hne
    | cons b bs =>
      rw [List.flatten_cons, hx.append s (b :: bs)]
      show expatLoop ex s (.data (b :: bs) :: (ps.map .data ++ rest)) = _
      simp only [expatLoop]
      rcases h : ex.feed s (b :: bs) with ⟨ev, r⟩
      cases r with
      | none => rfl
      | some s1 =>
        simp only
        rw [ih (fun q hq => hp q (by simp [hq]))]
        rcases h2 : ex.feed s1 ps.flatten with ⟨ev2, r2⟩
        cases r2 with
        | none => rfl
        | some s2 => simp [List.append_assoc]

/-- The loop up to the end of the file. -/
theorem expatLoop_file {σ : Type} {ex : Expat σ} (hx : Streaming ex) (ps : List (List UInt8)) (hp : Portions ps)
    (rest : List XRead) :
    expatLoop ex ex.start (ps.map .data ++ .data [] :: rest) = wholeFile ex ps.flatten := by
  rw [expatLoop_portions hx ps hp]
  unfold wholeFile document
  rcases h : ex.feed ex.start ps.flatten with ⟨ev, r⟩
  cases r with
  | none => simp [xmlError]
  | some s =>
    have h1 := hx.finish s
    rcases h2 : ex.finish s with ⟨e2, ok⟩
    rw [h2] at h1
    simp only [] at h1
    subst h1
    simp [expatLoop, h2, xmlError]

/-- C106: reading a file gives the same calls and the same end whatever portions the system returns. -/
theorem xml_any_portions {σ : Type} (ex : Expat σ) (hx : Streaming ex) (ft : FileType) (h : Stops)
    (ps : List (List UInt8)) (hp : Portions ps) (rest : List XRead) :
    xmlParseReads ex ft h (ps.map .data ++ .data [] :: rest) = xmlParse ft h (wholeFile ex ps.flatten) := by
  unfold xmlParseReads
  rw [expatLoop_file hx ps hp]

/-- A file that ends with an error, compared with one that begins with the same events. -/
theorem xmlParse_cut (ft : FileType) (h : Stops) (ev more : List XEv) (e : Fail) (e2 : Option Fail) :
    xmlParse ft h ⟨ev, some e⟩ = xmlParse ft h ⟨ev ++ more, e2⟩ ∨
      (xmlParse ft h ⟨ev, some e⟩).2 = .threw e ∧
        (xmlParse ft h ⟨ev, some e⟩).1 <+: (xmlParse ft h ⟨ev ++ more, e2⟩).1 := by
  unfold xmlParse
  simp only [xmlRun_append]
  rcases hr : xmlRun (XCtl.init ft) ev with ⟨ops, r⟩
  cases r with
  | error f => left; simp only
  | ok s1 =>
    simp only [Regs.run_append]
    generalize hc : (Regs.init.run ops).2 = calls
    rcases hm : xmlRun s1 more with ⟨ops2, r2⟩
    simp only
    generalize ((Regs.init.run ops).1.run ops2).2 = calls2
    have key : ∀ (e2 : Option Fail) (ends : List Cb),
        parseFrame h ⟨calls, some e⟩ (afterAndBefore s1.info s1.last .unknown) = parseFrame h ⟨calls ++ calls2, e2⟩ ends ∨
        (parseFrame h ⟨calls, some e⟩ (afterAndBefore s1.info s1.last .unknown)).2 = .threw e ∧
        (parseFrame h ⟨calls, some e⟩ (afterAndBefore s1.info s1.last .unknown)).1 <+:
          (parseFrame h ⟨calls ++ calls2, e2⟩ ends).1 := by
      intro e2 ends
      unfold parseFrame
      simp only [deliver_append]
      rcases hd : deliver h [] calls with ⟨d, b⟩
      cases b with
      | true => left; rfl
      | false =>
        right
        refine ⟨rfl, ?_⟩
        simp only
        have hp := deliver_prefix h d calls2
        rcases hd2 : deliver h d calls2 with ⟨d2, b2⟩
        rw [hd2] at hp
        cases b2 with
        | true => exact hp.trans (List.prefix_append _ _)
        | false =>
          cases e2 with
          | some f => exact hp
          | none =>
            simp only
            have hp3 := deliver_prefix h d2 ends
            rcases hd3 : deliver h d2 ends with ⟨d3, b3⟩
            rw [hd3] at hp3
            exact hp.trans (hp3.trans (List.prefix_append _ _))
    cases r2 with
    | error f => exact key (some f) []
    | ok s2 => exact key e2 _

/-- The events of a file begin with those of its beginning. -/
theorem document_append {σ : Type} {ex : Expat σ} (hx : Streaming ex) (a b : List UInt8) :
    ∃ more, (document ex (a ++ b)).1 = (document ex a).1 ++ more := by
  unfold document
  rw [hx.append]
  rcases ex.feed ex.start a with ⟨ev, r⟩
  cases r with
  | none => exact ⟨[], by simp⟩
  | some s =>
    simp only
    rcases ex.feed s b with ⟨ev2, r2⟩
    cases r2 <;> exact ⟨ev2, rfl⟩

/-- C106: if only a part of a document has arrived when the file ends, parsing throws an exception, after calls that are
the first of those for the whole document; unless the handler has stopped it or an error came before, when all is as it would
be for the whole document. -/
theorem xml_cut_file {σ : Type} (ex : Expat σ) (hx : Streaming ex) (ft : FileType) (h : Stops)
    (ps : List (List UInt8)) (hp : Portions ps) (rest : List XRead) (missing : List UInt8)
    (hcut : (document ex ps.flatten).2 = false) :
    xmlParseReads ex ft h (ps.map .data ++ .data [] :: rest) = xmlParse ft h (wholeFile ex (ps.flatten ++ missing)) ∨
    ((xmlParseReads ex ft h (ps.map .data ++ .data [] :: rest)).2 = .threw (.exn "XML parsing error") ∧
      (xmlParseReads ex ft h (ps.map .data ++ .data [] :: rest)).1 <+:
        (xmlParse ft h (wholeFile ex (ps.flatten ++ missing))).1) := by
  rw [xml_any_portions ex hx ft h ps hp]
  obtain ⟨more, hm⟩ := document_append hx ps.flatten missing
  have h1 : wholeFile ex ps.flatten = ⟨(document ex ps.flatten).1, some (.exn "XML parsing error")⟩ := by
    simp [wholeFile, hcut]
  have h2 : ∃ e2, wholeFile ex (ps.flatten ++ missing) = ⟨(document ex ps.flatten).1 ++ more, e2⟩ :=
    ⟨_, by unfold wholeFile; rw [hm]⟩
  obtain ⟨e2, h2⟩ := h2
  rw [h1, h2]
  exact xmlParse_cut ft h _ more _ e2

/-- C106: the same if reading fails. -/
theorem xml_read_fails {σ : Type} (ex : Expat σ) (hx : Streaming ex) (ft : FileType) (h : Stops)
    (ps : List (List UInt8)) (hp : Portions ps) (rest : List XRead) (missing : List UInt8) :
    xmlParseReads ex ft h (ps.map .data ++ .failed :: rest) = xmlParse ft h (wholeFile ex (ps.flatten ++ missing)) ∨
    ((xmlParseReads ex ft h (ps.map .data ++ .failed :: rest)).2 = .threw (.exn "read error") ∧
      (xmlParseReads ex ft h (ps.map .data ++ .failed :: rest)).1 <+:
        (xmlParse ft h (wholeFile ex (ps.flatten ++ missing))).1) := by
  unfold xmlParseReads
  rw [expatLoop_portions hx ps hp]
  obtain ⟨more, hm⟩ := document_append hx ps.flatten missing
  have h2 : ∃ e2, wholeFile ex (ps.flatten ++ missing) = ⟨(document ex ps.flatten).1 ++ more, e2⟩ :=
    ⟨_, by unfold wholeFile; rw [hm]⟩
  rcases hf : ex.feed ex.start ps.flatten with ⟨ev, r⟩
  cases r with
  | none => left; simp [xmlError, wholeFile, document, hx.append, hf]
  | some s =>
    have h3 : (document ex ps.flatten).1 = ev := by simp [document, hf]
    obtain ⟨e2, h2⟩ := h2
    rw [h2, h3]
    simp only [expatLoop, List.append_nil]
    exact xmlParse_cut ft h ev more _ e2

/-- C106: parsing returns without the handler having stopped it only if the whole file is a correct document. -/
theorem xml_returned_complete {σ : Type} (ex : Expat σ) (hx : Streaming ex) (ft : FileType) (reads : List XRead)
    (hr : (xmlParseReads ex ft (fun _ => false) reads).2 = .returned) :
    ∃ ps rest, Portions ps ∧ (reads = ps.map .data ++ rest) ∧ (rest = [] ∨ ∃ r, rest = .data [] :: r) ∧
      (document ex ps.flatten).2 = true := by
  have herr : (expatLoop ex ex.start reads).error = none := by
    unfold xmlParseReads xmlParse at hr
    cases he : (expatLoop ex ex.start reads).error with
    | none => rfl
    | some e =>
      exfalso
      have hdel : ∀ (d a : List Cb), deliver (fun _ => false) d a = (d ++ a, false) := by
        intro d a
        induction a generalizing d with
        | nil => simp [deliver]
        | cons c a ih => simp [deliver, ih]
      rcases hx2 : xmlRun (XCtl.init ft) (expatLoop ex ex.start reads).events with ⟨ops, r⟩
      rw [hx2] at hr
      cases r with
      | error f => simp [parseFrame, hdel] at hr
      | ok s => simp [parseFrame, hdel, he] at hr
  -- the first portions
  have hsplit : ∀ reads : List XRead, ∃ ps rest, Portions ps ∧ reads = ps.map .data ++ rest ∧
      (∀ b bs r, rest ≠ .data (b :: bs) :: r) := by
    intro reads
    induction reads with
    | nil => exact ⟨[], [], by simp [Portions], rfl, by simp⟩
    | cons r rs ih =>
      cases r with
      | noMemory => exact ⟨[], _, by simp [Portions], rfl, by simp⟩
      | failed => exact ⟨[], _, by simp [Portions], rfl, by simp⟩
      | data bytes =>
        cases bytes with
        | nil => exact ⟨[], _, by simp [Portions], rfl, by simp⟩
        | cons b bs =>
          obtain ⟨ps, rest, h1, h2, h3⟩ := ih
          refine ⟨(b :: bs) :: ps, rest, ?_, by simp [h2], h3⟩
          intro p hp
          rcases List.mem_cons.1 hp with rfl | hp
          · simp
          · exact h1 p hp
  obtain ⟨ps, rest, h1, h2, h3⟩ := hsplit reads
  refine ⟨ps, rest, h1, h2, ?_⟩
  rw [h2, expatLoop_portions hx ps h1] at herr
  unfold document
  rcases hf : ex.feed ex.start ps.flatten with ⟨ev, r⟩
  rw [hf] at herr
  cases r with
  | none => simp at herr
  | some s =>
    simp only at herr ⊢
    cases rest with
    | nil => exact ⟨Or.inl rfl, by simpa [expatLoop] using herr⟩
    | cons r rs =>
      cases r with
      | noMemory => simp [expatLoop] at herr
      | failed => simp [expatLoop] at herr
      | data bytes =>
        cases bytes with
        | nil => exact ⟨Or.inr ⟨rs, rfl⟩, by simpa [expatLoop] using herr⟩
        | cons b bs => exact absurd rfl (h3 b bs rs)

/-! ### The parser (C102) -/

/-- C102: if the handler does not stop, the memory of the expat parser is given back if and only if parsing succeeds. -/
theorem xml_parser_freed_partial (ft : FileType) (inp : XInput) :
    parserFreed ft (fun _ => false) inp = true ↔ (xmlParse ft (fun _ => false) inp).2 = .returned := by
  have hdel : ∀ (d a : List Cb), deliver (fun _ => false) d a = (d ++ a, false) := by
    intro d a
    induction a generalizing d with
    | nil => simp [deliver]
    | cons c a ih => simp [deliver, ih]
  unfold parserFreed xmlParse
  rcases hr : xmlRun (XCtl.init ft) inp.events with ⟨ops, r⟩
  cases r with
  | error f => simp [parseFrame, hdel]
  | ok s => cases he : inp.error <;> simp [parseFrame, hdel]

/-- C102: whenever parsing ends with an exception the memory of the parser is not given back, whatever the handler does. -/
theorem xml_parser_leaks (ft : FileType) (h : Stops) (inp : XInput) (e : Fail) (he : (xmlParse ft h inp).2 = .threw e) :
    parserFreed ft h inp = false := by
  unfold parserFreed xmlParse at *
  rcases hr : xmlRun (XCtl.init ft) inp.events with ⟨ops, r⟩
  rw [hr] at he
  unfold parseFrame at he
  cases r with
  | error f => simp
  | ok s =>
    simp only at he ⊢
    rcases hd : deliver h [] (Regs.init.run ops).2 with ⟨d, b⟩
    rw [hd] at he
    cases b with
    | true => simp
    | false =>
      cases hi : inp.error with
      | some f => simp
      | none => rw [hi] at he; simp at he

/-- C102: a handler that stops at the first object of any file leaves the parser behind, although parsing succeeds. -/
theorem xml_parser_leaks_stop (ft : FileType) (inp : XInput) (c : Cb) (cs : List Cb)
    (hc : (Regs.init.run (xmlRun (XCtl.init ft) inp.events).1).2 = c :: cs) :
    (xmlParse ft (fun _ => true) inp).2 = .returned ∧ parserFreed ft (fun _ => true) inp = false := by
  unfold parserFreed xmlParse
  rcases hr : xmlRun (XCtl.init ft) inp.events with ⟨ops, r⟩
  rw [hr] at hc
  cases r <;> simp [parseFrame, hc, deliver]

/-! ### An example -/

/-- A parser for documents in which each byte stands for an element: the number of open elements is its state.  (data for
the examples, no counterpart in /repo) -/
def toyStep (depth : Nat) : UInt8 → Option (XEv × Nat)
  | 1 => if depth = 0 then some (.start "osm" [("version", "0.6")], 1) else none
  | 2 => some (.start "node" [("id", "7"), ("lat", "1"), ("lon", "2")], depth + 1)
  | 3 => if depth = 2 then some (.stop "node", 1) else none
  | 4 => if depth = 1 then some (.stop "osm", 99) else none
  | _ => none

/-- Giving bytes to it. (data for the examples, no counterpart in /repo) -/
def toyFeed : Nat → List UInt8 → List XEv × Option Nat
  | d, [] => ([], some d)
  | d, b :: bs =>
    match toyStep d b with
    | none => ([], none)
    | some (e, d1) => (e :: (toyFeed d1 bs).1, (toyFeed d1 bs).2)

/-- The parser. (data for the examples, no counterpart in /repo) -/
def toyExpat : Expat Nat := ⟨0, toyFeed, fun d => ([], d == 99)⟩

/-- It is as expected. -/
theorem toy_streaming : Streaming toyExpat where
  nothing := fun _ => rfl
  append := by
    intro s a b
    show toyFeed s (a ++ b) = _
    induction a generalizing s with
    | nil => simp [toyExpat, toyFeed]
    | cons x a ih =>
      simp only [List.cons_append, toyFeed, toyExpat] at ih ⊢
      cases toyStep s x with
      | none => rfl
      | some p =>
        simp only [ih]
        rcases toyFeed p.2 a with ⟨ev, r⟩
        cases r <;> rfl
  finish := fun _ => rfl

/-- The hypotheses can be met: a document in two portions, with two nodes. -/
example : Portions [[1, 2, 3], [2, 3, 4]] ∧ (document toyExpat [1, 2, 3, 2, 3, 4]).2 = true ∧
    (xmlParse .osm (fun _ => false) (wholeFile toyExpat [1, 2, 3, 2, 3, 4])).1.length = 6 ∧
    (xmlParse .osm (fun _ => false) (wholeFile toyExpat [1, 2, 3, 2, 3, 4])).2 = .returned := by
  refine ⟨by simp [Portions], ?_⟩
  decide +kernel

/-- The same document cut inside the second node: one node, then an exception. -/
example : (document toyExpat [1, 2, 3, 2]).2 = false ∧
    (xmlParseReads toyExpat .osm (fun _ => false) [.data [1, 2], .data [3, 2], .data []]).1.length = 3 ∧
    (xmlParseReads toyExpat .osm (fun _ => false) [.data [1, 2], .data [3, 2], .data []]).2 = .threw (.exn "XML parsing error") ∧
    (xmlParseReads toyExpat .osm (fun _ => false) [.data [1, 2], .data [3, 2], .failed]).2 = .threw (.exn "read error") := by
  decide +kernel

/-- The parser stays behind if the handler stops at the first call. -/
example : parserFreed .osm (fun _ => true) (wholeFile toyExpat [1, 2, 3, 2, 3, 4]) = false ∧
    parserFreed .osm (fun _ => false) (wholeFile toyExpat [1, 2, 3, 2, 3, 4]) = true := by
  decide +kernel

end Osmium

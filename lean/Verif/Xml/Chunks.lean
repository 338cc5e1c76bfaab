import Verif.Xml.Model
/-
Model of the loop in `parse` of the XML reader: how the bytes of the file get to expat, and what happens to the
expat parser.  (C106)
-/
namespace Osmium

/-- The expat parser, as far as the reader sees it: a state, what happens when more bytes are given to it (the events,
and the state afterwards or nothing if XML_STATUS_ERROR is returned), and what happens when it is told that there are no
more bytes (the events and whether the document is complete and correct).  (XML_ParseBuffer, called in
input/xml.hpp 92) -/
structure Expat (σ : Type) where
  start : σ
  feed : σ → List UInt8 → List XEv × Option σ
  finish : σ → List XEv × Bool

/-- What XML_GetBuffer and `::read` do in one turn of the loop: no memory, a negative result, or some bytes (none at the
end of the file).  (input/xml.hpp 82-89) -/
inductive XRead
  | noMemory
  | failed
  | data (bytes : List UInt8)
deriving DecidableEq, Repr

/-- What is thrown if expat reports an error. (input/xml.hpp 92-101; position and text of the error are left out) -/
def xmlError : Fail := .exn "XML parsing error"

/-- The loop in input/xml.hpp 79-102: all events that expat makes from the data, and the exception that ends it, if any.
`reads` is what the system returns in each turn.  (After the last element the end of the file is reached.  That the
handler can stop this loop is in `xmlParse`, which takes all events.) -/
def expatLoop {σ : Type} (ex : Expat σ) : σ → List XRead → XInput
  | _, .noMemory :: _ => ⟨[], some (.exn "out of memory")⟩
  | _, .failed :: _ => ⟨[], some (.exn "read error")⟩
  | s, .data (b :: bs) :: rs =>
    match ex.feed s (b :: bs) with
    | (ev, none) => ⟨ev, some xmlError⟩
    | (ev, some s1) =>
      let r := expatLoop ex s1 rs
      ⟨ev ++ r.events, r.error⟩
  | s, _ =>
    match ex.finish s with
    | (ev, ok) => ⟨ev, if ok then none else some xmlError⟩

/-- input/xml.hpp 68-112 `parse` for a file that is read in these portions. -/
def xmlParseReads {σ : Type} (ex : Expat σ) (ft : FileType) (h : Stops) (reads : List XRead) : List Cb × ParseEnd :=
  xmlParse ft h (expatLoop ex ex.start reads)

/-- input/xml.hpp 103 `XML_ParserFree` is reached: no exception came out of the loop, neither StopReading nor another
one. -/
def parserFreed (ft : FileType) (h : Stops) (inp : XInput) : Bool :=
  let r := xmlRun (XCtl.init ft) inp.events
  !(deliver h [] (Regs.init.run r.1).2).2 && (match r.2 with | .ok _ => true | .error _ => false) && inp.error.isNone

end Osmium

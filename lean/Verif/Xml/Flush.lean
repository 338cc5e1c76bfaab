import Verif.Xml.Text
/-
How the text of an XML file gets into the file: the output buffer of libxml2 and `write`. (C109)

The library is not part of /repo.  When it writes its buffer, and what the operating system answers, is left open: both
are arguments.
-/
namespace Osmium

/-- The output buffer of libxml2: what is in the file, what is still in memory, and whether a `write` has failed.
(`m_xml_output_buffer`, output/xml.hpp 63) -/
structure XBuf where
  file : List UInt8
  buf : List UInt8
  failed : Bool
deriving DecidableEq, Repr

/-- The new buffer. (`xmlOutputBufferCreateFd` in output/xml.hpp 63; the file was truncated when it was opened, osmfile.hpp
`open_for_output`) -/
def XBuf.init : XBuf := ⟨[], [], false⟩

/-- libxml2 writes the whole buffer with one `write`; the answer is an error or a number of bytes that have been written,
which are removed from the buffer. (`xmlOutputBufferWrite` and `xmlOutputBufferFlush`, called from output/xml.hpp 71-162) -/
def XBuf.write (s : XBuf) : Option Nat → XBuf
  | none => { s with failed := true }
  | some k => { s with file := s.file ++ s.buf.take k, buf := s.buf.drop k }

/-- What happens in one call: after the next `fst` bytes have been put into the buffer, it is written, with the answer
`snd`. (libxml2; called in output/xml.hpp 63-222) -/
abbrev BufAct := Nat × Option Nat

/-- One call that adds `text`.  After an error nothing more happens. (libxml2, called in output/xml.hpp 71-222) -/
def XBuf.put (s : XBuf) (text : List UInt8) : List BufAct → XBuf
  | [] => if s.failed then s else { s with buf := s.buf ++ text }
  | (k, a) :: acts =>
    if s.failed then s
    else (XBuf.write { s with buf := s.buf ++ text.take k } a).put (text.drop k) acts

/-- What is open about one call: when the buffer is written, and whether the call returns -1 if that fails.  (After the
newline behind an end tag it does not, `xmlTextWriterEndElement`.) (libxml2; called in output/xml.hpp 63-222) -/
structure CallAct where
  acts : List BufAct
  silent : Bool

/-- The calls of the text writer, each with `check_for_error` (output/xml.hpp 46-50).  Result: the buffer, and whether
`XMLWriteError` was thrown. -/
def XBuf.calls : XBuf → List (List UInt8) → List CallAct → XBuf × Bool
  | s, [], _ => (s, false)
  | s, t :: ts, as =>
    let a := as.headD ⟨[], false⟩
    let s1 := s.put t a.acts
    if s.failed || (s1.failed && !a.silent) then (s1, true) else s1.calls ts as.tail

/-- output/xml.hpp 161 `xmlFreeTextWriter`: what is left is written with one `write`, unless there was an error; the result
is not looked at. -/
def XBuf.close (s : XBuf) (a : Option Nat) : XBuf := if s.failed then s else s.write a

/-- Writing a whole file: `init`, all objects and `final` (output/xml.hpp 70-163).  Result: what is in the file, and whether
`XMLWriteError` was thrown. -/
def xmlStore (ft : FileType) (gen : String) (m : Meta) (os : List OsmObj) (as : List CallAct) (last : Option Nat) :
    List UInt8 × Bool :=
  let r := XBuf.init.calls ((xmlTexts ft gen m os).map asciiBytes) as
  if r.2 then (r.1.file, true) else ((r.1.close last).file, false)

/-- What is in the file if the program ends after `n` of the calls. (output/xml.hpp 70-163; nothing is done for the buffer,
there is no destructor) -/
def xmlStoreUntil (ft : FileType) (gen : String) (m : Meta) (os : List OsmObj) (as : List CallAct) (n : Nat) :
    List UInt8 :=
  (XBuf.init.calls (((xmlTexts ft gen m os).take n).map asciiBytes) as).1.file

end Osmium

import Verif.Xml.Chunks
/-
The text of XML files: what libxml2 writes for the calls of the writer, and how an XML parser gets the events back.
(C108, C109)

Both libraries are not part of /repo; modelled is what they document, as far as the calls in output/xml.hpp and
input/xml.hpp need it.
-/
namespace Osmium

/-! ## Writing -/

/-- A hexadecimal digit. (libxml2 `xmlSerializeHexCharRef`, called through output/xml.hpp 71-222) -/
def hexDigit (d : Nat) : Char := if d < 10 then Char.ofNat (48 + d) else Char.ofNat (55 + d)

/-- The hexadecimal digits of a number; `fuel` bounds their number. (libxml2 `xmlSerializeHexCharRef`) (called through
output/xml.hpp 71-222) -/
def hexAux : Nat → Nat → List Char
  | 0, _ => []
  | fuel + 1, n => if n < 16 then [hexDigit n] else hexAux fuel (n / 16) ++ [hexDigit (n % 16)]

/-- How a character of an attribute value is written if no encoding was given, as in output/xml.hpp 73. (libxml2
`xmlBufAttrSerializeTxtContent`; simplification: U+FFFE and U+FFFF are written like other characters) -/
def escChar (c : Char) : List Char :=
  if c = '\n' then "&#10;".toList
  else if c = '\r' then "&#13;".toList
  else if c = '\t' then "&#9;".toList
  else if c = '"' then "&quot;".toList
  else if c = '<' then "&lt;".toList
  else if c = '>' then "&gt;".toList
  else if c = '&' then "&amp;".toList
  else if c.toNat ≥ 128 then "&#x".toList ++ hexAux 6 c.toNat ++ [';']
  else [c]

/-- The indentation of an element inside of `n` others: the settings in output/xml.hpp 71-72. -/
def indentText (n : Nat) : List Char := (List.replicate n "  ".toList).flatten

/-- What one call adds to the output. (libxml2 `xmlTextWriterStartElement`, `xmlTextWriterWriteAttribute`,
`xmlTextWriterEndElement`, called in output/xml.hpp 71-222) -/
def TW.text (w : TW) : WCall → List Char
  | .start n =>
    (if w.pending.isSome then ">\n".toList else []) ++ indentText w.stack.length ++ '<' :: n.toList
  | .attr k v => ' ' :: k.toList ++ "=\"".toList ++ v.toList.flatMap escChar ++ ['"']
  | .close =>
    match w.stack with
    | [] => []
    | n :: st =>
      if w.pending.isSome then "/>\n".toList
      else indentText st.length ++ "</".toList ++ n.toList ++ ">\n".toList

/-- What the calls add, one after the other, up to the first that fails. (output/xml.hpp 46-50) -/
def TW.texts : TW → List WCall → List (List Char)
  | _, [] => []
  | w, c :: cs =>
    match w.step c with
    | none => []
    | some (w1, _) => w.text c :: w1.texts cs

/-- What `xmlTextWriterStartDocument` adds. (called in output/xml.hpp 73) -/
def xmlDecl : List Char := "<?xml version=\"1.0\"?>\n".toList

/-- The text of a file, in portions as the calls of the text writer make it. (output/xml.hpp 70-163, all callbacks) -/
def xmlTexts (ft : FileType) (gen : String) (m : Meta) (os : List OsmObj) : List (List Char) :=
  xmlDecl :: TW.init.texts (writeFile ft gen m os)

/-- The bytes of a text in ASCII. (what libxml2 writes to the file descriptor, output/xml.hpp 63) -/
def asciiBytes (cs : List Char) : List UInt8 := cs.map fun c => UInt8.ofNat c.toNat

/-- The bytes of a file. (output/xml.hpp 70-163) -/
def xmlBytes (ft : FileType) (gen : String) (m : Meta) (os : List OsmObj) : List UInt8 :=
  asciiBytes (xmlTexts ft gen m os).flatten

/-! ## Reading -/

/-- `Char` of the XML recommendation. (specification of an XML parser, which is a library called in input/xml.hpp
70-104) -/
def isXmlChar (n : Nat) : Bool :=
  n == 9 || n == 10 || n == 13 || (32 ≤ n && n ≤ 55295) || (57344 ≤ n && n ≤ 65533) || (65536 ≤ n && n ≤ 1114111)

/-- `S` of the XML recommendation. (specification of an XML parser, which is a library called in input/xml.hpp 70-104)
-/
def isXmlSpace (c : Char) : Bool := c == ' ' || c == '\n' || c == '\t' || c == '\r'

/-- The characters a name can begin with, as far as they are in ASCII. (specification of an XML parser, which is a
library called in input/xml.hpp 70-104) -/
def isNameStart (c : Char) : Bool :=
  (97 ≤ c.toNat && c.toNat ≤ 122) || (65 ≤ c.toNat && c.toNat ≤ 90) || c == '_' || c == ':'

/-- The characters of a name, as far as they are in ASCII. (specification of an XML parser, which is a library called
in input/xml.hpp 70-104) -/
def isNameChar (c : Char) : Bool := isNameStart c || (48 ≤ c.toNat && c.toNat ≤ 57) || c == '-' || c == '.'

/-- The value of a digit in base `base`. (specification of an XML parser, which is a library called in input/xml.hpp
70-104) -/
def digitIn (base : Nat) (c : Char) : Option Nat :=
  let d := if 48 ≤ c.toNat ∧ c.toNat ≤ 57 then some (c.toNat - 48)
    else if 97 ≤ c.toNat ∧ c.toNat ≤ 102 then some (c.toNat - 87)
    else if 65 ≤ c.toNat ∧ c.toNat ≤ 70 then some (c.toNat - 55) else none
  d.filter (· < base)

/-- The number with these digits. (specification of an XML parser, which is a library called in input/xml.hpp 70-104) -/
def numberIn (base : Nat) : Nat → List Char → Option Nat
  | acc, [] => some acc
  | acc, c :: cs =>
    match digitIn base c with
    | none => none
    | some d => numberIn base (acc * base + d) cs

/-- The character with this number, if it is allowed in XML. (specification of an XML parser, which is a library
called in input/xml.hpp 70-104) -/
def charRef (n : Option Nat) : Option Char :=
  match n with
  | none => none
  | some n => if isXmlChar n then some (Char.ofNat n) else none

/-- What the reference `&r;` stands for. (specification of an XML parser, which is a library called in input/xml.hpp
70-104) -/
def decodeRef (r : List Char) : Option Char :=
  if r = "lt".toList then some '<'
  else if r = "gt".toList then some '>'
  else if r = "amp".toList then some '&'
  else if r = "quot".toList then some '"'
  else if r = "apos".toList then some '\''
  else match r with
    | '#' :: 'x' :: d :: ds => charRef (numberIn 16 0 (d :: ds))
    | '#' :: d :: ds => charRef (numberIn 10 0 (d :: ds))
    | _ => none

/-- Where an XML parser is between two characters. (specification of an XML parser, which is a library called in
input/xml.hpp 70-104) -/
inductive XPos
  | content
  | contentRef (r : List Char)
  | lt
  | bang
  | bangDash
  | comment (dashes : Nat)
  | instruction (question : Bool)
  | startName (n : List Char)
  | inTag (n : String) (as : XAttrs)
  | attrName (n : String) (as : XAttrs) (k : List Char)
  | attrEnd (n : String) (as : XAttrs) (k : String)
  | attrEq (n : String) (as : XAttrs) (k : String)
  | value (n : String) (as : XAttrs) (k : String) (q : Char) (v : List Char)
  | valueRef (n : String) (as : XAttrs) (k : String) (q : Char) (v r : List Char)
  | afterValue (n : String) (as : XAttrs)
  | slash (n : String) (as : XAttrs)
  | endName (n : List Char)
  | endSpace (n : String)
deriving DecidableEq, Repr

/-- The state of an XML parser: its position, the open elements (innermost first), and whether the root element has been
closed. (specification of an XML parser, which is a library called in input/xml.hpp 70-104) -/
structure XTok where
  pos : XPos
  stack : List String
  done : Bool
deriving DecidableEq, Repr

/-- The end of a start tag. (specification of an XML parser, which is a library called in input/xml.hpp 70-104) -/
def XTok.opened (t : XTok) (n : String) (as : XAttrs) : Option (List XEv × XTok) :=
  some ([.start n as], { t with pos := .content, stack := n :: t.stack })

/-- The end of an end tag. (specification of an XML parser, which is a library called in input/xml.hpp 70-104) -/
def XTok.closed (t : XTok) (n : String) : Option (List XEv × XTok) :=
  match t.stack with
  | [] => none
  | m :: st => if n = m then some ([.stop n], ⟨.content, st, t.done || st.isEmpty⟩) else none

/-- One character more; `none` is a document that is not well-formed (or one with a document type declaration or a CDATA
section, which are left out). (specification of an XML parser, which is a library called in input/xml.hpp 70-104) -/
def XTok.step (t : XTok) (c : Char) : Option (List XEv × XTok) :=
  let go (p : XPos) : Option (List XEv × XTok) := some ([], { t with pos := p })
  match t.pos with
  | .content =>
    if c = '<' then go .lt
    else if t.stack.isEmpty then (if isXmlSpace c then go .content else none)
    else if c = '&' then go (.contentRef [])
    else if isXmlChar c.toNat then go .content else none
  | .contentRef r =>
    if c = ';' then (match decodeRef r with | none => none | some _ => go .content) else go (.contentRef (r ++ [c]))
  | .lt =>
    if c = '?' then go (.instruction false)
    else if c = '!' then go .bang
    else if c = '/' then go (.endName [])
    else if isNameStart c ∧ ¬(t.stack.isEmpty ∧ t.done) then go (.startName [c]) else none
  | .bang => if c = '-' then go .bangDash else none
  | .bangDash => if c = '-' then go (.comment 0) else none
  | .comment d =>
    if c = '-' then go (.comment (d + 1))
    else if d ≥ 2 then (if c = '>' ∧ d = 2 then go .content else none)
    else if isXmlChar c.toNat then go (.comment 0) else none
  | .instruction q =>
    if c = '?' then go (.instruction true)
    else if c = '>' ∧ q then go .content
    else if isXmlChar c.toNat then go (.instruction false) else none
  | .startName n =>
    if isNameChar c then go (.startName (n ++ [c]))
    else if isXmlSpace c then go (.inTag (String.ofList n) [])
    else if c = '>' then t.opened (String.ofList n) []
    else if c = '/' then go (.slash (String.ofList n) []) else none
  | .inTag n as =>
    if isXmlSpace c then go (.inTag n as)
    else if isNameStart c then go (.attrName n as [c])
    else if c = '>' then t.opened n as
    else if c = '/' then go (.slash n as) else none
  | .attrName n as k =>
    if isNameChar c then go (.attrName n as (k ++ [c]))
    else if String.ofList k ∈ as.map Prod.fst then none
    else if isXmlSpace c then go (.attrEnd n as (String.ofList k))
    else if c = '=' then go (.attrEq n as (String.ofList k)) else none
  | .attrEnd n as k =>
    if isXmlSpace c then go (.attrEnd n as k) else if c = '=' then go (.attrEq n as k) else none
  | .attrEq n as k =>
    if isXmlSpace c then go (.attrEq n as k)
    else if c = '"' ∨ c = '\'' then go (.value n as k c []) else none
  | .value n as k q v =>
    if c = q then go (.afterValue n (as ++ [(k, String.ofList v)]))
    else if c = '<' then none
    else if c = '&' then go (.valueRef n as k q v [])
    else if isXmlSpace c then go (.value n as k q (v ++ [' ']))
    else if isXmlChar c.toNat then go (.value n as k q (v ++ [c])) else none
  | .valueRef n as k q v r =>
    if c = ';' then (match decodeRef r with | none => none | some x => go (.value n as k q (v ++ [x])))
    else go (.valueRef n as k q v (r ++ [c]))
  | .afterValue n as =>
    if isXmlSpace c then go (.inTag n as)
    else if c = '>' then t.opened n as
    else if c = '/' then go (.slash n as) else none
  | .slash n as =>
    if c = '>' then some ([.start n as, .stop n], ⟨.content, t.stack, t.done || t.stack.isEmpty⟩) else none
  | .endName n =>
    if isNameChar c then go (.endName (n ++ [c]))
    else if isXmlSpace c then go (.endSpace (String.ofList n))
    else if c = '>' then t.closed (String.ofList n) else none
  | .endSpace n => if isXmlSpace c then go (.endSpace n) else if c = '>' then t.closed n else none

/-- Some characters more: the events, and the state afterwards unless there was an error. (specification of an XML
parser, which is a library called in input/xml.hpp 70-104) -/
def XTok.run : XTok → List Char → List XEv × Option XTok
  | t, [] => ([], some t)
  | t, c :: cs =>
    match t.step c with
    | none => ([], none)
    | some (e, t1) => (e ++ (t1.run cs).1, (t1.run cs).2)

/-- At the beginning of a document. (specification of an XML parser, which is a library called in input/xml.hpp
70-104) -/
def XTok.init : XTok := ⟨.content, [], false⟩

/-- The characters of a text in ASCII; other bytes become a character that is nowhere allowed. (specification of an
XML parser, which is a library called in input/xml.hpp 70-104) -/
def asciiChars (bs : List UInt8) : List Char := bs.map fun b => if b < 128 then Char.ofNat b.toNat else Char.ofNat 0

/-- A parser for documents in ASCII without document type declarations and CDATA sections, as it is used in
input/xml.hpp 75-103. -/
def xmlTok : Expat XTok where
  start := .init
  feed := fun t bs => t.run (asciiChars bs)
  finish := fun t => ([], decide (t.pos = .content ∧ t.stack = [] ∧ t.done = true))

end Osmium

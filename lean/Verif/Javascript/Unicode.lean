import Verif.Export.Utf8Props

/-
C79: texts to and from scripts, javascript/unicode.hpp.  The conversions of ICU and the strings of V8 are
modelled as their documentation describes them: strict UTF-8 and UTF-16, a buffer of given size.
-/
namespace Osmium

/-! ### ICU and V8 -/

/-- A string of V8: any sequence of 16-bit units. -/
abbrev JsString := List UInt16

/-- `UErrorCode`, as far as it is set by the conversions.  `U_STRING_NOT_TERMINATED_WARNING` is set when
the result fills the buffer. (checked in javascript/unicode.hpp 87, 109 and 137 with U_FAILURE) -/
inductive IcuCode
  | zeroError
  | notTerminated
  | bufferOverflow
  | invalidChar
deriving DecidableEq, Repr

/-- Units that are the first or second half of a pair. (ICU, part of the conversions called in
javascript/unicode.hpp 86, 108, 136) -/
def isLead (u : UInt16) : Bool := 0xD800 ≤ u.toNat && u.toNat < 0xDC00
/-- See `isLead`; ICU, part of the conversions called in javascript/unicode.hpp 86, 108, 136. -/
def isTrail (u : UInt16) : Bool := 0xDC00 ≤ u.toNat && u.toNat < 0xE000

/-- The character of a pair of units. (ICU, part of the conversions called in
javascript/unicode.hpp 86, 108, 136) -/
def pairChar (u v : UInt16) : Char := Char.ofNat (0x10000 + (u.toNat - 0xD800) * 0x400 + (v.toNat - 0xDC00))

/-- Decoding UTF-16 (ICU): a half without the other half is an error. (called in javascript/unicode.hpp 108) -/
def decodeUtf16 : JsString → Option (List Char)
  | [] => some []
  | [u] => if isLead u || isTrail u then none else some [Char.ofNat u.toNat]
  | u :: v :: us =>
    if isLead u then
      if isTrail v then (decodeUtf16 us).map (pairChar u v :: ·) else none
    else if isTrail u then none
    else (decodeUtf16 (v :: us)).map (Char.ofNat u.toNat :: ·)

/-- Decoding UTF-8 (ICU): strict, as in Lean's library. (part of u_strFromUTF8,
javascript/unicode.hpp 86) -/
def decodeUtf8 (b : List UInt8) : Option (List Char) := (ByteArray.mk b.toArray).utf8Decode?.map Array.toList

/-- Encoding of a character as UTF-16. (ICU `u_strFromUTF8`, called in javascript/unicode.hpp 86) -/
def utf16Char (c : Char) : JsString :=
  if c.toNat < 0x10000 then [UInt16.ofNat c.toNat]
  else [UInt16.ofNat (0xD800 + (c.toNat - 0x10000) / 0x400), UInt16.ofNat (0xDC00 + (c.toNat - 0x10000) % 0x400)]

/-- The code for a result of `n` units in a buffer of `cap` units. (part of the conversions
called in javascript/unicode.hpp 86, 108, 136) -/
def icuCode (n cap : Nat) : IcuCode :=
  if n < cap then .zeroError else if n = cap then .notTerminated else .bufferOverflow

/-- The encodings of the first characters that fit into `cap` bytes. (part of u_strToUTF8,
javascript/unicode.hpp 108 and 136) -/
def fitUtf8 : Nat → List Char → List UInt8
  | _, [] => []
  | cap, c :: cs =>
    if (String.utf8EncodeChar c).length ≤ cap then
      String.utf8EncodeChar c ++ fitUtf8 (cap - (String.utf8EncodeChar c).length) cs
    else []

/-- `u_strFromUTF8(dest, cap, &length, cstring, -1, &error_code)`: what is written, and the code.  (After
an error nothing is said about what is written.) (ICU; called in javascript/unicode.hpp 86) -/
def strFromUTF8 (cap : Nat) (src : List UInt8) : JsString × IcuCode :=
  match decodeUtf8 src with
  | none => ([], .invalidChar)
  | some cs =>
    let out := cs.flatMap utf16Char
    (out.take cap, icuCode out.length cap)

/-- `u_strToUTF8(dest, cap, &length, src, srcLength, &error_code)`: what is written (without a final zero),
and the code.  When the buffer is too small, ICU writes the characters that fit. (ICU; called in
javascript/unicode.hpp 108 and 136) -/
def strToUTF8 (cap : Nat) (src : JsString) : List UInt8 × IcuCode :=
  match decodeUtf16 src with
  | none => ([], .invalidChar)
  | some cs => (fitUtf8 cap cs, icuCode (cs.flatMap String.utf8EncodeChar).length cap)

/-! ### javascript/unicode.hpp -/

/-- javascript/unicode.hpp 87-97 `utf8_to_v8_String<characters>`. -/
def utf8ToV8 (characters : Nat) (cstring : List UInt8) : Res JsString :=
  match strFromUTF8 (characters * 2) cstring with
  | (out, .zeroError) => .ok out
  | _ => .error (.exn "UTF8_to_UTF16_Conversion_Error")

/-- javascript/unicode.hpp 107-120 `v8_String_to_utf8<characters>`: the C string in the buffer.
`Write` copies at most `characters*2` units. -/
def v8ToUtf8 (characters : Nat) (string : JsString) : Res (List UInt8) :=
  match strToUTF8 (characters * 4) ((string.take (characters * 2)).take (min (characters * 2) string.length)) with
  | (out, .zeroError) => .ok (cString out)
  | _ => .error (.exn "UTF16_to_UTF8_Conversion_Error")

/-- javascript/unicode.hpp 129-153 `v8_String_to_ostream`: what is written to the stream, which is the C
string in the buffer.  `length` is an `int`.  (Memory exhaustion is not modelled.) -/
def v8ToStream (string : JsString) : Res (List UInt8) :=
  let length : Int := 4 * ((string.length : Int) + 1)
  if ¬ InS32 length then .error .ub
  else
    match strToUTF8 length.toNat string with
    | (out, .zeroError) => .ok (cString out)
    | _ => .error (.exn "UTF16_to_UTF8_Conversion_Error")

end Osmium

import Verif.Xml.Number
import Verif.Attr.Model
import Verif.Input.Ops
import Verif.File.Types
/-
Model of output/xml.hpp and input/xml.hpp.

XML is modelled as a sequence of events: start of an element with its attributes, end of an element.
The text level (the character encoding, escaping, white space) belongs to libxml2 on the writing
side and expat on the reading side; it is not modelled: the reader is given the events that the
writer produced.  Character data between elements is ignored by the reader (it registers no handler
for it, input/xml.hpp:77).
-/
namespace Osmium

/-- Attributes in document order. (`attrs` in input/xml.hpp 137-143) -/
abbrev XAttrs := List (String × String)

/-- An XML event. (expat calls start_element and end_element, input/xml.hpp 77 and 137-143) -/
inductive XEv
  | start (name : String) (attrs : XAttrs)
  | stop (name : String)
deriving DecidableEq, Repr

/-! ## libxml2's text writer -/

/-- Calls of libxml2's `xmlTextWriter` API. (called in output/xml.hpp 71-222) -/
inductive WCall
  /-- `xmlTextWriterStartElement` -/
  | start (name : String)
  /-- `xmlTextWriterWriteAttribute`, `xmlTextWriterWriteFormatAttribute` -/
  | attr (key value : String)
  /-- `xmlTextWriterEndElement` -/
  | close
deriving DecidableEq, Repr

/-- State of the text writer: the names of the open elements (innermost first), and the start tag
that is not yet finished. (`m_xml_writer`, output/xml.hpp 168) -/
structure TW where
  stack : List String
  pending : Option (String × XAttrs)
deriving DecidableEq, Repr

/-- A new text writer. (output/xml.hpp 63-70) -/
def TW.init : TW := ⟨[], none⟩

/-- The event of the unfinished start tag. (libxml2, called in output/xml.hpp 71-222) -/
def TW.flush (w : TW) : List XEv :=
  match w.pending with
  | none => []
  | some (n, as) => [.start n as]

/-- One call; `none`: the function returns -1. (libxml2, called in output/xml.hpp 71-222) -/
def TW.step (w : TW) : WCall → Option (TW × List XEv)
  | .start n => some (⟨n :: w.stack, some (n, [])⟩, w.flush)
  | .attr k v =>
    match w.pending with
    | none => none
    | some (n, as) => some ({ w with pending := some (n, as ++ [(k, v)]) }, [])
  | .close =>
    match w.stack with
    | [] => none
    | n :: st => some (⟨st, none⟩, w.flush ++ [.stop n])

/-- A sequence of calls (output/xml.hpp:46-50: the writer throws `XMLWriteError` as soon as one of
them fails, `none`). -/
def TW.run : TW → List WCall → Option (TW × List XEv)
  | w, [] => some (w, [])
  | w, c :: cs => do
    let (w1, e1) ← w.step c
    let (w2, e2) ← w1.run cs
    return (w2, e1 ++ e2)

/-! ## The writer (output/xml.hpp) -/

/-- Text from characters. (helper for statements and proofs, no counterpart in /repo) -/
def str (cs : List Char) : String := String.ofList cs

/-- output/xml.hpp:205-227 `open_close_op_tag`; `none` is `'\0'`.  Result: calls and the new
`m_last_op`. -/
def opTag (last op : Option Char) : List WCall × Option Char :=
  if op = last then ([], last)
  else
    ((if last.isSome then [WCall.close] else []) ++
      (if op = some 'c' then [.start "create"] else if op = some 'm' then [.start "modify"]
       else if op = some 'd' then [.start "delete"] else []), op)

/-- output/xml.hpp:96, 114, 134 the argument of `open_close_op_tag`. -/
def opOf (o : Obj) : Char := if o.visible then (if o.version = 1 then 'c' else 'm') else 'd'

/-- output/xml.hpp:171-193 `write_meta`.  `%d` prints the `uint32_t` version as a signed number. -/
def writeMeta (ft : FileType) (o : Obj) : List WCall :=
  [WCall.attr "id" (str (Text.intDec o.id))] ++
  (if o.version ≠ 0 then [.attr "version" (str (Text.intDec (wrapS32 o.version)))] else []) ++
  (if o.timestamp ≠ 0 then [.attr "timestamp" (str (Time.toIso o.timestamp))] else []) ++
  (if o.uid > 0 then [.attr "uid" (str (Text.intDec o.uid)), .attr "user" o.user] else []) ++
  (if o.changeset ≠ 0 then [.attr "changeset" (str (Text.intDec o.changeset))] else []) ++
  (if ft.multi ∧ ft ≠ .change then [.attr "visible" (if o.visible then "true" else "false")] else [])

/-- output/xml.hpp:195-203 `write_tags`. -/
def writeTags (ts : TagList) : List WCall :=
  ts.flatMap fun t => [WCall.start "tag", .attr "k" t.key, .attr "v" t.value, .close]

/-- output/xml.hpp:94-110 `node`, 112-130 `way`, 132-154 `relation`: what follows the section
handling. -/
def writeBody (ft : FileType) : OsmObj → List WCall
  | .node n =>
    [WCall.start "node"] ++ writeMeta ft n.obj ++
    (if n.position.defined then
      [.attr "lat" (str (Text.fmt7 (fixToDouble n.position.y))),
       .attr "lon" (str (Text.fmt7 (fixToDouble n.position.x)))] else []) ++
    writeTags n.obj.tags ++ [.close]
  | .way w =>
    [WCall.start "way"] ++ writeMeta ft w.obj ++
    (w.nodes.flatMap fun wn => [WCall.start "nd", .attr "ref" (str (Text.intDec wn.ref)), .close]) ++
    writeTags w.obj.tags ++ [.close]
  | .relation r =>
    [WCall.start "relation"] ++ writeMeta ft r.obj ++
    (r.members.flatMap fun m => [WCall.start "member", .attr "type" m.typeName,
      .attr "ref" (str (Text.intDec m.ref)), .attr "role" m.role, .close]) ++
    writeTags r.obj.tags ++ [.close]

/-- output/xml.hpp:94-154 writing one object: calls and the new `m_last_op`. -/
def writeObj (ft : FileType) (last : Option Char) (o : OsmObj) : List WCall × Option Char :=
  if ft = .change then
    let (c, last') := opTag last (some (opOf o.obj))
    (c ++ writeBody ft o, last')
  else (writeBody ft o, last)

/-- A sequence of objects. (output/xml.hpp 96-155, for all objects) -/
def writeObjs (ft : FileType) : Option Char → List OsmObj → List WCall × Option Char
  | last, [] => ([], last)
  | last, o :: os =>
    let (c1, l1) := writeObj ft last o
    let (c2, l2) := writeObjs ft l1 os
    (c1 ++ c2, l2)

/-- output/xml.hpp:75-79 the name of the root element. -/
def rootName (ft : FileType) : String := if ft = .change then "osmChange" else "osm"

/-- output/xml.hpp:82-91 the `bounds` element. -/
def writeBounds (b : Bounds) : List WCall :=
  if b.defined then
    [.start "bounds",
     .attr "minlon" (str (Text.fmt7 (fixToDouble b.bottomLeft.x))),
     .attr "minlat" (str (Text.fmt7 (fixToDouble b.bottomLeft.y))),
     .attr "maxlon" (str (Text.fmt7 (fixToDouble b.topRight.x))),
     .attr "maxlat" (str (Text.fmt7 (fixToDouble b.topRight.y))),
     .close]
  else []

/-- output/xml.hpp:70-92 `init`. -/
def writeInit (ft : FileType) (gen : String) (m : Meta) : List WCall :=
  [.start (rootName ft), .attr "version" "0.6", .attr "generator" gen] ++ writeBounds m.bounds

/-- output/xml.hpp:156-163 `final`. -/
def writeFinal (ft : FileType) (last : Option Char) : List WCall :=
  (if ft = .change then (opTag last none).1 else []) ++ [.close]

/-- A whole file: `init`, the objects, `final`.  (The XML writer inherits the empty `before_...` and
`after_...` callbacks, output.hpp:57-66.) -/
def writeFile (ft : FileType) (gen : String) (m : Meta) (os : List OsmObj) : List WCall :=
  let (c, last) := writeObjs ft none os
  writeInit ft gen m ++ c ++ writeFinal ft last

/-- The document written; `none`: `XMLWriteError`. (output/xml.hpp 67-165, all callbacks) -/
def xmlWrite (ft : FileType) (gen : String) (m : Meta) (os : List OsmObj) : Option (List XEv) :=
  (TW.init.run (writeFile ft gen m os)).map fun r => r.2 ++ r.1.flush

/-! ## The reader (input/xml.hpp) -/

/-- input/xml.hpp:119-126 `context_t`. -/
inductive XCtx
  | root | top | node | way | relation | inObject
deriving DecidableEq, Repr

/-- The state of the reader, apart from the contents of the three objects: input/xml.hpp:117-135 and
input.hpp:221-242.  `cur` is the object `m_current_object` points to. -/
structure XCtl where
  ctx : XCtx
  lastCtx : XCtx
  inDelete : Bool
  cur : Option ObjType
  info : Meta
  last : ObjType
  hasNode : Bool
  hasRel : Bool
deriving DecidableEq, Repr

/-- input/xml.hpp:61-67 and input.hpp:92-106 constructors. -/
def XCtl.init (ft : FileType) : XCtl :=
  { ctx := .root, lastCtx := .root, inDelete := false, cur := none, info := Meta.new ft.multi,
    last := .unknown, hasNode := false, hasRel := false }

/-- Result of a step of the reader: the operations made, and the state afterwards or the failure.
(input/xml.hpp 145-305) -/
abbrev XRes := List ROp × Except Fail XCtl

/-- osm/position.hpp:119-127 `lon(double)` and `lat(double)` with `atof` of a text. -/
def textToFix (s : String) : Option Int := doubleToFixChk (Text.atof s.toList)

/-- The exception thrown by a setter. (osm/object.hpp 165-192, utils/timestamp.hpp 77) -/
def AttrError.fail : AttrError → Fail
  | .invalidTimestamp => .exn "invalid_argument: can't parse timestamp"
  | .userTooLong => .exn "length_error: user name too long"

/-- input/xml.hpp:150-162 the loop of `init_object`; `t` is the type of the object.  `set_attribute`
throws depending on the value only (see `set_attribute_throws_iff`). -/
def initAttrs (t : ObjType) (hasNode : Bool) : XAttrs → List ROp × Option Fail
  | [] => ([], none)
  | (k, v) :: as =>
    let cont (ops : List ROp) : List ROp × Option Fail :=
      let (ops', e) := initAttrs t hasNode as
      (ops ++ ops', e)
    if k = "lon" then
      if hasNode then
        match textToFix v with
        | none => ([], some .ub)
        | some x => cont [.modNode fun n => { n with position := { n.position with x := x } }]
      else cont []
    else if k = "lat" then
      if hasNode then
        match textToFix v with
        | none => ([], some .ub)
        | some y => cont [.modNode fun n => { n with position := { n.position with y := y } }]
      else cont []
    else
      match (Obj.new.setAttribute k v).2 with
      | some e => ([], some e.fail)
      | none => cont (ROp.modObj t fun o => (o.setAttribute k v).1)

/-- input/xml.hpp:200-214, 145-163: the start of an object in the top context. -/
def startObject (s : XCtl) (t : ObjType) (ctx : XCtx) (attrs : XAttrs) : XRes :=
  let ops1 := (afterAndBefore s.info s.last t).map ROp.emit ++ [ROp.prepare t]
  let hasNode := s.hasNode || t == .node
  let ops2 := if s.inDelete then ROp.modObj t fun o => { o with visible := false } else []
  let (ops3, e) := initAttrs t hasNode attrs
  (ops1 ++ ops2 ++ ops3,
    match e with
    | some f => .error f
    | none => .ok { s with last := t, cur := some t, ctx := ctx, hasNode := hasNode,
                           hasRel := s.hasRel || t == .relation })

/-- The value of the last attribute with this name (the loops of the reader overwrite). (the
loops over `attrs` in input/xml.hpp 165-275) -/
def lastAttr (k dflt : String) : XAttrs → String
  | [] => dflt
  | (k', v) :: as => lastAttr k (if k' = k then v else dflt) as

/-- input/xml.hpp:165-179 `check_tag`; `none`: `m_current_object` is NULL and used. -/
def checkTag (cur : Option ObjType) (name : String) (attrs : XAttrs) : Option (List ROp) :=
  if name = "tag" then
    match cur with
    | none => none
    | some t => some (ROp.modObj t fun o =>
        { o with tags := TagList.add o.tags (lastAttr "k" "" attrs) (lastAttr "v" "" attrs) })
  else some []

/-- input/xml.hpp:184-193 the attributes of the root element. -/
def rootAttrs (m : Meta) : XAttrs → Except Fail Meta
  | [] => .ok m
  | (k, v) :: as =>
    if k = "version" then
      if v = "0.6" then rootAttrs m as else .error (.exn "can only read version 0.6 files")
    else if k = "generator" then rootAttrs { m with generator := v } as
    else rootAttrs m as

/-- input/xml.hpp:216-229 the attributes of a `bounds` element (`none`: undefined conversion). -/
def boundsAttrs (mn mx : Position) : XAttrs → Option (Position × Position)
  | [] => some (mn, mx)
  | (k, v) :: as =>
    if k = "minlon" then do boundsAttrs { mn with x := ← textToFix v } mx as
    else if k = "minlat" then do boundsAttrs { mn with y := ← textToFix v } mx as
    else if k = "maxlon" then do boundsAttrs mn { mx with x := ← textToFix v } as
    else if k = "maxlat" then do boundsAttrs mn { mx with y := ← textToFix v } as
    else boundsAttrs mn mx as

/-- input/xml.hpp:257-268 a `member` element.  The reference goes through a `uint64_t` variable.
The type is the first character of the attribute (of its first byte, if it is not ASCII), `'\0'` if
it is empty. -/
def memberOp (s : XCtl) (attrs : XAttrs) : List ROp × Option Fail :=
  let tv := lastAttr "type" "x" attrs
  let type := tv.toList.head?.getD (Char.ofNat 0)
  let ref := wrapS64 (lastAttr "ref" "" attrs |> fun r => wrapU64 (strToId r))
  let role := lastAttr "role" "" attrs
  if s.cur.isSome ∧ s.hasRel then
    ([.modRel fun r => { r with members := (addMember r.members type ref role).1 }],
      if (addMember [] type ref role).2 then some (.exn "length_error: role too long") else none)
  else ([], none)

/-- A step that only makes operations and changes the context. (helper for statements and proofs,
no counterpart in /repo) -/
def xinner (s : XCtl) (ctx : XCtx) (ops : Option (List ROp)) : XRes :=
  match ops with
  | none => ([], .error .ub)
  | some ops => (ops, .ok { s with lastCtx := ctx, ctx := .inObject })

/-- input/xml.hpp:181-276 `start_element`. -/
def startElement (s : XCtl) (name : String) (attrs : XAttrs) : XRes :=
  match s.ctx with
  | .root =>
    if name = "osm" ∨ name = "osmChange" then
      match rootAttrs s.info attrs with
      | .error e => ([], .error e)
      | .ok m => ([], .ok { s with info := m, ctx := .top })
    else ([], .ok { s with ctx := .top })
  | .top =>
    if name = "node" then startObject s .node .node attrs
    else if name = "way" then startObject s .way .way attrs
    else if name = "relation" then startObject s .relation .relation attrs
    else if name = "bounds" then
      match boundsAttrs Position.undef Position.undef attrs with
      | none => ([], .error .ub)
      | some (mn, mx) =>
        ([], .ok { s with info := { s.info with bounds := (s.info.bounds.extend mn).extend mx } })
    else if name = "delete" then ([], .ok { s with inDelete := true })
    else ([], .ok s)
  | .node => xinner s .node (checkTag s.cur name attrs)
  | .way =>
    if name = "nd" then
      xinner s .way (some ((attrs.filter fun a => a.1 = "ref").map fun a =>
        ROp.modWay fun w => { w with nodes := w.nodes ++ [{ ref := strToId a.2 }] }))
    else xinner s .way (checkTag s.cur name attrs)
  | .relation =>
    if name = "member" then
      match memberOp s attrs with
      | (ops, some e) => (ops, .error e)
      | (ops, none) => xinner s .relation (some ops)
    else xinner s .relation (checkTag s.cur name attrs)
  | .inObject => ([], .error .assertion)

/-- input/xml.hpp:278-311 `end_element`. -/
def endElement (s : XCtl) (name : String) : XRes :=
  match s.ctx with
  | .root => ([], .error .assertion)
  | .top =>
    if name = "osm" ∨ name = "osmChange" then ([], .ok { s with ctx := .root })
    else if name = "delete" then ([], .ok { s with inDelete := false })
    else ([], .ok s)
  | .node => ([.call .node], .ok { s with cur := none, ctx := .top })
  | .way => ([.call .way], .ok { s with cur := none, ctx := .top })
  | .relation => ([.call .relation], .ok { s with cur := none, ctx := .top })
  | .inObject => ([], .ok { s with ctx := s.lastCtx })

/-- One event. (input/xml.hpp 137-143) -/
def xmlStep (s : XCtl) : XEv → XRes
  | .start n as => startElement s n as
  | .stop n => endElement s n

/-- A sequence of events. (input/xml.hpp 80-102) -/
def xmlRun (s : XCtl) : List XEv → XRes
  | [] => ([], .ok s)
  | e :: es =>
    match xmlStep s e with
    | (ops, .error f) => (ops, .error f)
    | (ops, .ok s1) =>
      let (ops', r) := xmlRun s1 es
      (ops ++ ops', r)

/-- What expat makes of the input: the events, and the parse error (or read error) at the end, if
any. (input/xml.hpp 80-102) -/
structure XInput where
  events : List XEv
  error : Option Fail
deriving DecidableEq, Repr

/-- input/xml.hpp:69-111 `parse`, with a handler that may throw `StopReading`. -/
def xmlParse (ft : FileType) (h : Stops) (inp : XInput) : List Cb × ParseEnd :=
  let (ops, r) := xmlRun (XCtl.init ft) inp.events
  let calls := (Regs.init.run ops).2
  match r with
  | .error e => parseFrame h ⟨calls, some e⟩ []
  | .ok s => parseFrame h ⟨calls, inp.error⟩ (afterAndBefore s.info s.last .unknown)

end Osmium

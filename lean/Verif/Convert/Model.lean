import Verif.Xml.MoreProps
import Verif.Pbf.Crash
/-
Model of the conversion of a file: `Osmium::Input::read(infile, handler)` with an
`Osmium::Output::Handler` for another file as handler (examples/osmium_convert.cpp:118-129).  The output
handlers are state machines that get any sequence of callbacks.
-/
namespace Osmium

/-- A handler gets callbacks one after the other, until one throws an exception (which no reader
catches unless it is `StopReading`, input.hpp:112-119). -/
def feed {σ : Type} (step : σ → Cb → Res σ) : σ → List Cb → Res σ
  | s, [] => .ok s
  | s, c :: cs => do feed step (← step s c) cs

/-- output/xml.hpp:40-68 the state of the XML output: the text writer, `m_last_op`, and what has been
written (as events, without indentation). -/
structure XmlOut where
  tw : TW
  last : Option Char
  evs : List XEv

/-- output/xml.hpp:52-68 constructor. -/
def XmlOut.new : XmlOut := ⟨TW.init, none, []⟩

/-- Calls of the text writer; `XMLWriteError` if one fails (output/xml.hpp:46-50). -/
def XmlOut.calls (x : XmlOut) (cs : List WCall) : Res XmlOut :=
  match x.tw.run cs with
  | none => .error (.exn "XMLWriteError")
  | some (w, e) => .ok { x with tw := w, evs := x.evs ++ e }

/-- output/xml.hpp:70-163 the callbacks; `before_...` and `after_...` are the empty functions of
`Handler::Base`.  `final` also frees the writer, which completes the output. -/
def XmlOut.step (ft : FileType) (gen : String) (x : XmlOut) : Cb → Res XmlOut
  | .init m => x.calls (writeInit ft gen m)
  | .obj o => do
    let y ← x.calls (writeObj ft x.last o).1
    return { y with last := (writeObj ft x.last o).2 }
  | .final => do
    let y ← x.calls (writeFinal ft x.last)
    return { y with evs := y.evs ++ y.tw.flush }
  | .before _ => .ok x
  | .after _ => .ok x

/-- The file an XML output writes for a sequence of callbacks, or the exception. (output/xml.hpp
67-165, all callbacks) -/
def xmlOut (ft : FileType) (gen : String) (cs : List Cb) : Res (List XEv) := do
  return (← feed (XmlOut.step ft gen) XmlOut.new cs).evs

/-- The state of the PBF output (output/pbf.hpp:749-777): the writer of the blocks and the bytes in the
file. -/
structure PbfOut where
  w : Writer
  data : Bytes

/-- Hand new blocks to `store_blob` (output/pbf.hpp:541-547). -/
def PbfOut.emit (c : PbfCodec) (compress : Bool) (p : PbfOut) (w : Writer) : Res PbfOut := do
  let b ← storeBlobs c.toBlobCodec compress
    ((w.out.drop p.w.out.length).map (fun b => ("OSMData", c.encBlock b)))
  return ⟨w, p.data ++ b⟩

/-- output/pbf.hpp:865-989 the callbacks. -/
def PbfOut.step (lib : PbfLib) (c : PbfCodec) (compress : Bool) (ft : FileType) (gen : String)
    (p : PbfOut) : Cb → Res PbfOut
  | .init m => do
    let b ← storeBlobs c.toBlobCodec compress
      [("OSMHeader", c.encHeader (headerMsg p.w.cfg ft gen m))]
    return { p with data := p.data ++ b }
  | .obj o => do
    let (w, thrown) ← p.w.write lib o
    if thrown then .error (.exn "Unknown relation member type") else p.emit c compress w
  | .final => do
    let w ← p.w.final lib
    p.emit c compress w
  | .before _ => .ok p
  | .after _ => .ok p

/-- The file a PBF output writes for a sequence of callbacks, or the exception. (output/pbf.hpp 865-995, all callbacks) -/
def pbfOut (lib : PbfLib) (c : PbfCodec) (cfg : PbfCfg) (compress : Bool) (ft : FileType)
    (gen : String) (cs : List Cb) : Res Bytes := do
  return (← feed (PbfOut.step lib c compress ft gen) ⟨Writer.new cfg, []⟩ cs).data

/-- `Osmium::Input::read` with an output handler (osmium.hpp:51-86): `r` is what the reader calls
and how it ends. -/
def convert {α : Type} (r : List Cb × ParseEnd) (out : List Cb → Res α) : Res α := do
  let a ← out r.1
  match r.2 with
  | .returned => return a
  | .threw e => .error e

end Osmium

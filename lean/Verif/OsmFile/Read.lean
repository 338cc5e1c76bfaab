import Verif.OsmFile.FdProps
import Verif.Pbf.File

/-
C102: what `Osmium::Input::read` opens and starts, and what becomes of it.
-/
namespace Osmium

/-- How opening the file goes: `::open` returns a descriptor or fails, or there is a pipe from a child process (`zcat`,
`bzcat` or `curl`) that will end with this status, or `fork` fails after the pipe has been made.  (Standard input is
left out; nothing is opened for it.)  (osmfile.hpp 309-346, 349-365, 661-663) -/
inductive ReadOpen
  | file (fd : Option Nat)
  | pipe (fd pid : Nat) (status : Int)
  | forkFails (fd1 fd2 : Nat)
deriving DecidableEq, Repr

/-- The operation on the reader's `OSMFile`, which is object `j`. (input.hpp 101) -/
def ReadOpen.op (j : Nat) : ReadOpen → FdOp
  | .file fd => .openFile j fd
  | .pipe fd pid status => .openPipe j fd pid status
  | .forkFails fd1 fd2 => .forkFails j fd1 fd2

/-- The object an operation is about. (no counterpart in /repo) -/
def FdOp.target : FdOp → Nat
  | .new i => i
  | .copy i _ => i
  | .assign i _ => i
  | .openFile i _ => i
  | .openStd i _ => i
  | .openPipe i _ _ _ => i
  | .forkFails i _ _ => i
  | .close i => i
  | .destroy i => i

/-- osmium.hpp 55-77 `read` with input.hpp 88-103, the constructor of the reader: its `m_file` is a copy, object `j`, of
object `i`.  If opening it throws, the reader is never made and `m_file` is destroyed.  `during` is what the handler does
with other files while `parse` runs, `parse` how this ends.  The reader is deleted only if `parse` returns.  `none` if
something of this is impossible. -/
def FdWorld.inputRead (w : FdWorld) (i j : Nat) (how : ReadOpen) (during : List FdOp) (parse : ParseEnd) :
    Option (FdWorld × ParseEnd) :=
  match w.step (.copy j i) with
  | none => none
  | some (w1, _) =>
    match w1.step (how.op j) with
    | none => none
    | some (w2, true) => (w2.step (.destroy j)).map fun r => (r.1, .threw (.exn "open failed"))
    | some (w2, false) =>
      match w2.run during with
      | none => none
      | some (w3, _) =>
        match parse with
        | .threw e => some (w3, .threw e)
        | .returned => (w3.step (.destroy j)).map fun r => (r.1, .returned)

end Osmium

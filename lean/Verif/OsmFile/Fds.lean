import Verif.Common.Res
import Mathlib.Data.List.Nodup
import Mathlib.Logic.Function.Basic

/-
C51: OSMFile objects, their file descriptors and child processes, together with the tables of the
operating system.
-/
namespace Osmium

/-- osmfile.hpp 292-303: the attributes of an `OSMFile` related to the open file; `m_fd` is -1 and
`m_childpid` is 0 if there is none. -/
structure FileObj where
  fd : Option Nat
  child : Option Nat
deriving DecidableEq, Repr

/-- The program and what the system knows about it.  `fds` are the open file descriptors, each with
the serial number of the call that opened it; `kids` are the child processes nobody has waited for,
each with the status it ends with (0 if it exits with 0); `objs` the existing objects.  The rest
records what happened: which object opened what, the calls of `::close` with the result (`none`:
the descriptor was not open), the child processes started by each object, with their status.
(osmfile.hpp 294 and 301: `m_fd`, `m_childpid`; the tables of the operating system) -/
structure FdWorld where
  objs : Nat → Option FileObj
  fds : Nat → Option Nat
  kids : Nat → Option Int
  serial : Nat
  opened : List (Nat × Nat)
  closed : List (Nat × Option Nat)
  started : List (Nat × Nat × Int)

/-- At the beginning there are only the three standard descriptors, with the serial numbers 0 to
2. (the operating system; no counterpart in /repo) -/
def FdWorld.init : FdWorld :=
  ⟨fun _ => none, fun f => if f < 3 then some f else none, fun _ => none, 3, [], [], []⟩

/-- What can happen.  The arguments say what the operating system does. (osmfile.hpp:
constructors, assignment, `open_for_input`, `open_for_output`, `close`, destructor) (lines 429-434, 506-527, 536-552,
661-680) -/
inductive FdOp
  /-- constructor: object `i` -/
  | new (i : Nat)
  /-- copy constructor: object `i` from object `j` -/
  | copy (i j : Nat)
  /-- `i = j` -/
  | assign (i j : Nat)
  /-- `open_for_input` or `open_for_output` of a file; `::open` returns `fd` or fails -/
  | openFile (i : Nat) (fd : Option Nat)
  /-- the same with an empty name: standard input or output -/
  | openStd (i : Nat) (output : Bool)
  /-- the same for a compressed file or a URL: the end of the pipe that is kept, the child process
  and the status it will end with -/
  | openPipe (i fd pid : Nat) (status : Int)
  /-- the pipe is made, then `fork` fails -/
  | forkFails (i fd1 fd2 : Nat)
  | close (i : Nat)
  /-- destructor -/
  | destroy (i : Nat)

/-- osmfile.hpp 536-552 `close`: the new world and whether an exception is thrown. -/
def FdWorld.closeObj (w : FdWorld) (i : Nat) (o : FileObj) : FdWorld × Bool :=
  let w1 : FdWorld := match o.fd with
    | some f => { w with fds := Function.update w.fds f none, closed := w.closed ++ [(i, w.fds f)],
                         objs := Function.update w.objs i (some { o with fd := none }) }
    | none => w
  match o.child with
  | none => (w1, false)
  | some p =>
    match w1.kids p with
    | none => (w1, true)
    | some st =>
      let w2 := { w1 with kids := Function.update w1.kids p none }
      if st ≠ 0 then (w2, true)
      else ({ w2 with objs := Function.update w2.objs i (some ⟨none, none⟩) }, false)

/-- One operation: the new world and whether an exception is thrown; `none` if it is impossible (no
such object, or the system cannot do this).
osmfile.hpp 429-434 constructor, 506-513 copy constructor, 520-527 assignment, 661-667 opening with
349-395 `open_input_file`, `open_output_file` and 309-346 `execute`, 529-535 destructor.  In
`execute` the parent's other end of the pipe is closed at once and is left out here. -/
def FdWorld.step (w : FdWorld) : FdOp → Option (FdWorld × Bool)
  | .new i =>
    if (w.objs i).isNone then
      some ({ w with objs := Function.update w.objs i (some ⟨none, none⟩) }, false)
    else none
  | .copy i j =>
    if (w.objs i).isNone ∧ (w.objs j).isSome then
      some ({ w with objs := Function.update w.objs i (some ⟨none, none⟩) }, false)
    else none
  | .assign i j =>
    if (w.objs i).isSome ∧ (w.objs j).isSome then
      some ({ w with objs := Function.update w.objs i (some ⟨none, none⟩) }, false)
    else none
  | .openFile i none => if (w.objs i).isSome then some (w, true) else none
  | .openFile i (some f) =>
    match w.objs i with
    | none => none
    | some o =>
      if (w.fds f).isNone then
        some ({ w with objs := Function.update w.objs i (some { o with fd := some f }),
                       fds := Function.update w.fds f (some w.serial),
                       serial := w.serial + 1, opened := w.opened ++ [(w.serial, i)] }, false)
      else none
  | .openStd i output =>
    match w.objs i with
    | none => none
    | some o =>
      some ({ w with objs := Function.update w.objs i (some { o with fd := some (if output then 1 else 0) }) }, false)
  | .openPipe i f p st =>
    match w.objs i with
    | none => none
    | some _ =>
      if (w.fds f).isNone ∧ (w.kids p).isNone then
        some ({ w with objs := Function.update w.objs i (some ⟨some f, some p⟩),
                       fds := Function.update w.fds f (some w.serial),
                       kids := Function.update w.kids p (some st),
                       serial := w.serial + 1, opened := w.opened ++ [(w.serial, i)],
                       started := w.started ++ [(p, i, st)] }, false)
      else none
  | .forkFails i f g =>
    match w.objs i with
    | none => none
    | some _ =>
      if (w.fds f).isNone ∧ (w.fds g).isNone ∧ f ≠ g then
        some ({ w with fds := Function.update (Function.update w.fds f (some w.serial)) g (some (w.serial + 1)),
                       serial := w.serial + 2,
                       opened := w.opened ++ [(w.serial, i), (w.serial + 1, i)] }, true)
      else none
  | .close i =>
    match w.objs i with
    | none => none
    | some o => some (w.closeObj i o)
  | .destroy i =>
    match w.objs i with
    | none => none
    | some o =>
      let (w', _) := w.closeObj i o
      some ({ w' with objs := Function.update w'.objs i none }, false)

/-- The worlds that can be reached by operations allowed by `P`. (helper for statements and
proofs, no counterpart in /repo) -/
inductive FdReach (P : FdWorld → FdOp → Prop) : FdWorld → Prop
  | init : FdReach P FdWorld.init
  | step {w w' : FdWorld} {op : FdOp} {thrown : Bool} (h : FdReach P w) (hp : P w op)
      (hs : w.step op = some (w', thrown)) : FdReach P w'

end Osmium

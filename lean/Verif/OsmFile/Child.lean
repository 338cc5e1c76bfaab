import Verif.Common.Res

/-
C103: the child processes that compress, decompress and fetch files: which files they have, and when they end.
-/
namespace Osmium

/-- What a file descriptor can stand for: something the program opened itself, `/dev/null`, the OSM file opened by a
child, one of the ends of pipe number `k`. (osmfile.hpp 315-344) -/
inductive ChildFd
  | own (n : Nat)
  | null
  | file
  | pipeR (k : Nat)
  | pipeW (k : Nat)
deriving DecidableEq, Repr

/-- The descriptors of a process, from 0. (the operating system) -/
abbrev FdTab := List (Option ChildFd)

/-- What descriptor `i` stands for. (the operating system) (calls in osmfile.hpp 309-365) -/
def fdAt (t : FdTab) (i : Nat) : Option ChildFd := t[i]?.join

/-- The lowest descriptor that is not in use, which is the one the operating system gives next. (the operating system;
calls in osmfile.hpp 309-365) -/
def fdFree (t : FdTab) : Nat := t.findIdx (·.isNone)

/-- Descriptor `i` is made to stand for `d`. (the operating system, as in `dup2` and `close`) (calls in osmfile.hpp
309-365) -/
def fdPut (t : FdTab) (i : Nat) (d : Option ChildFd) : FdTab :=
  if i < t.length then t.set i d else t ++ List.replicate (i - t.length) none ++ [d]

/-- `open`: the lowest free descriptor and the new table. (the operating system) (calls in osmfile.hpp 309-365) -/
def fdOpen (t : FdTab) (d : ChildFd) : Nat × FdTab := (fdFree t, fdPut t (fdFree t) (some d))

/-- osmfile.hpp 316 `pipe`: the descriptors for reading and for writing, and the table.  The end for reading gets the
lower number, as Linux does it. -/
def fdPipe (t : FdTab) (k : Nat) : Nat × Nat × FdTab :=
  let (r, t1) := fdOpen t (.pipeR k)
  let (w, t2) := fdOpen t1 (.pipeW k)
  (r, w, t2)

/-- osmfile.hpp 325-329: closing all descriptors below 32 except one. -/
def closeLow (t : FdTab) (keep : Nat) : FdTab := t.mapIdx fun i d => if i < 32 ∧ i ≠ keep then none else d

/-- How `execute` ends in the child: another program runs with these descriptors, or `exit(1)` is called with these.
(osmfile.hpp 323-350) -/
inductive ChildRun
  | runs (t : FdTab)
  | exits (t : FdTab)
deriving DecidableEq, Repr

/-- osmfile.hpp 323-339 with `input` 0: the child writes to the pipe.  `t` are the descriptors at the time of `fork`, `w`
is `pipefd[1]`.  `dup2` cannot fail.  `exec` says whether there is such a program. -/
def childRead (t : FdTab) (w : Nat) (exec : Bool) : ChildRun :=
  let t1 := closeLow t w
  let t2 := fdPut t1 1 (fdAt t1 w)
  let t3 := (fdOpen t2 .null).2
  let t4 := (fdOpen t3 .null).2
  if exec then .runs t4 else .exits t4

/-- osmfile.hpp 323-333, 340-348 with `input` 1: the child reads from the pipe, `r` is `pipefd[0]`.  `creates` says whether
the output file can be opened. -/
def childWrite (t : FdTab) (r : Nat) (exec creates : Bool) : ChildRun :=
  let t1 := closeLow t r
  let t2 := fdPut t1 0 (fdAt t1 r)
  if creates then
    let t3 := (fdOpen t2 .file).2
    if fdFree t2 = 1 then
      let t4 := (fdOpen t3 .null).2
      if exec then .runs t4 else .exits t4
    else .exits t3
  else .exits t2

/-- A child that runs: the number of its pipe, whether it compresses (reads from the pipe), its descriptors. (no counterpart
in /repo) -/
structure PipeKid where
  pipe : Nat
  compresses : Bool
  tab : FdTab
deriving DecidableEq, Repr

/-- The program and its children: the descriptors of the program, the children that run, the number of the next pipe, and
for every open file with a child the number of the pipe and `m_fd`. (osmfile.hpp 291, 301) -/
structure PipeWorld where
  tab : FdTab
  kids : List PipeKid
  next : Nat
  files : List (Nat × Nat)
deriving DecidableEq, Repr

/-- Does some process have this end of a pipe? (the operating system) (for `waitpid` in osmfile.hpp 536-552) -/
def PipeWorld.held (w : PipeWorld) (d : ChildFd) : Bool :=
  w.tab.contains (some d) || w.kids.any fun c => c.tab.contains (some d)

/-- Does the child end?  One that compresses ends when there is nothing more to read: nobody has the end of its pipe for
writing.  One that decompresses or fetches ends when it has written everything (`finished`), or it is ended by the system
as soon as nobody has the end of its pipe for reading. (gzip, bzip2, zcat, bzcat, curl and the operating system) (for
`waitpid` in osmfile.hpp 536-552) -/
def PipeWorld.ends (w : PipeWorld) (c : PipeKid) (finished : Bool) : Bool :=
  if c.compresses then !w.held (.pipeW c.pipe) else finished || !w.held (.pipeR c.pipe)

/-- What the program can do.  `openOwn` and `closeOwn` are for files of its own. (osmfile.hpp 309-365, 536-552) -/
inductive PipeOp
  | openOwn (n : Nat)
  | closeOwn (fd : Nat)
  /-- `open_for_input` of an encoding with a child, or of a URL -/
  | openRead (exec : Bool)
  /-- `open_for_output` of an encoding with a child -/
  | openWrite (exec creates : Bool)
  /-- `close` of the file with this pipe; has a child that decompresses written everything? -/
  | close (k : Nat) (finished : Bool)
  /-- the child with this pipe ends by itself, or somebody ends it -/
  | childEnds (k : Nat)
deriving DecidableEq, Repr

/-- What comes of it: `hangs` means that `waitpid` does not return. (osmfile.hpp 536-552) -/
inductive PipeOut
  | done (w : PipeWorld)
  | hangs
  | impossible
deriving DecidableEq, Repr

/-- One operation. `execute` in the parent: osmfile.hpp 314-322, 350-353 (`fork` and `pipe` succeed); `close`: 534-550. -/
def PipeWorld.step (w : PipeWorld) : PipeOp → PipeOut
  | .openOwn n => .done { w with tab := (fdOpen w.tab (.own n)).2 }
  | .closeOwn fd =>
    match fdAt w.tab fd with
    | some (.own _) => .done { w with tab := fdPut w.tab fd none }
    | _ => .impossible
  | .openRead exec =>
    let (r, wr, t) := fdPipe w.tab w.next
    let kids := match childRead t wr exec with
      | .runs tab => w.kids ++ [⟨w.next, false, tab⟩]
      | .exits _ => w.kids
    .done { tab := fdPut t wr none, kids := kids, next := w.next + 1, files := w.files ++ [(w.next, r)] }
  | .openWrite exec creates =>
    let (r, wr, t) := fdPipe w.tab w.next
    let kids := match childWrite t r exec creates with
      | .runs tab => w.kids ++ [⟨w.next, true, tab⟩]
      | .exits _ => w.kids
    .done { tab := fdPut t r none, kids := kids, next := w.next + 1, files := w.files ++ [(w.next, wr)] }
  | .close k finished =>
    match w.files.find? (·.1 == k) with
    | none => .impossible
    | some (_, fd) =>
      let w1 := { w with tab := fdPut w.tab fd none, files := w.files.filter (·.1 != k) }
      match w1.kids.find? (·.pipe == k) with
      | none => .done w1
      | some c => if w1.ends c finished then .done { w1 with kids := w1.kids.filter (·.pipe != k) } else .hangs
  | .childEnds k => .done { w with kids := w.kids.filter (·.pipe != k) }

/-- The program begins with these files of its own. (no counterpart in /repo) -/
def PipeWorld.init (own : List (Option Nat)) : PipeWorld := ⟨own.map (·.map .own), [], 0, []⟩

/-- The states a program can reach, beginning with the files `own`, if `P` holds before every operation. (helper for
statements, no counterpart in /repo) -/
inductive PipeReach (own : List (Option Nat)) (P : PipeWorld → PipeOp → Prop) : PipeWorld → Prop
  | init : PipeReach own P (PipeWorld.init own)
  | step {w w' : PipeWorld} {op : PipeOp} (h : PipeReach own P w) (hp : P w op) (hs : w.step op = .done w') :
      PipeReach own P w'

/-- What `exit(1)` writes to descriptor 1: the text the program has printed with `stdout` and that was still in its buffer
at the time of `fork`. (osmfile.hpp 331, 338, 342, 346, and the C library) -/
def exitWrites (pending : List UInt8) (t : FdTab) : Option (ChildFd × List UInt8) :=
  if pending = [] then none else (fdAt t 1).map fun d => (d, pending)

end Osmium

import Verif.Input.Ops
/-
The objects of the readers in memory: shared pointers (C23).

The operations of `Verif.Input.Ops` are interpreted on a heap.  Simplifications: memory that is freed
is not used again (a new object gets an address never used before); the reference count is not kept
as a number: an object the reader points to is `unique()` if the handler holds no pointer to it.
-/
namespace Osmium

/-- The memory: the objects by address, the first unused address, the three pointers of the reader
(input.hpp:232-234 `m_node`, `m_way`, `m_relation`), and the pointers the handler keeps. -/
structure Heap where
  cells : Nat → OsmObj
  next : Nat
  node : Option Nat
  way : Option Nat
  rel : Option Nat
  held : List Nat

/-- Before anything is read; all pointers are empty. (input.hpp 95-100, constructor) -/
def Heap.init : Heap := ⟨fun _ => .node Node.new, 0, none, none, none, []⟩

/-- The pointer of the reader for a type of object. (input.hpp 232-234 `m_node`, `m_way`,
`m_relation`) -/
def Heap.reg (h : Heap) : ObjType → Option Nat
  | .node => h.node
  | .way => h.way
  | .relation => h.rel
  | _ => none

/-- Write to an address. (a write through a pointer; no function of its own in /repo) (for example in input.hpp
183-203) -/
def Heap.write (h : Heap) (a : Nat) (o : OsmObj) : Heap :=
  { h with cells := fun b => if b = a then o else h.cells b }

/-- A new object. (input.hpp 180-208: the constructors called there) -/
def OsmObj.fresh : ObjType → OsmObj
  | .way => .way Way.new
  | .relation => .relation Relation.new
  | _ => .node Node.new

/-- Set the pointer of the reader. (input.hpp 180-208: the assignments) -/
def Heap.setReg (h : Heap) (t : ObjType) (a : Nat) : Heap :=
  match t with
  | .node => { h with node := some a }
  | .way => { h with way := some a }
  | .relation => { h with rel := some a }
  | _ => h

/-- input.hpp:180-208 `prepare_node`, `prepare_way`, `prepare_relation`: if the pointer is set and
nobody else has it, destroy the object and construct a new one in the same place; otherwise allocate
a new object. -/
def Heap.prepare (h : Heap) (t : ObjType) : Heap :=
  match h.reg t with
  | some a =>
    if h.held.contains a then
      ({ h with next := h.next + 1 }.write h.next (.fresh t)).setReg t h.next
    else h.write a (.fresh t)
  | none => ({ h with next := h.next + 1 }.write h.next (.fresh t)).setReg t h.next

/-- What a handler does with pointers: given all the calls made on it so far (the objects as passed
to it), which of the pointers it has (those it kept and the one passed to it) does it keep? (the
handlers: `shared_ptr` copies made in the callbacks, e.g. storage/objectstore.hpp 62-80) -/
abbrev Keeps := List Cb → Nat → Bool

/-- A modification through a pointer of the reader (nothing if it is empty: that would be a null
pointer dereference, which the model of the readers excludes). (input/xml.hpp 145-275,
input/pbf.hpp 187-375: calls through `m_node`, `m_way`, `m_relation`) -/
def Heap.modify (h : Heap) (a : Option Nat) (f : OsmObj → OsmObj) : Heap :=
  match a with
  | none => h
  | some a => h.write a (f (h.cells a))

/-- Modifications of nodes, ways, relations, applied to an object of any type. (helper for
statements and proofs, no counterpart in /repo) -/
def onNode (f : Node → Node) : OsmObj → OsmObj
  | .node n => .node (f n)
  | o => o
/-- see `onNode` (helper for statements and proofs, no counterpart in /repo) -/
def onWay (f : Way → Way) : OsmObj → OsmObj
  | .way w => .way (f w)
  | o => o
/-- see `onNode` (helper for statements and proofs, no counterpart in /repo) -/
def onRel (f : Relation → Relation) : OsmObj → OsmObj
  | .relation r => .relation (f r)
  | o => o

/-- A callback: the handler decides which pointers to keep. (input.hpp 143-153) -/
def Heap.callback (k : Keeps) (log : List Cb) (h : Heap) (passed : List Nat) : Heap :=
  { h with held := (passed ++ h.held).filter (k log) }

/-- One operation.  `log` are the calls made so far; result: the heap and the calls so far. (the
steps of input/xml.hpp 145-305 and input/pbf.hpp 187-375) -/
def Heap.step (k : Keeps) (s : Heap × List Cb) : ROp → Heap × List Cb
  | .prepare t => (s.1.prepare t, s.2)
  | .modNode f => (s.1.modify s.1.node (onNode f), s.2)
  | .modWay f => (s.1.modify s.1.way (onWay f), s.2)
  | .modRel f => (s.1.modify s.1.rel (onRel f), s.2)
  | .emit c => (s.1.callback k (s.2 ++ [c]) [], s.2 ++ [c])
  | .call t =>
    match s.1.reg t with
    | none => s
    | some a => (s.1.callback k (s.2 ++ [.obj (s.1.cells a)]) [a], s.2 ++ [.obj (s.1.cells a)])

/-- A sequence of operations. (input/xml.hpp 145-305, input/pbf.hpp 187-375) -/
def Heap.run (k : Keeps) (s : Heap × List Cb) (ops : List ROp) : Heap × List Cb :=
  ops.foldl (Heap.step k) s

end Osmium

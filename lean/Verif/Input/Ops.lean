import Verif.Input.Model
/-
What a reader does to the objects it passes to the handler.

Both readers keep one node, one way and one relation (`m_node`, `m_way`, `m_relation`,
input.hpp:240-242).  For every object read they prepare one of them (input.hpp:180-208), modify it,
and pass it to the handler.  The control flow of the readers never depends on the contents of these
objects, so a reader is modelled by the sequence of these operations (`ROp`) mixed with the other
callbacks.  `Regs.run` interprets the operations on plain values; `Verif.Input.Heap` interprets the
same operations on shared objects in memory.
-/
namespace Osmium

/-- The operations of a reader. (input.hpp 108-208: what the readers do with `m_node`, `m_way`,
`m_relation`) -/
inductive ROp
  /-- `prepare_node`, `prepare_way` or `prepare_relation` (input.hpp:180-208) -/
  | prepare (t : ObjType)
  /-- a modification of `*m_node` -/
  | modNode (f : Node → Node)
  /-- a modification of `*m_way` -/
  | modWay (f : Way → Way)
  /-- a modification of `*m_relation` -/
  | modRel (f : Relation → Relation)
  /-- a callback without object -/
  | emit (c : Cb)
  /-- `call_node_on_handler` etc. (input.hpp:143-153) -/
  | call (t : ObjType)

/-- A modification of the common part of the object of the given type, through a pointer or
reference of type `Object` (the object types of the readers are node, way, relation only).
(input/xml.hpp 145-163 `init_object`) -/
def ROp.modObj (t : ObjType) (f : Obj → Obj) : List ROp :=
  match t with
  | .node => [.modNode fun n => { n with obj := f n.obj }]
  | .way => [.modWay fun w => { w with obj := f w.obj }]
  | .relation => [.modRel fun r => { r with obj := f r.obj }]
  | _ => []

/-- The three objects, as values. (input.hpp 232-234, without sharing) -/
structure Regs where
  node : Node
  way : Way
  rel : Relation
deriving DecidableEq, Repr

/-- Initial contents; never observable, because an object is prepared before it is used.
(input.hpp 95-100) -/
def Regs.init : Regs := ⟨Node.new, Way.new, Relation.new⟩

/-- One operation on plain values: the new values, and the callback made (if any). (input.hpp
108-208, without sharing) -/
def Regs.step (r : Regs) : ROp → Regs × List Cb
  | .prepare .node => ({ r with node := Node.new }, [])
  | .prepare .way => ({ r with way := Way.new }, [])
  | .prepare .relation => ({ r with rel := Relation.new }, [])
  | .prepare _ => (r, [])
  | .modNode f => ({ r with node := f r.node }, [])
  | .modWay f => ({ r with way := f r.way }, [])
  | .modRel f => ({ r with rel := f r.rel }, [])
  | .emit c => (r, [c])
  | .call .node => (r, [.obj (.node r.node)])
  | .call .way => (r, [.obj (.way r.way)])
  | .call .relation => (r, [.obj (.relation r.rel)])
  | .call _ => (r, [])

/-- A sequence of operations on plain values. (input.hpp 108-208, without sharing) -/
def Regs.run (r : Regs) : List ROp → Regs × List Cb
  | [] => (r, [])
  | op :: ops =>
    let (r1, c1) := r.step op
    let (r2, c2) := r1.run ops
    (r2, c1 ++ c2)

theorem Regs.run_append (r : Regs) (a b : List ROp) :
    r.run (a ++ b) = (((r.run a).1.run b).1, (r.run a).2 ++ ((r.run a).1.run b).2) := by
  induction a generalizing r with
  | nil => simp [Regs.run]
  | cons op a ih => simp [Regs.run, ih]

end Osmium

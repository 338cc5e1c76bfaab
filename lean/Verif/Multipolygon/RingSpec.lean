import Verif.Multipolygon.MakeRings

/-
Specification for C44, C45, C46.
-/
namespace Osmium.Spec

/-- The node where one enters a way, walking it forwards or (second component) backwards. -/
def entryNode (s : Way × Bool) : Option Int :=
  (if s.2 then s.1.nodes.getLast? else s.1.nodes.head?).map WayNode.ref

/-- The node where one leaves it. -/
def exitNode (s : Way × Bool) : Option Int :=
  (if s.2 then s.1.nodes.head? else s.1.nodes.getLast?).map WayNode.ref

/-- Ways with directions, each starting at the node where the previous one ended, the first one
starting where the last one ended. -/
def CyclicChain (path : List (Way × Bool)) : Prop :=
  path ≠ [] ∧
  path.IsChain (fun a b => exitNode a = entryNode b) ∧
  ∀ a ∈ path.getLast?, ∀ b ∈ path.head?, exitNode a = entryNode b

/-- The ring `r` (numbers of ways, last one first) is a cyclic chain of ways of `ws` that
satisfies the geometric check. -/
def GoodRing (chk : List (Way × Bool) → Bool) (ws : List Way) (r : List Nat) : Prop :=
  ∃ path : List (Way × Bool), path.map (fun p => some p.1) = r.reverse.map (fun i => ws[i]?) ∧
    CyclicChain path ∧ chk path = true

/-- The ways of the ring `r` in the order in which they are walked, each with the direction recorded
for it. -/
def ringPath (ways : List WayInfo) (r : List Nat) : List (Way × Bool) :=
  r.reverse.filterMap fun k => (ways[k]?).map fun w => (w.way, w.invert)

/-- The node (with its position) is the first or last one of one of the ways. -/
def IsEndNode (ws : List Way) (n : WayNode) : Prop :=
  ∃ w ∈ ws, w.nodes.head? = some n ∨ w.nodes.getLast? = some n

/-- How many times the node `ref` is an end of an unused way (a way beginning and ending there
counts twice). -/
def endCount (ways : List WayInfo) (ref : Int) : Nat :=
  ((ways.filter fun w => w.used < 0).map fun w =>
    (if w.way.nodes.head?.map WayNode.ref = some ref then 1 else 0) +
    (if w.way.nodes.getLast?.map WayNode.ref = some ref then 1 else 0)).sum

end Osmium.Spec

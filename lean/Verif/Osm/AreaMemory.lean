import Verif.Multipolygon.Build
import Mathlib.Logic.Function.Basic

/-
C96: areas, the GEOS geometries they own, and the history of a program that uses them.
-/
namespace Osmium

/-- osm/area.hpp 58-63 class `Area`; `geom` is `m_geos_geometry`, the address of the geometry if there is one. -/
structure AreaCell where
  area : Area
  geom : Option Nat
deriving DecidableEq, Repr

/-- The areas of the program by name, the geometries that exist by address, and the next address.
(osm/area.hpp 58-63; the heap) -/
structure AreaWorld (G : Type) where
  areas : Nat → Option AreaCell
  live : Nat → Option G
  next : Nat

/-- At the beginning there is nothing. (no counterpart in /repo) -/
def AreaWorld.init {G : Type} : AreaWorld G := ⟨fun _ => none, fun _ => none, 0⟩

/-- What a program can do with areas. (osm/area.hpp, geometry/multipolygon.hpp) (osm/area.hpp 57-130,
geometry/multipolygon.hpp 40-103) -/
inductive AreaOp (G : Type)
  /-- `Area i(way)` -/
  | fromWay (i : Nat) (w : Way)
  /-- `Area i(relation)` -/
  | fromRelation (i : Nat) (r : Relation)
  /-- `Area i(j)` -/
  | copy (i j : Nat)
  /-- `i = j` -/
  | assign (i j : Nat)
  /-- `i.geos_geometry(new ...)`: the area is given a geometry of its own -/
  | set (i : Nat) (g : G)
  /-- `MultiPolygon(i).borrow_geos_geometry()` -/
  | look (i : Nat)
  /-- the area ceases to exist -/
  | destroy (i : Nat)

/-- What the program sees. (no counterpart in /repo) -/
inductive AreaResult (G : Type)
  | done
  | value (g : G)
  | exn (msg : String)
deriving DecidableEq

/-- A new geometry that belongs to the area `i`. (part of the functions below) (osm/area.hpp 57-130) -/
def AreaWorld.give {G : Type} (w : AreaWorld G) (i : Nat) (a : Area) (g : G) : AreaWorld G :=
  ⟨Function.update w.areas i (some ⟨a, some w.next⟩), Function.update w.live w.next (some g), w.next + 1⟩

/-- osm/area.hpp 71-117 (constructors, assignment, destructor), 134-137 (setter of the geometry), and
geometry/multipolygon.hpp 43-58, 91-97.  `make` makes the geometry for the nodes of a way (geometry/polygon.hpp,
geometry/geos.hpp 99-113).  No result: undefined behaviour, or the program does not name areas correctly. -/
def AreaWorld.step {G : Type} (make : List WayNode → Res G) (w : AreaWorld G) :
    AreaOp G → Option (AreaWorld G × AreaResult G)
  | .fromWay i way =>
    match w.areas i, Area.ofWay way with
    | none, .ok a => some ({ w with areas := Function.update w.areas i (some ⟨a, none⟩) }, .done)
    | _, _ => none
  | .fromRelation i rel =>
    match w.areas i, Area.ofRelation rel with
    | none, .ok a => some ({ w with areas := Function.update w.areas i (some ⟨a, none⟩) }, .done)
    | _, _ => none
  | .copy i j =>
    match w.areas i, w.areas j with
    | none, some c =>
      match c.geom.bind w.live with
      | none => none
      | some g => some (w.give i c.area g, .done)
    | _, _ => none
  | .assign i j =>
    match w.areas i, w.areas j with
    | some _, some c =>
      match c.geom.bind w.live with
      | none => none
      | some g => some (w.give i c.area g, .done)
    | _, _ => none
  | .set i g =>
    match w.areas i with
    | none => none
    | some c => some (w.give i c.area g, .done)
  | .look i =>
    match w.areas i with
    | none => none
    | some c =>
      match c.geom with
      | none =>
        match make c.area.nodes with
        | .ok g => some (w.give i c.area g, .value g)
        | .error (.exn m) => some (w, .exn m)
        | .error _ => none
      | some p =>
        match w.live p with
        | none => none
        | some g => some (w, .value g)
  | .destroy i =>
    match w.areas i with
    | none => none
    | some c =>
      match c.geom with
      | none => some ({ w with areas := Function.update w.areas i none }, .done)
      | some p =>
        match w.live p with
        | none => none
        | some _ =>
          some ({ w with areas := Function.update w.areas i none, live := Function.update w.live p none }, .done)

/-- A whole history. (no counterpart in /repo) -/
def AreaWorld.run {G : Type} (make : List WayNode → Res G) (w : AreaWorld G) :
    List (AreaOp G) → Option (AreaWorld G × List (AreaResult G))
  | [] => some (w, [])
  | op :: ops =>
    match w.step make op with
    | none => none
    | some (w', r) =>
      match w'.run make ops with
      | none => none
      | some (w'', rs) => some (w'', r :: rs)

namespace Spec

/-- The areas as values: the attributes and nodes, and the geometry itself. (specification, no counterpart in /repo) -/
abbrev AreaValues (G : Type) := Nat → Option (Area × Option G)

/-- What each operation is for: a copy is an area with the same attributes, nodes and geometry (if there is one),
looking at an area without geometry makes one of its nodes.  No result: areas are not named correctly, or the id is
too large, or a geometry of no nodes is asked for. (specification, no counterpart in /repo) -/
def AreaValues.step {G : Type} (make : List WayNode → Res G) (s : AreaValues G) :
    AreaOp G → Option (AreaValues G × AreaResult G)
  | .fromWay i way =>
    match s i, Area.ofWay way with
    | none, .ok a => some (Function.update s i (some (a, none)), .done)
    | _, _ => none
  | .fromRelation i rel =>
    match s i, Area.ofRelation rel with
    | none, .ok a => some (Function.update s i (some (a, none)), .done)
    | _, _ => none
  | .copy i j =>
    match s i, s j with
    | none, some v => some (Function.update s i (some v), .done)
    | _, _ => none
  | .assign i j =>
    match s i, s j with
    | some _, some v => some (Function.update s i (some v), .done)
    | _, _ => none
  | .set i g =>
    match s i with
    | none => none
    | some v => some (Function.update s i (some (v.1, some g)), .done)
  | .look i =>
    match s i with
    | none => none
    | some (_, some g) => some (s, .value g)
    | some (a, none) =>
      match make a.nodes with
      | .ok g => some (Function.update s i (some (a, some g)), .value g)
      | .error (.exn m) => some (s, .exn m)
      | .error _ => none
  | .destroy i =>
    match s i with
    | none => none
    | some _ => some (Function.update s i none, .done)

/-- A whole history. (specification, no counterpart in /repo) -/
def AreaValues.run {G : Type} (make : List WayNode → Res G) (s : AreaValues G) :
    List (AreaOp G) → Option (AreaValues G × List (AreaResult G))
  | [] => some (s, [])
  | op :: ops => do
    let (s', r) ← AreaValues.step make s op
    let (s'', rs) ← AreaValues.run make s' ops
    return (s'', r :: rs)

/-- The area exists and has a geometry. (specification, no counterpart in /repo) -/
def HasGeometry {G : Type} (s : AreaValues G) (i : Nat) : Prop := ∃ a g, s i = some (a, some g)

/-- Only areas with a geometry are copied, if the history begins with `s`. (specification, no counterpart in /repo) -/
def CopiesGeometries {G : Type} (make : List WayNode → Res G) (s : AreaValues G) (ops : List (AreaOp G)) : Prop :=
  ∀ before after i j s' rs, (ops = before ++ .copy i j :: after ∨ ops = before ++ .assign i j :: after) →
    AreaValues.run make s before = some (s', rs) → HasGeometry s' j

/-- The operation is for an area that has a geometry, and gives it another one. (specification, no counterpart in
/repo) -/
def replaces {G : Type} (s : AreaValues G) : AreaOp G → Bool
  | .assign i _ => ((s i).bind (·.2)).isSome
  | .set i _ => ((s i).bind (·.2)).isSome
  | _ => false

/-- How often that happens in a history. (specification, no counterpart in /repo) -/
def replacements {G : Type} (make : List WayNode → Res G) (s : AreaValues G) : List (AreaOp G) → Nat
  | [] => 0
  | op :: ops =>
    (if replaces s op then 1 else 0) +
      match AreaValues.step make s op with
      | none => 0
      | some (s', _) => replacements make s' ops

end Spec

end Osmium

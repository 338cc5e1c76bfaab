import Verif.Multipolygon.Memory

/-
Specification for C76, C77.
-/
namespace Osmium.Spec

/-- The ring walked in the wanted direction. -/
def turn (g : MpGeos) (ccw : Bool) (c : Coords) : Coords := if g.ccw c = ccw then c else c.reverse

/-- The polygon of an outer ring and its holes: the outer ring clockwise, the holes counterclockwise. -/
def polygonOf (g : MpGeos) (shell : Coords) (holes : List Coords) : Coords × List Coords :=
  (turn g false shell, holes.map (turn g true))

/-- The rings `j` and `k` touch along a line and their union has the outline `p`. -/
def UnionIs (g : MpGeos) (cur : Nat → Option Coords) (j k : Nat) (p : Coords) : Prop :=
  ∃ x y hs, cur j = some x ∧ cur k = some y ∧ g.touch x y = .line ∧ g.polygonize x y = some (some [(p, hs)])

/-- One merge: of two of the rings in `inner`, the first becomes the union, the other goes. -/
def MergeStep (g : MpGeos) (inner : List Nat) (cur cur' : Nat → Option Coords) : Prop :=
  ∃ j k p, [j, k].Sublist inner ∧ UnionIs g cur j k p ∧
    cur' = fun i => if i = k then none else if i = j then some p else cur i

/-- Any number of merges. -/
inductive Merges (g : MpGeos) (inner : List Nat) : (Nat → Option Coords) → (Nat → Option Coords) → Prop
  | done (cur) : Merges g inner cur cur
  | step {a b c} : MergeStep g inner a b → Merges g inner b c → Merges g inner a c

/-- Nothing can be merged any more. -/
def AllMerged (g : MpGeos) (inner : List Nat) (cur : Nat → Option Coords) : Prop :=
  ∀ j k p, [j, k].Sublist inner → ¬ UnionIs g cur j k p

/-- There are rings that touch along a line but do not have a union with one outline. -/
def NoUnion (g : MpGeos) (inner : List Nat) (cur : Nat → Option Coords) : Prop :=
  ∃ j k x y ps, [j, k].Sublist inner ∧ cur j = some x ∧ cur k = some y ∧ g.touch x y = .line ∧
    g.polygonize x y = some (some ps) ∧ ps.length ≠ 1

/-- GEOS makes the polygon and finds it valid. -/
def Good (g : MpGeos) (p : Coords × List Coords) : Prop :=
  g.polygonMakes p.1 p.2 = true ∧ g.polygonValid p.1 p.2 = some true

/-- GEOS throws at two touching rings. -/
def Throws (g : MpGeos) (inner : List Nat) (cur : Nat → Option Coords) : Prop :=
  ∃ j k x y, [j, k].Sublist inner ∧ cur j = some x ∧ cur k = some y ∧ g.touch x y = .line ∧
    g.polygonize x y = none

/-- The inner rings of an outer ring are merged as far as the program does it. -/
def Merged (g : MpGeos) (inner : List Nat) (cur cur' : Nat → Option Coords) : Prop :=
  Merges g inner cur cur' ∧ (AllMerged g inner cur' ∨ NoUnion g inner cur')

/-- The polygons of the outer rings, one after the other: first the inner rings of the outer ring are
merged, then they become its holes. -/
inductive Polygons (g : MpGeos) (inner : Nat → List Nat) :
    (Nat → Option Coords) → List Nat → List (Coords × List Coords) → (Nat → Option Coords) → Prop
  | nil (cur) : Polygons g inner cur [] [] cur
  | cons {cur cur' last i is shell ps} : Merged g (inner i) cur cur' → cur' i = some shell →
      Good g (polygonOf g shell ((inner i).filterMap cur')) →
      Polygons g inner cur' is ps last →
      Polygons g inner cur (i :: is) (polygonOf g shell ((inner i).filterMap cur') :: ps) last

/-- The first outer ring whose polygon is not made or not valid. -/
def BadPolygon (g : MpGeos) (inner : Nat → List Nat) (cur : Nat → Option Coords) (outer : List Nat) : Prop :=
  ∃ is i is' ps cur' cur'' shell, outer = is ++ i :: is' ∧ Polygons g inner cur is ps cur' ∧
    Merged g (inner i) cur' cur'' ∧ cur'' i = some shell ∧
    ¬ Good g (polygonOf g shell ((inner i).filterMap cur''))

/-- The first outer ring at whose inner rings GEOS throws. -/
def ThrowsAt (g : MpGeos) (inner : Nat → List Nat) (cur : Nat → Option Coords) (outer : List Nat) : Prop :=
  ∃ is i is' ps cur' cur'', outer = is ++ i :: is' ∧ Polygons g inner cur is ps cur' ∧
    Merges g (inner i) cur' cur'' ∧ Throws g (inner i) cur''

/-- No two inner rings of any outer ring touch along a line. -/
def AllQuiet (g : MpGeos) (inner : Nat → List Nat) (cur : Nat → Option Coords) (outer : List Nat) : Prop :=
  ∀ i ∈ outer, ∀ j k x y, [j, k].Sublist (inner i) → cur j = some x → cur k = some y → g.touch x y ≠ .line

/-- The objects are symmetric differences. -/
def Diffs (D : List (Nat × Geom)) : Prop := ∀ c ∈ D, ∃ x y, c.2 = .diff x y

/-- The arrangement of the rings: numbers in range, no ring twice among the inner rings of one ring,
outer rings are not inner rings (of any outer ring). -/
structure Arranged (n : Nat) (extra outer : List Nat) (inner : Nat → List Nat) : Prop where
  extra_lt : ∀ j ∈ extra, j < n
  outer_lt : ∀ i ∈ outer, i < n
  inner_lt : ∀ i ∈ outer, ∀ j ∈ inner i, j < n
  nodup : ∀ i ∈ outer, (inner i).Nodup
  apart : ∀ i ∈ outer, ∀ i' ∈ outer, i ∉ inner i'

end Osmium.Spec

import Verif.Multipolygon.Rings

/-
C44, C45, C46: the model of multipolygon/builder.hpp 533-687, from the members of a relation to the
list of rings.
-/
namespace Osmium

/-- The vector of ways and `m_ringlist`.  A ring is given by the numbers of its ways, in the order
of `RingInfo::ways`, which is the reverse of the order in which they are connected.
(multipolygon/builder.hpp 196 and 524-545) -/
structure RingState where
  ways : List WayInfo
  rings : List (List Nat)
deriving DecidableEq

/-- multipolygon/builder.hpp 533-549 `make_one_ring`. -/
def makeOneRing (chk : List (Way × Bool) → Bool) (s : RingState) : Res (RingState × Bool) :=
  match s.ways.findIdx? (fun w => w.used = -1) with
  | none => .ok (s, false)
  | some i =>
    match s.ways[i]? with
    | none => .error .ub
    | some w =>
      let ring : Int := s.rings.length
      let ways1 := s.ways.set i { w with used := ring, sequence := 0, invert := false }
      match completeRing chk ring w.firstnode (ringFuel ways1) 1 ways1 w.lastnode with
      | .error e => .error e
      | .ok (ways', some r) => .ok (⟨ways', s.rings ++ [r ++ [i]]⟩, true)
      | .ok (ways', none) =>
        .ok (⟨ways'.modify i fun x => { x with used := -2 }, s.rings⟩, false)

/-- multipolygon/builder.hpp 668-669 and 681-682: the loop around `make_one_ring`.  It runs as long
as rings are found; that `fuel` is enough is part of `makeRings_total`. -/
def ringLoop (chk : List (Way × Bool) → Bool) : Nat → RingState → Res RingState
  | 0, _ => .error (.exn "out of fuel")
  | fuel + 1, s =>
    match makeOneRing chk s with
    | .error e => .error e
    | .ok (s', true) => ringLoop chk fuel s'
    | .ok (s', false) => .ok s'

/-- multipolygon/builder.hpp 593-601: the loop that cancels nodes next to each other. -/
def danglingOf : List WayNode → List WayNode
  | [] => []
  | [x] => [x]
  | x :: y :: rest => if !x.eq y then x :: danglingOf (y :: rest) else danglingOf rest
termination_by structural l => l

/-- multipolygon/builder.hpp 614-626: number of the closest node; `closer wn a b` tells whether
the distance from `wn` to `a` is less than that from `wn` to `b`. -/
def closestIdx (closer : WayNode → WayNode → WayNode → Bool) (wn : WayNode) :
    (rest : List WayNode) → (i : Nat) → (best : Nat × WayNode) → Nat × WayNode
  | [], _, best => best
  | x :: rest, i, best =>
    closestIdx closer wn rest (i + 1) (if closer wn x best.2 then (i, x) else best)

/-- multipolygon/builder.hpp 613-637: the loop that joins the dangling nodes in pairs.  Using
`dangling_nodes.begin()` when only one node is left is undefined behaviour.  (The output to `cerr` is in
`gapSays`.) -/
def joinDangling (closer : WayNode → WayNode → WayNode → Bool) :
    (fuel : Nat) → List WayNode → List WayInfo → Res (List WayInfo)
  | 0, _, _ => .error (.exn "out of fuel")
  | fuel + 1, nodes, ways =>
    match nodes.getLast? with
    | none => .ok ways
    | some wn =>
      match nodes.dropLast with
      | [] => .error .ub
      | x :: rest =>
        let (k, c) := closestIdx closer wn rest 1 (0, x)
        joinDangling closer fuel ((x :: rest).eraseIdx k)
          (ways ++ [WayInfo.new { Way.new with nodes := [c, wn] }])

/-- multipolygon/builder.hpp 575-583: the unused ways are reset. -/
def resetWays (ways : List WayInfo) : List WayInfo :=
  ways.map fun w => if w.used < 0 then { w with used := -1 } else w

/-- multipolygon/builder.hpp 575-583: the end nodes of the unused ways.  `front` and `back` of an
empty list are undefined behaviour. -/
def endNodes : List WayInfo → Option (List WayNode)
  | [] => some []
  | w :: ws =>
    if w.used < 0 then
      match w.way.nodes.head?, w.way.nodes.getLast?, endNodes ws with
      | some f, some b, some l => some (f :: b :: l)
      | _, _, _ => none
    else endNodes ws

/-- What the builder depends on: whether it repairs, GEOS (`chk`: can a ring be made from these ways
with these directions?), the distances, and how `std::sort` orders nodes.
(multipolygon/builder.hpp 290-300, 340-420 and 459-474) -/
structure RingEnv where
  repair : Bool
  chk : List (Way × Bool) → Bool
  closer : WayNode → WayNode → WayNode → Bool
  sort : List WayNode → List WayNode

/-- `std::sort` with `operator<` of way nodes gives some sorted permutation. (helper for
statements and proofs, no counterpart in /repo) -/
def RingEnv.SortOk (env : RingEnv) : Prop :=
  ∀ l, (env.sort l).Perm l ∧ (env.sort l).Pairwise (fun a b => !b.lt a)

/-- multipolygon/builder.hpp 562-637 `find_and_repair_holes_in_rings`; `none` when it returns
false (then only the reset marks have changed, and make_rings throws). -/
def repairHoles (env : RingEnv) (ways : List WayInfo) : Res (Option (List WayInfo)) :=
  match endNodes ways with
  | none => .error .ub
  | some ends =>
    let dangling := danglingOf (env.sort ends)
    if dangling.length % 2 ≠ 0 then .error .assertion
    else if !env.repair && !dangling.isEmpty then .ok none
    else (joinDangling env.closer (dangling.length + 1) dangling (resetWays ways)).map some

/-- How often the loop can run: the number of ways with mark -1, and one more. (helper for
statements and proofs, no counterpart in /repo) -/
def loopFuel (ways : List WayInfo) : Nat := ways.countP (fun w => w.used = -1) + 1

/-- multipolygon/builder.hpp 667-687 `make_rings`. -/
def makeRings (env : RingEnv) (ways : List WayInfo) : Res RingState :=
  match ringLoop env.chk (loopFuel ways) ⟨ways, []⟩ with
  | .error e => .error e
  | .ok s =>
    match repairHoles env s.ways with
    | .error e => .error e
    | .ok none => .error (.exn "un-connectable dangling ends")
    | .ok (some ways') =>
      match ringLoop env.chk (loopFuel ways') ⟨ways', s.rings⟩ with
      | .error e => .error e
      | .ok s' => if s'.rings.isEmpty then .error (.exn "no rings") else .ok s'

/-- multipolygon/builder.hpp 644-660 `assemble_ways`: the ways of the relation, and the new
timestamp of the area.  `added` are the ids in the map `added_ways`.  (Members are way objects or
missing, since only way members are kept, multipolygon/assembler.hpp 78-86.) -/
def assembleWays (repair : Bool) : List (Option Way) → (added : List Int) → (ts : Int) →
    List WayInfo × Int
  | [], _, ts => ([], ts)
  | none :: ms, added, ts => assembleWays repair ms added ts
  | some w :: ms, added, ts =>
    if !w.nodes.isEmpty && (!repair || !added.contains w.obj.id) then
      let r := assembleWays repair ms (w.obj.id :: added)
        (if w.obj.timestamp > ts then w.obj.timestamp else ts)
      (WayInfo.new w :: r.1, r.2)
    else assembleWays repair ms added ts

end Osmium

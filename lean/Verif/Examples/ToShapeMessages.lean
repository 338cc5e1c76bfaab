import Verif.Examples.ToShapeProps
import Verif.Osm.Printed
import Verif.Handler.Debug

/-
C127: what osmium_toshape prints on the standard error.
-/
namespace Osmium
open Spec

/-- geometry/shplib.hpp 80-90: what the loop prints; `prev` is the node before. -/
def shpLoopSays (id : Int) : WayNode → List WayNode → List Line
  | _, [] => []
  | prev, n :: ns =>
    if n.eq prev then
      (txt "warning building way geometry for way " ++ Text.intDec id ++ txt ": contains node " ++ Text.intDec n.ref ++
        txt " twice") :: shpLoopSays id n ns
    else if n.position.eq prev.position then
      (txt "warning building way geometry for way " ++ Text.intDec id ++ txt ": contains position " ++
        positionText 5 n.position ++ txt " twice") :: shpLoopSays id n ns
    else shpLoopSays id n ns

/-- geometry/shplib.hpp 59-101 `create_line_or_polygon`: what is printed. -/
def lineSays (g : FromWay) : List Line :=
  if !wayNodesHasPosition g.nodes then []
  else
    match g.nodes with
    | [] => [txt "error building way geometry for way " ++ Text.intDec g.id ++ txt ": must at least contain two nodes"]
    | [_] => [txt "error building way geometry for way " ++ Text.intDec g.id ++ txt ": must at least contain two nodes"]
    | n :: ns =>
      shpLoopSays g.id n ns ++
        if (shpLoop n ns ([n.position.lon], [n.position.lat])).1.length = 1 then
          [txt "error building way geometry for way " ++ Text.intDec g.id ++
            txt ": must at least contain two different points"]
        else []

/-- examples/osmium_toshape.cpp 77-90 `way`: what is printed, with the `catch` in 86-88.  (`add_geometry` and the following
calls do not throw the exception that is caught.) -/
def toshapeWaySays (w : Way) : List Line :=
  match TagList.getValueByKey w.obj.tags "highway" with
  | none => []
  | some _ =>
    lineSays (LineString.new w.nodes false w.obj.id) ++
      match createLineOrPolygon (LineString.new w.nodes false w.obj.id) with
      | .error (.exn "IllegalGeometry") => [txt "Ignoring illegal geometry for way " ++ Text.intDec w.obj.id ++ txt "."]
      | _ => []

/-- What a call prints. (examples/osmium_toshape.cpp 55-90; nothing is thrown in 59-66, so nothing is printed for nodes) -/
def toshapeCallSays : Cb → List Line
  | .obj (.way w) => toshapeWaySays w
  | _ => []

/-- examples/osmium_toshape.cpp 51-90: what the calls print, up to an exception. -/
def toshapeRunSays {S T : Type} (pos : IdStore S Position) (neg : IdStore T Position)
    (fits : DbfField → DbfValue → Bool) (ident : ShpObject → Nat) :
    S × T → ShpTable × ShpTable → List Cb → List Line
  | _, _, [] => []
  | c, s, call :: calls =>
    match cfwStep pos neg c call with
    | .error _ => []
    | .ok (c, call) =>
      toshapeCallSays call ++
        match toshapeTables fits ident s call with
        | .error _ => []
        | .ok s => toshapeRunSays pos neg fits ident c s calls

/-- examples/osmium_toshape.cpp 95-106 `main`: what is printed. -/
def toshapeSays {S T : Type} (pos : IdStore S Position) (neg : IdStore T Position)
    (fits : DbfField → DbfValue → Bool) (ident : ShpObject → Nat) (calls : List Cb) : List Line :=
  match toshapeNew fits with
  | .error _ => []
  | .ok s => toshapeRunSays pos neg fits ident (pos.empty, neg.empty) s calls

namespace Spec

/-- The line for a node that is left out: it has the id of the node before, or its position. (specification, no counterpart
in /repo) -/
def warningLine (w : Way) (prev n : WayNode) : Option Line :=
  if n.ref = prev.ref then
    some (txt "warning building way geometry for way " ++ Text.intDec w.obj.id ++ txt ": contains node " ++
      Text.intDec n.ref ++ txt " twice")
  else if n.position = prev.position then
    some (txt "warning building way geometry for way " ++ Text.intDec w.obj.id ++ txt ": contains position " ++
      positionText 5 n.position ++ txt " twice")
  else none

/-- The warnings for a way: one for each node that is left out. (specification, no counterpart in /repo) -/
def wayWarnings (w : Way) : List Line := (w.nodes.zip w.nodes.tail).filterMap fun p => warningLine w p.1 p.2

/-- That a way is ignored. (specification, no counterpart in /repo) -/
def ignoredLine (w : Way) : Line := txt "Ignoring illegal geometry for way " ++ Text.intDec w.obj.id ++ txt "."

/-- The reason. (specification, no counterpart in /repo) -/
def ignoredReason (w : Way) : Line :=
  txt "error building way geometry for way " ++ Text.intDec w.obj.id ++
    if w.nodes.length < 2 then txt ": must at least contain two nodes" else txt ": must at least contain two different points"

/-- All lines for a road. (specification, no counterpart in /repo) -/
def roadLines (w : Way) : List Line :=
  wayWarnings w ++ if 2 ≤ (linePoints w).length then [] else [ignoredReason w, ignoredLine w]

end Spec

/-! ### One way -/

theorem shpLoopSays_eq (w : Way) (prev : WayNode) (ns : List WayNode) :
    shpLoopSays w.obj.id prev ns = ((prev :: ns).zip ns).filterMap fun p => warningLine w p.1 p.2 := by
  induction ns generalizing prev with
  | nil => rfl
  | cons n ns ih =>
    rw [shpLoopSays, List.zip_cons_cons, List.filterMap_cons]
    by_cases h1 : n.ref = prev.ref
    · have e : n.eq prev = true := by simpa [WayNode.eq] using h1
      rw [if_pos e, ih]
      simp [warningLine, h1]
    · have e : ¬ n.eq prev = true := by simpa [WayNode.eq] using h1
      rw [if_neg e]
      by_cases h2 : n.position = prev.position
      · rw [if_pos ((positionEqIff _ _).2 h2), ih]
        simp [warningLine, h1, h2]
      · rw [if_neg (fun h => h2 ((positionEqIff _ _).1 h)), ih]
        simp [warningLine, h1, h2]

/-- C127: what is printed about a road whose last node has a position. -/
theorem road_said (w : Way) (hc : Consistent w.nodes) (hp : wayNodesHasPosition w.nodes = true) (hr : IsRoad w) :
    toshapeWaySays w = roadLines w := by
  unfold IsRoad at hr
  obtain ⟨v, hv⟩ := Option.isSome_iff_exists.1 hr
  have hsh := shp_points_partial (LineString.new w.nodes false w.obj.id) hc
  simp only [LineString.new] at hsh
  unfold toshapeWaySays roadLines
  rw [hv]
  simp only [LineString.new]
  have hsays : lineSays ⟨w.obj.id, w.nodes, false⟩ =
      wayWarnings w ++ if 2 ≤ (linePoints w).length then [] else [ignoredReason w] := by
    unfold lineSays wayWarnings ignoredReason linePoints
    simp only [hp, Bool.not_true, Bool.false_eq_true, if_false]
    match hw : w.nodes, hc with
    | [], _ => simp [hw, wayNodesHasPosition] at hp
    | [a], _ => simp [squeeze]
    | n :: k :: ns, hc =>
      simp only
      rw [shpLoopSays_eq w n (k :: ns), shpLoop_eq n (k :: ns) hc]
      simp only [List.tail_cons]
      obtain ⟨r, hsq⟩ := squeeze_head n.position ((k :: ns).map (·.position))
      have hmap : (n :: k :: ns).map (·.position) = n.position :: (k :: ns).map (·.position) := rfl
      rw [hmap, hsq]
      cases r with
      | nil => simp
      | cons x r => simp
  rw [hsays]
  by_cases h2 : 2 ≤ (linePoints w).length
  · obtain ⟨ps, -, e⟩ := hsh.2.2 hp h2
    simp [h2, e]
  · have e := hsh.2.1 hp (by unfold linePoints at h2; omega)
    rw [e]
    simp [h2, ignoredLine]

/-- Nothing is printed about other ways. -/
theorem other_said (w : Way) (hr : ¬ IsRoad w) : toshapeWaySays w = [] := by
  unfold IsRoad at hr
  unfold toshapeWaySays
  cases hv : TagList.getValueByKey w.obj.tags "highway" with
  | none => rfl
  | some v => simp [hv] at hr

/-- Each node is a point of the line or left out with a warning. -/
theorem warnings_count (w : Way) (hc : Consistent w.nodes) :
    (linePoints w).length + (wayWarnings w).length = w.nodes.length := by
  unfold linePoints wayWarnings
  generalize w.nodes = ns at hc
  induction ns with
  | nil => rfl
  | cons a ns ih =>
    cases ns with
    | nil => rfl
    | cons b ns =>
      have ih := ih hc.2
      simp only [List.map_cons, List.tail_cons, List.zip_cons_cons, squeeze, List.length_cons] at ih ⊢
      rw [List.filterMap_cons]
      by_cases h1 : a.position = b.position
      · have : ∃ l, warningLine w a b = some l := by
          unfold warningLine
          split
          · exact ⟨_, rfl⟩
          · rw [if_pos h1.symm]; exact ⟨_, rfl⟩
        obtain ⟨l, hl⟩ := this
        rw [if_pos h1]
        simp only [hl, List.length_cons]
        omega
      · have : warningLine w a b = none := by
          unfold warningLine
          rw [if_neg (fun e => h1 (hc.1 e.symm)), if_neg (fun e => h1 e.symm)]
        rw [if_neg h1]
        simp only [this, List.length_cons]
        omega

/-! ### The program -/

theorem toshapeRunSays_eq {S T : Type} {pos : IdStore S Position} {neg : IdStore T Position}
    (fits : DbfField → DbfValue → Bool) (ident : ShpObject → Nat) (calls : List Cb) (c : S × T) (out : List Cb)
    (s s' : ShpTable × ShpTable) (h : cfwRun pos neg c calls = .ok out) (hs : tablesRun fits ident s out = .ok s') :
    toshapeRunSays pos neg fits ident c s calls = out.flatMap toshapeCallSays := by
  induction calls generalizing c out s with
  | nil => cases h; rfl
  | cons call calls ih =>
    unfold cfwRun at h
    cases h1 : cfwStep pos neg c call with
    | error e => rw [h1] at h; cases h
    | ok r =>
      rw [h1] at h
      change (do let out ← cfwRun pos neg r.1 calls; return r.2 :: out) = _ at h
      cases h2 : cfwRun pos neg r.1 calls with
      | error e => rw [h2] at h; cases h
      | ok o =>
        rw [h2] at h
        cases h
        rw [toshapeRunSays, h1]
        obtain ⟨c', call'⟩ := r
        rw [tablesRun] at hs
        simp only [List.flatMap_cons]
        congr 1
        cases h3 : toshapeTables fits ident s call' with
        | error e => rw [h3] at hs; cases hs
        | ok s1 =>
          rw [h3] at hs
          exact ih c' o s1 h2 hs

theorem callSays_ways (l : List Cb) :
    l.flatMap toshapeCallSays = (l.filterMap fun | .obj (.way w) => some w | _ => none).flatMap toshapeWaySays := by
  induction l with
  | nil => rfl
  | cons c l ih =>
    rw [List.flatMap_cons, ih]
    cases c with
    | obj o => cases o <;> rfl
    | _ => rfl

/-- C127: for a file with nodes, ways and relations in this order and different ids of nodes, if all roads end at nodes that
are in the file: a road is in the shapefile or it is reported.  The lines on the standard error are those of the roads, in
the order of the file: one for each node that is left out, and for roads of which no line can be made the reason and that
the way is ignored.  The shapefile has a shape for exactly the other roads, and its points and the warnings add up to the
nodes of the way. -/
theorem toshape_said_partial {S T : Type} {pos : IdStore S Position} {neg : IdStore T Position}
    {okp okn : List (Nat × Position) → Prop} {up un : Nat → Res Position} {unset : Position}
    (fp : Faithful pos okp up) (fn : Faithful neg okn un) (m : Meta)
    (ns : List Node) (ws : List Way) (rs : List Relation) (hd : (ns.map fun n => n.obj.id).Nodup)
    (hn : ∀ n ∈ ns, NegatableId n.obj.id) (hw : ∀ w ∈ ws, ∀ wn ∈ w.nodes, NegatableId wn.ref)
    (hokp : ∀ j, okp ((posOps (nodeCalls ns)).take j)) (hokn : ∀ j, okn ((negOps (nodeCalls ns)).take j))
    (hu : ∀ w ∈ ws, ∀ wn ∈ w.nodes, (∀ n ∈ ns, n.obj.id ≠ wn.ref) →
      (if 0 ≤ wn.ref then up wn.ref.toNat else un (-wn.ref).toNat) = .ok unset)
    (hend : ∀ w ∈ ws, IsRoad w → EndsInFile ns w)
    (fits : DbfField → DbfValue → Bool) (ident : ShpObject → Nat)
    (hf : ValuesFit fits (ns.map (·.obj.id) ++ ws.map (·.obj.id))) :
    ∃ ws' boxes roads, List.Forall₂ (LocatedBy ns unset) ws ws' ∧
      toshapeMain pos neg fits ident (protocol m (fileOf ns ws rs)) = .ok (boxes, roads) ∧
      List.Forall₂ (fun w r => RoadRow ident w r ∧ r.1.vertices + (wayWarnings w).length = w.nodes.length)
        (ws'.filter fun w => IsRoad w ∧ 2 ≤ (linePoints w).length) (contents roads) ∧
      toshapeSays pos neg fits ident (protocol m (fileOf ns ws rs)) = (ws'.filter fun w => IsRoad w).flatMap roadLines := by
  obtain ⟨ws', boxes, roads, h1, h2, h3, -, h5⟩ :=
    toshape_calls fp fn m ns ws rs hd hn hw hokp hokn hu hend fits ident hf
  obtain ⟨s, n1, -, -⟩ := toshapeNew_ok fits
  refine ⟨ws', boxes, roads, h1, h3, ?_, ?_⟩
  · have hc : ∀ w ∈ ws'.filter (fun w => IsRoad w ∧ 2 ≤ (linePoints w).length), Consistent w.nodes := by
      intro w hw'
      obtain ⟨w0, -, k⟩ := forall₂_mem_right h1 w (List.mem_of_mem_filter hw')
      exact consistent_of_located k
    generalize ws'.filter (fun w => IsRoad w ∧ 2 ≤ (linePoints w).length) = l at h5 hc ⊢
    generalize contents roads = rows at h5 ⊢
    induction h5 with
    | nil => exact .nil
    | @cons w r l l' hr _ ih =>
      refine .cons ⟨hr, ?_⟩ (ih fun w hw' => hc w (by simp [hw']))
      rw [hr.1]
      exact warnings_count w (hc w (by simp))
  · unfold toshapeMain at h3
    rw [n1] at h3
    simp only at h3
    rw [toshapeRun_eq fits ident _ _ _ s h2] at h3
    unfold toshapeSays
    rw [n1]
    simp only
    rw [toshapeRunSays_eq fits ident _ _ _ s _ h2 h3, callSays_ways]
    have hfw : (protocol m (fileOf ns ws' rs)).filterMap (fun | .obj (.way w) => some w | _ => none) = ws' :=
      waysOf_file m ns ws' rs
    refine (congrArg (List.flatMap toshapeWaySays) hfw).trans ?_
    have hw' : ∀ w ∈ ws', Consistent w.nodes ∧ (IsRoad w → wayNodesHasPosition w.nodes = true) := by
      intro w hw'
      obtain ⟨w0, k1, k2⟩ := forall₂_mem_right h1 w hw'
      refine ⟨consistent_of_located k2, fun hr => hasPosition_of_located k2 (hend w0 k1 ?_)⟩
      unfold IsRoad at hr ⊢
      rw [← k2.1]
      exact hr
    clear hfw h1 h2 h3 h5
    induction ws' with
    | nil => rfl
    | cons w l ih =>
      rw [List.flatMap_cons, ih fun x hx => hw' x (by simp [hx]), List.filter_cons]
      obtain ⟨c1, c2⟩ := hw' w (by simp)
      by_cases hr : IsRoad w
      · rw [if_pos (by simpa using hr), List.flatMap_cons, road_said w c1 (c2 hr) hr]
      · rw [if_neg (by simpa using hr), other_said w hr]
        rfl

/-- C127 for the storages that the program uses, if there are no negative ids. -/
theorem toshape_said_stores_partial (os : Nat → Bool) (m : Meta)
    (ns : List Node) (ws : List Way) (rs : List Relation) (hd : (ns.map fun n => n.obj.id).Nodup)
    (hn : ∀ n ∈ ns, 0 ≤ n.obj.id ∧ n.obj.id ≤ 9223372036854775807)
    (hw : ∀ w ∈ ws, ∀ wn ∈ w.nodes, 0 ≤ wn.ref ∧ wn.ref ≤ 9223372036854775807)
    (hend : ∀ w ∈ ws, IsRoad w → EndsInFile ns w)
    (fits : DbfField → DbfValue → Bool) (ident : ShpObject → Nat)
    (hf : ValuesFit fits (ns.map (·.obj.id) ++ ws.map (·.obj.id))) :
    ∃ ws' boxes roads, List.Forall₂ (LocatedBy ns Position.undef) ws ws' ∧
      toshapeMain toshapePos (toshapeNeg os) fits ident (protocol m (fileOf ns ws rs)) = .ok (boxes, roads) ∧
      List.Forall₂ (fun w r => RoadRow ident w r ∧ r.1.vertices + (wayWarnings w).length = w.nodes.length)
        (ws'.filter fun w => IsRoad w ∧ 2 ≤ (linePoints w).length) (contents roads) ∧
      toshapeSays toshapePos (toshapeNeg os) fits ident (protocol m (fileOf ns ws rs)) =
        (ws'.filter fun w => IsRoad w).flatMap roadLines := by
  refine toshape_said_partial (sparseTable_faithful Position Position.undef 10000 (by omega))
    (mmapFile_unused 8 sizeIncrement os ⟨0, fun _ => ⟨0, 0⟩⟩ (by omega) (by decide) (by omega)) m ns ws rs hd
    (fun n h => ⟨by have := hn n h; omega, (hn n h).2⟩) (fun w h wn h' => ⟨by have := hw w h wn h'; omega, (hw w h wn h').2⟩)
    ?_ ?_ ?_ hend fits ident hf
  · intro j o ho
    obtain ⟨n, h1, h2, h3⟩ := mem_posOps.1 (List.mem_of_mem_take ho)
    obtain ⟨n', h4, h5⟩ := List.mem_map.1 h1
    cases h5
    have := hn n h4
    rw [h3]
    simp only
    omega
  · intro j
    rw [List.eq_nil_iff_forall_not_mem]
    intro o ho
    obtain ⟨n, h1, h2, -⟩ := mem_negOps.1 (List.mem_of_mem_take ho)
    obtain ⟨n', h4, h5⟩ := List.mem_map.1 h1
    cases h5
    have := hn n h4
    omega
  · intro w h wn h' _
    rw [if_pos (hw w h wn h').1]

/-- The example of C87 meets the hypotheses: two post boxes; a road, a way with one point and a way through a node that is
not in the file. -/
example (os : Nat → Bool) (m : Meta) (ident : ShpObject → Nat) :
    ∃ ws', List.Forall₂ (LocatedBy shapeNodes Position.undef)
        [shapeWay 7 [1, 2, 3], shapeWay 8 [2, 2], shapeWay 9 [1, 5, 3]] ws' ∧
      toshapeSays toshapePos (toshapeNeg os) (fun _ _ => true) ident
        (protocol m (fileOf shapeNodes [shapeWay 7 [1, 2, 3], shapeWay 8 [2, 2], shapeWay 9 [1, 5, 3]] [])) =
        (ws'.filter fun w => IsRoad w).flatMap roadLines := by
  obtain ⟨ws', boxes, roads, h1, -, -, h4⟩ := toshape_said_stores_partial os m shapeNodes
    [shapeWay 7 [1, 2, 3], shapeWay 8 [2, 2], shapeWay 9 [1, 5, 3]] [] (by decide +kernel) (by decide +kernel)
    (by decide +kernel) (by
      intro w hw _
      simp only [List.mem_cons, List.not_mem_nil, or_false] at hw
      rcases hw with rfl | rfl | rfl
      · exact ⟨⟨3, Position.undef⟩, by decide +kernel, shapeNodes[2], by decide +kernel, by decide +kernel, by decide +kernel⟩
      · exact ⟨⟨2, Position.undef⟩, by decide +kernel, shapeNodes[1], by decide +kernel, by decide +kernel, by decide +kernel⟩
      · exact ⟨⟨3, Position.undef⟩, by decide +kernel, shapeNodes[2], by decide +kernel, by decide +kernel, by decide +kernel⟩)
    (fun _ _ => true) ident ⟨by decide +kernel, fun _ _ => ⟨rfl, rfl⟩⟩
  exact ⟨ws', h1, h4⟩

/-- What is printed about roads: one of which the fourth node is that before and the third has the place of the second; one
with one node; one at one place. -/
example :
    toshapeWaySays ⟨{ Obj.new with id := 7, tags := [⟨"highway", "track"⟩] },
        [⟨1, ⟨0, 0⟩⟩, ⟨2, ⟨15000000, 20000000⟩⟩, ⟨3, ⟨15000000, 20000000⟩⟩, ⟨3, ⟨15000000, 20000000⟩⟩]⟩ =
      [txt "warning building way geometry for way 7: contains position (1.5,2) twice",
       txt "warning building way geometry for way 7: contains node 3 twice"] ∧
    toshapeWaySays ⟨{ Obj.new with id := 8, tags := [⟨"highway", "track"⟩] }, [⟨1, ⟨0, 0⟩⟩]⟩ =
      [txt "error building way geometry for way 8: must at least contain two nodes",
       txt "Ignoring illegal geometry for way 8."] ∧
    toshapeWaySays ⟨{ Obj.new with id := 9, tags := [⟨"highway", "track"⟩] }, [⟨1, ⟨0, 0⟩⟩, ⟨1, ⟨0, 0⟩⟩]⟩ =
      [txt "warning building way geometry for way 9: contains node 1 twice",
       txt "error building way geometry for way 9: must at least contain two different points",
       txt "Ignoring illegal geometry for way 9."] := by
  decide +kernel

/-- Disagreement with C127: a road whose last node has no position is not reported: nothing is printed about it, and the
exception that ends the program does not name it. -/
theorem toshape_unnamed (fits : DbfField → DbfValue → Bool) (ident : ShpObject → Nat) (t : ShpTable) (w : Way)
    (hr : IsRoad w) (hp : wayNodesHasPosition w.nodes = false) :
    toshapeWaySays w = [] ∧
    toshapeWay fits ident t w = .error (.exn "node coordinates not available for building way geometry") := by
  unfold IsRoad at hr
  obtain ⟨v, hv⟩ := Option.isSome_iff_exists.1 hr
  constructor
  · simp [toshapeWaySays, hv, lineSays, createLineOrPolygon, LineString.new, hp]
  · simp [toshapeWay, hv, createLineOrPolygon, LineString.new, hp, ignoreIllegal]

example : IsRoad (shapeWay 7 [1, 4]) ∧ wayNodesHasPosition (shapeWay 7 [1, 4]).nodes = false := by decide +kernel

end Osmium

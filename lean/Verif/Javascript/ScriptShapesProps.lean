import Verif.Javascript.ScriptShapes
import Verif.Javascript.ShapeExportProps
import Verif.Examples.ToShapeProps

/-
Property C113: the shapes that scripts put into shapefiles.
-/
namespace Osmium
open Spec

namespace Spec

/-- The last node of the way has a position. -/
def EndKnown (w : Way) : Prop := ∃ wn ∈ w.nodes.getLast?, wn.position.defined = true

/-- The way ends at the node at which it begins. -/
def EndsAtStart (w : Way) : Prop := ∃ a ∈ w.nodes.head?, ∃ b ∈ w.nodes.getLast?, a.ref = b.ref

/-- A shape with one part that has the points `ps`. -/
def onePart (ident : ShpObject → Nat) (type : ShpType) (ps : List Position) : ShpShape :=
  ⟨type, 1, ps.length, ident ⟨[0], ps.map Position.lon, ps.map Position.lat⟩⟩

/-- A shape that is a point. -/
def pointShape (ident : ShpObject → Nat) (p : Position) : ShpShape := ⟨.point, 0, 1, ident ⟨[], [p.lon], [p.lat]⟩⟩

open Classical in
/-- The shape of a line: there is one if the end of the way is known and it has at least two different points. -/
noncomputable def lineShape (ident : ShpObject → Nat) (w : Way) : Option ShpShape :=
  if EndKnown w ∧ 2 ≤ (linePoints w).length then some (onePart ident .arc (linePoints w)) else none

open Classical in
/-- The same in the other direction. -/
noncomputable def backwardShape (ident : ShpObject → Nat) (w : Way) : Option ShpShape :=
  if EndKnown w ∧ 2 ≤ (linePoints w).length then some (onePart ident .arc (linePoints w).reverse) else none

open Classical in
/-- The shape of a closed way as polygon. -/
noncomputable def ringShape (ident : ShpObject → Nat) (w : Way) : Option ShpShape :=
  if EndKnown w ∧ EndsAtStart w ∧ 2 ≤ (linePoints w).length then some (onePart ident .polygon (linePoints w)) else none

/-- The shape is a polygon that has exactly these rings as parts. -/
def RingsShape (ident : ShpObject → Nat) (polys : List (List Position × List (List Position))) (s : ShpShape) : Prop :=
  ∃ o : ShpObject, s = ⟨.polygon, o.parts.length, o.xs.length, ident o⟩ ∧
    shpParts o = (polys.flatMap fun p => p.1 :: p.2).map fun r => r.map fun q => (q.lon, q.lat)

end Spec

theorem endKnown_iff (w : Way) : wayNodesHasPosition w.nodes = true ↔ EndKnown w := by
  unfold wayNodesHasPosition EndKnown
  cases w.nodes.getLast? with
  | none => simp
  | some b => simp [WayNode.hasPosition]

theorem endsAtStart_iff (w : Way) : wayNodesIsClosed w.nodes = some true ↔ EndsAtStart w := by
  unfold wayNodesIsClosed EndsAtStart
  cases w.nodes.head? <;> cases w.nodes.getLast? <;> simp

theorem lineArgument {ident : ShpObject → Nat} {w : Way} (hc : Consistent w.nodes) (hp : EndKnown w) (reverse : Bool) :
    (2 ≤ (linePoints w).length → createLineOrPolygon ⟨w.obj.id, w.nodes, reverse⟩ =
      .ok ⟨[0], (if reverse then (linePoints w).reverse else linePoints w).map Position.lon,
        (if reverse then (linePoints w).reverse else linePoints w).map Position.lat⟩) ∧
    (¬ 2 ≤ (linePoints w).length → createLineOrPolygon ⟨w.obj.id, w.nodes, reverse⟩ = .error (.exn "IllegalGeometry")) := by
  obtain ⟨-, p2, p3⟩ := shp_points_partial ⟨w.obj.id, w.nodes, reverse⟩ hc
  have hp := (endKnown_iff w).2 hp
  refine ⟨fun h => ?_, fun h => p2 hp (Nat.lt_of_not_le h)⟩
  obtain ⟨ps, e1, e2⟩ := p3 hp h
  rw [e2, e1]
  rfl

theorem lineOrPolygon_argument {ident : ShpObject → Nat} {w : Way} (hc : Consistent w.nodes) (hp : EndKnown w) (reverse : Bool) :
    shapeArgument ident (.line ⟨w.obj.id, w.nodes, reverse⟩) =
      .ok (if 2 ≤ (linePoints w).length then
        some (onePart ident .arc (if reverse then (linePoints w).reverse else linePoints w)) else none) ∧
    shapeArgument ident (.polygon ⟨w.obj.id, w.nodes, reverse⟩) =
      .ok (if 2 ≤ (linePoints w).length then
        some (onePart ident .polygon (if reverse then (linePoints w).reverse else linePoints w)) else none) := by
  obtain ⟨h1, h2⟩ := lineArgument (ident := ident) hc hp reverse
  unfold shapeArgument createShpObject
  dsimp only
  by_cases hl : 2 ≤ (linePoints w).length
  · rw [h1 hl, if_pos hl, if_pos hl]
    simp [Except.map, shapeOf, onePart]
  · rw [h2 hl, if_neg hl, if_neg hl]
    exact ⟨rfl, rfl⟩

/-- **C113, nodes.**  `this.geom` of a node is added as a point with the position of the node. -/
theorem script_node_shape (ident : ShpObject → Nat) (n : Node) :
    ∃ g, jsNodeProp n "geom" = .ok (.geom g) ∧ shapeArgument ident g = .ok (some (pointShape ident n.position)) :=
  ⟨.point n.position, rfl, rfl⟩

/-- **C113, ways (partial: nodes next to each other with the same id are at the same place, see
`shp_same_ref_other_position`).**  `geom`, `reverse_geom` and `polygon_geom` of a way are added as the line, the line
in the other direction, and the ring through the positions of its nodes, without repetitions.  There is nothing to be
added if the end of the way is not known, if there are not two different points, or (for a ring) if the way is not
closed. -/
theorem script_way_shapes_partial (ident : ShpObject → Nat) (w : Way) (hc : Consistent w.nodes) :
    (∃ g, jsWayProp w "geom" = .ok (.geom g) ∧ shapeArgument ident g = .ok (lineShape ident w)) ∧
    (∃ g, jsWayProp w "reverse_geom" = .ok (.geom g) ∧ shapeArgument ident g = .ok (backwardShape ident w)) ∧
    (∃ g, jsWayProp w "polygon_geom" = .ok (.geom g) ∧ shapeArgument ident g = .ok (ringShape ident w)) := by
  refine ⟨⟨jsWayLine w false, rfl, ?_⟩, ⟨jsWayLine w true, rfl, ?_⟩, ?_⟩
  · unfold jsWayLine lineShape
    by_cases hp : EndKnown w
    · rw [if_pos ((endKnown_iff w).2 hp)]
      refine (lineOrPolygon_argument hc hp false).1.trans ?_
      simp [hp]
    · rw [if_neg (fun h => hp ((endKnown_iff w).1 h)), if_neg (fun h => hp h.1)]
      rfl
  · unfold jsWayLine backwardShape
    by_cases hp : EndKnown w
    · rw [if_pos ((endKnown_iff w).2 hp)]
      refine (lineOrPolygon_argument hc hp true).1.trans ?_
      simp [hp]
    · rw [if_neg (fun h => hp ((endKnown_iff w).1 h)), if_neg (fun h => hp h.1)]
      rfl
  · have e : jsWayProp w "polygon_geom" = (jsWayPolygon w).map .geom := rfl
    rw [e]
    unfold jsWayPolygon ringShape
    by_cases hp : EndKnown w
    · rw [if_pos ((endKnown_iff w).2 hp)]
      by_cases hr : EndsAtStart w
      · have hcl := (endsAtStart_iff w).2 hr
        have en : Polygon.new w.nodes false w.obj.id = .ok ⟨w.obj.id, w.nodes, false⟩ := by
          unfold Polygon.new; rw [hcl]
        rw [hcl, en]
        refine ⟨_, rfl, ?_⟩
        refine (lineOrPolygon_argument hc hp false).2.trans ?_
        simp [hp, hr]
      · cases hcl : wayNodesIsClosed w.nodes with
        | none =>
          exfalso
          obtain ⟨b, hb, -⟩ := hp
          unfold wayNodesIsClosed at hcl
          cases hn : w.nodes with
          | nil => rw [hn] at hb; cases hb
          | cons a l =>
            rw [hn, List.getLast?_cons] at hcl
            cases hcl
        | some b =>
          cases b with
          | true => exact absurd ((endsAtStart_iff w).1 hcl) hr
          | false =>
            refine ⟨.null, rfl, ?_⟩
            rw [if_neg (fun h => hr h.2.1)]
            rfl
    · rw [if_neg (fun h => hp ((endKnown_iff w).1 h)), if_neg (fun h => hp h.1)]
      exact ⟨.null, rfl, rfl⟩

/-- **C113, areas.**  `geom` of an area is added as a polygon with exactly the rings of the area: for each polygon
the outer ring, then the inner rings. -/
theorem script_area_shape (ident : ShpObject → Nat) (o : Obj) (polys : List (List Position × List (List Position)))
    (hp : ∃ p ∈ polys, p.1 ≠ []) :
    ∃ g s, jsAreaProp o polys "geom" = .ok (.geom g) ∧ shapeArgument ident g = .ok (some s) ∧ RingsShape ident polys s := by
  obtain ⟨p, h1, h2⟩ := hp
  obtain ⟨so, h3⟩ := (shp_multipolygon_total (polys.map fun p => (p.1.map fun q => (q.lon, q.lat),
    p.2.map fun r => r.map fun q => (q.lon, q.lat)))).2 ⟨_, List.mem_map.2 ⟨p, h1, rfl⟩, by simpa using h2⟩
  refine ⟨.multi polys, shapeOf ident .polygon so, rfl, ?_, so, rfl, ?_⟩
  · unfold shapeArgument createShpObject
    dsimp only
    rw [h3]
    rfl
  · rw [(shp_multipolygon _ so h3).1, List.map_flatMap, List.flatMap_map]
    rfl

/-! ### Calls of a script -/

namespace Spec

/-- What is stored for a geometry, as described above. -/
def Stores (ident : ShpObject → Nat) (g : JsGeom) (s : Option ShpShape) : Prop :=
  match g with
  | .null => s = none
  | .point p => s = some (pointShape ident p)
  | .line g => s = if 2 ≤ (squeeze (g.nodes.map (·.position))).length then
      some (onePart ident .arc (if g.reverse then (squeeze (g.nodes.map (·.position))).reverse
        else squeeze (g.nodes.map (·.position)))) else none
  | .polygon g => s = if 2 ≤ (squeeze (g.nodes.map (·.position))).length then
      some (onePart ident .polygon (if g.reverse then (squeeze (g.nodes.map (·.position))).reverse
        else squeeze (g.nodes.map (·.position)))) else none
  | .multi polys => ∃ s', s = some s' ∧ RingsShape ident polys s'

/-- A call with the shape in place of the geometry. -/
def SameCall (ident : ShpObject → Nat) : GeomCall → ShpCall → Prop
  | .addField args, c => c = .addField args
  | .add g attrs, c => ∃ s, Stores ident g s ∧ c = .add s attrs
  | .close, c => c = .close

/-- Nodes next to each other with the same id are at the same place. -/
def ConsistentGeom : JsGeom → Prop
  | .line g => Consistent g.nodes
  | .polygon g => Consistent g.nodes
  | _ => True

end Spec

theorem shapeArgument_stores {ident : ShpObject → Nat} {g : JsGeom} {s : Option ShpShape} (hc : ConsistentGeom g)
    (h : shapeArgument ident g = .ok s) : Stores ident g s := by
  have key : ∀ (g : FromWay) (type : ShpType), Consistent g.nodes →
      (match (createLineOrPolygon g).map (fun o => some (type, o)) with
       | .error (.exn "IllegalGeometry") => .ok none
       | .error e => .error e
       | .ok none => .ok none
       | .ok (some (type, o)) => .ok (some (shapeOf ident type o)) : Res (Option ShpShape)) = .ok s →
      s = if 2 ≤ (squeeze (g.nodes.map (·.position))).length then
        some (onePart ident type (if g.reverse then (squeeze (g.nodes.map (·.position))).reverse
          else squeeze (g.nodes.map (·.position)))) else none := by
    intro g type hc h
    obtain ⟨p1, p2, p3⟩ := shp_points_partial g hc
    cases hp : wayNodesHasPosition g.nodes with
    | false =>
      rw [p1 hp] at h
      cases h
    | true =>
      by_cases hl : 2 ≤ (squeeze (g.nodes.map (·.position))).length
      · obtain ⟨ps, e1, e2⟩ := p3 hp hl
        rw [e2] at h
        cases h
        rw [if_pos hl, ← e1]
        simp [shapeOf, onePart]
      · rw [p2 hp (by omega)] at h
        cases h
        rw [if_neg hl]
  unfold shapeArgument createShpObject at h
  cases g with
  | null => cases h; rfl
  | point p => cases h; rfl
  | line g => exact key g .arc hc h
  | polygon g => exact key g .polygon hc h
  | multi polys =>
    simp only at h
    generalize hr : createShpMultipolygon (polys.map fun p => (p.1.map fun q => (q.lon, q.lat),
      p.2.map fun r => r.map fun q => (q.lon, q.lat))) = r at h
    cases r with
    | error e =>
      exfalso
      unfold createShpMultipolygon at hr
      rw [dumpGeometry, dumpGeometries_polygons] at hr
      simp only at hr
      split at hr
      · cases hr; cases h
      · cases hr
    | ok o =>
      cases h
      refine ⟨_, rfl, o, rfl, ?_⟩
      rw [(shp_multipolygon _ o hr).1, List.map_flatMap, List.flatMap_map]
      rfl

/-- **C113 (partial: as above).**  A script opens a shapefile and adds geometries.  The files together contain exactly
one shape for each `add` of a geometry that has a shape of the type of the file, in order, with the points of the
geometry, each with the values of this `add`.  All calls return 1. -/
theorem script_shapes_stored_partial (fits : DbfField → DbfValue → Bool) (ident : ShpObject → Nat) (type : String)
    (t0 t : ShpTable) (calls : List GeomCall) (rs : List Int) (h0 : scriptOpenShp type = .ok t0)
    (hc : ∀ g attrs, GeomCall.add g attrs ∈ calls → ConsistentGeom g)
    (h : geomRun fits ident t0 true calls = .ok (t, rs)) :
    (∃ calls', List.Forall₂ (SameCall ident) calls calls' ∧ Rows t0.base.type [] calls' (contents t)) ∧
      ∀ r ∈ rs, r = 1 := by
  have gen : ∀ (calls : List GeomCall), (∀ g attrs, GeomCall.add g attrs ∈ calls → ConsistentGeom g) →
      ∀ (t1 : ShpTable) (o : Bool) (rs : List Int), geomRun fits ident t1 o calls = .ok (t, rs) →
      ∃ calls', List.Forall₂ (SameCall ident) calls calls' ∧ shpRun fits t1 o calls' = .ok (t, rs) := by
    intro calls
    induction calls with
    | nil => intro _ t1 o rs h; cases h; exact ⟨[], .nil, rfl⟩
    | cons c calls ih =>
      intro hc t1 o rs h
      have hc' : ∀ g attrs, GeomCall.add g attrs ∈ calls → ConsistentGeom g :=
        fun g a m => hc g a (List.mem_cons_of_mem _ m)
      cases c with
      | close =>
        obtain ⟨cs, h1, h2⟩ := ih hc' t1 false rs h
        exact ⟨.close :: cs, .cons rfl h1, h2⟩
      | addField args =>
        unfold geomRun at h
        cases ho : o with
        | false => rw [ho] at h; cases h
        | true =>
          rw [ho, if_pos rfl] at h
          cases hf : scriptAddField fits t1 args with
          | error e => rw [hf] at h; cases h
          | ok p =>
            rw [hf] at h
            simp only at h
            cases hs : geomRun fits ident p.1 true calls with
            | error e => rw [hs] at h; cases h
            | ok q =>
              rw [hs] at h
              cases h
              obtain ⟨cs, h1, h2⟩ := ih hc' p.1 true q.2 hs
              refine ⟨.addField args :: cs, .cons rfl h1, ?_⟩
              rw [shpRun, if_pos rfl, hf]
              simp only
              rw [h2]
              rfl
      | add g attrs =>
        unfold geomRun at h
        cases ha : shapeArgument ident g with
        | error e => rw [ha] at h; cases h
        | ok s =>
          rw [ha] at h
          simp only at h
          by_cases hos : o = true ∨ s = none
          · rw [if_pos hos] at h
            cases hf : scriptAdd fits t1 s attrs with
            | error e => rw [hf] at h; cases h
            | ok p =>
              rw [hf] at h
              simp only at h
              cases hs : geomRun fits ident p.1 o calls with
              | error e => rw [hs] at h; cases h
              | ok q =>
                rw [hs] at h
                cases h
                obtain ⟨cs, h1, h2⟩ := ih hc' p.1 o q.2 hs
                refine ⟨.add s attrs :: cs, .cons ⟨s, shapeArgument_stores (hc g attrs List.mem_cons_self) ha, rfl⟩ h1, ?_⟩
                rw [shpRun, if_pos hos, hf]
                simp only
                rw [h2]
                rfl
          · rw [if_neg hos] at h; cases h
  obtain ⟨cs, h1, h2⟩ := gen calls hc t0 true rs h
  obtain ⟨h3, h4⟩ := shapefile_of_script_partial fits type t0 t cs rs h0 h2
  exact ⟨⟨cs, h1, h3⟩, h4⟩

/-! ### shape_export.js with a file -/

namespace Spec

/-- The points of interest: for each node, the tags that are in the list. -/
def poisOf (ns : List Node) : List (Node × Tag) :=
  ns.flatMap fun n => (n.obj.tags.filter fun t => (t.key, t.value) ∈ poiTags).map fun t => (n, t)

/-- The shape and the record of a point of interest. -/
def PoiRow (ident : ShpObject → Nat) (toInt32 : JsString → Int) (fields : List DbfField) (p : Node × Tag)
    (r : ShpShape × DbfRow) : Prop :=
  r.1 = pointShape ident p.1.position ∧
  RowOf fields (fun column => if column = "id" then columnNumber p.1.obj.id
    else if column = "type" then columnText toInt32 p.2.value
    else if column = "name" then columnTag toInt32 p.1.obj.tags "name" else .missing) r.2

/-- The way has the tag `highway`, its end is known, and it has at least two different points. -/
def ExportedRoad (w : Way) : Prop :=
  (∃ v, firstValue w.obj.tags "highway" = some v ∧ v ≠ "") ∧ EndKnown w ∧ 2 ≤ (linePoints w).length

/-- The shape and the record of a road. -/
def ExportedRow (ident : ShpObject → Nat) (toInt32 : JsString → Int) (fields : List DbfField) (w : Way)
    (r : ShpShape × DbfRow) : Prop :=
  r.1 = onePart ident .arc (linePoints w) ∧
  ∃ speed, SpeedValue toInt32 w.obj.tags speed ∧
    RowOf fields (fun column => if column = "id" then columnNumber w.obj.id
      else if column = "type" then columnTag toInt32 w.obj.tags "highway"
      else if column = "name" then columnTag toInt32 w.obj.tags "name"
      else if column = "oneway" then columnNumber (direction w.obj.tags)
      else if column = "maxspeed" then speed else .missing) r.2

end Spec

/-- What the callbacks see of nodes and ways. (helper for statements and proofs, no counterpart in /repo) -/
noncomputable def nodeSeen (ident : ShpObject → Nat) (n : Node) : ShapeObj :=
  ⟨.node, n.obj.id, n.obj.tags, some (pointShape ident n.position)⟩
/-- (helper for statements and proofs, no counterpart in /repo) -/
noncomputable def waySeen (ident : ShpObject → Nat) (w : Way) : ShapeObj :=
  ⟨.way, w.obj.id, w.obj.tags, lineShape ident w⟩
/-- (helper for statements and proofs, no counterpart in /repo) -/
noncomputable def objSeen (ident : ShpObject → Nat) : OsmObj → Option ShapeObj
  | .node n => some (nodeSeen ident n)
  | .way w => some (waySeen ident w)
  | _ => none

theorem exportArgument_eq (ident : ShpObject → Nat) (o : OsmObj) (hc : ∀ w, o = .way w → Consistent w.nodes) :
    exportArgument ident o = .ok (objSeen ident o) := by
  cases o with
  | node n => rfl
  | way w =>
    obtain ⟨⟨g, h1, h2⟩, -⟩ := script_way_shapes_partial ident w (hc w rfl)
    have e : g = jsWayLine w false := by
      have : jsWayProp w "geom" = .ok (.geom (jsWayLine w false)) := rfl
      rw [this] at h1
      cases h1
      rfl
    subst e
    unfold exportArgument
    dsimp only
    rw [h2]
    rfl
  | relation r => rfl

theorem exportRun_eq {S T : Type} {pos : IdStore S Position} {neg : IdStore T Position}
    (fits : DbfField → DbfValue → Bool) (fn : JsFunctions) (toInt32 : JsString → Int) (ident : ShpObject → Nat)
    (calls : List Cb) (c : S × T) (out : List Cb) (s : ExportFiles) (h : cfwRun pos neg c calls = .ok out) :
    exportRun pos neg fits fn toInt32 ident c s calls = callChain (exportCall fits fn toInt32 ident) s out := by
  induction calls generalizing c out s with
  | nil => cases h; rfl
  | cons call calls ih =>
    unfold cfwRun at h
    cases h1 : cfwStep pos neg c call with
    | error e => rw [h1] at h; cases h
    | ok r =>
      rw [h1] at h
      change (do let out ← cfwRun pos neg r.1 calls; return r.2 :: out) = _ at h
      cases h2 : cfwRun pos neg r.1 calls with
      | error e => rw [h2] at h; cases h
      | ok o =>
        rw [h2] at h
        cases h
        rw [exportRun, callChain, h1]
        obtain ⟨c', call'⟩ := r
        simp only
        cases exportCall fits fn toInt32 ident s call' with
        | error e => rfl
        | ok s' => exact ih c' o s' h2

theorem exportCalls_eq (fits : DbfField → DbfValue → Bool) (fn : JsFunctions) (toInt32 : JsString → Int)
    (ident : ShpObject → Nat) (calls : List Cb) (hf : Cb.final ∉ calls)
    (hc : ∀ w, Cb.obj (.way w) ∈ calls → Consistent w.nodes) (s : ExportFiles) :
    callChain (exportCall fits fn toInt32 ident) s calls =
      callChain (exportObject fits fn toInt32) s (calls.filterMap fun | .obj o => objSeen ident o | _ => none) := by
  induction calls generalizing s with
  | nil => rfl
  | cons c calls ih =>
    have ih := ih (fun h => hf (List.mem_cons_of_mem _ h)) (fun w h => hc w (List.mem_cons_of_mem _ h))
    cases c with
    | obj o =>
      rw [callChain, exportCall, exportArgument_eq ident o (fun w e => hc w (by rw [e]; exact List.mem_cons_self)),
        List.filterMap_cons]
      simp only
      cases ho : objSeen ident o with
      | none => exact ih s
      | some a =>
        simp only
        rw [callChain]
        cases exportObject fits fn toInt32 s a with
        | error e => rfl
        | ok s' => exact ih s'
    | init m => exact ih s
    | before t => exact ih s
    | after t => exact ih s
    | final => exact absurd List.mem_cons_self hf

theorem final_not_mem_runCalls (os : List OsmObj) : Cb.final ∉ runCalls os := by
  cases os with
  | nil => simp [runCalls]
  | cons o os => simp [runCalls]

theorem exportMain_eq {S T : Type} {pos : IdStore S Position} {neg : IdStore T Position}
    (fits : DbfField → DbfValue → Bool) (fn : JsFunctions) (toInt32 : JsString → Int) (ident : ShpObject → Nat)
    (m : Meta) (ns : List Node) (ws ws' : List Way) (rs : List Relation)
    (h : cfwRun pos neg (pos.empty, neg.empty) (protocol m (fileOf ns ws rs)) = .ok (protocol m (fileOf ns ws' rs)))
    (hc : ∀ w ∈ ws', Consistent w.nodes) :
    exportMain pos neg fits fn toInt32 ident (protocol m (fileOf ns ws rs)) =
      shapeExport fits fn toInt32 (ns.map (nodeSeen ident) ++ ws'.map (waySeen ident)) := by
  unfold exportMain shapeExport
  cases exportLoad fits with
  | error e => rfl
  | ok s =>
    simp only
    rw [exportRun_eq fits fn toInt32 ident _ _ _ s h]
    have hp : ∃ body, protocol m (fileOf ns ws' rs) = body ++ [Cb.final] ∧ Cb.final ∉ body := by
      rw [protocol_fileOf]
      refine ⟨Cb.init m :: runCalls (ns.map OsmObj.node) ++ (runCalls (ws'.map OsmObj.way) ++
        runCalls (rs.map OsmObj.relation)), by simp, ?_⟩
      have := final_not_mem_runCalls
      simp [this]
    obtain ⟨body, hb, hf⟩ := hp
    have hseen : (body.filterMap fun | .obj o => objSeen ident o | _ => none) =
        ns.map (nodeSeen ident) ++ ws'.map (waySeen ident) := by
      have h1 : ((protocol m (fileOf ns ws' rs)).filterMap fun | .obj o => objSeen ident o | _ => none) =
          (fileOf ns ws' rs).filterMap (objSeen ident) := filterMap_protocol (objSeen ident) m ns ws' rs
      rw [hb, List.filterMap_append] at h1
      refine (List.append_nil _).symm.trans (h1.trans ?_)
      unfold fileOf
      rw [List.filterMap_append, List.filterMap_append, List.filterMap_map, List.filterMap_map, List.filterMap_map]
      have e3 : rs.filterMap (objSeen ident ∘ OsmObj.relation) = [] := by
        rw [List.filterMap_eq_nil_iff]; intro r _; rfl
      rw [e3, List.append_nil, ← List.filterMap_eq_map', ← List.filterMap_eq_map']
      rfl
    rw [hb, callChain_append, exportCalls_eq fits fn toInt32 ident body hf (by
      intro w hw
      refine hc w ?_
      rw [← waysOf_file m ns ws' rs]
      exact List.mem_filterMap.2 ⟨_, by rw [hb]; exact List.mem_append_left _ hw, rfl⟩) s, hseen]
    cases callChain (exportObject fits fn toInt32) s (ns.map (nodeSeen ident) ++ ws'.map (waySeen ident)) with
    | error e => rfl
    | ok s' => rfl

theorem rows_of_adds {type : ShpType} {fields : List DbfField} {α : Type} (shape : α → ShpShape)
    (attrs : α → String → ScriptAttr) (l : List α) (ht : ∀ a ∈ l, (shape a).type = type) :
    ∀ L, Rows type fields (l.map fun a => .add (some (shape a)) (attrs a)) L →
      List.Forall₂ (fun a r => r.1 = shape a ∧ RowOf fields (attrs a) r.2) l L := by
  induction l with
  | nil => intro L h; cases h; exact .nil
  | cons a l ih =>
    intro L h
    rcases h with ⟨h1, -⟩ | ⟨s, row, L', h1, h2, h3, h4, h5⟩
    · exact absurd (ht a List.mem_cons_self) (h1 _ rfl)
    · cases h1
      subst h4
      exact .cons ⟨rfl, h3⟩ (ih (fun a m => ht a (List.mem_cons_of_mem _ m)) _ h5)

open Classical in
theorem rows_of_roads {ident : ShpObject → Nat} {toInt32 : JsString → Int} {fields : List DbfField} (ws : List Way) :
    ∀ (R : List (List ShpCall)) (L : List (ShpShape × DbfRow)),
      List.Forall₂ (RoadRecords toInt32) (ws.map (waySeen ident)) R → Rows .arc fields R.flatten L →
      List.Forall₂ (ExportedRow ident toInt32 fields) (ws.filter fun w => ExportedRoad w) L := by
  induction ws with
  | nil =>
    intro R L hR hL
    cases hR
    cases hL
    exact .nil
  | cons w ws ih =>
    intro R L hR hL
    cases hR with
    | cons h1 h2 =>
      rename_i rc R
      unfold RoadRecords at h1
      rw [List.flatten_cons] at hL
      by_cases hh : ∃ v, firstValue w.obj.tags "highway" = some v ∧ v ≠ ""
      · rw [if_pos ⟨rfl, hh⟩] at h1
        obtain ⟨speed, hs, rfl⟩ := h1
        rcases hL with ⟨k1, k2⟩ | ⟨s, row, L', k1, k2, k3, k4, k5⟩
        · have hno : ¬ ExportedRoad w := by
            rintro ⟨-, e1, e2⟩
            have : lineShape ident w = some (onePart ident .arc (linePoints w)) := if_pos ⟨e1, e2⟩
            exact k1 _ this rfl
          rw [List.filter_cons_of_neg (by simpa using hno)]
          exact ih R L h2 k2
        · have hg : lineShape ident w = some s := k1
          unfold lineShape at hg
          by_cases he : EndKnown w ∧ 2 ≤ (linePoints w).length
          · rw [if_pos he] at hg
            cases hg
            subst k4
            have hx : ExportedRoad w := ⟨hh, he.1, he.2⟩
            rw [List.filter_cons_of_pos (by simpa using hx)]
            exact .cons ⟨rfl, speed, hs, k3⟩ (ih R L' h2 k5)
          · rw [if_neg he] at hg; cases hg
      · rw [if_neg (fun e => hh e.2)] at h1
        subst h1
        rw [List.filter_cons_of_neg (by simpa using fun e : ExportedRoad w => hh e.1)]
        exact ih R L h2 hL

theorem poiRecords_nodes (ident : ShpObject → Nat) (toInt32 : JsString → Int) (ns : List Node) (ws : List Way) :
    (ns.map (nodeSeen ident) ++ ws.map (waySeen ident)).flatMap (poiRecords toInt32) =
      (poisOf ns).map fun p => .add (some (pointShape ident p.1.position)) fun column =>
        if column = "id" then columnNumber p.1.obj.id else if column = "type" then columnText toInt32 p.2.value
        else if column = "name" then columnTag toInt32 p.1.obj.tags "name" else .missing := by
  rw [List.flatMap_append, List.flatMap_map, List.flatMap_map]
  have e2 : (ws.flatMap fun w => poiRecords toInt32 (waySeen ident w)) = [] := by
    rw [List.flatMap_eq_nil_iff]
    intro w _
    rfl
  rw [e2, List.append_nil, poisOf, List.map_flatMap]
  congr 1
  funext n
  unfold poiRecords
  rw [if_pos (show (nodeSeen ident n).kind = .node from rfl), List.map_map]
  rfl

theorem roadRecords_split {ident : ShpObject → Nat} {toInt32 : JsString → Int} (ns : List Node) (ws : List Way)
    (R : List (List ShpCall))
    (h : List.Forall₂ (RoadRecords toInt32) (ns.map (nodeSeen ident) ++ ws.map (waySeen ident)) R) :
    ∃ R', List.Forall₂ (RoadRecords toInt32) (ws.map (waySeen ident)) R' ∧ R.flatten = R'.flatten := by
  induction ns generalizing R with
  | nil => exact ⟨R, h, rfl⟩
  | cons n ns ih =>
    cases h with
    | cons h1 h2 =>
      obtain ⟨R', h3, h4⟩ := ih _ h2
      refine ⟨R', h3, ?_⟩
      unfold RoadRecords at h1
      rw [if_neg (by rintro ⟨e, -⟩; cases e)] at h1
      rw [List.flatten_cons, h1, h4]
      rfl

theorem landuseRecords_none (ident : ShpObject → Nat) (toInt32 : JsString → Int) (ns : List Node) (ws : List Way) :
    (ns.map (nodeSeen ident) ++ ws.map (waySeen ident)).flatMap (landuseRecords toInt32) = [] := by
  rw [List.flatMap_eq_nil_iff]
  intro o ho
  unfold landuseRecords
  rw [if_neg]
  rintro ⟨e, -⟩
  rcases List.mem_append.1 ho with h | h
  · obtain ⟨n, -, rfl⟩ := List.mem_map.1 h; cases e
  · obtain ⟨n, -, rfl⟩ := List.mem_map.1 h; cases e

open Classical in
/-- **C113, a whole file (partial: as `shape_export_records_partial`; without multipolygons).**  Let a file have nodes,
ways and relations in this order with different ids of nodes.  After `osmjs -l ... -j shape_export.js` the first
shapefile has exactly one point for each tag of a node that is in the list, at the position of the node; the second
has exactly one line for each way with the tag `highway` of which the last node is in the file and which has at least
two different points, through the positions that its nodes have in the file; the third is empty. -/
theorem shape_export_file_partial {S T : Type} {pos : IdStore S Position} {neg : IdStore T Position}
    {okp okn : List (Nat × Position) → Prop} {up un : Nat → Res Position} {unset : Position}
    (fp : Faithful pos okp up) (fnn : Faithful neg okn un) (m : Meta)
    (ns : List Node) (ws : List Way) (rs : List Relation) (hd : (ns.map fun n => n.obj.id).Nodup)
    (hn : ∀ n ∈ ns, NegatableId n.obj.id) (hw : ∀ w ∈ ws, ∀ wn ∈ w.nodes, NegatableId wn.ref)
    (hokp : ∀ j, okp ((posOps (nodeCalls ns)).take j)) (hokn : ∀ j, okn ((negOps (nodeCalls ns)).take j))
    (hu : ∀ w ∈ ws, ∀ wn ∈ w.nodes, (∀ n ∈ ns, n.obj.id ≠ wn.ref) →
      (if 0 ≤ wn.ref then up wn.ref.toNat else un (-wn.ref).toNat) = .ok unset)
    (htn : ∀ n ∈ ns, ExportTags n.obj.tags) (htw : ∀ w ∈ ws, ExportTags w.obj.tags)
    (fits : DbfField → DbfValue → Bool) (fn : JsFunctions) (toInt32 : JsString → Int) (ident : ShpObject → Nat) :
    ∃ ws', List.Forall₂ (LocatedBy ns unset) ws ws' ∧
      (∀ s, exportMain pos neg fits fn toInt32 ident (protocol m (fileOf ns ws rs)) = .ok s →
        (∃ fields, List.Forall₂ (fun c f => FieldOf (columnArgs c) f) poiColumns fields ∧
          List.Forall₂ (PoiRow ident toInt32 fields) (poisOf ns) (contents s.pois.1)) ∧
        (∃ fields, List.Forall₂ (fun c f => FieldOf (columnArgs c) f) roadColumns fields ∧
          List.Forall₂ (ExportedRow ident toInt32 fields) (ws'.filter fun w => ExportedRoad w) (contents s.roads.1)) ∧
        contents s.landuse.1 = [] ∧ s.pois.2 = false ∧ s.roads.2 = false ∧ s.landuse.2 = false) ∧
      ((∀ f v, fits f v = true) → (∀ n ∈ ns, ∀ t ∈ n.obj.tags, Storable t.value) →
        (∀ w ∈ ws, ∀ t ∈ w.obj.tags, Storable t.value) →
        ∃ s, exportMain pos neg fits fn toInt32 ident (protocol m (fileOf ns ws rs)) = .ok s) := by
  obtain ⟨ws', h1, h2⟩ := coordinates_file fp fnn m ns ws rs hd hn hw hokp hokn hu
  have hback := forall₂_mem_right h1
  have hc : ∀ w ∈ ws', Consistent w.nodes := by
    intro w hw'
    obtain ⟨w0, -, k⟩ := hback w hw'
    exact consistent_of_located k
  have hprop : ∀ (P : TagList → Prop), (∀ n ∈ ns, P n.obj.tags) → (∀ w ∈ ws, P w.obj.tags) →
      ∀ o ∈ ns.map (nodeSeen ident) ++ ws'.map (waySeen ident), P o.tags := by
    intro P p1 p2 o ho
    rcases List.mem_append.1 ho with h | h
    · obtain ⟨n, hn', rfl⟩ := List.mem_map.1 h
      exact p1 n hn'
    · obtain ⟨w, hw', rfl⟩ := List.mem_map.1 h
      obtain ⟨w0, k1, k2⟩ := hback w hw'
      have : w.obj.tags = w0.obj.tags := by rw [k2.1]
      show P w.obj.tags
      rw [this]
      exact p2 w0 k1
  rw [exportMain_eq fits fn toInt32 ident m ns ws ws' rs h2 hc]
  refine ⟨ws', h1, ?_, ?_⟩
  · intro s hs
    obtain ⟨c1, c2, c3, ⟨pf, p1, p2⟩, ⟨rf, R, r1, r2, r3⟩, ⟨lf, l1, l2⟩⟩ := shape_export_records_partial fits fn toInt32 _
      (hprop _ htn htw) s hs
    rw [poiRecords_nodes] at p2
    rw [landuseRecords_none] at l2
    obtain ⟨R', r4, r5⟩ := roadRecords_split ns ws' R r2
    rw [r5] at r3
    exact ⟨⟨pf, p1, rows_of_adds (fun p : Node × Tag => pointShape ident p.1.position) _ (poisOf ns) (fun _ _ => rfl) _ p2⟩,
      ⟨rf, r1, rows_of_roads ws' R' _ r4 r3⟩, l2, c1, c2, c3⟩
  · intro hfits s1 s2
    exact shape_export_succeeds_partial fits hfits fn toInt32 _ (hprop _ htn htw)
      (hprop (fun tags => ∀ t ∈ tags, Storable t.value) s1 s2)

/-- A file with a node, a closed way and another way. (for the examples) -/
def shapesNode (id : Int) (x y : Int) (tags : TagList) : Node := ⟨{ Obj.new with id := id, tags := tags }, ⟨x, y⟩⟩
/-- (for the examples) -/
def shapesWay (id : Int) (refs : List Int) (tags : TagList) : Way :=
  ⟨{ Obj.new with id := id, tags := tags }, refs.map fun r => ⟨r, Position.undef⟩⟩
/-- (for the examples) -/
def shapesNodes : List Node := [shapesNode 1 10 20 [⟨"amenity", "pub"⟩], shapesNode 2 30 40 [], shapesNode 3 30 40 []]
/-- (for the examples) -/
def shapesWays : List Way :=
  [shapesWay 5 [1, 2, 3, 1] [⟨"highway", "primary"⟩], shapesWay 6 [2, 3] [⟨"highway", "primary"⟩],
   shapesWay 7 [1, 9] [⟨"highway", "primary"⟩], shapesWay 8 [9, 1] [⟨"highway", "track"⟩], shapesWay 9 [1, 2] []]
/-- (for the examples) -/
def shapesIdent (o : ShpObject) : Nat := if o.xs.head? = some (fixToDouble 10) then 1 else 2
/-- (for the examples) -/
def shapesRun (file : ExportFiles → ShpTable × Bool) : Option (List (ShpShape × DbfRow)) :=
  (exportMain (sparseTable Position .undef 10) (sparseTable Position .undef 10) (fun _ _ => true)
    ⟨fun _ => [], fun _ _ => none⟩ (fun _ => 0) shapesIdent
    (protocol (Meta.new false) (fileOf shapesNodes shapesWays []))).toOption.map fun s => contents (file s).1

/-- The files that shape_export.js makes of this file: one point, and two of the four roads.  One of the others has
two nodes at the same place, the end of the other is not in the file. -/
example : shapesRun ExportFiles.pois =
      some [(⟨.point, 0, 1, 1⟩, [(0, .string (utf8 "1".toList)), (1, .string (utf8 "pub".toList)), (2, .null)])] ∧
    shapesRun ExportFiles.roads =
      some [(⟨.arc, 1, 3, 1⟩, [(0, .int 5), (1, .string (utf8 "primary".toList)), (2, .null), (3, .int 0), (4, .int 0)]),
        (⟨.arc, 1, 2, 2⟩, [(0, .int 8), (1, .string (utf8 "track".toList)), (2, .null), (3, .int 0), (4, .int 0)])] := by
  decide +kernel

/-- The hypotheses of `shape_export_file_partial` can be met. -/
example : (shapesNodes.map fun n => n.obj.id).Nodup ∧ (∀ n ∈ shapesNodes, NegatableId n.obj.id) ∧
    (∀ w ∈ shapesWays, ∀ wn ∈ w.nodes, NegatableId wn.ref) ∧ (∀ n ∈ shapesNodes, ExportTags n.obj.tags) ∧
    (∀ w ∈ shapesWays, ExportTags w.obj.tags) ∧ (poisOf shapesNodes).length = 1 := by
  have gen : ∀ l : List TagList, (∀ tags ∈ l, (tags.map (·.key)).Nodup ∧ ∀ t ∈ tags,
      (('\x00' ∉ t.key.toList ∧ t.key.toList.length ≤ 255) ∧ t.key.toList.any (fun c => !Text.isDigit c)) ∧
      ('\x00' ∉ t.value.toList ∧ t.value.toList.length ≤ 255) ∧ (t.key ≠ "__proto__" ∧ t.key ∉ inheritedNames) ∧
      (t.value ≠ "__proto__" ∧ t.value ∉ inheritedNames)) → ∀ tags ∈ l, ExportTags tags := by
    intro l h tags hm
    refine ⟨(h tags hm).1, fun t ht => ?_⟩
    obtain ⟨a, b, c, d⟩ := (h tags hm).2 t ht
    exact ⟨scriptKey_of_check a, b, fun e => e.elim c.1 c.2, fun e => e.elim d.1 d.2⟩
  refine ⟨by decide +kernel, ?_, ?_, ?_, ?_, by decide +kernel⟩
  · have : ∀ n ∈ shapesNodes, -9223372036854775808 < n.obj.id ∧ n.obj.id ≤ 9223372036854775807 := by decide +kernel
    exact this
  · have : ∀ w ∈ shapesWays, ∀ wn ∈ w.nodes, -9223372036854775808 < wn.ref ∧ wn.ref ≤ 9223372036854775807 := by
      decide +kernel
    exact this
  · intro n hn
    exact gen (shapesNodes.map fun n => n.obj.tags) (by decide +kernel) _ (List.mem_map.2 ⟨n, hn, rfl⟩)
  · intro w hw
    exact gen (shapesWays.map fun w => w.obj.tags) (by decide +kernel) _ (List.mem_map.2 ⟨w, hw, rfl⟩)

/-- A closed way with a node at the place of the one before. (for the examples) -/
def shapesRing : Way := ⟨{ Obj.new with id := 5 }, [⟨1, ⟨10, 20⟩⟩, ⟨2, ⟨30, 40⟩⟩, ⟨3, ⟨30, 40⟩⟩, ⟨1, ⟨10, 20⟩⟩]⟩

/-- The hypotheses of `script_way_shapes_partial`, and all three shapes exist. -/
example (ident : ShpObject → Nat) : Consistent shapesRing.nodes ∧
    lineShape ident shapesRing = some (onePart ident .arc [⟨10, 20⟩, ⟨30, 40⟩, ⟨10, 20⟩]) ∧
    backwardShape ident shapesRing = some (onePart ident .arc [⟨10, 20⟩, ⟨30, 40⟩, ⟨10, 20⟩]) ∧
    ringShape ident shapesRing = some (onePart ident .polygon [⟨10, 20⟩, ⟨30, 40⟩, ⟨10, 20⟩]) := by
  have e : linePoints shapesRing = [⟨10, 20⟩, ⟨30, 40⟩, ⟨10, 20⟩] := by decide +kernel
  have h1 : EndKnown shapesRing := ⟨⟨1, ⟨10, 20⟩⟩, rfl, by decide +kernel⟩
  have h2 : EndsAtStart shapesRing := ⟨_, rfl, _, rfl, rfl⟩
  refine ⟨by simp [shapesRing, Consistent], ?_, ?_, ?_⟩
  · unfold lineShape; rw [if_pos ⟨h1, by rw [e]; decide⟩, e]
  · unfold backwardShape; rw [if_pos ⟨h1, by rw [e]; decide⟩, e]; rfl
  · unfold ringShape; rw [if_pos ⟨h1, h2, by rw [e]; decide⟩, e]

/-- An area with two polygons, one of which has a hole, has three rings. -/
example (ident : ShpObject → Nat) (o : Obj) : ∃ g s, jsAreaProp o [([⟨0, 0⟩, ⟨9, 0⟩, ⟨9, 9⟩, ⟨0, 0⟩], [[⟨1, 1⟩, ⟨2, 1⟩, ⟨2, 2⟩, ⟨1, 1⟩]]),
      ([⟨20, 0⟩, ⟨29, 0⟩, ⟨29, 9⟩, ⟨20, 0⟩], [])] "geom" = .ok (.geom g) ∧ shapeArgument ident g = .ok (some s) ∧
    s.parts = 3 ∧ s.vertices = 12 :=
  ⟨_, _, rfl, rfl, rfl, rfl⟩

/-- A script that adds a node, a way and nothing to a file of lines. (for the examples) -/
def shapesCalls : List GeomCall :=
  [.addField [("id", 0), ("integer", 0), ("10", 10)], .add (.point ⟨1, 2⟩) (fun _ => .value [49] 1),
   .add (jsWayLine shapesRing false) (fun _ => .value [50] 2), .add .null (fun _ => .value [51] 3), .close]

/-- The hypotheses of `script_shapes_stored_partial` can be met. -/
example : (∀ g attrs, GeomCall.add g attrs ∈ shapesCalls → ConsistentGeom g) ∧
    ((geomRun (fun _ _ => true) (fun _ => 7) (ShpTable.new .arc) true shapesCalls).toOption.map fun p => (contents p.1, p.2)) =
      some ([(⟨.arc, 1, 3, 7⟩, [(0, .int 2)])], [1, 1, 1, 1]) := by
  refine ⟨?_, by decide +kernel⟩
  intro g attrs h
  simp only [shapesCalls, List.mem_cons, List.not_mem_nil, or_false, reduceCtorEq, false_or, GeomCall.add.injEq] at h
  rcases h with ⟨rfl, -⟩ | ⟨rfl, -⟩ | ⟨rfl, -⟩
  · trivial
  · have : jsWayLine shapesRing false = .line ⟨5, shapesRing.nodes, false⟩ := rfl
    rw [this]
    simp [ConsistentGeom, shapesRing, Consistent]
  · trivial

/-! ### Disagreements -/

/-- **C113, disagreement.**  A node without a position is not left out: it is added as a point at (214.7483647,
214.7483647). -/
theorem script_node_without_position (ident : ShpObject → Nat) (n : Node) (h : n.position = Position.undef) :
    ∃ g, jsNodeProp n "geom" = .ok (.geom g) ∧ shapeArgument ident g =
      .ok (some ⟨.point, 0, 1, ident ⟨[], [fixToDouble 2147483647], [fixToDouble 2147483647]⟩⟩) := by
  refine ⟨.point n.position, rfl, ?_⟩
  rw [h]
  rfl

/-- **C113, disagreement.**  A way of which one node, but not the last, is missing is not left out: the shape has a
point at (214.7483647, 214.7483647). -/
theorem script_way_without_position (ident : ShpObject → Nat) :
    ∃ (w : Way) (g : JsGeom), jsWayProp w "geom" = .ok (.geom g) ∧ shapeArgument ident g =
      .ok (some ⟨.arc, 1, 2, ident ⟨[0], [fixToDouble 2147483647, fixToDouble 10], [fixToDouble 2147483647, fixToDouble 20]⟩⟩) := by
  refine ⟨⟨Obj.new, [⟨9, Position.undef⟩, ⟨1, ⟨10, 20⟩⟩]⟩, _, rfl, ?_⟩
  rfl

/-- **C113, disagreement.**  Adding the geometry of an area without rings is undefined. -/
theorem script_area_without_rings (ident : ShpObject → Nat) (o : Obj) :
    ∃ g, jsAreaProp o [] "geom" = .ok (.geom g) ∧ shapeArgument ident g = .error .ub :=
  ⟨_, rfl, rfl⟩

end Osmium

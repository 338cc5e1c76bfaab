import Verif.Examples.TwoPassProps
import Verif.Examples.OgrProgramsProps
import Verif.Examples.AreasInterrupted
import Verif.Examples.ToShapeProps
import Verif.Javascript.ScriptAreasProps
import Verif.Multipolygon.Messages
import Verif.Multipolygon.Reports
import Verif.Multipolygon.Announcements
import Verif.Javascript.ListingFile
import Verif.Javascript.CallbackTestProps

/-
The theorems about whole files with multipolygons (C83, C92, C93, C115, C116, C122 to C126, C129) have many hypotheses.  Here they
are applied to one file with twenty nodes, six ways and two relations: all hypotheses are met at the same time.
-/
namespace Osmium
open Spec

theorem pipe_faithful : Faithful pipeStore (RoomToGrow 100) (fun _ => .ok Position.undef) :=
  sparseTable_faithful Position .undef 100 (by decide)

theorem pipe_node_ids : ∀ n ∈ pipeNodes, NegatableId n.obj.id := by unfold NegatableId; decide +kernel

theorem pipe_refs : ∀ w ∈ pipeWays, ∀ wn ∈ w.nodes, NegatableId wn.ref := by unfold NegatableId; decide +kernel

theorem pipe_room_pos : ∀ j, RoomToGrow 100 ((posOps (nodeCalls pipeNodes)).take j) := by
  have hpos : ∀ o ∈ posOps (nodeCalls pipeNodes), o.1 < 100 := by decide +kernel
  intro j o ho
  have := hpos o (List.mem_of_mem_take ho)
  omega

theorem pipe_room_neg : ∀ j, RoomToGrow 100 ((negOps (nodeCalls pipeNodes)).take j) := by
  have hneg : negOps (nodeCalls pipeNodes) = [] := by decide +kernel
  intro j o ho
  rw [hneg] at ho
  simp at ho

theorem pipe_unset : ∀ w ∈ pipeWays, ∀ wn ∈ w.nodes, (∀ n ∈ pipeNodes, n.obj.id ≠ wn.ref) →
    (if 0 ≤ wn.ref then (fun _ : Nat => (.ok Position.undef : Res Position)) wn.ref.toNat
      else (fun _ : Nat => (.ok Position.undef : Res Position)) (-wn.ref).toNat) = .ok Position.undef := by
  intro w _ wn _ _
  simp

theorem pipe_nodes : ∀ w ∈ pipeWays, w.nodes ≠ [] := by decide +kernel

theorem pipe_way_ids : ∀ w ∈ pipeWays, SmallId w.obj.id := by unfold SmallId; decide +kernel

theorem pipe_rel_ids : ∀ r ∈ pipeRelations, SmallId r.obj.id := by unfold SmallId; decide +kernel

theorem pipe_rel_ids0 : ∀ r ∈ pipeRelations, r.obj.id ≠ 0 := by decide +kernel

theorem pipe_values : ∀ w ∈ pipeWays, ∀ t ∈ w.obj.tags, t.value ≠ "" := by decide +kernel

theorem pipe_ids30 : (∀ w ∈ pipeWays, |w.obj.id| < 2 ^ 30) ∧ ∀ r ∈ pipeRelations, |r.obj.id| < 2 ^ 30 ∧ r.obj.id ≠ 0 := by
  decide +kernel

theorem pipe_some_way : pipeWays ≠ [] := by decide

/-- `multipolygons_file_partial`, C83. -/
example := multipolygons_file_partial pipe_faithful pipe_faithful squareEnv squareEnv_sort (Meta.new false) pipeNodes pipeWays
  pipeRelations pipe_distinct pipe_node_ids pipe_refs pipe_room_pos pipe_room_neg pipe_unset pipe_nodes pipe_way_ids
  pipe_rel_ids pipe_values pipeAsm pipe_pass1

/-- `mpdump_partial`, C92. -/
example := mpdump_partial countWkt pipe_faithful pipe_faithful squareEnv squareEnv_sort (Meta.new false) pipeNodes pipeWays
  pipeRelations pipe_distinct pipe_node_ids pipe_refs pipe_room_pos pipe_room_neg pipe_unset pipe_nodes pipe_way_ids
  (fun r h => ⟨pipe_rel_ids r h, pipe_rel_ids0 r h⟩) pipe_values pipeAsm pipe_pass1

/-- `areas_before_exception_partial`, C123. -/
example := areas_before_exception_partial pipe_faithful pipe_faithful squareEnv squareEnv_sort (Meta.new false) pipeNodes
  pipeWays pipeRelations pipe_distinct pipe_node_ids pipe_refs pipe_room_pos pipe_room_neg pipe_unset pipe_nodes pipe_way_ids
  pipe_rel_ids pipe_values pipeAsm pipe_pass1

/-- `mpdump_before_exception_partial`, C123. -/
example := mpdump_before_exception_partial countWkt pipe_faithful pipe_faithful squareEnv squareEnv_sort (Meta.new false)
  pipeNodes pipeWays pipeRelations pipe_distinct pipe_node_ids pipe_refs pipe_room_pos pipe_room_neg pipe_unset pipe_nodes
  pipe_way_ids (fun r h => ⟨pipe_rel_ids r h, pipe_rel_ids0 r h⟩) pipe_values pipeAsm pipe_pass1

/-- `mpdump_stdout_partial`, C124: the areas are printed, and then that the second relation is not complete. -/
example : ∃ areas, mpdumpStdout countWkt squareEnv pipeStore pipeStore pipeAsm pipeCalls = .ok areas := by
  have h : ∃ ls, mpdumpMain countWkt squareEnv pipeStore pipeStore pipeAsm pipeCalls = .ok ls := by
    cases e : mpdumpMain countWkt squareEnv pipeStore pipeStore pipeAsm pipeCalls with
    | ok ls => exact ⟨ls, rfl⟩
    | error x =>
      exfalso
      have : (mpdumpMain countWkt squareEnv pipeStore pipeStore pipeAsm pipeCalls).toOption.isSome = true := by decide +kernel
      rw [e] at this
      cases this
  obtain ⟨ls, h⟩ := h
  exact ⟨_, mpdump_stdout_partial countWkt pipe_faithful pipe_faithful squareEnv (Meta.new false) pipeNodes pipeWays
    pipeRelations pipe_distinct pipe_node_ids pipe_refs pipe_room_pos pipe_room_neg pipe_unset pipe_some_way pipeAsm pipe_pass1
    ls h⟩

/-- `toogr2_stdout_partial`, C124. -/
example := toogr2_stdout_partial true ⟨40, 200, 24, 32⟩ pipe_faithful pipe_faithful (Meta.new false) pipeNodes pipeWays
  pipeRelations pipe_distinct pipe_node_ids pipe_refs pipe_room_pos pipe_room_neg pipe_unset pipe_some_way pipeAsm pipe_pass1
  (pipeRelations.filter fun r => decide (IsMultipolygon r)) rfl 6 (by decide +kernel) (by decide) (by decide +kernel)

/-- `reports_file_partial`, C125. -/
example := reports_file_partial pipe_faithful pipe_faithful squareEnv squareEnv_sort (Meta.new false) pipeNodes pipeWays
  pipeRelations pipe_distinct pipe_node_ids pipe_refs pipe_room_pos pipe_room_neg pipe_unset pipe_nodes pipe_way_ids
  pipe_rel_ids pipe_rel_ids0 pipe_values pipeAsm pipe_pass1

/-- `announcements_partial`, C124. -/
example := announcements_partial 2 (le_refl 2) (Meta.new false) pipeNodes pipeWays pipeRelations pipe_distinct pipe_some_way
  pipeAsm pipe_pass1

/-- `callback_test_file_partial`, C116. -/
example := callback_test_file_partial pipe_faithful pipe_faithful squareEnv squareEnv_sort (Meta.new false) pipeNodes pipeWays
  pipeRelations pipe_distinct pipe_node_ids pipe_refs pipe_room_pos pipe_room_neg pipe_unset pipe_nodes pipe_way_ids
  pipe_rel_ids pipe_values pipeAsm pipe_pass1

/-- `listing_file_partial`, C115. -/
example := listing_file_partial pipe_faithful pipe_faithful (Meta.new false) pipeNodes pipeWays pipeRelations
  (by decide +kernel) pipe_node_ids pipe_refs pipe_room_pos pipe_room_neg pipe_unset sampleNumber_ok

/-- `listing_areas_partial`, C115. -/
example := listing_areas_partial pipe_faithful pipe_faithful squareEnv squareEnv_sort (Meta.new false) pipeNodes pipeWays
  pipeRelations pipe_distinct pipe_node_ids pipe_refs pipe_room_pos pipe_room_neg pipe_unset pipe_nodes pipe_way_ids
  pipe_rel_ids pipe_values pipeAsm pipe_pass1 sampleNumber_ok

/-- `toogr2_program_partial`, C122. -/
example := toogr2_program_partial (lib := fun _ _ => true) (fun _ _ => rfl) pipe_faithful pipe_faithful squareEnv
  squareEnv_sort (Meta.new false) pipeNodes pipeWays pipeRelations pipe_distinct pipe_node_ids pipe_refs pipe_room_pos
  pipe_room_neg pipe_unset pipe_nodes pipe_ids30.1 pipe_ids30.2 pipe_values pipeAsm pipe_pass1 "f.osm".toList
  (fun _ => (pipeCalls, .returned)) rfl

/-! ### What the ways are in the second pass -/

/-- A way with the positions of its nodes. (data for the examples, no counterpart in /repo) -/
def located (ns : List Node) (unset : Position) (w : Way) : Way :=
  { w with nodes := w.nodes.map fun n =>
      ⟨n.ref, match ns.find? (fun x => decide (x.obj.id = n.ref)) with | some x => x.position | none => unset⟩ }

/-- There is only one way with the positions of the nodes. -/
theorem located_unique {ns : List Node} {unset : Position} {w w' : Way} (h : LocatedBy ns unset w w') :
    w' = located ns unset w := by
  obtain ⟨h1, h2⟩ := h
  cases w with
  | mk o nodes =>
  cases w' with
  | mk o' nodes' =>
  simp only at h1 h2
  subst h1
  simp only [located]
  congr 1
  induction h2 with
  | nil => rfl
  | @cons a b as bs hab _ ih =>
    obtain ⟨e1, e2, e3⟩ := hab
    rw [List.map_cons, ← ih]
    congr 1
    cases b with
    | mk ref p =>
    simp only at e1 e2 e3
    subst e1
    congr 1
    cases hf : ns.find? (fun x => decide (x.obj.id = a.ref)) with
    | some x =>
      simp only
      exact e2 x (List.mem_of_find?_eq_some hf) (by simpa using List.find?_some hf)
    | none =>
      simp only
      refine e3 fun n hn e => ?_
      have := List.find?_eq_none.1 hf n hn
      simp [e] at this

theorem pipe_located {ws' : List Way} (h : List.Forall₂ (LocatedBy pipeNodes .undef) pipeWays ws') :
    ws' = pipeWays.map (located pipeNodes .undef) := by
  generalize pipeWays = ws at h
  induction h with
  | nil => rfl
  | cons a _ ih => rw [List.map_cons, ← ih, located_unique a]

/-- GEOS throws no exception for the relation that has its ways. -/
theorem pipe_geos : ∀ ws', List.Forall₂ (LocatedBy pipeNodes .undef) pipeWays ws' → ∀ r ∈ pipeRelations, IsMultipolygon r →
    HasItsWays ws' r → buildWhole squareEnv r (wayMembers ws' r) ≠ .error geosError := by
  intro ws' h r hr _ hw e
  rw [pipe_located h] at hw e
  have key : ∀ r ∈ pipeRelations, HasItsWays (pipeWays.map (located pipeNodes .undef)) r →
      (buildWhole squareEnv r (wayMembers (pipeWays.map (located pipeNodes .undef)) r)).toOption.isSome = true := by
    decide +kernel
  have := key r hr hw
  rw [e] at this
  cases this

/-- A script that writes down how often it was called, and what its first callback is. (data for the examples, no
counterpart in /repo) -/
def countEngine : Engine (List (JsThis Nat)) Nat Nat where
  props := fun _ _ name => if name = "area" then some 1 else none
  callbacks := fun _ => 0
  call := fun s _ this => s ++ [this]
  load := fun s => s

/-- `script_multipolygons_partial`, C83. -/
example := script_multipolygons_partial countEngine [] rfl pipe_faithful pipe_faithful squareEnv squareEnv_sort
  (Meta.new false) pipeNodes pipeWays pipeRelations pipe_distinct pipe_node_ids pipe_refs pipe_room_pos pipe_room_neg
  pipe_unset pipe_nodes pipe_way_ids pipe_rel_ids pipe_values pipe_geos pipeAsm pipe_pass1

/-! ### The file as XML data -/

/-- The file as XML data. (data for the examples, no counterpart in /repo) -/
def pipeXml : List XEv := (xmlWrite .osm "" (Meta.new false) (fileOf pipeNodes pipeWays pipeRelations)).getD []

/-- The directory with the file. (data for the examples, no counterpart in /repo) -/
def pipeSources : Sources :=
  ⟨fun n => if n = "f.osm".toList then some (.xml pipeXml) else none, fun _ _ => .pbf [], fun _ => .pbf [], none⟩

theorem pipe_reads : DataReadsAs demoPbfCodec (settingsOf "f.osm".toList) (.xml pipeXml)
    (protocol (Meta.new false) (fileOf pipeNodes pipeWays pipeRelations)) := by
  refine ⟨by decide, fun _ => ?_⟩
  show xmlParse .osm (fun _ => false) ⟨pipeXml, none⟩ = _
  decide +kernel

theorem pipe_contents : contentsOf pipeSources "f.osm".toList = some (.xml pipeXml) := by
  have h1 : ¬ Compressed (settingsOf "f.osm".toList).2 := by decide
  have h2 : ¬ IsUrl "f.osm".toList := by decide
  unfold contentsOf
  rw [if_neg h1, if_neg h2]
  unfold pipeSources
  simp only [if_true]

/-- `mpdump_program_partial`, C129: osmium_mpdump for this file, from its argument to its end. -/
example :=
  mpdump_program_partial countWkt pipe_faithful pipe_faithful squareEnv squareEnv_sort demoPbfCodec (fun _ => 7) (fun _ => 9)
    pipeSources "f.osm".toList (by decide) (by decide) (.xml pipeXml) pipe_contents (Meta.new false) pipeNodes pipeWays pipeRelations
    pipe_reads pipe_distinct pipe_node_ids pipe_refs pipe_room_pos pipe_room_neg pipe_unset pipe_nodes pipe_way_ids
    (fun r h => ⟨pipe_rel_ids r h, pipe_rel_ids0 r h⟩) pipe_values pipe_some_way

/-- There is such a run. -/
example : ∃ r, mpdumpProgram countWkt squareEnv pipeStore pipeStore demoPbfCodec (fun _ => 7) (fun _ => 9) pipeSources
    ["f.osm".toList] r := twopass_total _ _ _ _ _ _ _

/-- `toogr2_twopass_partial`, C129. -/
example :=
  toogr2_twopass_partial true ⟨40, 200, 24, 32⟩ (fun _ => true) (fun _ => rfl) pipe_faithful pipe_faithful squareEnv
    squareEnv_sort demoPbfCodec (fun _ => 7) (fun _ => 9) pipeSources "f.osm".toList (by decide) (by decide) (.xml pipeXml) pipe_contents
    (Meta.new false) pipeNodes pipeWays pipeRelations pipe_reads pipe_distinct pipe_node_ids pipe_refs pipe_room_pos
    pipe_room_neg pipe_unset pipe_nodes pipe_ids30.1 pipe_ids30.2 pipe_values pipe_some_way
    (pipeRelations.filter fun r => decide (IsMultipolygon r)) rfl 6 (by decide +kernel) (by decide) (by decide +kernel)

/-- There is such a run. -/
example : ∃ r, toogr2TwoPass true ⟨40, 200, 24, 32⟩ (fun _ => true) squareEnv pipeStore pipeStore demoPbfCodec (fun _ => 7)
    (fun _ => 9) pipeSources ["f.osm".toList] r := twopass_total _ _ _ _ _ _ _

/-! ### Parts of the way from the file to the areas -/

theorem pipe_node_unique : (pipeNodes.map fun n => n.obj.id).Nodup := by decide +kernel

/-- `coordinates_file`, C32 and C83. -/
example := coordinates_file pipe_faithful pipe_faithful (Meta.new false) pipeNodes pipeWays pipeRelations pipe_node_unique
  pipe_node_ids pipe_refs pipe_room_pos pipe_room_neg pipe_unset

/-- `toogr_partial`, C91. -/
example := toogr_partial pipe_faithful pipe_faithful (Meta.new false) pipeNodes pipeWays pipeRelations pipe_node_unique
  pipe_node_ids pipe_refs pipe_room_pos pipe_room_neg pipe_unset (by decide +kernel) (by decide +kernel) (fun _ => true)
  (fun _ => rfl)

/-- `relation_areas`, C92. -/
example (r : Relation) (hr : r ∈ pipeRelations) := relation_areas squareEnv squareEnv_sort pipeWays r (pipe_rel_ids r hr)
  (pipe_rel_ids0 r hr) pipe_way_ids pipe_values

/-- `relation_area_tags`, C114. -/
example (r : Relation) (hr : r ∈ pipeRelations) := relation_area_tags squareEnv squareEnv_sort pipeWays r (pipe_rel_ids r hr)
  pipe_way_ids pipe_values (by revert r; decide +kernel) (by decide +kernel)

/-- `built_or_reported`, C125. -/
example (r : Relation) (hr : r ∈ pipeRelations) := built_or_reported squareEnv squareEnv_sort r (pipeWays.map some)
  (pipe_rel_ids r hr) (pipe_rel_ids0 r hr) (fun w hw => pipe_way_ids w (by simpa using hw))
  (fun w hw => pipe_values w (by simpa using hw))

end Osmium

import Verif.Storage.ObjectStore
import Verif.Storage.MmapProps
import Verif.Time.Props
import Verif.Osm.Props
import Verif.Osm.PrintedProps
import Verif.Handler.Chain
import Verif.Relations.FileProps

/-!
# Concrete cases for theorems with many hypotheses

The theorems are applied to concrete data, so that all their hypotheses are met together.
There is nothing new from /repo in this module.
-/

namespace Osmium

open Spec Time

/-! ### Merging a stored change into a stream -/

private def wNode (id v : Int) : OsmObj := .node ⟨{ Obj.new with id := id, version := v }, .undef⟩
private def wWay (id v : Int) : OsmObj := .way ⟨{ Obj.new with id := id, version := v }, []⟩

/-- Stored and streamed objects with negative ids, and with two versions of a node.  There are no relations. -/
example (m m' : Meta) : ∃ N W R,
    applyRun m ⟨[wNode 2 1, wNode (-3) 1, wNode 9 1], [wWay 1 1], []⟩
      (protocol m' ([wNode 1 1, wNode 2 2, wNode 12 1] ++ [wWay 7 1, wWay 7 1] ++ [])) = some (protocol m (N ++ W ++ R)) ∧
    N.Perm ([wNode 2 1, wNode (-3) 1, wNode 9 1] ++ [wNode 1 1, wNode 2 2, wNode 12 1]) ∧
    W.Perm ([wWay 1 1] ++ [wWay 7 1, wWay 7 1]) ∧ R.Perm ([] ++ []) ∧
    N.Pairwise (fun a b => ¬ Before b a) ∧ W.Pairwise (fun a b => ¬ Before b a) ∧
    R.Pairwise (fun a b => ¬ Before b a) := by
  refine apply_merges_partial m m' ⟨[wNode 2 1, wNode (-3) 1, wNode 9 1], [wWay 1 1], []⟩ _ _ _ ⟨?_, ?_⟩ ?_ ?_ ?_ ?_ ?_ ?_
    ?_ ?_ ?_ ?_ ?_ ?_ ?_ ?_ ?_
  · unfold Obj.absOk; decide +kernel
  all_goals decide +kernel

/-! ### Mappings of anonymous memory -/

private def grantsLess (n : Nat) : Bool := n < 200000000

/-- A history, and an id for that the system has no memory left. -/
example : (mmapAnon Nat 0 8 10485760 grantsLess).fill ([(7, 1), (11000000, 2), (7, 3)] ++ [(40000000, 4)]) =
    .error (.exn "std::bad_alloc") := by
  refine mmapAnon_refused 0 8 10485760 grantsLess (by decide) (by decide) (by decide) _ ?_ 40000000 4 (by decide +kernel)
    (by decide) (by decide)
  unfold Granted grantsLess; decide +kernel

example := mmapAnon_faithful 0 8 10485760 grantsLess (by decide) (by decide) (by decide) [(7, 1), (11000000, 2), (7, 3)]
  (by unfold Granted grantsLess; decide +kernel)

/-! ### Times -/

/-- The last second of February 29th, 2012. -/
example : parseIso (Spec.isoForm (civil 15399) 23 59 59) = some (15399 * 86400 + 23 * 3600 + 59 * 60 + 59) :=
  parse_iso_form civil civil_isCalendar 15399 23 59 59 (by decide +kernel) (by decide) (by decide) (by decide)

example : toIso 1330559999 = Spec.isoForm (civil 15399) 23 59 59 :=
  to_iso_form civil civil_isCalendar 1330559999 (by decide) (by decide) (by decide)

example : parseIso (toIso (-5)) = some (-5) := iso_roundtrip (-5) (by decide) (by unfold InIsoRange; decide)

/-! ### Positions and bounds -/

example := bounds_extend_hull [⟨3, -4⟩, ⟨-1800000000, 5⟩, ⟨3, 900000000⟩] (by decide) (by decide)

example : Bounds.empty.extendAll [⟨3, -4⟩, ⟨-7, 5⟩] = Bounds.empty.extendAll [⟨-7, 5⟩, ⟨3, -4⟩, ⟨-7, 5⟩] :=
  bounds_order_independent _ _ (by intro p; simp; tauto) (by decide)

example := position_text_injective_partial 9 (by decide) ⟨1800000000, -899999999⟩ ⟨1800000000, -899999999⟩
  ⟨by unfold InS32; decide, by unfold InS32; decide⟩ ⟨by unfold InS32; decide, by unfold InS32; decide⟩ rfl

example : areaFromWay (-34) = true ∧ areaOrigId (-34) = -17 := area_from_way_origin (-17) (-34) (by decide)

example : areaFromWay (-35) = false ∧ areaOrigId (-35) = -17 :=
  area_from_relation_origin_partial (-17) (-35) (by decide) (by decide)

/-! ### Handlers -/

private def wCalls : List HCall :=
  [.cb (.init (Meta.new false)), .cb (.before .node), .cb (.obj (wNode 4 1)), .cb (.after .node),
   .area ({ Obj.new with id := 2 }, []), .cb .final]

private theorem wCalls_method : ∀ c ∈ wCalls, isMethod c := by
  intro c hc
  simp only [wCalls, List.mem_cons, List.not_mem_nil, or_false] at hc
  rcases hc with rfl | rfl | rfl | rfl | rfl | rfl <;> simp [isMethod]

/-- Three handlers: the second one changes objects, the third one throws at the fourth call. -/
example := sequence_assoc (recorder 0) tagRemover (recorder 4) (recorder_proper 0) [] () [] wCalls wCalls_method

/-- The second handler throws at the third call. -/
example (rest : List HCall) := sequence_second_throws (recorder 0) (recorder 3) [] [] (wCalls.take 3) rest
  (fun c hc => wCalls_method c (List.mem_of_mem_take hc)) rfl rfl rfl

/-! ### Assembling relations -/

private def wCfg : AsmCfg := ⟨fun t => t = .node ∨ t = .way ∨ t = .relation, fun r => r.obj.id ≠ 3, fun _ _ => true⟩
private def wRels : List Relation :=
  [⟨{ Obj.new with id := 1 }, [⟨'w', 10, ""⟩, ⟨'n', 5, ""⟩, ⟨'w', 10, "x"⟩]⟩,
   ⟨{ Obj.new with id := 2 }, [⟨'w', 10, ""⟩, ⟨'w', 11, ""⟩]⟩, ⟨{ Obj.new with id := 3 }, [⟨'w', 12, ""⟩]⟩]

private def wCb : List Cb := protocol (Meta.new false) ([wNode 5 1] ++ [wWay 10 1, wWay 12 1] ++ wRels.map OsmObj.relation)

private theorem w_pass1 : Asm.AfterPass1 wCfg wCb ((Asm.new wCfg).pass1 wCfg wCb).1 := by
  have h2 : ((Asm.new wCfg).pass1 wCfg wCb).2 = true := by decide +kernel
  unfold Asm.AfterPass1
  simp only [h2, if_true]
  refine ⟨rfl, rfl, fun t => ⟨List.Perm.refl _, ?_⟩⟩
  cases t <;> decide +kernel

private theorem w_one : OneBlockEach wCb := by
  unfold OneBlockEach
  simp [wCb, wRels, protocol, runs, runCalls, wNode, wWay, OsmObj.type]

/-- One relation is complete, one is not, and one is not accepted. -/
example :=
  assembler_file_partial wCfg (Meta.new false) [wNode 5 1] [wWay 10 1, wWay 12 1] wRels (by decide) (by decide)
    (by unfold DistinctObjects; decide +kernel) _ w_pass1

example := assembler_trace_partial wCfg wCb wCb _ w_pass1 (fun _ => by decide +kernel)
  (by unfold DistinctObjects; decide +kernel) w_one

example (s' : Asm) (ev : List AsmEvent) := assembler_incomplete_partial wCfg wCb wCb _ s' ev w_pass1
  (fun _ => by decide +kernel) (by unfold DistinctObjects; decide +kernel) w_one

end Osmium

import Verif.Multipolygon.WholeProps
import Verif.Handler.LocatedFile
import Verif.Javascript.Script

/-
C83: a file is read twice; coordinates, multipolygons and what the handler behind them gets: osmjs/osmjs.cpp
243-255 with handler/coordinates_for_ways.hpp, multipolygon/assembler.hpp and multipolygon/builder.hpp.
-/
namespace Osmium
open Spec

/-- What the handler behind the multipolygon assembler gets.  An area made from a way has no geometry yet
(osm/area.hpp 79-84). -/
inductive WholeCall
  | area (a : Area) (g : Option Geom)
  | call (c : Cb)
deriving DecidableEq

/-- multipolygon/assembler.hpp 88-120: the hooks, with the builder of C76. -/
def wholeHook (env : WholeEnv) : AsmEvent → Res (List WholeCall)
  | .notInAny (.way w) => (wayArea w).map fun as => as.map fun a => .area a none
  | .notInAny _ => .ok []
  | .complete r ms =>
    match memberWays ms with
    | .error e => .error e
    | .ok ws => (buildWhole env r ws).map fun as => as.map fun a => .area a.1 a.2
  | .allAvailable => .ok []
  | .next c => .ok [.call c]

/-- All calls, in order. (multipolygon/assembler.hpp 60-115, for all relations and ways) -/
def wholeCalls (env : WholeEnv) : List AsmEvent → Res (List WholeCall)
  | [] => .ok []
  | e :: es =>
    match wholeHook env e with
    | .error f => .error f
    | .ok cs => (wholeCalls env es).map fun rest => cs ++ rest

/-- osmjs/osmjs.cpp 247-254: the second pass, behind the coordinates handler; `s` is the assembler after the
first one.  (The sequence handler gives each call to both handlers in turn; the coordinates handler does not look at
what the assembler does.) -/
def secondPass {S T : Type} (env : WholeEnv) (pos : IdStore S Position) (neg : IdStore T Position) (s : Asm)
    (calls : List Cb) : Res (List WholeCall) :=
  match cfwRun pos neg (pos.empty, neg.empty) calls with
  | .error e => .error e
  | .ok out =>
    match s.pass2 mpCfg out with
    | .error e => .error e
    | .ok p => wholeCalls env p.2

namespace Spec

/-- The areas among the calls. (specification, no counterpart in /repo) -/
def areasIn (calls : List WholeCall) : List (Area × Option Geom) :=
  calls.filterMap fun | .area a g => some (a, g) | _ => none

/-- The other calls. (specification, no counterpart in /repo) -/
def otherCalls (calls : List WholeCall) : List Cb := calls.filterMap fun | .call c => some c | _ => none

/-- The ways that are members of the relation, in the places of the members. (specification, no counterpart in /repo) -/
def wayMembers (ws : List Way) (r : Relation) : List (Option Way) :=
  r.members.map fun m => if m.type = 'w' then ws.find? fun w => w.obj.id = m.ref else none

/-- The relation has ways as members and all of them are in the file. (specification, no counterpart in /repo) -/
def HasItsWays (ws : List Way) (r : Relation) : Prop :=
  (∃ m ∈ r.members, m.type = 'w') ∧ ∀ m ∈ r.members, m.type = 'w' → ∃ w ∈ ws, w.obj.id = m.ref

instance (ws : List Way) (r : Relation) : Decidable (HasItsWays ws r) := by unfold HasItsWays; infer_instance

/-- The area of a closed way. (specification, no counterpart in /repo) -/
def areaOfWay (w : Way) : Area × Option Geom := (⟨{ w.obj with id := w.obj.id * 2 }, w.nodes⟩, none)

/-- The areas made of a relation. (specification, no counterpart in /repo) -/
def areasOfRelation (env : WholeEnv) (ws : List Way) (r : Relation) : List (Area × Option Geom) :=
  (buildWhole env r (wayMembers ws r)).toOption.getD []

end Spec

/-! ### The first pass does not look at ways -/

theorem pass1_cbRel {L : Way → Way → Prop} (cfg : AsmCfg) {a b : List Cb} (h : List.Forall₂ (CbRel L) a b) :
    ∀ s : Asm, s.pass1 cfg a = s.pass1 cfg b := by
  induction h with
  | nil => intro s; rfl
  | @cons c c' a b h1 _ ih =>
    intro s
    unfold CbRel at h1
    split at h1
    · obtain ⟨w', rfl, -⟩ := h1
      rw [Asm.pass1, Asm.pass1, ih]
      all_goals simp
    · subst h1
      cases c' with
      | obj o =>
        cases o with
        | relation r => rw [Asm.pass1, Asm.pass1, ih]
        | node n => rw [Asm.pass1, Asm.pass1, ih]; all_goals simp
        | way n => rw [Asm.pass1, Asm.pass1, ih]; all_goals simp
      | after t =>
        cases t with
        | relation => rfl
        | node => rw [Asm.pass1, Asm.pass1, ih]; all_goals simp
        | way => rw [Asm.pass1, Asm.pass1, ih]; all_goals simp
        | area => rw [Asm.pass1, Asm.pass1, ih]; all_goals simp
        | unknown => rw [Asm.pass1, Asm.pass1, ih]; all_goals simp
      | init m => rw [Asm.pass1, Asm.pass1, ih]; all_goals simp
      | before t => rw [Asm.pass1, Asm.pass1, ih]; all_goals simp
      | final => rw [Asm.pass1, Asm.pass1, ih]; all_goals simp

theorem cbRel_runs {L : Way → Way → Prop} {ws ws' : List Way} (h : List.Forall₂ L ws ws') :
    List.Forall₂ (CbRel L) (runCalls (ws.map OsmObj.way)) (runCalls (ws'.map OsmObj.way)) := by
  have e : ∀ {ws ws' : List Way}, List.Forall₂ L ws ws' →
      List.Forall₂ (CbRel L) ((ws.map OsmObj.way).map Cb.obj ++ [Cb.after .way])
        ((ws'.map OsmObj.way).map Cb.obj ++ [Cb.after .way]) := by
    intro ws ws' h
    induction h with
    | nil => exact .cons rfl .nil
    | cons h1 _ ih => exact .cons ⟨_, rfl, h1⟩ ih
  cases h with
  | nil => exact .nil
  | @cons w w' ws ws' h1 h2 =>
    have : ∀ (v : Way) (vs : List Way), runCalls ((v :: vs).map OsmObj.way) =
        Cb.before .way :: (((v :: vs).map OsmObj.way).map Cb.obj ++ [Cb.after .way]) := by
      intro v vs; simp [runCalls, OsmObj.type]
    rw [this, this]
    exact .cons rfl (e (.cons h1 h2))

theorem cbRel_refl {L : Way → Way → Prop} {a : List Cb} (h : ∀ w, Cb.obj (.way w) ∉ a) :
    List.Forall₂ (CbRel L) a a := by
  induction a with
  | nil => exact .nil
  | cons c a ih =>
    refine .cons ?_ (ih fun w hw => h w (by simp [hw]))
    unfold CbRel
    split
    · rename_i w; exact absurd (by simp) (h w)
    · rfl

theorem forall₂_app {α β : Type} {R : α → β → Prop} {a c : List α} {b d : List β}
    (h1 : List.Forall₂ R a b) (h2 : List.Forall₂ R c d) : List.Forall₂ R (a ++ c) (b ++ d) := by
  induction h1 with
  | nil => exact h2
  | cons h _ ih => exact .cons h ih

theorem pass1_located (m : Meta) (ns : List Node) (ws ws' : List Way) (rs : List Relation) (unset : Position)
    (h : List.Forall₂ (LocatedBy ns unset) ws ws') (s : Asm)
    (h1 : Asm.AfterPass1 mpCfg (protocol m (fileOf ns ws rs)) s) :
    Asm.AfterPass1 mpCfg (protocol m (fileOf ns ws' rs)) s := by
  have hrel : List.Forall₂ (CbRel (LocatedBy ns unset)) (protocol m (fileOf ns ws rs)) (protocol m (fileOf ns ws' rs)) := by
    rw [protocol_fileOf, protocol_fileOf]
    refine forall₂_app (cbRel_refl ?_) (forall₂_app (cbRel_runs h) (cbRel_refl ?_))
    · intro w hw
      rcases List.mem_cons.1 hw with h | h
      · cases h
      · exact no_way_runCalls fileOf_nodes (by decide) w h
    · intro w hw
      rcases List.mem_append.1 hw with h | h
      · exact no_way_runCalls fileOf_relations (by decide) w h
      · simp at h
  unfold Asm.AfterPass1 at *
  rw [← pass1_cbRel mpCfg hrel]
  exact h1

theorem located_ids {ns : List Node} {ws ws' : List Way} {unset : Position}
    (h : List.Forall₂ (LocatedBy ns unset) ws ws') : ws'.map (·.obj) = ws.map (·.obj) := by
  induction h with
  | nil => rfl
  | cons h1 _ ih => simp [h1.1, ih]

theorem located_refs {ns : List Node} {unset : Position} {w w' : Way} (h : LocatedBy ns unset w w') :
    w'.nodes.map (·.ref) = w.nodes.map (·.ref) := by
  have := h.2
  generalize w.nodes = a at *
  generalize w'.nodes = b at *
  induction this with
  | nil => rfl
  | cons h1 _ ih => simp [h1.1, ih]

theorem distinct_key (os : List OsmObj) :
    DistinctObjects os ↔ (os.map fun o => (o.type, o.obj.id)).Pairwise fun a b => ¬ (a.1 = b.1 ∧ a.2 = b.2) := by
  unfold DistinctObjects
  rw [List.pairwise_map]

theorem distinct_located {ns : List Node} {ws ws' : List Way} {rs : List Relation} {unset : Position}
    (h : List.Forall₂ (LocatedBy ns unset) ws ws') (hd : DistinctObjects (fileOf ns ws rs)) :
    DistinctObjects (fileOf ns ws' rs) := by
  rw [distinct_key] at *
  have e : (fileOf ns ws' rs).map (fun o => (o.type, o.obj.id)) = (fileOf ns ws rs).map fun o => (o.type, o.obj.id) := by
    have := congrArg (List.map fun o : Obj => (ObjType.way, o.id)) (located_ids h)
    simp only [List.map_map, Function.comp_def] at this
    simp only [fileOf, List.map_append, List.map_map, Function.comp_def, OsmObj.type, OsmObj.obj]
    rw [this]
  rw [e]
  exact hd

theorem distinct_nodes {ns : List Node} {ws : List Way} {rs : List Relation}
    (hd : DistinctObjects (fileOf ns ws rs)) : (ns.map fun n => n.obj.id).Nodup := by
  have h1 : DistinctObjects (ns.map OsmObj.node) := by
    unfold fileOf at hd
    unfold DistinctObjects at *
    exact (List.pairwise_append.1 (List.pairwise_append.1 hd).1).1
  unfold DistinctObjects at h1
  rw [List.pairwise_map] at h1
  unfold List.Nodup
  rw [List.pairwise_map]
  exact h1.imp fun h => by simpa [OsmObj.type, OsmObj.obj] using h

/-! ### What the assembler knows of the ways -/

theorem read_file (ns : List Node) (ws : List Way) (rs : List Relation) :
    (fileOf ns ws rs).filter (fun o => mpCfg.enabled o.type) = ws.map OsmObj.way := by
  unfold fileOf
  rw [List.filter_append, List.filter_append]
  have e1 : (ns.map OsmObj.node).filter (fun o => mpCfg.enabled o.type) = [] := by
    rw [List.filter_eq_nil_iff]
    intro o ho
    simp [mpCfg, fileOf_nodes o ho]
  have e2 : (rs.map OsmObj.relation).filter (fun o => mpCfg.enabled o.type) = [] := by
    rw [List.filter_eq_nil_iff]
    intro o ho
    simp [mpCfg, fileOf_relations o ho]
  have e3 : (ws.map OsmObj.way).filter (fun o => mpCfg.enabled o.type) = ws.map OsmObj.way := by
    rw [List.filter_eq_self]
    intro o ho
    simp [mpCfg, fileOf_ways o ho]
  rw [e1, e2, e3]
  simp

theorem completable_ways (ws : List Way) (r : Relation) :
    Completable mpCfg (ws.map OsmObj.way) r ↔ HasItsWays ws r := by
  unfold Completable AllSeen wanted HasItsWays
  have hk : ∀ m : Member, mpCfg.keep r m = true ↔ m.type = 'w' := by intro m; simp [mpCfg]
  constructor
  · rintro ⟨h1, h2⟩
    refine ⟨?_, fun m hm ht => ?_⟩
    · obtain ⟨m, hm⟩ := List.exists_mem_of_ne_nil _ h1
      rw [List.mem_filter, hk] at hm
      exact ⟨m, hm⟩
    · obtain ⟨o, ho, href⟩ := h2 m (List.mem_filter.2 ⟨hm, (hk m).2 ht⟩)
      obtain ⟨w, hw, rfl⟩ := List.mem_map.1 ho
      refine ⟨w, hw, ?_⟩
      simp only [refersTo, OsmObj.obj, Bool.and_eq_true, beq_iff_eq] at href
      exact href.1.symm
  · rintro ⟨⟨m, hm, ht⟩, h2⟩
    refine ⟨?_, fun m hm => ?_⟩
    · intro h
      have : m ∈ r.members.filter (mpCfg.keep r) := List.mem_filter.2 ⟨hm, (hk m).2 ht⟩
      rw [h] at this
      simp at this
    · rw [List.mem_filter, hk] at hm
      obtain ⟨w, hw, he⟩ := h2 m hm.1 hm.2
      refine ⟨.way w, List.mem_map.2 ⟨w, hw, rfl⟩, ?_⟩
      simp [refersTo, OsmObj.obj, he, hm.2]

theorem memberWays_file (ws : List Way) (r : Relation) :
    memberWays (slots mpCfg (ws.map OsmObj.way) r) = .ok (wayMembers ws r) := by
  unfold slots wayMembers
  generalize r.members = ms
  induction ms with
  | nil => rfl
  | cons m ms ih =>
    rw [List.map_cons, List.map_cons]
    unfold memberWays
    by_cases ht : m.type = 'w'
    · have hk : mpCfg.keep r m = true := by simp [mpCfg, ht]
      rw [if_pos hk, if_pos ht, List.find?_map]
      have e : (refersTo m ∘ OsmObj.way) = fun w : Way => decide (w.obj.id = m.ref) := by
        funext w
        simp only [Function.comp, refersTo, OsmObj.obj, ht]
        by_cases h : m.ref = w.obj.id
        · simp [h]
        · have : ¬ w.obj.id = m.ref := fun h' => h h'.symm
          simp [h, this]
      rw [e]
      cases ws.find? fun w => decide (w.obj.id = m.ref) with
      | none => simp only [Option.map_none, memberWay]; rw [ih]; rfl
      | some w => simp only [Option.map_some, memberWay]; rw [ih]; rfl
    · have hk : ¬ mpCfg.keep r m = true := by simp [mpCfg, ht]
      rw [if_neg hk, if_neg ht]
      simp only [memberWay]
      rw [ih]
      rfl

theorem wayMembers_mem {ws : List Way} {r : Relation} {w : Way} (h : some w ∈ wayMembers ws r) : w ∈ ws := by
  unfold wayMembers at h
  obtain ⟨m, -, hm⟩ := List.mem_map.1 h
  split at hm
  · exact List.mem_of_find?_eq_some hm
  · cases hm

/-! ### All hooks together -/

/-- Either all hooks succeed, or the first error is the result. -/
theorem wholeCalls_cases (env : WholeEnv) (es : List AsmEvent) :
    (∃ e ∈ es, ∃ f, wholeHook env e = .error f ∧ wholeCalls env es = .error f) ∨
    ((∀ e ∈ es, ∃ cs, wholeHook env e = .ok cs) ∧
      wholeCalls env es = .ok (es.flatMap fun e => (wholeHook env e).toOption.getD [])) := by
  induction es with
  | nil => right; exact ⟨by simp, rfl⟩
  | cons e es ih =>
    unfold wholeCalls
    cases h : wholeHook env e with
    | error f => left; exact ⟨e, by simp, f, h, rfl⟩
    | ok cs =>
      rcases ih with ⟨e', he', f, h1, h2⟩ | ⟨h1, h2⟩
      · left
        exact ⟨e', by simp [he'], f, h1, by simp only [h2]; rfl⟩
      · right
        refine ⟨?_, ?_⟩
        · intro e' he'
          rcases List.mem_cons.1 he' with rfl | he'
          · exact ⟨cs, h⟩
          · exact h1 e' he'
        · simp only [h2, Except.map, List.flatMap_cons, h]
          rfl

theorem areasIn_flatMap {α : Type} (f : α → List WholeCall) (l : List α) :
    areasIn (l.flatMap f) = l.flatMap fun a => areasIn (f a) := by
  unfold areasIn
  rw [List.filterMap_flatMap]

/-- Sorting the hooks by what they are about. -/
theorem hooks_perm {α : Type} (f : AsmEvent → List α) (h1 : f .allAvailable = []) (h2 : ∀ c, f (.next c) = [])
    (es : List AsmEvent) :
    (es.flatMap f).Perm ((notInAnys es).flatMap (fun o => f (.notInAny o)) ++
      (completions es).flatMap fun p => f (.complete p.1 p.2)) := by
  induction es with
  | nil => exact .refl _
  | cons e es ih =>
    rw [List.flatMap_cons]
    cases e with
    | allAvailable => rw [h1]; exact ih
    | next c => rw [h2]; exact ih
    | notInAny o =>
      have e1 : notInAnys (.notInAny o :: es) = o :: notInAnys es := rfl
      have e2 : completions (.notInAny o :: es) = completions es := rfl
      rw [e1, e2, List.flatMap_cons, List.append_assoc]
      exact ih.append_left _
    | complete r ms =>
      have e1 : notInAnys (.complete r ms :: es) = notInAnys es := rfl
      have e2 : completions (.complete r ms :: es) = (r, ms) :: completions es := rfl
      rw [e1, e2, List.flatMap_cons]
      refine (ih.append_left _).trans ?_
      rw [← List.append_assoc, ← List.append_assoc]
      exact (List.perm_append_comm).append_right _

theorem flatMap_filter_if {α β : Type} (p q : α → Bool) (f : α → List β) (g : α → β) (l : List α)
    (h : ∀ a ∈ l, f a = if q a = true then [g a] else []) :
    (l.filter p).flatMap f = (l.filter fun a => p a && q a).map g := by
  induction l with
  | nil => rfl
  | cons a l ih =>
    have ih := ih fun b hb => h b (by simp [hb])
    have ha := h a (by simp)
    simp only [List.filter_cons]
    cases hp : p a with
    | false => simpa using ih
    | true =>
      cases hq : q a with
      | false => simp [ha, hq]; simpa using ih
      | true => simp [ha, hq]; simpa using ih

theorem otherCalls_hooks (env : WholeEnv) (es : List AsmEvent) :
    otherCalls (es.flatMap fun e => (wholeHook env e).toOption.getD []) = nextCalls es := by
  unfold otherCalls nextCalls
  rw [List.filterMap_flatMap]
  induction es with
  | nil => rfl
  | cons e es ih =>
    rw [List.flatMap_cons, ih]
    have area_map : ∀ (l : List (Area × Option Geom)), (l.map fun a => WholeCall.area a.1 a.2).filterMap
        (fun | .call c => some c | _ => none) = ([] : List Cb) := by
      intro l; rw [List.filterMap_map]; simp [Function.comp_def]
    have area_map' : ∀ (l : List Area), (l.map fun a => WholeCall.area a none).filterMap
        (fun | .call c => some c | _ => none) = ([] : List Cb) := by
      intro l; rw [List.filterMap_map]; simp [Function.comp_def]
    cases e with
    | next c => rfl
    | allAvailable => rfl
    | notInAny o =>
      cases o with
      | way w =>
        simp only [wholeHook]
        cases wayArea w with
        | error f => rfl
        | ok as =>
          simp only [Except.map, Except.toOption, Option.getD_some]
          rw [area_map']
          rfl
      | node n => rfl
      | relation n => rfl
    | complete r ms =>
      simp only [wholeHook]
      cases memberWays ms with
      | error f => rfl
      | ok ws =>
        simp only
        cases buildWhole env r ws with
        | error f => rfl
        | ok as =>
          simp only [Except.map, Except.toOption, Option.getD_some]
          rw [area_map]
          rfl

/-- The builder fails only when GEOS throws. -/
theorem buildWhole_cases (env : WholeEnv) (hsort : env.ringEnv.SortOk) (r : Relation) (members : List (Option Way))
    (hr : SmallId r.obj.id) (hm : ∀ w, some w ∈ members → SmallId w.obj.id)
    (hv : ∀ w, some w ∈ members → ∀ t ∈ w.obj.tags, t.value ≠ "") :
    (∃ as, buildWhole env r members = .ok as) ∨ buildWhole env r members = .error geosError := by
  obtain ⟨ws, ts, -, -, -, -, -, -, h⟩ := whole_areas env hsort r members hr hm hv
  rcases h with ⟨msg, -, h⟩ | ⟨s, -, -, h⟩ | ⟨s, -, -, extra, -, -, -, h⟩
  · exact .inl ⟨_, h⟩
  · exact .inr h
  · rcases h with ⟨ps, last, -, -, -, -, h⟩ | ⟨-, h⟩ | ⟨-, h⟩
    · exact .inl ⟨_, h⟩
    · exact .inl ⟨_, h⟩
    · exact .inr h

/-- The same as `multipolygons_file_partial`, with the relations that are completed by the second pass. -/
theorem multipolygons_file_events {S T : Type} {pos : IdStore S Position} {neg : IdStore T Position}
    {okp okn : List (Nat × Position) → Prop} {up un : Nat → Res Position} {unset : Position}
    (fp : Faithful pos okp up) (fn : Faithful neg okn un) (env : WholeEnv) (hsort : env.ringEnv.SortOk) (m : Meta)
    (ns : List Node) (ws : List Way) (rs : List Relation) (hd : DistinctObjects (fileOf ns ws rs))
    (hn : ∀ n ∈ ns, NegatableId n.obj.id) (hw : ∀ w ∈ ws, ∀ wn ∈ w.nodes, NegatableId wn.ref)
    (hokp : ∀ j, okp ((posOps (nodeCalls ns)).take j)) (hokn : ∀ j, okn ((negOps (nodeCalls ns)).take j))
    (hu : ∀ w ∈ ws, ∀ wn ∈ w.nodes, (∀ n ∈ ns, n.obj.id ≠ wn.ref) →
      (if 0 ≤ wn.ref then up wn.ref.toNat else un (-wn.ref).toNat) = .ok unset)
    (hnodes : ∀ w ∈ ws, w.nodes ≠ []) (hidw : ∀ w ∈ ws, SmallId w.obj.id) (hidr : ∀ r ∈ rs, SmallId r.obj.id)
    (hv : ∀ w ∈ ws, ∀ t ∈ w.obj.tags, t.value ≠ "")
    (s : Asm) (h1 : Asm.AfterPass1 mpCfg (protocol m (fileOf ns ws rs)) s) :
    ∃ ws' s' ev, List.Forall₂ (LocatedBy ns unset) ws ws' ∧
      cfwRun pos neg (pos.empty, neg.empty) (protocol m (fileOf ns ws rs)) = .ok (protocol m (fileOf ns ws' rs)) ∧
      s.pass2 mpCfg (protocol m (fileOf ns ws' rs)) = .ok (s', ev) ∧
      (completions ev).Perm ((rs.filter fun r => decide (IsMultipolygon r) && decide (HasItsWays ws' r)).map
        fun r => (r, slots mpCfg (ws'.map OsmObj.way) r)) ∧
      ((secondPass env pos neg s (protocol m (fileOf ns ws rs)) = .error geosError ∧
          ∃ r ∈ rs, IsMultipolygon r ∧ HasItsWays ws' r ∧ buildWhole env r (wayMembers ws' r) = .error geosError) ∨
       ∃ calls, secondPass env pos neg s (protocol m (fileOf ns ws rs)) = .ok calls ∧
          (∀ r ∈ rs, IsMultipolygon r → HasItsWays ws' r → ∃ as, buildWhole env r (wayMembers ws' r) = .ok as) ∧
          otherCalls calls = protocol m (fileOf ns ws' rs) ∧
          (areasIn calls).Perm
            ((ws'.filter fun w => decide (¬ InMultipolygon rs w) && decide (IsClosedArea w)).map areaOfWay ++
             (rs.filter fun r => decide (IsMultipolygon r) && decide (HasItsWays ws' r)).flatMap
              (areasOfRelation env ws'))) := by
  obtain ⟨ws', hl, hcfw⟩ := coordinates_file fp fn m ns ws rs (distinct_nodes hd) hn hw hokp hokn hu
  have hobj := located_ids hl
  have hback : ∀ w' ∈ ws', ∃ w ∈ ws, w.obj = w'.obj ∧ LocatedBy ns unset w w' := by
    intro w' hw'
    obtain ⟨i, hi, rfl⟩ := List.getElem_of_mem hw'
    have hlen := hl.length_eq
    refine ⟨ws[i]'(by omega), List.getElem_mem _, ?_⟩
    have := hl.get (i := i) (by omega) hi
    simp only [List.get_eq_getElem] at this
    exact ⟨this.1.symm, this⟩
  have hnodes' : ∀ w ∈ ws', w.nodes ≠ [] := by
    intro w hw'
    obtain ⟨v, hv1, -, hv2⟩ := hback w hw'
    intro h
    have := located_refs hv2
    rw [h] at this
    exact hnodes v hv1 (by simpa using this.symm)
  have hidw' : ∀ w ∈ ws', SmallId w.obj.id := by
    intro w hw'
    obtain ⟨v, hv1, e, -⟩ := hback w hw'
    rw [← e]; exact hidw v hv1
  have hv' : ∀ w ∈ ws', ∀ t ∈ w.obj.tags, t.value ≠ "" := by
    intro w hw'
    obtain ⟨v, hv1, e, -⟩ := hback w hw'
    rw [← e]; exact hv v hv1
  obtain ⟨s', ev, k1, k2, k3, k4, -⟩ := assembler_file_partial mpCfg m (ns.map OsmObj.node) (ws'.map OsmObj.way) rs
    fileOf_nodes fileOf_ways (distinct_located hl hd) s (pass1_located m ns ws ws' rs unset hl s h1)
  change s.pass2 mpCfg (protocol m (fileOf ns ws' rs)) = _ at k1
  change nextCalls ev = protocol m (fileOf ns ws' rs) at k4
  have hread := read_file ns ws' rs
  unfold fileOf at hread
  rw [hread] at k2 k3
  -- what is reported
  have hcompl : (completions ev).Perm ((rs.filter fun r => decide (IsMultipolygon r) && decide (HasItsWays ws' r)).map
      fun r => (r, slots mpCfg (ws'.map OsmObj.way) r)) := by
    refine k2.trans (List.Perm.of_eq ?_)
    rw [List.filter_filter]
    congr 1
    apply List.filter_congr
    intro r _
    rw [Bool.and_comm]
    congr 1
    · have := mp_accept_iff r
      by_cases h : IsMultipolygon r
      · simp [h, this.2 h]
      · have : mpCfg.accept r = false := by
          cases hc : mpCfg.accept r with
          | false => rfl
          | true => exact absurd (this.1 hc) h
        simp [h, this]
    · exact decide_eq_decide.2 (completable_ways ws' r)
  refine ⟨ws', s', ev, hl, hcfw, k1, hcompl, ?_⟩
  have hnot : notInAnys ev = (ws'.filter fun w => decide (¬ InMultipolygon rs w)).map OsmObj.way := by
    rw [k3, List.filter_map]
    congr 1
    apply List.filter_congr
    intro w _
    simp only [Function.comp, mp_referenced_iff]
  have hcomplete : ∀ r ms, AsmEvent.complete r ms ∈ ev → r ∈ rs ∧ IsMultipolygon r ∧ HasItsWays ws' r ∧
      wholeHook env (.complete r ms) =
        (buildWhole env r (wayMembers ws' r)).map fun as => as.map fun a => WholeCall.area a.1 a.2 := by
    intro r ms he
    have : (r, ms) ∈ completions ev := List.mem_filterMap.2 ⟨_, he, rfl⟩
    obtain ⟨r', hr', e⟩ := List.mem_map.1 (hcompl.subset this)
    simp only [Prod.mk.injEq] at e
    obtain ⟨rfl, rfl⟩ := e
    simp only [List.mem_filter, Bool.and_eq_true, decide_eq_true_eq] at hr'
    refine ⟨hr'.1, hr'.2.1, hr'.2.2, ?_⟩
    simp only [wholeHook]
    rw [memberWays_file]
  have hcompleted : ∀ r ∈ rs, IsMultipolygon r → HasItsWays ws' r →
      AsmEvent.complete r (slots mpCfg (ws'.map OsmObj.way) r) ∈ ev := by
    intro r hr h2 h3
    have : (r, slots mpCfg (ws'.map OsmObj.way) r) ∈ completions ev :=
      hcompl.symm.subset (List.mem_map.2 ⟨r, by simp [hr, h2, h3], rfl⟩)
    obtain ⟨e, he, e'⟩ := List.mem_filterMap.1 this
    cases e with
    | complete r2 ms2 => cases e'; exact he
    | notInAny o => cases e'
    | allAvailable => cases e'
    | next c => cases e'
  have hnotin : ∀ o, AsmEvent.notInAny o ∈ ev → ∃ w ∈ ws', o = .way w := by
    intro o he
    have : o ∈ notInAnys ev := List.mem_filterMap.2 ⟨_, he, rfl⟩
    rw [hnot] at this
    obtain ⟨w, hw, rfl⟩ := List.mem_map.1 this
    exact ⟨w, List.mem_of_mem_filter hw, rfl⟩
  have hwayhook : ∀ w ∈ ws', wholeHook env (.notInAny (.way w)) =
      .ok (if IsClosedArea w then [.area (areaOfWay w).1 none] else []) := by
    intro w hw'
    simp only [wholeHook]
    rw [wayArea_spec w (hnodes' w hw') (hidw' w hw')]
    simp only [Except.map]
    split <;> rfl
  have hsecond : secondPass env pos neg s (protocol m (fileOf ns ws rs)) = wholeCalls env ev := by
    unfold secondPass
    rw [hcfw]
    simp only [k1]
  rw [hsecond]
  rcases wholeCalls_cases env ev with ⟨e, he, f, g1, g2⟩ | ⟨g1, g2⟩
  · left
    cases e with
    | next c => cases g1
    | allAvailable => cases g1
    | notInAny o =>
      obtain ⟨w, hw', rfl⟩ := hnotin o he
      rw [hwayhook w hw'] at g1
      cases g1
    | complete r ms =>
      obtain ⟨c1, c2, c3, c4⟩ := hcomplete r ms he
      rw [c4] at g1
      rcases buildWhole_cases env hsort r (wayMembers ws' r) (hidr r c1)
        (fun w hw' => hidw' w (wayMembers_mem hw')) (fun w hw' => hv' w (wayMembers_mem hw')) with ⟨as, ha⟩ | ha
      · rw [ha] at g1; cases g1
      · rw [ha] at g1
        cases g1
        exact ⟨g2, r, c1, c2, c3, ha⟩
  · right
    have hok : ∀ r ∈ rs, IsMultipolygon r → HasItsWays ws' r → ∃ as, buildWhole env r (wayMembers ws' r) = .ok as := by
      intro r hr h2 h3
      have he := hcompleted r hr h2 h3
      obtain ⟨cs, hcs⟩ := g1 _ he
      rw [(hcomplete _ _ he).2.2.2] at hcs
      cases hb : buildWhole env r (wayMembers ws' r) with
      | ok as => exact ⟨as, rfl⟩
      | error f => rw [hb] at hcs; cases hcs
    refine ⟨_, g2, hok, ?_, ?_⟩
    · rw [otherCalls_hooks]; exact k4
    · rw [areasIn_flatMap]
      have hp := hooks_perm (fun e => areasIn ((wholeHook env e).toOption.getD [])) rfl (fun _ => rfl) ev
      refine hp.trans ?_
      refine List.Perm.append ?_ ?_
      · refine List.Perm.of_eq ?_
        rw [hnot, List.flatMap_map]
        apply flatMap_filter_if
        intro w hw'
        simp only [hwayhook w hw', decide_eq_true_eq]
        split <;> rfl
      · refine (hcompl.flatMap_right _).trans (List.Perm.of_eq ?_)
        rw [List.flatMap_map]
        apply List.flatMap_congr
        intro r hr
        simp only [List.mem_filter, Bool.and_eq_true, decide_eq_true_eq] at hr
        have he := hcompleted r hr.1 hr.2.1 hr.2.2
        obtain ⟨as, ha⟩ := hok r hr.1 hr.2.1 hr.2.2
        simp only [(hcomplete _ _ he).2.2.2, areasOfRelation, ha, Except.map, Except.toOption, Option.getD_some, areasIn,
          List.filterMap_map]
        simp [Function.comp_def]

/-- **C83** (partial: files with nodes, ways and relations in this order, of which no object occurs twice; ids below
2^62 in size; ways have nodes and their tags have values).  For every such file read twice, with any faithful
location stores and whatever GEOS says:

The ways get the positions their nodes have in the file.  If GEOS throws an exception for a relation that has all
its ways, the exception is the result.  Otherwise the handler gets, in order, all the calls for the file with the
located ways; and besides them, exactly the areas of the closed ways that are not members of a multipolygon
relation, and those of the multipolygon relations that have ways, all of which are in the file. -/
theorem multipolygons_file_partial {S T : Type} {pos : IdStore S Position} {neg : IdStore T Position}
    {okp okn : List (Nat × Position) → Prop} {up un : Nat → Res Position} {unset : Position}
    (fp : Faithful pos okp up) (fn : Faithful neg okn un) (env : WholeEnv) (hsort : env.ringEnv.SortOk) (m : Meta)
    (ns : List Node) (ws : List Way) (rs : List Relation) (hd : DistinctObjects (fileOf ns ws rs))
    (hn : ∀ n ∈ ns, NegatableId n.obj.id) (hw : ∀ w ∈ ws, ∀ wn ∈ w.nodes, NegatableId wn.ref)
    (hokp : ∀ j, okp ((posOps (nodeCalls ns)).take j)) (hokn : ∀ j, okn ((negOps (nodeCalls ns)).take j))
    (hu : ∀ w ∈ ws, ∀ wn ∈ w.nodes, (∀ n ∈ ns, n.obj.id ≠ wn.ref) →
      (if 0 ≤ wn.ref then up wn.ref.toNat else un (-wn.ref).toNat) = .ok unset)
    (hnodes : ∀ w ∈ ws, w.nodes ≠ []) (hidw : ∀ w ∈ ws, SmallId w.obj.id) (hidr : ∀ r ∈ rs, SmallId r.obj.id)
    (hv : ∀ w ∈ ws, ∀ t ∈ w.obj.tags, t.value ≠ "")
    (s : Asm) (h1 : Asm.AfterPass1 mpCfg (protocol m (fileOf ns ws rs)) s) :
    ∃ ws', List.Forall₂ (LocatedBy ns unset) ws ws' ∧
      ((secondPass env pos neg s (protocol m (fileOf ns ws rs)) = .error geosError ∧
          ∃ r ∈ rs, IsMultipolygon r ∧ HasItsWays ws' r ∧ buildWhole env r (wayMembers ws' r) = .error geosError) ∨
       ∃ calls, secondPass env pos neg s (protocol m (fileOf ns ws rs)) = .ok calls ∧
          (∀ r ∈ rs, IsMultipolygon r → HasItsWays ws' r → ∃ as, buildWhole env r (wayMembers ws' r) = .ok as) ∧
          otherCalls calls = protocol m (fileOf ns ws' rs) ∧
          (areasIn calls).Perm
            ((ws'.filter fun w => decide (¬ InMultipolygon rs w) && decide (IsClosedArea w)).map areaOfWay ++
             (rs.filter fun r => decide (IsMultipolygon r) && decide (HasItsWays ws' r)).flatMap
              (areasOfRelation env ws'))) := by
  obtain ⟨ws', -, -, hl, -, -, -, h⟩ :=
    multipolygons_file_events fp fn env hsort m ns ws rs hd hn hw hokp hokn hu hnodes hidw hidr hv s h1
  exact ⟨ws', hl, h⟩

/-- **C83.**  The areas of a relation have geometries all of whose corners are positions of nodes of the file: of nodes
of ways that are members of the relation (or the position of unset locations, for nodes that are not in the file).  If
GEOS makes no new corners when it merges rings, and no ring has more than 2^30 nodes. -/
theorem file_corners (env : WholeEnv) (hsort : env.ringEnv.SortOk) (hg : NoNewCorners env.mp) (ns : List Node)
    (ws ws' : List Way) (unset : Position) (hl : List.Forall₂ (LocatedBy ns unset) ws ws') (r : Relation)
    (hr : SmallId r.obj.id) (hidw : ∀ w ∈ ws, SmallId w.obj.id) (hv : ∀ w ∈ ws, ∀ t ∈ w.obj.tags, t.value ≠ "")
    (hsmall : ∀ s, makeRings env.ringEnv (assembleWays env.repair (wayMembers ws' r) [] r.obj.timestamp).1 = .ok s →
      ∀ k ∈ s.rings, (walk (ringPath s.ways k)).length ≤ 1073741824)
    (as : List (Area × Option Geom)) (h : buildWhole env r (wayMembers ws' r) = .ok as) :
    ∀ a ∈ as, ∃ ps, a.2 = some (.multi ps) ∧ ps ≠ [] ∧
      ∀ q ∈ ps, ∀ c ∈ q.1 :: q.2, ∀ p ∈ c,
        ∃ w ∈ ws, (∃ m ∈ r.members, m.type = 'w' ∧ m.ref = w.obj.id) ∧
          ∃ wn ∈ w.nodes, (∃ n ∈ ns, n.obj.id = wn.ref ∧ n.position = p) ∨
            ((∀ n ∈ ns, n.obj.id ≠ wn.ref) ∧ p = unset) := by
  have hback : ∀ w' ∈ ws', ∃ w ∈ ws, LocatedBy ns unset w w' := by
    intro w' hw'
    obtain ⟨i, hi, rfl⟩ := List.getElem_of_mem hw'
    have hlen := hl.length_eq
    refine ⟨ws[i]'(by omega), List.getElem_mem _, ?_⟩
    have := hl.get (i := i) (by omega) hi
    simpa only [List.get_eq_getElem] using this
  have hc := whole_corners env hsort hg r (wayMembers ws' r) hr
    (by
      intro w hw
      obtain ⟨v, hv1, e⟩ := hback w (wayMembers_mem hw)
      rw [e.1]; exact hidw v hv1)
    (by
      intro w hw
      obtain ⟨v, hv1, e⟩ := hback w (wayMembers_mem hw)
      rw [e.1]; exact hv v hv1) hsmall as h
  intro a ha
  obtain ⟨ps, g1, g2, g3⟩ := hc a ha
  refine ⟨ps, g1, g2, fun q hq c hc p hp => ?_⟩
  obtain ⟨w', hw', wn', hwn', rfl⟩ := g3 q hq c hc p hp
  have hw'2 : some w' ∈ wayMembers ws' r := by simpa using hw'
  obtain ⟨w, hw, hloc⟩ := hback w' (wayMembers_mem hw'2)
  refine ⟨w, hw, ?_, ?_⟩
  · unfold wayMembers at hw'2
    obtain ⟨m, hm, he⟩ := List.mem_map.1 hw'2
    split at he
    · rename_i ht
      have := List.find?_some he
      simp only [decide_eq_true_eq] at this
      exact ⟨m, hm, ht, by rw [← this, hloc.1]⟩
    · cases he
  · have hf := hloc.2
    generalize w.nodes = A at *
    generalize w'.nodes = B at *
    clear hw'2 hw' hw
    induction hf with
    | nil => simp at hwn'
    | @cons a b A B k1 _ ih =>
      rcases List.mem_cons.1 hwn' with rfl | hwn'
      · refine ⟨a, by simp, ?_⟩
        by_cases hex : ∃ n ∈ ns, n.obj.id = a.ref
        · obtain ⟨n, hn, hid⟩ := hex
          exact .inl ⟨n, hn, hid, (k1.2.1 n hn hid).symm⟩
        · have hno : ∀ n ∈ ns, n.obj.id ≠ a.ref := fun n hn hid => hex ⟨n, hn, hid⟩
          exact .inr ⟨hno, k1.2.2 hno⟩
      · obtain ⟨wn, hwn, hx⟩ := ih hwn'
        exact ⟨wn, by simp [hwn], hx⟩

/-! ### A script behind it -/

/-- The calls for a handler. (helper for statements and proofs, no counterpart in /repo) -/
def WholeCall.toH : WholeCall → HCall
  | .area a _ => .area (a.obj, a.nodes)
  | .call c => .cb c

/-- osmjs/osmjs.cpp 243-255: the second pass with a script; `asm` is the assembler after the first one, which
gives nothing to the script. -/
def osmjsTwoPass {σ Loc F S T : Type} (e : Engine σ Loc F) (s : σ) (env : WholeEnv) (pos : IdStore S Position)
    (neg : IdStore T Position) (asm : Asm) (calls : List Cb) : Res σ :=
  let h := jsConstruct e s
  (secondPass env pos neg asm calls).map fun cs => ((jsHandler e h.2).runAll h.1 (cs.map WholeCall.toH)).1

theorem protocol_methods (m : Meta) (ns : List Node) (ws : List Way) (rs : List Relation) :
    ∀ c ∈ protocol m (fileOf ns ws rs), isMethod (.cb c) := by
  intro c hc
  rw [protocol_fileOf] at hc
  simp only [List.mem_append, List.mem_cons, List.not_mem_nil, or_false] at hc
  rcases hc with (rfl | hc) | hc | hc | rfl
  · trivial
  · rcases mem_runCalls fileOf_nodes hc with rfl | rfl | ⟨o, ho, rfl⟩ <;> simp [isMethod]
  · rcases mem_runCalls fileOf_ways hc with rfl | rfl | ⟨o, ho, rfl⟩ <;> simp [isMethod]
  · rcases mem_runCalls fileOf_relations hc with rfl | rfl | ⟨o, ho, rfl⟩ <;> simp [isMethod]
  · trivial

/-- **C83** (partial, as above, and for scripts that keep the object with the callbacks).  What a script gets from
osmjs with multipolygons: its functions are called, in order, for all the calls for the file with located ways, and
besides them for exactly the areas of the closed ways that are not members of a multipolygon relation and of the
multipolygon relations that have all their ways. -/
theorem script_multipolygons_partial {σ Loc F S T : Type} (e : Engine σ Loc F) (s0 : σ)
    (hkeep : e.callbacks (e.load s0) = e.callbacks s0)
    {pos : IdStore S Position} {neg : IdStore T Position}
    {okp okn : List (Nat × Position) → Prop} {up un : Nat → Res Position} {unset : Position}
    (fp : Faithful pos okp up) (fn : Faithful neg okn un) (env : WholeEnv) (hsort : env.ringEnv.SortOk) (m : Meta)
    (ns : List Node) (ws : List Way) (rs : List Relation) (hd : DistinctObjects (fileOf ns ws rs))
    (hn : ∀ n ∈ ns, NegatableId n.obj.id) (hw : ∀ w ∈ ws, ∀ wn ∈ w.nodes, NegatableId wn.ref)
    (hokp : ∀ j, okp ((posOps (nodeCalls ns)).take j)) (hokn : ∀ j, okn ((negOps (nodeCalls ns)).take j))
    (hu : ∀ w ∈ ws, ∀ wn ∈ w.nodes, (∀ n ∈ ns, n.obj.id ≠ wn.ref) →
      (if 0 ≤ wn.ref then up wn.ref.toNat else un (-wn.ref).toNat) = .ok unset)
    (hnodes : ∀ w ∈ ws, w.nodes ≠ []) (hidw : ∀ w ∈ ws, SmallId w.obj.id) (hidr : ∀ r ∈ rs, SmallId r.obj.id)
    (hv : ∀ w ∈ ws, ∀ t ∈ w.obj.tags, t.value ≠ "")
    (hgeos : ∀ ws', List.Forall₂ (LocatedBy ns unset) ws ws' → ∀ r ∈ rs, IsMultipolygon r → HasItsWays ws' r →
      buildWhole env r (wayMembers ws' r) ≠ .error geosError)
    (s : Asm) (h1 : Asm.AfterPass1 mpCfg (protocol m (fileOf ns ws rs)) s) :
    ∃ ws' calls, List.Forall₂ (LocatedBy ns unset) ws ws' ∧
      osmjsTwoPass e s0 env pos neg s (protocol m (fileOf ns ws rs)) =
        .ok (called e (e.props (e.load s0) (e.callbacks (e.load s0))) (e.load s0) calls) ∧
      (calls.filterMap fun | .cb c => some c | _ => none) = protocol m (fileOf ns ws' rs) ∧
      (calls.filterMap fun | .area a => some a | _ => none).Perm
        ((ws'.filter fun w => decide (¬ InMultipolygon rs w) && decide (IsClosedArea w)).map
            (fun w => ({ w.obj with id := w.obj.id * 2 }, w.nodes)) ++
          (rs.filter fun r => decide (IsMultipolygon r) && decide (HasItsWays ws' r)).flatMap
            fun r => (areasOfRelation env ws' r).map fun a => (a.1.obj, a.1.nodes)) := by
  obtain ⟨ws', hl, h⟩ := multipolygons_file_partial fp fn env hsort m ns ws rs hd hn hw hokp hokn hu hnodes hidw hidr hv s h1
  rcases h with ⟨-, r, hb1, hb2, hb3, hbad⟩ | ⟨calls, h2, -, h3, h4⟩
  · exact absurd hbad (hgeos ws' hl r hb1 hb2 hb3)
  refine ⟨ws', calls.map WholeCall.toH, hl, ?_, ?_, ?_⟩
  · have hm : ∀ c ∈ calls.map WholeCall.toH, isMethod c := by
      intro c hc
      obtain ⟨d, hd', rfl⟩ := List.mem_map.1 hc
      cases d with
      | area a g => trivial
      | call c =>
        refine protocol_methods m ns ws' rs c ?_
        rw [← h3]
        exact List.mem_filterMap.2 ⟨_, hd', rfl⟩
    have := script_called_partial e s0 (calls.map WholeCall.toH) hm hkeep
    dsimp only at this
    unfold osmjsTwoPass
    rw [h2]
    simp only [Except.map, this]
  · rw [← h3, List.filterMap_map]
    unfold otherCalls
    congr 1
    funext c
    cases c <;> rfl
  · have e1 : ((calls.map WholeCall.toH).filterMap fun | .area a => some a | _ => none) =
        (areasIn calls).map fun a => (a.1.obj, a.1.nodes) := by
      rw [List.filterMap_map]
      unfold areasIn
      rw [List.map_filterMap]
      congr 1
      funext c
      cases c <;> rfl
    rw [e1]
    refine (h4.map _).trans (List.Perm.of_eq ?_)
    rw [List.map_append, List.map_map, List.map_flatMap]
    rfl

/-! ### An example: the squares of C76 as a file -/

/-- The four corners of a square as nodes. (data for the examples, no counterpart in /repo) -/
def squareNodes (ref x y size : Int) : List Node :=
  [⟨{ Obj.new with id := ref }, ⟨x, y⟩⟩, ⟨{ Obj.new with id := ref + 1 }, ⟨x + size, y⟩⟩,
   ⟨{ Obj.new with id := ref + 2 }, ⟨x + size, y + size⟩⟩, ⟨{ Obj.new with id := ref + 3 }, ⟨x, y + size⟩⟩]

/-- The nodes of five squares. (data for the examples, no counterpart in /repo) -/
def pipeNodes : List Node :=
  squareNodes 1 0 0 100 ++ squareNodes 11 10 10 2 ++ squareNodes 21 12 10 2 ++ squareNodes 31 200 0 10 ++
    squareNodes 41 500 0 10

/-- The ways of the members and a closed way that is not a member, as they are in the file:
without positions. (data for the examples, no counterpart in /repo) -/
def pipeWays : List Way :=
  (squareMembers.filterMap id ++ [squareWay 6 41 500 0 10 [⟨"building", "yes"⟩]]).map fun w =>
    { w with nodes := w.nodes.map fun n => { n with position := .undef } }

/-- Two relations: one has all its ways, the other one does not. (data for the examples, no
counterpart in /repo) -/
def pipeRelations : List Relation :=
  [⟨squareRelation.obj, [⟨'w', 1, "outer"⟩, ⟨'w', 2, "inner"⟩, ⟨'n', 1, ""⟩, ⟨'w', 3, "inner"⟩, ⟨'w', 4, "outer"⟩,
     ⟨'w', 5, "outer"⟩]⟩,
   ⟨{ squareRelation.obj with id := 10 }, [⟨'w', 77, ""⟩]⟩]

/-- The calls for the file. (data for the examples, no counterpart in /repo) -/
def pipeCalls : List Cb := protocol (Meta.new false) (fileOf pipeNodes pipeWays pipeRelations)

/-- The assembler after the first pass. (data for the examples, no counterpart in /repo) -/
def pipeAsm : Asm := ((Asm.new mpCfg).pass1 mpCfg pipeCalls).1

theorem pipe_pass1 : Asm.AfterPass1 mpCfg pipeCalls pipeAsm := by
  have h2 : ((Asm.new mpCfg).pass1 mpCfg pipeCalls).2 = true := by decide +kernel
  simp only [Asm.AfterPass1, h2, if_true]
  refine ⟨rfl, rfl, fun t => ⟨.refl _, ?_⟩⟩
  cases t <;> decide +kernel

/-- The stores. (data for the examples, no counterpart in /repo) -/
def pipeStore : IdStore (Table Position) Position := sparseTable Position .undef 100

/-- What comes out: the areas of C76 and the one of the closed way; nothing for the relation that lacks a way. -/
example : (secondPass squareEnv pipeStore pipeStore pipeAsm pipeCalls).toOption.map
      (fun calls => (areasIn calls).map fun a => (a.1.obj.id, a.1.obj.tags, a.2)) =
    some [(6, [⟨"natural", "wood"⟩], some (.multi [((square 12 10 2).reverse, [])])),
     (19, [⟨"type", "multipolygon"⟩, ⟨"natural", "water"⟩], some (.multi
        [((square 0 0 100).reverse, [[⟨10, 10⟩, ⟨14, 10⟩, ⟨14, 12⟩, ⟨10, 12⟩, ⟨10, 10⟩]]),
         ((square 200 0 10).reverse, [])])),
     (12, [⟨"building", "yes"⟩], none)] := by
  decide +kernel

/-- The hypotheses are met. -/
example : DistinctObjects (fileOf pipeNodes pipeWays pipeRelations) ∧
    (∀ n ∈ pipeNodes, NegatableId n.obj.id) ∧ (∀ w ∈ pipeWays, ∀ wn ∈ w.nodes, NegatableId wn.ref) ∧
    (∀ j, RoomToGrow 100 ((posOps (nodeCalls pipeNodes)).take j)) ∧
    (∀ j, RoomToGrow 100 ((negOps (nodeCalls pipeNodes)).take j)) ∧
    (∀ w ∈ pipeWays, ∀ wn ∈ w.nodes, ∃ n ∈ pipeNodes, n.obj.id = wn.ref) ∧
    (∀ w ∈ pipeWays, w.nodes ≠ []) ∧ (∀ w ∈ pipeWays, SmallId w.obj.id) ∧ (∀ r ∈ pipeRelations, SmallId r.obj.id) ∧
    (∀ w ∈ pipeWays, ∀ t ∈ w.obj.tags, t.value ≠ "") := by
  have hneg : negOps (nodeCalls pipeNodes) = [] := by decide +kernel
  have hpos : ∀ o ∈ posOps (nodeCalls pipeNodes), o.1 < 100 := by decide +kernel
  refine ⟨?_, ?_, ?_, ?_, ?_, ?_, ?_, ?_, ?_, ?_⟩
  · unfold DistinctObjects; decide +kernel
  · unfold NegatableId; decide +kernel
  · unfold NegatableId; decide +kernel
  · intro j o ho
    have := hpos o (List.mem_of_mem_take ho)
    simp at *
    omega
  · intro j o ho
    rw [hneg] at ho
    simp at ho
  · decide +kernel
  · decide +kernel
  · unfold SmallId; decide +kernel
  · unfold SmallId; decide +kernel
  · decide +kernel

end Osmium

import Verif.Relations.Props
import Verif.Storage.ObjectStore

/-
C40, C41, C42 for whole files.
-/
namespace Osmium
open Spec

theorem asmRelations_skip (cfg : AsmCfg) (a b : List Cb) (h : Cb.after .relation ∉ a)
    (ho : ∀ r, Cb.obj (.relation r) ∉ a) : asmRelations cfg (a ++ b) = asmRelations cfg b := by
  induction a with
  | nil => rfl
  | cons c cs ih =>
    have ih := ih (fun hc => h (by simp [hc])) (fun r hc => ho r (by simp [hc]))
    rw [List.cons_append, asmRelations]
    · exact ih
    · rintro r rfl; exact ho r (by simp)
    · rintro rfl; exact h (by simp)

theorem asmRelations_relations (cfg : AsmCfg) (rs : List Relation) (rest : List Cb) :
    asmRelations cfg ((rs.map OsmObj.relation).map Cb.obj ++ Cb.after .relation :: rest) =
      rs.filter cfg.accept := by
  induction rs with
  | nil => simp [asmRelations]
  | cons r rs ih =>
    simp only [List.map_cons, List.cons_append, asmRelations, ih, List.filter_cons]

theorem mem_runCalls {t : ObjType} {xs : List OsmObj} (h : ∀ o ∈ xs, o.type = t) {c : Cb}
    (hc : c ∈ runCalls xs) : c = .before t ∨ c = .after t ∨ ∃ o ∈ xs, c = .obj o := by
  cases xs with
  | nil => simp [runCalls] at hc
  | cons x xs =>
    have := h x (by simp)
    simp only [runCalls, List.mem_append, List.mem_cons, List.mem_map, this] at hc
    simp only [List.mem_cons]
    aesop

/-- The relations the first pass finds in a file sorted by type. -/
theorem asmRelations_file (cfg : AsmCfg) (m : Meta) (ns ws : List OsmObj) (rs : List Relation)
    (hn : ∀ o ∈ ns, o.type = .node) (hw : ∀ o ∈ ws, o.type = .way) :
    asmRelations cfg (protocol m (ns ++ ws ++ rs.map OsmObj.relation)) = rs.filter cfg.accept ∧
    (rs ≠ [] → Cb.after .relation ∈ protocol m (ns ++ ws ++ rs.map OsmObj.relation)) := by
  rw [protocol_split m ns ws _ hn hw (by simp [OsmObj.type])]
  have hskip : ∀ (t : ObjType) (xs : List OsmObj) (b : List Cb), t ≠ .relation →
      (∀ o ∈ xs, o.type = t) → asmRelations cfg (runCalls xs ++ b) = asmRelations cfg b := by
    intro t xs b ht hx
    apply asmRelations_skip
    · intro hc
      rcases mem_runCalls hx hc with h | h | ⟨o, ho, h⟩
      · cases h
      · simp only [Cb.after.injEq] at h; exact ht h.symm
      · cases h
    · intro r hc
      rcases mem_runCalls hx hc with h | h | ⟨o, ho, h⟩
      · cases h
      · cases h
      · simp only [Cb.obj.injEq] at h
        subst h
        exact ht (hx _ ho).symm
  constructor
  · have e : asmRelations cfg (.init m :: (runCalls ns ++ (runCalls ws ++
        (runCalls (rs.map OsmObj.relation) ++ [.final])))) = asmRelations cfg (runCalls ns ++ (runCalls ws ++
        (runCalls (rs.map OsmObj.relation) ++ [.final]))) := by
      rw [asmRelations] <;> simp
    rw [e, hskip .node ns _ (by simp) hn, hskip .way ws _ (by simp) hw]
    cases rs with
    | nil => simp [runCalls, asmRelations]
    | cons r rs =>
      have := asmRelations_relations cfg (r :: rs) [.final]
      simp only [List.map_cons, runCalls, OsmObj.type, List.cons_append, List.append_assoc] at this ⊢
      rw [asmRelations]
      · simpa using this
      · simp
      · simp
  · intro hne
    cases rs with
    | nil => exact absurd rfl hne
    | cons r rs => simp [runCalls, OsmObj.type]

theorem oneBlock_runCalls {t : ObjType} {xs : List OsmObj} (_h : ∀ o ∈ xs, o.type = t) :
    OneBlockEach (runCalls xs) := by
  cases xs with
  | nil => simp [OneBlockEach, runCalls]
  | cons x xs =>
    unfold OneBlockEach
    simp only [runCalls]
    rw [List.pairwise_append]
    refine ⟨?_, by simp, ?_⟩
    · rw [List.pairwise_cons]
      refine ⟨fun _ _ => trivial, ?_⟩
      rw [List.pairwise_map]
      exact List.Pairwise.imp_of_mem (fun _ _ _ => trivial) (List.pairwise_of_forall (R := fun _ _ => True) (fun _ _ => trivial))
    · intro a _ b hb
      simp only [List.mem_singleton] at hb
      subst hb
      cases a <;> trivial

/-- A file sorted by type has one block of each type. -/
theorem oneBlock_file (m : Meta) (ns ws rs : List OsmObj) (hn : ∀ o ∈ ns, o.type = .node)
    (hw : ∀ o ∈ ws, o.type = .way) (hr : ∀ o ∈ rs, o.type = .relation) :
    OneBlockEach (protocol m (ns ++ ws ++ rs)) := by
  rw [protocol_split m ns ws rs hn hw hr]
  unfold OneBlockEach
  rw [List.pairwise_cons, List.pairwise_append, List.pairwise_append, List.pairwise_append]
  refine ⟨fun _ _ => trivial, oneBlock_runCalls hn, ⟨oneBlock_runCalls hw, ⟨oneBlock_runCalls hr,
    by simp, ?_⟩, ?_⟩, ?_⟩
  · intro a _ b hb
    simp only [List.mem_singleton] at hb; subst hb
    cases a <;> trivial
  · intro a ha b hb
    split
    · rename_i t o
      rcases mem_runCalls hw ha with h | h | ⟨x, hx, h⟩
      · cases h
      · simp only [Cb.after.injEq] at h; subst h
        rcases List.mem_append.1 hb with hb | hb
        · rcases mem_runCalls hr hb with h | h | ⟨x, hx, h⟩
          · cases h
          · cases h
          · simp only [Cb.obj.injEq] at h; subst h; rw [hr _ hx]; simp
        · simp at hb
      · cases h
    · trivial
  · intro a ha b hb
    split
    · rename_i t o
      rcases mem_runCalls hn ha with h | h | ⟨x, hx, h⟩
      · cases h
      · simp only [Cb.after.injEq] at h; subst h
        rcases List.mem_append.1 hb with hb | hb
        · rcases mem_runCalls hw hb with h | h | ⟨x, hx, h⟩
          · cases h
          · cases h
          · simp only [Cb.obj.injEq] at h; subst h; rw [hw _ hx]; simp
        · rcases List.mem_append.1 hb with hb | hb
          · rcases mem_runCalls hr hb with h | h | ⟨x, hx, h⟩
            · cases h
            · cases h
            · simp only [Cb.obj.injEq] at h; subst h; rw [hr _ hx]; simp
          · simp at hb
      · cases h
    · trivial

theorem asmObjects_eq (cfg : AsmCfg) (calls : List Cb) :
    asmObjects cfg calls = (objects calls).filter (fun o => cfg.enabled o.type) := by
  induction calls with
  | nil => rfl
  | cons c cs ih =>
    cases c with
    | obj o =>
      by_cases h : cfg.enabled o.type
      · simp only [asmObjects, objects, List.filterMap_cons, h, if_true, List.filter_cons] at ih ⊢
        rw [ih]
      · simp only [asmObjects, objects, List.filterMap_cons, h, if_false, List.filter_cons] at ih ⊢
        simpa using ih
    | _ => exact ih

theorem objects_runCalls (xs : List OsmObj) : objects (runCalls xs) = xs := by
  cases xs with
  | nil => rfl
  | cons x xs =>
    have : ∀ l : List OsmObj, objects (l.map Cb.obj ++ [Cb.after x.type]) = l := by
      intro l
      induction l with
      | nil => rfl
      | cons a l ih => simpa [objects] using ih
    exact this (x :: xs)

theorem objects_file (m : Meta) (ns ws rs : List OsmObj) (hn : ∀ o ∈ ns, o.type = .node)
    (hw : ∀ o ∈ ws, o.type = .way) (hr : ∀ o ∈ rs, o.type = .relation) :
    objects (protocol m (ns ++ ws ++ rs)) = ns ++ ws ++ rs := by
  rw [protocol_split m ns ws rs hn hw hr]
  have e : ∀ a b, objects (a ++ b) = objects a ++ objects b := by
    intro a b; simp [objects]
  rw [show (Cb.init m :: (runCalls ns ++ (runCalls ws ++ (runCalls rs ++ [Cb.final])))) =
    [Cb.init m] ++ (runCalls ns ++ (runCalls ws ++ (runCalls rs ++ [Cb.final]))) from rfl]
  simp only [e, objects_runCalls]
  simp [objects]

/-- **C40, C41, C42** for a file read twice whose objects are sorted by type and all different
(partial: members of types not enabled never arrive): the second pass succeeds; the relations
completed, the objects reported and the relations left over are the specified ones. -/
theorem assembler_file_partial (cfg : AsmCfg) (m : Meta) (ns ws : List OsmObj) (rs : List Relation)
    (hn : ∀ o ∈ ns, o.type = .node) (hw : ∀ o ∈ ws, o.type = .way)
    (hd : DistinctObjects (ns ++ ws ++ rs.map OsmObj.relation)) (s : Asm)
    (h1 : Asm.AfterPass1 cfg (protocol m (ns ++ ws ++ rs.map OsmObj.relation)) s) :
    ∃ s' ev, s.pass2 cfg (protocol m (ns ++ ws ++ rs.map OsmObj.relation)) = .ok (s', ev) ∧
      (let read := (ns ++ ws ++ rs.map OsmObj.relation).filter (fun o => cfg.enabled o.type)
       (completions ev).Perm (((rs.filter cfg.accept).filter fun r => Completable cfg read r).map
          fun r => (r, slots cfg read r)) ∧
       notInAnys ev = read.filter (fun o => ¬ Referenced cfg (rs.filter cfg.accept) o) ∧
       nextCalls ev = protocol m (ns ++ ws ++ rs.map OsmObj.relation) ∧
       s'.clean.rels.map (·.relation) =
        ((rs.filter cfg.accept).filter fun r => ¬ AllSeen cfg read r).map some) := by
  have hr : ∀ o ∈ rs.map OsmObj.relation, o.type = .relation := by simp [OsmObj.type]
  obtain ⟨hrel, hend⟩ := asmRelations_file cfg m ns ws rs hn hw
  have hobj : asmObjects cfg (protocol m (ns ++ ws ++ rs.map OsmObj.relation)) =
      (ns ++ ws ++ rs.map OsmObj.relation).filter (fun o => cfg.enabled o.type) := by
    rw [asmObjects_eq, objects_file m ns ws _ hn hw hr]
  have hd' : DistinctObjects (asmObjects cfg (protocol m (ns ++ ws ++ rs.map OsmObj.relation))) := by
    rw [hobj]; exact List.Pairwise.sublist List.filter_sublist hd
  have hb := oneBlock_file m ns ws _ hn hw hr
  have hend' : asmRelations cfg (protocol m (ns ++ ws ++ rs.map OsmObj.relation)) ≠ [] →
      Cb.after .relation ∈ protocol m (ns ++ ws ++ rs.map OsmObj.relation) := by
    intro hne
    apply hend
    rintro rfl
    rw [hrel] at hne
    exact hne rfl
  obtain ⟨s', ev, hrun, -⟩ := assembler_trace_partial cfg _ _ s h1 hend' hd' hb
  have c1 := assembler_completions_partial cfg _ _ s s' ev h1 hend' hd' hb hrun
  have c2 := assembler_not_in_any_partial cfg _ _ s s' ev h1 hend' hd' hb hrun
  have c3 := assembler_incomplete_partial cfg _ _ s s' ev h1 hend' hd' hb hrun
  rw [hrel, hobj] at c1 c2 c3
  refine ⟨s', ev, hrun, c1, c2.1, c2.2, ?_⟩
  have := congrArg (List.map Prod.fst) c3
  simpa [List.map_map, Function.comp_def] using this

end Osmium

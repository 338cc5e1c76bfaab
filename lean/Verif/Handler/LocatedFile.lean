import Verif.Handler.Coordinates
import Verif.Relations.FileProps

/-
C32 for whole files: nodes, then ways, then relations.
-/
namespace Osmium
open Spec

namespace Spec

/-- `w'` is the way `w`, its nodes having the positions of the nodes `ns`, or `unset` if there is no such node.
(specification, no counterpart in /repo) -/
def LocatedBy (ns : List Node) (unset : Position) (w w' : Way) : Prop :=
  w'.obj = w.obj ∧
  List.Forall₂ (fun a b : WayNode => b.ref = a.ref ∧
    (∀ n ∈ ns, n.obj.id = a.ref → b.position = n.position) ∧
    ((∀ n ∈ ns, n.obj.id ≠ a.ref) → b.position = unset)) w.nodes w'.nodes

/-- The objects of a file in the usual order. (specification, no counterpart in /repo) -/
def fileOf (ns : List Node) (ws : List Way) (rs : List Relation) : List OsmObj :=
  ns.map OsmObj.node ++ ws.map OsmObj.way ++ rs.map OsmObj.relation

/-- What is set in the storages for the nodes `ns`. (specification, no counterpart in /repo) -/
def nodeCalls (ns : List Node) : List Cb := ns.map fun n => .obj (.node n)

end Spec

/-- Two calls are the same, or both are for ways that are related. (helper for statements and
proofs, no counterpart in /repo) -/
def CbRel (L : Way → Way → Prop) (c c' : Cb) : Prop :=
  match c with
  | .obj (.way w) => ∃ w', c' = .obj (.way w') ∧ L w w'
  | c => c' = c

theorem forall₂_append_split {α β : Type} {R : α → β → Prop} :
    ∀ (a b : List α) (l : List β), List.Forall₂ R (a ++ b) l →
      ∃ l1 l2, l = l1 ++ l2 ∧ List.Forall₂ R a l1 ∧ List.Forall₂ R b l2
  | [], b, l, h => ⟨[], l, rfl, .nil, h⟩
  | x :: a, b, l, h => by
    cases h with
    | cons h1 h2 =>
      obtain ⟨l1, l2, rfl, h3, h4⟩ := forall₂_append_split a b _ h2
      exact ⟨_ :: l1, l2, rfl, .cons h1 h3, h4⟩

theorem cbRel_same {L : Way → Way → Prop} {a l : List Cb} (h : List.Forall₂ (CbRel L) a l)
    (hw : ∀ w, Cb.obj (.way w) ∉ a) : l = a := by
  induction h with
  | nil => rfl
  | @cons c c' a l h1 _ ih =>
    rw [ih (fun w hw' => hw w (by simp [hw']))]
    congr 1
    unfold CbRel at h1
    split at h1
    · rename_i w; exact absurd (by simp) (hw w)
    · exact h1

theorem cbRel_wayObjs {L : Way → Way → Prop} :
    ∀ (ws : List Way) (l : List Cb), List.Forall₂ (CbRel L) ((ws.map OsmObj.way).map Cb.obj) l →
      ∃ ws', List.Forall₂ L ws ws' ∧ l = (ws'.map OsmObj.way).map Cb.obj
  | [], l, h => by cases h; exact ⟨[], .nil, rfl⟩
  | w :: ws, l, h => by
    cases h with
    | cons h1 h2 =>
      obtain ⟨ws', h3, rfl⟩ := cbRel_wayObjs ws _ h2
      obtain ⟨w', rfl, h4⟩ := h1
      exact ⟨w' :: ws', .cons h4 h3, rfl⟩

theorem cbRel_wayRun {L : Way → Way → Prop} (ws : List Way) (l : List Cb)
    (h : List.Forall₂ (CbRel L) (runCalls (ws.map OsmObj.way)) l) :
    ∃ ws', List.Forall₂ L ws ws' ∧ l = runCalls (ws'.map OsmObj.way) := by
  cases ws with
  | nil => cases h; exact ⟨[], .nil, rfl⟩
  | cons w ws =>
    rw [List.map_cons] at h
    simp only [runCalls, OsmObj.type, List.cons_append] at h
    cases h with
    | @cons _ c' _ l h0 h =>
      have h : List.Forall₂ (CbRel L) (((w :: ws).map OsmObj.way).map Cb.obj ++ [Cb.after .way]) l := h
      obtain ⟨l1, l2, rfl, h1, h2⟩ := forall₂_append_split _ _ _ h
      obtain ⟨ws', h3, rfl⟩ := cbRel_wayObjs _ _ h1
      have e2 := cbRel_same h2 (by simp)
      have e0 : c' = Cb.before .way := h0
      subst e2 e0
      refine ⟨ws', h3, ?_⟩
      cases h3 with
      | cons _ _ => simp [runCalls, OsmObj.type]

theorem no_way_runCalls {t : ObjType} {xs : List OsmObj} (h : ∀ o ∈ xs, o.type = t) (ht : t ≠ .way) (w : Way) :
    Cb.obj (.way w) ∉ runCalls xs := by
  intro hc
  rcases mem_runCalls h hc with h1 | h1 | ⟨o, ho, h1⟩
  · cases h1
  · cases h1
  · cases h1
    exact ht (h _ ho).symm

theorem fileOf_nodes {ns : List Node} : ∀ o ∈ ns.map OsmObj.node, o.type = ObjType.node := by
  intro o ho; obtain ⟨n, -, rfl⟩ := List.mem_map.1 ho; rfl
theorem fileOf_ways {ws : List Way} : ∀ o ∈ ws.map OsmObj.way, o.type = ObjType.way := by
  intro o ho; obtain ⟨n, -, rfl⟩ := List.mem_map.1 ho; rfl
theorem fileOf_relations {rs : List Relation} : ∀ o ∈ rs.map OsmObj.relation, o.type = ObjType.relation := by
  intro o ho; obtain ⟨n, -, rfl⟩ := List.mem_map.1 ho; rfl

theorem protocol_fileOf (m : Meta) (ns : List Node) (ws : List Way) (rs : List Relation) :
    protocol m (fileOf ns ws rs) = (Cb.init m :: runCalls (ns.map OsmObj.node)) ++
      (runCalls (ws.map OsmObj.way) ++ (runCalls (rs.map OsmObj.relation) ++ [Cb.final])) := by
  unfold fileOf
  rw [protocol_split m _ _ _ fileOf_nodes fileOf_ways fileOf_relations]
  rfl

theorem cbRel_file {L : Way → Way → Prop} (m : Meta) (ns : List Node) (ws : List Way) (rs : List Relation)
    (l : List Cb) (h : List.Forall₂ (CbRel L) (protocol m (fileOf ns ws rs)) l) :
    ∃ ws', List.Forall₂ L ws ws' ∧ l = protocol m (fileOf ns ws' rs) := by
  rw [protocol_fileOf] at h
  obtain ⟨l1, l2, rfl, h1, h2⟩ := forall₂_append_split _ _ _ h
  obtain ⟨l3, l4, rfl, h3, h4⟩ := forall₂_append_split _ _ _ h2
  obtain ⟨ws', h5, rfl⟩ := cbRel_wayRun _ _ h3
  have e1 := cbRel_same h1 (by
    intro w hw
    rcases List.mem_cons.1 hw with h | h
    · cases h
    · exact no_way_runCalls fileOf_nodes (by decide) w h)
  have e4 := cbRel_same h4 (by
    intro w hw
    rcases List.mem_append.1 hw with h | h
    · exact no_way_runCalls fileOf_relations (by decide) w h
    · simp at h)
  subst e1 e4
  exact ⟨ws', h5, (protocol_fileOf m ns ws' rs).symm⟩

theorem filterMap_take {α β : Type} (f : α → Option β) (l : List α) (k : Nat) :
    ∃ j, (l.take k).filterMap f = (l.filterMap f).take j := by
  refine ⟨((l.take k).filterMap f).length, ?_⟩
  conv_rhs => rw [← List.take_append_drop k l, List.filterMap_append]
  simp

/-- Only the nodes count for what is set. -/
theorem ops_file (m : Meta) (ns : List Node) (ws : List Way) (rs : List Relation) :
    posOps (protocol m (fileOf ns ws rs)) = posOps (nodeCalls ns) ∧
    negOps (protocol m (fileOf ns ws rs)) = negOps (nodeCalls ns) := by
  have hrun : ∀ {t : ObjType} (xs : List OsmObj), (∀ o ∈ xs, o.type = t) → t ≠ .node →
      posOps (runCalls xs) = [] ∧ negOps (runCalls xs) = [] := by
    intro t xs h ht
    have hn : ∀ n, Cb.obj (.node n) ∉ runCalls xs := by
      intro n hc
      rcases mem_runCalls h hc with h1 | h1 | ⟨o, ho, h1⟩
      · cases h1
      · cases h1
      · cases h1
        exact ht (h _ ho).symm
    constructor
    · rw [List.eq_nil_iff_forall_not_mem]
      intro o ho
      obtain ⟨n, h1, -⟩ := mem_posOps.1 ho
      exact hn n h1
    · rw [List.eq_nil_iff_forall_not_mem]
      intro o ho
      obtain ⟨n, h1, -⟩ := mem_negOps.1 ho
      exact hn n h1
  have e : posOps (runCalls (ns.map OsmObj.node)) = posOps (nodeCalls ns) ∧
      negOps (runCalls (ns.map OsmObj.node)) = negOps (nodeCalls ns) := by
    cases ns with
    | nil => exact ⟨rfl, rfl⟩
    | cons n ns =>
      have : runCalls ((n :: ns).map OsmObj.node) = [Cb.before .node] ++ nodeCalls (n :: ns) ++ [Cb.after .node] := by
        simp [runCalls, OsmObj.type, nodeCalls]
      rw [this]
      simp only [posOps_append, negOps_append]
      constructor
      · simp [posOps]
      · simp [negOps]
  rw [protocol_fileOf]
  rw [show (Cb.init m :: runCalls (ns.map OsmObj.node)) = [Cb.init m] ++ runCalls (ns.map OsmObj.node) from rfl]
  have w := hrun _ (fileOf_ways (ws := ws)) (by decide)
  have r := hrun _ (fileOf_relations (rs := rs)) (by decide)
  simp only [posOps_append, negOps_append, e, w, r]
  constructor <;> simp [posOps, negOps]

/-- The nodes before a way of the file are the nodes of the file. -/
theorem nodes_before_way (m : Meta) (ns : List Node) (ws : List Way) (rs : List Relation) (k : Nat) (w : Way)
    (hk : (protocol m (fileOf ns ws rs))[k]? = some (.obj (.way w))) (n : Node) :
    Cb.obj (.node n) ∈ (protocol m (fileOf ns ws rs)).take k ↔ n ∈ ns := by
  rw [protocol_fileOf] at *
  have hge : (Cb.init m :: runCalls (ns.map OsmObj.node)).length ≤ k := by
    by_contra hlt
    rw [List.getElem?_append_left (by omega)] at hk
    have := List.mem_of_getElem? hk
    rcases List.mem_cons.1 this with h | h
    · cases h
    · exact no_way_runCalls fileOf_nodes (by decide) w h
  rw [List.take_append]
  rw [List.take_of_length_le hge, List.mem_append]
  constructor
  · rintro (h | h)
    · rcases List.mem_cons.1 h with h | h
      · cases h
      · rcases mem_runCalls fileOf_nodes h with h | h | ⟨o, ho, h⟩
        · cases h
        · cases h
        · cases h
          obtain ⟨n', hn', e⟩ := List.mem_map.1 ho
          cases e
          exact hn'
    · have := List.mem_of_mem_take h
      simp only [List.mem_append, List.mem_singleton, reduceCtorEq, or_false] at this
      rcases this with h | h
      · rcases mem_runCalls fileOf_ways h with h | h | ⟨o, ho, h⟩
        · cases h
        · cases h
        · cases h
          have := fileOf_ways _ ho
          cases this
      · rcases mem_runCalls fileOf_relations h with h | h | ⟨o, ho, h⟩
        · cases h
        · cases h
        · cases h
          have := fileOf_relations _ ho
          cases this
  · intro h
    left
    refine List.mem_cons_of_mem _ ?_
    cases ns with
    | nil => simp at h
    | cons x xs =>
      rw [List.map_cons]
      unfold runCalls
      simp only [List.mem_append, List.mem_cons, List.mem_map]
      rcases List.mem_cons.1 h with rfl | h
      · simp
      · simp [h]

theorem located_file (m : Meta) (ns : List Node) (ws : List Way) (rs : List Relation)
    (hd : (ns.map fun n => n.obj.id).Nodup) (unset : Position) (k : Nat) (w w' : Way)
    (hk : (protocol m (fileOf ns ws rs))[k]? = some (.obj (.way w)))
    (h : Located ((protocol m (fileOf ns ws rs)).take k) unset w w') : LocatedBy ns unset w w' := by
  have hb := nodes_before_way m ns ws rs k w hk
  refine ⟨h.1, h.2.imp ?_⟩
  rintro a b ⟨h1, h2, h3⟩
  refine ⟨h1, fun n hn he => ?_, fun hno => h3 fun n hn => hno n ((hb n).1 hn)⟩
  rcases lastNode_or_none ((protocol m (fileOf ns ws rs)).take k) a.ref with ⟨p, hp⟩ | hno
  · rw [h2 p hp]
    obtain ⟨pre, n', post, e, hid, hpos, -⟩ := hp
    have hn' : n' ∈ ns := (hb n').1 (by rw [e]; simp)
    have : n' = n := by
      have := List.inj_on_of_nodup_map hd hn' hn
      exact this (by rw [hid, he])
    rw [← hpos, this]
  · exact absurd he (hno n ((hb n).2 hn))

/-- C32 for a file with nodes, ways and relations in this order and different ids of nodes: with faithful stores
all calls are passed on in the same order, the nodes of all ways having the positions of the nodes in the file. -/
theorem coordinates_file {S T : Type} {pos : IdStore S Position} {neg : IdStore T Position}
    {okp okn : List (Nat × Position) → Prop} {up un : Nat → Res Position} {unset : Position}
    (fp : Faithful pos okp up) (fn : Faithful neg okn un) (m : Meta)
    (ns : List Node) (ws : List Way) (rs : List Relation) (hd : (ns.map fun n => n.obj.id).Nodup)
    (hn : ∀ n ∈ ns, NegatableId n.obj.id) (hw : ∀ w ∈ ws, ∀ wn ∈ w.nodes, NegatableId wn.ref)
    (hokp : ∀ j, okp ((posOps (nodeCalls ns)).take j)) (hokn : ∀ j, okn ((negOps (nodeCalls ns)).take j))
    (hu : ∀ w ∈ ws, ∀ wn ∈ w.nodes, (∀ n ∈ ns, n.obj.id ≠ wn.ref) →
      (if 0 ≤ wn.ref then up wn.ref.toNat else un (-wn.ref).toNat) = .ok unset) :
    ∃ ws', List.Forall₂ (LocatedBy ns unset) ws ws' ∧
      cfwRun pos neg (pos.empty, neg.empty) (protocol m (fileOf ns ws rs)) = .ok (protocol m (fileOf ns ws' rs)) := by
  have hmem : ∀ c ∈ protocol m (fileOf ns ws rs), (∀ n, c = .obj (.node n) → n ∈ ns) ∧
      (∀ w, c = .obj (.way w) → w ∈ ws) := by
    intro c hc
    rw [protocol_fileOf] at hc
    simp only [List.mem_append, List.mem_cons, List.not_mem_nil, or_false] at hc
    rcases hc with (rfl | hc) | hc | hc | rfl
    · simp
    · rcases mem_runCalls fileOf_nodes hc with rfl | rfl | ⟨o, ho, rfl⟩
      · simp
      · simp
      · obtain ⟨n, hn, rfl⟩ := List.mem_map.1 ho
        simpa using hn
    · rcases mem_runCalls fileOf_ways hc with rfl | rfl | ⟨o, ho, rfl⟩
      · simp
      · simp
      · obtain ⟨n, hn, rfl⟩ := List.mem_map.1 ho
        simpa using hn
    · rcases mem_runCalls fileOf_relations hc with rfl | rfl | ⟨o, ho, rfl⟩
      · simp
      · simp
      · obtain ⟨n, hn, rfl⟩ := List.mem_map.1 ho
        simp
    · simp
  obtain ⟨eo1, eo2⟩ := ops_file m ns ws rs
  obtain ⟨out, h1, h2, h3⟩ := coordinates_for_ways (unset := unset) fp fn (protocol m (fileOf ns ws rs))
    (by
      intro c hc
      split
      · exact hn _ ((hmem _ hc).1 _ rfl)
      · exact hw _ ((hmem _ hc).2 _ rfl)
      · trivial)
    (by
      intro k
      obtain ⟨j, hj⟩ := filterMap_take _ (protocol m (fileOf ns ws rs)) k
      have := hokp j
      rw [← eo1] at this
      unfold posOps at this ⊢
      rw [hj]
      exact this)
    (by
      intro k
      obtain ⟨j, hj⟩ := filterMap_take _ (protocol m (fileOf ns ws rs)) k
      have := hokn j
      rw [← eo2] at this
      unfold negOps at this ⊢
      rw [hj]
      exact this)
    (by
      intro k w hk wn hwn hno
      refine hu w ((hmem _ (List.mem_of_getElem? hk)).2 w rfl) wn hwn ?_
      intro n hn
      exact hno n ((nodes_before_way m ns ws rs k w hk n).2 hn))
  have hrel : List.Forall₂ (CbRel (LocatedBy ns unset)) (protocol m (fileOf ns ws rs)) out := by
    rw [List.forall₂_iff_get]
    refine ⟨h2.symm, fun i hi hi' => ?_⟩
    obtain ⟨c', g1, g2⟩ := h3 i _ (List.getElem?_eq_getElem hi)
    rw [List.getElem?_eq_getElem hi'] at g1
    cases g1
    simp only [List.get_eq_getElem]
    have hk := List.getElem?_eq_getElem hi
    generalize (protocol m (fileOf ns ws rs))[i] = c at *
    unfold CfwEffect at g2
    unfold CbRel
    split at g2
    · rename_i w
      obtain ⟨w', e1, e2⟩ := g2
      exact ⟨w', e1, located_file m ns ws rs hd unset i w w' hk e2⟩
    · rename_i hc
      split
      · rename_i w
        exact absurd rfl (hc w)
      · exact g2
  obtain ⟨ws', h4, rfl⟩ := cbRel_file m ns ws rs out hrel
  exact ⟨ws', h4, h1⟩

end Osmium

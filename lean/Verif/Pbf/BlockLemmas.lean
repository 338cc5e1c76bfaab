import Verif.Pbf.WriterLemmas
/-
The state of the PBF writer after writing some objects into a block.
-/
namespace Osmium

/-- The types of the objects in the order of their first appearance. -/
def kinds (os : List OsmObj) : List ObjType :=
  os.foldl (fun l o => addKind l o.type) []

theorem kinds_snoc (os : List OsmObj) (o : OsmObj) :
    kinds (os ++ [o]) = addKind (kinds os) o.type := by
  simp [kinds]

/-- All strings of the objects, in the order in which they are recorded. -/
def allStrings (cfg : PbfCfg) (os : List OsmObj) : List String := os.flatMap (OsmObj.strings cfg)

theorem allStrings_snoc (cfg : PbfCfg) (os : List OsmObj) (o : OsmObj) :
    allStrings cfg (os ++ [o]) = allStrings cfg os ++ o.strings cfg := by
  simp [allStrings]

/-- The different strings of the objects, in the order of first appearance. -/
def keysOf (cfg : PbfCfg) (os : List OsmObj) : List String := (allStrings cfg os).foldl addKey []

/-- The column of user name ids while a block is built. -/
def interimUsers (K : List String) (ns : List Node) : List Int :=
  ns.map (fun n => interim K n.obj.user)

/-- The last value in a column of the dense nodes. -/
def lastBy (ns : List Node) (g : Node → Int) : Int := (ns.map g).getLastD 0

/-- The state of the writer after `os` have been written to the current block.  `K` is the list of
all different strings recorded until the block is stored. -/
structure BlockInv (cfg : PbfCfg) (K : List String) (w : Writer) (os : List OsmObj) : Prop where
  cfgEq : w.cfg = cfg
  inv : w.strings.Inv
  keys : w.strings.keys = keysOf cfg os
  order : w.order = kinds os
  nodes : w.nodes = encNodes cfg (interim K) (interimUsers K (nodesOf os)) (nodesOf os)
  ways : w.ways = { PGroup.new with ways := (waysOf os).map (encWay cfg (interim K)) }
  rels : w.rels = { PGroup.new with relations := (relsOf os).map (encRel cfg (interim K)) }
  dId : cfg.dense = true → w.dId = lastBy (nodesOf os) (fun n => n.obj.id)
  dLon : cfg.dense = true → w.dLon = lastBy (nodesOf os) (fun n => lonlat2int cfg.granularity n.position.x)
  dLat : cfg.dense = true → w.dLat = lastBy (nodesOf os) (fun n => lonlat2int cfg.granularity n.position.y)
  dTs : cfg.dense = true → cfg.metadata = true → w.dTs = lastBy (nodesOf os) (fun n => n.obj.timestamp)
  dCs : cfg.dense = true → cfg.metadata = true → w.dCs = lastBy (nodesOf os) (fun n => n.obj.changeset)
  dUid : cfg.dense = true → cfg.metadata = true → w.dUid = lastBy (nodesOf os) (fun n => n.obj.uid)
  dUserSid : w.dUserSid = 0

theorem nodesOf_snoc (os : List OsmObj) (o : OsmObj) :
    nodesOf (os ++ [o]) = nodesOf os ++ (match o with | .node n => [n] | _ => []) := by
  cases o <;> simp [nodesOf]
theorem waysOf_snoc (os : List OsmObj) (o : OsmObj) :
    waysOf (os ++ [o]) = waysOf os ++ (match o with | .way n => [n] | _ => []) := by
  cases o <;> simp [waysOf]
theorem relsOf_snoc (os : List OsmObj) (o : OsmObj) :
    relsOf (os ++ [o]) = relsOf os ++ (match o with | .relation n => [n] | _ => []) := by
  cases o <;> simp [relsOf]

theorem blockInv_new (cfg : PbfCfg) (K : List String) : BlockInv cfg K (Writer.new cfg) [] where
  cfgEq := rfl
  inv := StringTable.inv_empty
  keys := rfl
  order := rfl
  nodes := by
    unfold encNodes
    by_cases h : cfg.dense <;> simp [h, Writer.new, nodesOf, PGroup.new]
  ways := rfl
  rels := rfl
  dId := fun _ => rfl
  dLon := fun _ => rfl
  dLat := fun _ => rfl
  dTs := fun _ _ => rfl
  dCs := fun _ _ => rfl
  dUid := fun _ _ => rfl
  dUserSid := rfl

theorem mem_nodesOf {os : List OsmObj} {n : Node} : n ∈ nodesOf os ↔ OsmObj.node n ∈ os := by
  simp only [nodesOf, List.mem_filterMap]
  constructor
  · rintro ⟨o, ho, e⟩
    cases o <;> simp at e
    subst e; exact ho
  · intro h; exact ⟨_, h, rfl⟩

theorem lastBy_in62 (ns : List Node) (g : Node → Int) (h : ∀ n ∈ ns, In62 (g n)) :
    In62 (lastBy ns g) := by
  apply getLastD_in62
  intro x hx
  obtain ⟨n, hn, rfl⟩ := List.mem_map.1 hx
  exact h n hn

theorem lastBy_snoc (ns : List Node) (n : Node) (g : Node → Int) : lastBy (ns ++ [n]) g = g n := by
  simp [lastBy]

theorem deltas_map_snoc (ns : List Node) (n : Node) (g : Node → Int) :
    deltas 0 ((ns ++ [n]).map g) = deltas 0 (ns.map g) ++ [g n - lastBy ns g] := by
  rw [List.map_append, List.map_singleton, deltas_snoc]; rfl

section
variable {lib : PbfLib} {cfg : PbfCfg} {K : List String}

/-- Writing a way or relation or plain node changes only some fields. -/
theorem put_way (hc : cfg.Exact) {w : Writer} {os : List OsmObj} (h : BlockInv cfg K w os) (x : Way)
    (ho : (OsmObj.way x).PbfOk) (hp : keysOf cfg (os ++ [.way x]) <+: K) (hK : K.length ≤ 65535) :
    ∃ w', w.put lib (.way x) = .ok (w', false) ∧ BlockInv cfg K w' (os ++ [.way x]) ∧
      w'.contents = w.contents ∧ w'.out = w.out := by
  have hp' : (OsmObj.strings cfg (.way x)).foldl addKey w.strings.keys <+: K := by
    rw [h.keys, keysOf, ← List.foldl_append, ← allStrings_snoc]; exact hp
  simp only [OsmObj.strings, OsmObj.obj, List.append_nil] at hp'
  obtain ⟨r1, i1, i2⟩ := recordTags_spec x.obj.tags w.strings K h.inv _ hp' hK
  obtain ⟨t', e, r2⟩ := recordInfo_spec hc ho.1 (recordTags w.strings x.obj.tags).1 K r1.inv []
    (by rw [r1.keys, ← List.foldl_append, List.append_nil]; exact hp') hK
  have er : Res.ofOption (deltaSeq 0 (x.nodes.map WayNode.ref)) =
      .ok (deltas 0 (x.nodes.map WayNode.ref)) := by
    rw [deltaSeq_ok _ 0 (by decide)]
    · rfl
    · intro y hy
      obtain ⟨n, hn, rfl⟩ := List.mem_map.1 hy
      exact ho.2 n hn
  refine ⟨?w', ?e, ?_⟩
  case e =>
    simp only [Writer.put, Writer.alloc, Writer.writeWay, OsmObj.type, h.cfgEq, e, er, bind,
      Except.bind, pure, Except.pure]
    rfl
  refine ⟨⟨rfl, r2.inv, ?_, ?_, ?_, ?_, ?_, ?_, ?_, ?_, ?_, ?_, ?_, h.dUserSid⟩, rfl, rfl⟩
  · rw [keysOf, allStrings_snoc, List.foldl_append, ← keysOf, ← h.keys]
    simp only [OsmObj.strings, OsmObj.obj, List.append_nil]
    exact (r1.trans r2).keys
  · simp only [kinds_snoc, h.order, OsmObj.type]
  · simpa [nodesOf_snoc] using h.nodes
  · simp only [waysOf_snoc, h.ways, List.map_append, i1, i2, encWay, List.map_cons, List.map_nil]
  · simpa [relsOf_snoc] using h.rels
  all_goals simp only [nodesOf_snoc, List.append_nil]
  · exact h.dId
  · exact h.dLon
  · exact h.dLat
  · exact h.dTs
  · exact h.dCs
  · exact h.dUid

theorem put_relation (hc : cfg.Exact) {w : Writer} {os : List OsmObj} (h : BlockInv cfg K w os)
    (x : Relation) (ho : (OsmObj.relation x).PbfOk) (hp : keysOf cfg (os ++ [.relation x]) <+: K)
    (hK : K.length ≤ 65535) :
    ∃ w', w.put lib (.relation x) = .ok (w', false) ∧ BlockInv cfg K w' (os ++ [.relation x]) ∧
      w'.contents = w.contents ∧ w'.out = w.out := by
  have hp' : (OsmObj.strings cfg (.relation x)).foldl addKey w.strings.keys <+: K := by
    rw [h.keys, keysOf, ← List.foldl_append, ← allStrings_snoc]; exact hp
  simp only [OsmObj.strings, OsmObj.obj, List.append_assoc] at hp'
  obtain ⟨r1, i1, i2⟩ := recordTags_spec x.obj.tags w.strings K h.inv _ hp' hK
  have hp2 : ((if cfg.metadata then [x.obj.user] else []) ++ x.members.map Member.role).foldl addKey
      (recordTags w.strings x.obj.tags).1.keys <+: K := by
    rw [r1.keys, ← List.foldl_append]; exact hp'
  obtain ⟨t', e, r2⟩ := recordInfo_spec hc ho.1 (recordTags w.strings x.obj.tags).1 K r1.inv _
    hp2 hK
  obtain ⟨t'', e2, r3⟩ := writeMembers_spec x.members t' 0 (by decide) K r2.inv
    (by rw [r2.keys, ← List.foldl_append]; exact hp2) hK
    (fun m hm => ⟨(ho.2 m hm).1, (ho.2 m hm).2.1⟩)
  refine ⟨?w', ?e, ?_⟩
  case e =>
    simp only [Writer.put, Writer.alloc, Writer.writeRelation, OsmObj.type, h.cfgEq, e, e2, bind,
      Except.bind, pure, Except.pure, Bool.false_eq_true, if_false]
    rfl
  refine ⟨⟨rfl, r3.inv, ?_, ?_, ?_, ?_, ?_, ?_, ?_, ?_, ?_, ?_, ?_, h.dUserSid⟩, rfl, rfl⟩
  · rw [keysOf, allStrings_snoc, List.foldl_append, ← keysOf, ← h.keys]
    simp only [OsmObj.strings, OsmObj.obj]
    exact ((r1.trans r2).trans r3).keys
  · simp only [kinds_snoc, h.order, OsmObj.type]
  · simpa [nodesOf_snoc] using h.nodes
  · simpa [waysOf_snoc] using h.ways
  · simp only [relsOf_snoc, h.rels, List.map_append, i1, i2, encRel, List.map_cons, List.map_nil]
  all_goals simp only [nodesOf_snoc, List.append_nil]
  · exact h.dId
  · exact h.dLon
  · exact h.dLat
  · exact h.dTs
  · exact h.dCs
  · exact h.dUid

theorem put_plain_node (hc : cfg.Exact) (hd : cfg.dense = false) {w : Writer} {os : List OsmObj}
    (h : BlockInv cfg K w os) (x : Node) (ho : (OsmObj.node x).PbfOk)
    (hp : keysOf cfg (os ++ [.node x]) <+: K) (hK : K.length ≤ 65535) :
    ∃ w', w.put lib (.node x) = .ok (w', false) ∧ BlockInv cfg K w' (os ++ [.node x]) ∧
      w'.contents = w.contents ∧ w'.out = w.out := by
  have hp' : (OsmObj.strings cfg (.node x)).foldl addKey w.strings.keys <+: K := by
    rw [h.keys, keysOf, ← List.foldl_append, ← allStrings_snoc]; exact hp
  simp only [OsmObj.strings, OsmObj.obj, List.append_nil] at hp'
  obtain ⟨r1, i1, i2⟩ := recordTags_spec x.obj.tags w.strings K h.inv _ hp' hK
  obtain ⟨t', e, r2⟩ := recordInfo_spec hc ho.1 (recordTags w.strings x.obj.tags).1 K r1.inv []
    (by rw [r1.keys, ← List.foldl_append, List.append_nil]; exact hp') hK
  refine ⟨?w', ?e, ?_⟩
  case e =>
    simp only [Writer.put, Writer.alloc, Writer.writeNode, OsmObj.type, h.cfgEq, hd, e,
      (lonlat2intC_ok hc ho.2.2.1).1, (lonlat2intC_ok hc ho.2.2.2).1, bind,
      Except.bind, pure, Except.pure, Bool.false_eq_true, if_false]
    rfl
  refine ⟨⟨rfl, r2.inv, ?_, ?_, ?_, ?_, ?_, ?_, ?_, ?_, ?_, ?_, ?_, h.dUserSid⟩, rfl, rfl⟩
  · rw [keysOf, allStrings_snoc, List.foldl_append, ← keysOf, ← h.keys]
    simp only [OsmObj.strings, OsmObj.obj, List.append_nil]
    exact (r1.trans r2).keys
  · simp only [kinds_snoc, h.order, OsmObj.type]
  · simp only [nodesOf_snoc, h.nodes, encNodes, hd, Bool.false_eq_true, if_false, List.map_append,
      i1, i2, encNode, List.map_cons, List.map_nil]
  · simpa [waysOf_snoc] using h.ways
  · simpa [relsOf_snoc] using h.rels
  all_goals (intro hd'; rw [hd] at hd'; simp at hd')

theorem put_dense_node (hc : cfg.Exact) (hd : cfg.dense = true) {w : Writer} {os : List OsmObj}
    (h : BlockInv cfg K w os) (hos : ∀ o ∈ os, o.PbfOk) (x : Node) (ho : (OsmObj.node x).PbfOk)
    (hp : keysOf cfg (os ++ [.node x]) <+: K) (hK : K.length ≤ 65535) :
    ∃ w', w.put lib (.node x) = .ok (w', false) ∧ BlockInv cfg K w' (os ++ [.node x]) ∧
      w'.contents = w.contents ∧ w'.out = w.out := by
  have hp' : (OsmObj.strings cfg (.node x)).foldl addKey w.strings.keys <+: K := by
    rw [h.keys, keysOf, ← List.foldl_append, ← allStrings_snoc]; exact hp
  simp only [OsmObj.strings, OsmObj.obj, List.append_nil] at hp'
  have hns : ∀ n ∈ nodesOf os, (OsmObj.node n).PbfOk := fun n hn => hos _ (mem_nodesOf.1 hn)
  have in32 : ∀ {z : Int}, InS32 z → In62 z := by intro z hz; unfold InS32 at hz; unfold In62; omega
  obtain ⟨r1, i1⟩ := recordTagsDense_spec x.obj.tags w.strings K h.inv _ hp' hK
  have eId : Res.ofOption (deltaUpdate w.dId x.obj.id) = .ok (x.obj.id - w.dId, x.obj.id) :=
    deltaUpdate_ok (by rw [h.dId hd]; exact lastBy_in62 _ _ (fun n hn => (hns n hn).2.1)) ho.2.1
  have lx := lonlat2intC_ok hc ho.2.2.1
  have ly := lonlat2intC_ok hc ho.2.2.2
  have eLon := deltaUpdate_ok (v := w.dLon)
    (by rw [h.dLon hd]; exact lastBy_in62 _ _ (fun n hn => (lonlat2intC_ok hc (hns n hn).2.2.1).2.1)) lx.2.1
  have eLat := deltaUpdate_ok (v := w.dLat)
    (by rw [h.dLat hd]; exact lastBy_in62 _ _ (fun n hn => (lonlat2intC_ok hc (hns n hn).2.2.2).2.1)) ly.2.1
  have hdn : w.nodes.dense = if (nodesOf os).isEmpty then none else
      some (encDense cfg (interim K) (interimUsers K (nodesOf os)) (nodesOf os)) := by
    rw [h.nodes, encNodes, if_pos hd]
  have hd0 : w.nodes.dense.getD .new =
      { encDense cfg (interim K) (interimUsers K (nodesOf os)) (nodesOf os) with
        info := if (nodesOf os).isEmpty then none else
          (encDense cfg (interim K) (interimUsers K (nodesOf os)) (nodesOf os)).info } := by
    rw [hdn]
    rcases hn : nodesOf os with _ | ⟨a, l⟩
    · simp [encDense, PDense.new, deltas]
    · simp
  have hn0 : { w.nodes with dense := (none : Option PDense) } = PGroup.new := by
    rw [h.nodes, encNodes, if_pos hd]; rfl
  have hn1 : ∀ d, { w.nodes with dense := (some d : Option PDense) } = { PGroup.new with dense := some d } := by
    intro d; rw [← hn0]
  have hne : (nodesOf os ++ [x]).isEmpty = false := by simp
  by_cases hm : cfg.metadata
  · simp only [hm, if_true] at hp'
    obtain ⟨r2, i2⟩ := record_one (t := (recordTagsDense w.strings x.obj.tags).1) (K := K)
      r1.inv x.obj.user [] (by rw [r1.keys, ← List.foldl_append]; exact hp') hK
    have eTs := deltaUpdate_ok (v := w.dTs) (x := x.obj.timestamp)
      (by rw [h.dTs hd hm]; exact lastBy_in62 _ _ (fun n hn => by
            have := (hns n hn).1.ts; unfold In62; omega))
      (by have := ho.1.ts; unfold In62; omega)
    have eCs := deltaUpdate_ok (v := w.dCs) (x := x.obj.changeset)
      (by rw [h.dCs hd hm]; exact lastBy_in62 _ _ (fun n hn => in32 (hns n hn).1.wf.changeset))
      (in32 ho.1.wf.changeset)
    have eUid := deltaUpdate_ok (v := w.dUid) (x := x.obj.uid)
      (by rw [h.dUid hd hm]; exact lastBy_in62 _ _ (fun n hn => in32 (hns n hn).1.wf.uid))
      (in32 ho.1.wf.uid)
    refine ⟨?w', ?e, ?_⟩
    case e =>
      simp only [Writer.put, Writer.alloc, Writer.writeDenseNode, Writer.denseInfo, OsmObj.type,
        h.cfgEq, hd, hm, eId, eLon, eLat, lx.1, ly.1, eTs, eCs, eUid, timestamp2intC_ok hc ho.1.ts,
        bind, Except.bind, pure, Except.pure, if_true]
      rfl
    refine ⟨⟨rfl, r2.inv, ?_, ?_, ?_, ?_, ?_, ?_, ?_, ?_, ?_, ?_, ?_, h.dUserSid⟩, rfl, rfl⟩
    · rw [keysOf, allStrings_snoc, List.foldl_append, ← keysOf, ← h.keys]
      simp only [OsmObj.strings, OsmObj.obj, List.append_nil, hm, if_true]
      exact (r1.trans r2).keys
    · simp only [kinds_snoc, h.order, OsmObj.type]
    · simp only [hn1, hd0, encNodes, nodesOf_snoc, hd, if_true, i1, i2]
      simp only [hne, Bool.false_eq_true, if_false]
      simp only [encDense, deltas_map_snoc, hm, if_true, h.dId hd, h.dLon hd, h.dLat hd, h.dTs hd hm,
        h.dCs hd hm, h.dUid hd hm, List.flatMap_append, List.flatMap_cons, List.flatMap_nil,
        List.append_nil, List.append_assoc]
      by_cases he : (nodesOf os).isEmpty
      · have he' := List.isEmpty_iff.1 he
        simp only [he', encDenseInfo, PDenseInfo.new, interimUsers]
        by_cases hv : cfg.addVisible <;> simp [deltas, lastBy, hv]
      · simp only [he, encDenseInfo, interimUsers, deltas_map_snoc, Bool.false_eq_true,
          if_false, Option.getD_some, List.map_append, List.map_cons, List.map_nil]
        by_cases hv : cfg.addVisible <;> simp [hv, deltas_snoc, lastBy]
    · simpa [waysOf_snoc] using h.ways
    · simpa [relsOf_snoc] using h.rels
    all_goals simp only [nodesOf_snoc, lastBy_snoc, implies_true]
  · have hm' : cfg.metadata = false := by simpa using hm
    simp only [hm, if_false, List.append_nil] at hp'
    refine ⟨?w'', ?e', ?_⟩
    case e' =>
      simp only [Writer.put, Writer.alloc, Writer.writeDenseNode, OsmObj.type,
        h.cfgEq, hd, hm', eId, eLon, eLat, lx.1, ly.1, Bool.false_eq_true, if_false,
        bind, Except.bind, pure, Except.pure, if_true]
      rfl
    refine ⟨⟨rfl, r1.inv, ?_, ?_, ?_, ?_, ?_, ?_, ?_, ?_, ?_, ?_, ?_, h.dUserSid⟩, rfl, rfl⟩
    · rw [keysOf, allStrings_snoc, List.foldl_append, ← keysOf, ← h.keys]
      simp only [OsmObj.strings, OsmObj.obj, List.append_nil, hm', Bool.false_eq_true, if_false]
      exact r1.keys
    · simp only [kinds_snoc, h.order, OsmObj.type]
    · simp only [hn1, hd0, encNodes, nodesOf_snoc, hd, if_true, i1]
      simp only [hne, Bool.false_eq_true, if_false]
      simp only [encDense, deltas_map_snoc, hm', Bool.false_eq_true, if_false, h.dId hd, h.dLon hd,
        h.dLat hd, List.flatMap_append, List.flatMap_cons, List.flatMap_nil,
        List.append_nil, List.append_assoc, ite_self]
    · simpa [waysOf_snoc] using h.ways
    · simpa [relsOf_snoc] using h.rels
    all_goals simp only [nodesOf_snoc, lastBy_snoc, implies_true, hm', Bool.false_eq_true, false_implies]

/-- Writing one more object to the current block. -/
theorem put_spec (hc : cfg.Exact) {w : Writer} {os : List OsmObj} (h : BlockInv cfg K w os)
    (hos : ∀ o ∈ os, o.PbfOk) (o : OsmObj) (ho : o.PbfOk) (hp : keysOf cfg (os ++ [o]) <+: K)
    (hK : K.length ≤ 65535) :
    ∃ w', w.put lib o = .ok (w', false) ∧ BlockInv cfg K w' (os ++ [o]) ∧
      w'.contents = w.contents ∧ w'.out = w.out := by
  cases o with
  | node x =>
    by_cases hd : cfg.dense = true
    · exact put_dense_node hc hd h hos x ho hp hK
    · exact put_plain_node hc (by simpa using hd) h x ho hp hK
  | way x => exact put_way hc h x ho hp hK
  | relation x => exact put_relation hc h x ho hp hK

end
end Osmium

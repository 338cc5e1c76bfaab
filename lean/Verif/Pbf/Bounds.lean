import Verif.Pbf.Writer
/-
The number of objects in a block, for any sequence of operations on the writer.
-/
namespace Osmium

/-- The number of objects in a group. (helper for statements and proofs, no counterpart in /repo) -/
def PGroup.count (g : PGroup) : Nat :=
  g.nodes.length + (match g.dense with | none => 0 | some d => d.id.length) + g.ways.length +
    g.relations.length

/-- The number of objects in a block. (helper for statements and proofs, no counterpart in /repo) -/
def PBlock.count (b : PBlock) : Nat := (b.groups.map PGroup.count).sum

theorem except_bind_ok {α β : Type} {x : Res α} {f : α → Res β} {b : β} (h : (x >>= f) = .ok b) :
    ∃ a, x = .ok a ∧ f a = .ok b := by
  cases x with
  | error e => cases h
  | ok a => exact ⟨a, rfl, h⟩

theorem mapM_length {α β : Type} {f : α → Res β} (l : List α) {l' : List β} (h : l.mapM f = .ok l') :
    l'.length = l.length := by
  induction l generalizing l' with
  | nil => cases h; rfl
  | cons a l ih =>
    rw [List.mapM_cons] at h
    obtain ⟨b, _, h⟩ := except_bind_ok h
    obtain ⟨bs, hb, h⟩ := except_bind_ok h
    cases h
    simp [ih hb]

theorem mapDense_count {t : StringTable} {u : Int} {d d' : PDense} (h : mapDense t u d = .ok d') :
    d'.id.length = d.id.length := by
  unfold mapDense at h
  obtain ⟨kv, _, h⟩ := except_bind_ok h
  cases hi : d.info with
  | none => simp only [hi] at h; cases h; rfl
  | some i =>
    simp only [hi] at h
    obtain ⟨us, _, h⟩ := except_bind_ok h
    cases h; rfl

theorem mapGroup_count {t : StringTable} {u : Int} {g g' : PGroup} (h : mapGroup t u g = .ok g') :
    g'.count = g.count := by
  unfold mapGroup at h
  obtain ⟨ns, h1, h⟩ := except_bind_ok h
  dsimp only at h
  cases hg : g.dense with
  | none =>
    simp only [hg] at h
    obtain ⟨d, h2, h⟩ := except_bind_ok h
    cases h2
    obtain ⟨ws, h3, h⟩ := except_bind_ok h
    obtain ⟨rs, h4, h⟩ := except_bind_ok h
    cases h
    simp only [PGroup.count, mapM_length _ h1, mapM_length _ h3, mapM_length _ h4, hg]
  | some e =>
    simp only [hg] at h
    obtain ⟨e', h5, h⟩ := except_bind_ok h
    obtain ⟨d, h2, h⟩ := except_bind_ok h
    cases h2
    obtain ⟨ws, h3, h⟩ := except_bind_ok h
    obtain ⟨rs, h4, h⟩ := except_bind_ok h
    cases h
    simp only [PGroup.count, mapM_length _ h1, mapM_length _ h3, mapM_length _ h4, hg,
      mapDense_count h5]

theorem mapM_count {t : StringTable} {u : Int} {f : ObjType → PGroup} (ks : List ObjType)
    {gs : List PGroup} (h : ks.mapM (fun k => mapGroup t u (f k)) = .ok gs) :
    (gs.map PGroup.count).sum = (ks.map (fun k => (f k).count)).sum := by
  induction ks generalizing gs with
  | nil => cases h; rfl
  | cons k ks ih =>
    rw [List.mapM_cons] at h
    obtain ⟨g, h1, h⟩ := except_bind_ok h
    obtain ⟨gs', h2, h⟩ := except_bind_ok h
    cases h
    simp [mapGroup_count h1, ih h2]

/-- Invariant of the writer: the counter is right. (helper for statements and proofs, no
counterpart in /repo) -/
structure Counted (w : Writer) : Prop where
  nodup : w.order.Nodup
  types : ∀ k ∈ w.order, k = .node ∨ k = .way ∨ k = .relation
  absent : ∀ k, k ∉ w.order → w.group k = .new
  counter : w.nodes.count + w.ways.count + w.rels.count = w.contents
  max : w.contents ≤ 8000
  size : w.contents = 0 → w.size = 0
  out : ∀ b ∈ w.out, 1 ≤ b.count ∧ b.count ≤ 8000

theorem sum_order (f : ObjType → Nat) (ks : List ObjType) (hn : ks.Nodup)
    (ht : ∀ k ∈ ks, k = .node ∨ k = .way ∨ k = .relation) (h0 : ∀ k, k ∉ ks → f k = 0) :
    (ks.map f).sum = f .node + f .way + f .relation := by
  have key : ∀ ks : List ObjType, ks.Nodup → (∀ k ∈ ks, k = .node ∨ k = .way ∨ k = .relation) →
      (ks.map f).sum = (if .node ∈ ks then f .node else 0) + (if .way ∈ ks then f .way else 0) +
        (if .relation ∈ ks then f .relation else 0) := by
    intro ks hn ht
    induction ks with
    | nil => rfl
    | cons k ks ih =>
      have hk := (List.nodup_cons.1 hn).1
      have := ih hn.of_cons (fun x hx => ht x (by simp [hx]))
      rw [List.map_cons, List.sum_cons, this]
      rcases ht k (by simp) with rfl | rfl | rfl <;> simp [hk] <;> omega
  rw [key ks hn ht]
  by_cases h1 : ObjType.node ∈ ks <;> by_cases h2 : ObjType.way ∈ ks <;>
    by_cases h3 : ObjType.relation ∈ ks <;> simp [h1, h2, h3, h0]

/-- What `store` does, when it does not fail. -/
theorem store_eq {lib : PbfLib} {w w' : Writer} (h : w.store lib = .ok w') :
    ∃ b, w' = { Writer.new w.cfg with out := w.out ++ [b] } ∧
      (b.groups.map PGroup.count).sum = (w.order.map (fun k => (w.group k).count)).sum := by
  unfold Writer.store at h
  obtain ⟨gs, h1, h⟩ := except_bind_ok h
  cases h
  exact ⟨_, rfl, mapM_count _ h1⟩

theorem Counted.store {lib : PbfLib} {w w' : Writer} (hc : Counted w) (h : w.store lib = .ok w')
    (h0 : w.contents > 0) : Counted w' ∧ w'.contents = 0 := by
  obtain ⟨b, rfl, hb⟩ := store_eq h
  have hs := sum_order (fun k => (w.group k).count) w.order hc.nodup hc.types
    (fun k hk => by simp only [hc.absent k hk]; rfl)
  have e : b.count = w.contents := by
    rw [PBlock.count, hb, hs]; exact hc.counter
  refine ⟨⟨by simp [Writer.new], by simp [Writer.new], ?_, rfl, by simp [Writer.new], fun _ => rfl, ?_⟩, rfl⟩
  · intro k _; cases k <;> rfl
  · intro x hx
    simp only [List.mem_append, List.mem_singleton] at hx
    rcases hx with hx | rfl
    · exact hc.out x hx
    · have := hc.max; omega

theorem Counted.check {lib : PbfLib} {w w' : Writer} (hc : Counted w) (h : w.check lib = .ok w') :
    ∃ w0, Counted w0 ∧ w0.contents < 8000 ∧ w' = { w0 with contents := w0.contents + 1 } := by
  have key : ∃ w1 : Writer, (Counted w1 ∧ w1.contents < 8000) ∧
      w' = { w1 with contents := (w1.contents + 1) % 65536 } := by
    unfold Writer.check at h
    dsimp only at h
    split at h
    · rename_i h2
      obtain ⟨w1, h1, h⟩ := except_bind_ok h
      have := hc.store h1 (by simp only [maxBlockContents] at h2; omega)
      cases h
      exact ⟨w1, ⟨this.1, by omega⟩, rfl⟩
    · split at h
      · rename_i h2 h3
        obtain ⟨w1, h1, h⟩ := except_bind_ok h
        have hp : w.contents > 0 := by
          rcases Nat.eq_zero_or_pos w.contents with h | h
          · have := hc.size h
            rw [this] at h3
            simp [sizeLimit] at h3
          · exact h
        have := hc.store h1 hp
        cases h
        exact ⟨w1, ⟨this.1, by omega⟩, rfl⟩
      · rename_i h2 h3
        cases h
        exact ⟨w, ⟨hc, by simp only [maxBlockContents] at h2; omega⟩, rfl⟩
  obtain ⟨w1, h1, rfl⟩ := key
  refine ⟨w1, h1.1, h1.2, ?_⟩
  congr 1
  omega

/-- The effect of the writing of an object on groups and counters. (helper for statements and
proofs, no counterpart in /repo) -/
structure Added (w w' : Writer) (k : ObjType) : Prop where
  order : w'.order = w.order
  other : ∀ j, j ≠ k → w'.group j = w.group j
  grp : (w'.group k).count = (w.group k).count + 1
  contents : w'.contents = w.contents
  out : w'.out = w.out
  cfg : w'.cfg = w.cfg

theorem writeNode_added {w w' : Writer} {n : Node} (h : w.writeNode n = .ok w') :
    Added w w' .node := by
  unfold Writer.writeNode at h
  obtain ⟨⟨t, i⟩, _, h⟩ := except_bind_ok h
  obtain ⟨lon, _, h⟩ := except_bind_ok h
  obtain ⟨lat, _, h⟩ := except_bind_ok h
  cases h
  refine ⟨rfl, ?_, ?_, rfl, rfl, rfl⟩
  · intro j hj; cases j <;> first | rfl | exact absurd rfl hj
  · simp only [Writer.group, PGroup.count, List.length_append, List.length_singleton]; omega

theorem denseInfo_frame {w w' : Writer} {n : Node} {i i' : PDenseInfo}
    (h : w.denseInfo n i = .ok (w', i')) :
    w'.order = w.order ∧ w'.nodes = w.nodes ∧ w'.ways = w.ways ∧ w'.rels = w.rels ∧
      w'.contents = w.contents ∧ w'.out = w.out ∧ w'.cfg = w.cfg := by
  unfold Writer.denseInfo at h
  obtain ⟨ts, _, h⟩ := except_bind_ok h
  obtain ⟨⟨_, _⟩, _, h⟩ := except_bind_ok h
  obtain ⟨⟨_, _⟩, _, h⟩ := except_bind_ok h
  obtain ⟨⟨_, _⟩, _, h⟩ := except_bind_ok h
  cases h
  exact ⟨rfl, rfl, rfl, rfl, rfl, rfl, rfl⟩

theorem writeDenseNode_added {w w' : Writer} {n : Node} (h : w.writeDenseNode n = .ok w') :
    Added w w' .node := by
  unfold Writer.writeDenseNode at h
  obtain ⟨⟨_, _⟩, _, h⟩ := except_bind_ok h
  obtain ⟨lon, _, h⟩ := except_bind_ok h
  obtain ⟨⟨_, _⟩, _, h⟩ := except_bind_ok h
  obtain ⟨lat, _, h⟩ := except_bind_ok h
  obtain ⟨⟨_, _⟩, _, h⟩ := except_bind_ok h
  have hcount : ∀ (ns : List PNode) (d : Option PDense) (ws : List PWay) (rs : List PRel)
      (x a b c : _) (i : Option PDenseInfo),
      PGroup.count ⟨ns, some ⟨(d.getD .new).id ++ [x], a, b, c, i⟩, ws, rs⟩ =
        PGroup.count ⟨ns, d, ws, rs⟩ + 1 := by
    intro ns d ws rs x a b c i
    cases d <;> simp [PGroup.count, PDense.new] <;> omega
  dsimp only at h
  split at h
  · obtain ⟨⟨w2, i⟩, h2, h⟩ := except_bind_ok h
    cases h
    obtain ⟨e1, e2, e3, e4, e5, e6, e7⟩ := denseInfo_frame h2
    refine ⟨e1, ?_, ?_, e5, e6, e7⟩
    · intro j hj
      cases j <;> first | exact absurd rfl hj | rfl | simp only [Writer.group, e3, e4]
    · simp only [Writer.group]
      rw [e2]
      exact hcount _ _ _ _ _ _ _ _ _
  · cases h
    refine ⟨rfl, ?_, ?_, rfl, rfl, rfl⟩
    · intro j hj; cases j <;> first | rfl | exact absurd rfl hj
    · exact hcount _ _ _ _ _ _ _ _ _

theorem writeWay_added {lib : PbfLib} {w w' : Writer} {n : Way} (h : w.writeWay lib n = .ok w') :
    Added w w' .way := by
  unfold Writer.writeWay at h
  obtain ⟨⟨t, i⟩, _, h⟩ := except_bind_ok h
  obtain ⟨lon, _, h⟩ := except_bind_ok h
  cases h
  refine ⟨rfl, ?_, ?_, rfl, rfl, rfl⟩
  · intro j hj; cases j <;> first | rfl | exact absurd rfl hj
  · simp only [Writer.group, PGroup.count, List.length_append, List.length_singleton]; omega

theorem writeRelation_added {lib : PbfLib} {w w' : Writer} {n : Relation} {t : Bool}
    (h : w.writeRelation lib n = .ok (w', t)) : Added w w' .relation := by
  unfold Writer.writeRelation at h
  obtain ⟨⟨t, i⟩, _, h⟩ := except_bind_ok h
  obtain ⟨⟨t3, sids, ids, tys, thrown⟩, _, h⟩ := except_bind_ok h
  dsimp only at h
  split at h
  all_goals
    cases h
    refine ⟨rfl, ?_, ?_, rfl, rfl, rfl⟩
    · intro j hj; cases j <;> first | rfl | exact absurd rfl hj
    · simp only [Writer.group, PGroup.count, List.length_append, List.length_singleton]
      try omega

theorem put_added {lib : PbfLib} {w w' : Writer} {o : OsmObj} {t : Bool}
    (h : w.put lib o = .ok (w', t)) : Added (w.alloc o.type) w' o.type := by
  cases o with
  | node n =>
    simp only [Writer.put] at h
    split at h
    · obtain ⟨a, h1, h⟩ := except_bind_ok h
      cases h; exact writeDenseNode_added h1
    · obtain ⟨a, h1, h⟩ := except_bind_ok h
      cases h; exact writeNode_added h1
  | way n =>
    obtain ⟨a, h1, h⟩ := except_bind_ok h
    cases h; exact writeWay_added h1
  | relation n => exact writeRelation_added h

theorem OsmObj.type_cases (o : OsmObj) : o.type = .node ∨ o.type = .way ∨ o.type = .relation := by
  cases o <;> simp [OsmObj.type]

theorem Counted.write {lib : PbfLib} {w w' : Writer} {o : OsmObj} {t : Bool} (hc : Counted w)
    (h : w.write lib o = .ok (w', t)) : Counted w' ∧ w'.contents ≠ 0 := by
  unfold Writer.write at h
  obtain ⟨w1, h1, h⟩ := except_bind_ok h
  obtain ⟨w0, hc0, hlt, rfl⟩ := hc.check h1
  have ha := put_added h
  have hty := o.type_cases
  have hcon : w'.contents = w0.contents + 1 := ha.contents
  have hgr : ∀ k, ((({ w0 with contents := w0.contents + 1 } : Writer).alloc o.type).group k) =
      w0.group k := by intro k; cases k <;> rfl
  have hord : w'.order = addKind w0.order o.type := ha.order
  refine ⟨⟨?_, ?_, ?_, ?_, ?_, ?_, ?_⟩, by omega⟩
  · rw [hord]; unfold addKind
    split
    · exact hc0.nodup
    · rename_i hm
      rw [List.nodup_append]
      refine ⟨hc0.nodup, by simp, ?_⟩
      intro a ha' b hb e
      simp at hb; subst hb; subst e; exact hm ha'
  · rw [hord]; unfold addKind
    split
    · exact hc0.types
    · intro k hk
      simp only [List.mem_append, List.mem_singleton] at hk
      rcases hk with hk | rfl
      · exact hc0.types k hk
      · exact hty
  · intro k hk
    rw [hord] at hk
    have hne : k ≠ o.type := by
      rintro rfl; apply hk; unfold addKind; split <;> simp_all
    have hnm : k ∉ w0.order := by
      intro hm; apply hk; unfold addKind; split <;> simp_all
    rw [ha.other k hne, hgr, hc0.absent k hnm]
  · have hn : w'.nodes = w'.group .node := rfl
    have hw : w'.ways = w'.group .way := rfl
    have hr : w'.rels = w'.group .relation := rfl
    have hcc := hc0.counter
    have hgrp := ha.grp
    rw [hgr] at hgrp
    have hoth : ∀ j, j ≠ o.type → w'.group j = w0.group j := fun j hj => by rw [ha.other j hj, hgr]
    rw [hcon, ← hcc, hn, hw, hr]
    rcases hty with e | e | e <;> rw [e] at hgrp hoth
    · rw [hgrp, hoth .way (by decide), hoth .relation (by decide)]; simp only [Writer.group]; omega
    · rw [hgrp, hoth .node (by decide), hoth .relation (by decide)]; simp only [Writer.group]; omega
    · rw [hgrp, hoth .node (by decide), hoth .way (by decide)]; simp only [Writer.group]; omega
  · omega
  · omega
  · rw [ha.out]; exact hc0.out

theorem counted_new (cfg : PbfCfg) : Counted (Writer.new cfg) :=
  ⟨by simp [Writer.new], by simp [Writer.new], fun k _ => by cases k <;> rfl, rfl,
    by simp [Writer.new], fun _ => rfl, by simp [Writer.new]⟩

theorem Counted.run {lib : PbfLib} (ops : List WOp) {w w' : Writer} (hc : Counted w)
    (h : w.run lib ops = .ok w') : Counted w' := by
  induction ops generalizing w with
  | nil => cases h; exact hc
  | cons op ops ih =>
    obtain ⟨w1, h1, h⟩ := except_bind_ok h
    refine ih ?_ h
    cases op with
    | write o =>
      obtain ⟨⟨a, b⟩, h2, h1⟩ := except_bind_ok h1
      cases h1; exact (hc.write h2).1
    | set cfg => cases h1; exact ⟨hc.1, hc.2, fun k hk => by
        have := hc.3 k hk; cases k <;> exact this, hc.4, hc.5, hc.6, hc.7⟩

/-! ### Blocks already written do not matter -/

/-- The same state with other blocks written before. (helper for statements and proofs, no
counterpart in /repo) -/
def Writer.after (p : List PBlock) (w : Writer) : Writer := { w with out := p ++ w.out }

theorem Res.map_bind {α β γ : Type} (x : Res α) (f : α → Res β) (g : β → γ) :
    (x >>= f).map g = x >>= (fun a => (f a).map g) := by
  cases x <;> rfl

theorem store_after (lib : PbfLib) (p : List PBlock) (w : Writer) :
    (w.after p).store lib = (w.store lib).map (Writer.after p) := by
  simp only [Writer.store, Res.map_bind]
  congr 1
  funext gs
  simp [pure, Except.pure, Except.map, Writer.after]

theorem check_after (lib : PbfLib) (p : List PBlock) (w : Writer) :
    (w.after p).check lib = (w.check lib).map (Writer.after p) := by
  unfold Writer.check
  dsimp only
  rw [store_after]
  show (if w.contents ≥ maxBlockContents then _ else if w.size > sizeLimit then _ else _) =
    (if w.contents ≥ maxBlockContents then _ else if w.size > sizeLimit then _ else _ : Res _).map _
  split
  · cases w.store lib <;> rfl
  · split
    · cases w.store lib <;> rfl
    · rfl

theorem put_after (lib : PbfLib) (p : List PBlock) (w : Writer) (o : OsmObj) :
    (w.after p).put lib o = (w.put lib o).map (fun r => (r.1.after p, r.2)) := by
  have ri : ∀ t x, recordInfo (w.after p).cfg t x = recordInfo w.cfg t x := fun _ _ => rfl
  cases o with
  | node n =>
    unfold Writer.put
    show (if w.cfg.dense then _ else _) = (if w.cfg.dense then _ else _ : Res _).map _
    split
    · unfold Writer.writeDenseNode
      simp only [Writer.alloc, Writer.after]
      cases Res.ofOption (deltaUpdate w.dId n.obj.id) with
      | error e => rfl
      | ok a =>
        cases lonlat2intC w.cfg n.position.x with
        | error e => rfl
        | ok b =>
          simp only [bind, Except.bind]
          cases Res.ofOption (deltaUpdate w.dLon b) with
          | error e => rfl
          | ok b =>
            cases lonlat2intC w.cfg n.position.y with
            | error e => rfl
            | ok b =>
              simp only []
              cases Res.ofOption (deltaUpdate w.dLat b) with
              | error e => rfl
              | ok b =>
                by_cases hm : w.cfg.metadata = true
                · simp only [hm, if_true, Writer.denseInfo, bind, Except.bind]
                  cases timestamp2intC w.cfg n.obj.timestamp with
                  | error e => rfl
                  | ok ts =>
                    simp only []
                    cases Res.ofOption (deltaUpdate w.dTs ts) with
                    | error e => rfl
                    | ok b =>
                      cases Res.ofOption (deltaUpdate w.dCs n.obj.changeset) with
                      | error e => rfl
                      | ok b =>
                        cases Res.ofOption (deltaUpdate w.dUid n.obj.uid) with
                        | error e => rfl
                        | ok b => rfl
                · simp only [hm]; rfl
    · unfold Writer.writeNode
      simp only [Writer.alloc, Writer.after]
      cases recordInfo w.cfg (recordTags w.strings n.obj.tags).1 n.obj with
      | error e => rfl
      | ok a =>
        cases lonlat2intC w.cfg n.position.x with
        | error e => rfl
        | ok b => cases lonlat2intC w.cfg n.position.y <;> rfl
  | way n =>
    unfold Writer.put Writer.writeWay
    simp only [Writer.alloc, Writer.after]
    cases recordInfo w.cfg (recordTags w.strings n.obj.tags).1 n.obj with
    | error e => rfl
    | ok a => cases Res.ofOption (deltaSeq 0 (n.nodes.map WayNode.ref)) <;> rfl
  | relation n =>
    unfold Writer.put Writer.writeRelation
    simp only [Writer.alloc, Writer.after]
    cases recordInfo w.cfg (recordTags w.strings n.obj.tags).1 n.obj with
    | error e => rfl
    | ok a =>
      simp only [bind, Except.bind]
      cases writeMembers a.1 0 n.members with
      | error e => rfl
      | ok b =>
        cases h : b.2.2.2.2 <;> simp only [h] <;> rfl

theorem write_after (lib : PbfLib) (p : List PBlock) (w : Writer) (o : OsmObj) :
    (w.after p).write lib o = (w.write lib o).map (fun r => (r.1.after p, r.2)) := by
  unfold Writer.write
  rw [check_after, Res.map_bind]
  cases w.check lib with
  | error e => rfl
  | ok a => exact put_after lib p a o

theorem step_after (lib : PbfLib) (p : List PBlock) (w : Writer) (op : WOp) :
    (w.after p).step lib op = (w.step lib op).map (Writer.after p) := by
  cases op with
  | set c => rfl
  | write o =>
    unfold Writer.step
    simp only
    rw [write_after, Res.map_bind]
    cases w.write lib o <;> rfl

theorem run_after (lib : PbfLib) (p : List PBlock) (w : Writer) (ops : List WOp) :
    (w.after p).run lib ops = (w.run lib ops).map (Writer.after p) := by
  induction ops generalizing w with
  | nil => rfl
  | cons op ops ih =>
    unfold Writer.run
    rw [step_after, Res.map_bind]
    cases w.step lib op with
    | error e => rfl
    | ok a => exact ih a

theorem final_after (lib : PbfLib) (p : List PBlock) (w : Writer) :
    (w.after p).final lib = (w.final lib).map (Writer.after p) := by
  unfold Writer.final
  rw [store_after]
  show (if w.contents > 0 then _ else _) = (if w.contents > 0 then _ else _ : Res _).map _
  split <;> rfl

end Osmium

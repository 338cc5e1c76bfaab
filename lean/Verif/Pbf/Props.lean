import Verif.Pbf.FileLemmas
import Verif.Pbf.Bounds
import Verif.Strings.Props
/-
C14-C17: objects written to the blocks of a PBF file and read again.

The vocabulary (`Spec.kept`, `Spec.ofType`, `Spec.objects`, `Spec.SortedByType`, `Spec.FewStrings`)
is in `Verif.Pbf.Spec`.  `pbfBlocks lib cfg os` are the data blocks (protobuf messages) written for
`os`, `readBlocks m .unknown bs` are the callbacks made for the data blocks `bs`.  `lib` stands for
the order of the string table among strings of equal count and for the sizes the protobuf library
reports, which decide where a block ends: both are arbitrary.
-/
namespace Osmium
open Spec

/-! ### C16 -/

/-- **C16** (first part): any sequence of storable objects is written without failure, and for each
type of object exactly the objects written are read, in the order in which they were written. -/
theorem pbf_each_type_in_order (lib : PbfLib) (cfg : PbfCfg) (hc : cfg.Exact) (os : List OsmObj)
    (ho : ∀ o ∈ os, o.PbfOk) (hs : FewStrings cfg.metadata os) :
    ∃ bs, pbfBlocks lib cfg os = .ok bs ∧ ∀ m,
      (readBlocks m .unknown bs).1.fail = none ∧
      ∀ t, ofType t (objects (readBlocks m .unknown bs).1.calls) =
        (ofType t os).map (kept cfg.metadata cfg.addVisible) := by
  obtain ⟨bs, chunks, h1, h2, h3⟩ := pbfBlocks_ok lib hc os ⟨ho, hs⟩
  refine ⟨bs, h1, fun m => ?_⟩
  rw [readBlocks_ok h3]
  refine ⟨rfl, fun t => ?_⟩
  rw [objects_seqCalls, ofType_map_kept, ofType_chunks, h2]

/-- The callbacks for a file sorted by type. -/
theorem pbf_roundtrip_calls (lib : PbfLib) (cfg : PbfCfg) (hc : cfg.Exact) (os : List OsmObj)
    (ho : ∀ o ∈ os, o.PbfOk) (hs : FewStrings cfg.metadata os) (hsort : SortedByType os) :
    ∃ bs, pbfBlocks lib cfg os = .ok bs ∧ ∀ m last,
      readBlocks m last bs =
        (⟨seqCalls m last (os.map (kept cfg.metadata cfg.addVisible)), none⟩,
          lastType last (os.map (kept cfg.metadata cfg.addVisible))) := by
  obtain ⟨bs, chunks, h1, h2, h3⟩ := pbfBlocks_ok lib hc os ⟨ho, hs⟩
  refine ⟨bs, h1, fun m last => ?_⟩
  rw [readBlocks_ok h3, regroup_chunks_sorted chunks (h2 ▸ hsort), h2]

/-- **C16** (second part): if the objects are sorted by type, the complete sequence is read as it
was written. -/
theorem pbf_roundtrip_sorted (lib : PbfLib) (cfg : PbfCfg) (hc : cfg.Exact) (os : List OsmObj)
    (ho : ∀ o ∈ os, o.PbfOk) (hs : FewStrings cfg.metadata os) (hsort : SortedByType os) :
    ∃ bs, pbfBlocks lib cfg os = .ok bs ∧ ∀ m,
      (readBlocks m .unknown bs).1.fail = none ∧
      objects (readBlocks m .unknown bs).1.calls = os.map (kept cfg.metadata cfg.addVisible) := by
  obtain ⟨bs, h1, h2⟩ := pbf_roundtrip_calls lib cfg hc os ho hs hsort
  refine ⟨bs, h1, fun m => ?_⟩
  rw [h2]
  exact ⟨rfl, objects_seqCalls _ _ _⟩

/-! ### C14 -/

/-- **C14**: nodes written in dense format with metadata to a file for several versions are read
again exactly as they were. -/
theorem dense_nodes_survive (lib : PbfLib) (cfg : PbfCfg) (hc : cfg.Exact) (_hd : cfg.dense = true)
    (hm : cfg.metadata = true) (hv : cfg.addVisible = true) (ns : List Node)
    (ho : ∀ n ∈ ns, (OsmObj.node n).PbfOk) (he : ∀ n ∈ ns, n.obj.endtime = 0)
    (hs : FewStrings true (ns.map .node)) :
    ∃ bs, pbfBlocks lib cfg (ns.map .node) = .ok bs ∧ ∀ m,
      (readBlocks m .unknown bs).1.fail = none ∧
      objects (readBlocks m .unknown bs).1.calls = ns.map .node := by
  obtain ⟨bs, h1, h2⟩ := pbf_roundtrip_sorted lib cfg hc (ns.map .node)
    (by intro o h; obtain ⟨n, hn, rfl⟩ := List.mem_map.1 h; exact ho n hn) (hm ▸ hs)
    (by
      unfold SortedByType
      apply List.pairwise_of_forall_mem_list
      intro a ha b hb
      obtain ⟨n, _, rfl⟩ := List.mem_map.1 ha
      obtain ⟨n', _, rfl⟩ := List.mem_map.1 hb
      exact le_refl _)
  refine ⟨bs, h1, fun m => ⟨(h2 m).1, ?_⟩⟩
  rw [(h2 m).2, hm, hv, List.map_map]
  apply List.map_congr_left
  intro n hn
  have := he n hn
  obtain ⟨⟨_, _, _, _, _, _, _, _, _⟩, _⟩ := n
  simp only at this
  subst this
  rfl

/-- In any format, and without visible flag and metadata, ids, positions and tags are kept. -/
theorem nodes_survive (lib : PbfLib) (cfg : PbfCfg) (hc : cfg.Exact) (ns : List Node)
    (ho : ∀ n ∈ ns, (OsmObj.node n).PbfOk) (hs : FewStrings cfg.metadata (ns.map .node)) :
    ∃ bs, pbfBlocks lib cfg (ns.map .node) = .ok bs ∧ ∀ m,
      (readBlocks m .unknown bs).1.fail = none ∧
      objects (readBlocks m .unknown bs).1.calls =
        ns.map (fun n => kept cfg.metadata cfg.addVisible (.node n)) := by
  obtain ⟨bs, h1, h2⟩ := pbf_roundtrip_sorted lib cfg hc (ns.map .node)
    (by intro o h; obtain ⟨n, hn, rfl⟩ := List.mem_map.1 h; exact ho n hn) hs
    (by
      unfold SortedByType
      apply List.pairwise_of_forall_mem_list
      intro a ha b hb
      obtain ⟨n, _, rfl⟩ := List.mem_map.1 ha
      obtain ⟨n', _, rfl⟩ := List.mem_map.1 hb
      exact le_refl _)
  refine ⟨bs, h1, fun m => ⟨(h2 m).1, ?_⟩⟩
  rw [(h2 m).2, List.map_map]; rfl

/-! ### C15 -/

/-- **C15** (round trip): a single object of any kind written to a file and read again. -/
theorem object_survives (lib : PbfLib) (cfg : PbfCfg) (hc : cfg.Exact) (o : OsmObj) (ho : o.PbfOk)
    (hs : (strings cfg.metadata o).toFinset.card ≤ 65535) :
    ∃ bs, pbfBlocks lib cfg [o] = .ok bs ∧ ∀ m,
      (readBlocks m .unknown bs).1.fail = none ∧
      objects (readBlocks m .unknown bs).1.calls = [kept cfg.metadata cfg.addVisible o] := by
  refine pbf_roundtrip_sorted lib cfg hc [o] (by simpa using ho) ?_ (by simp [SortedByType])
  intro c hc _
  have : c = [] ∨ c = [o] := by
    have hl := hc.length_le
    have hsub := hc.subset
    match c, hl with
    | [], _ => exact Or.inl rfl
    | [x], _ => have := hsub (List.mem_singleton_self x); simp at this; exact Or.inr (by rw [this])
  rcases this with rfl | rfl
  · simp
  · simpa using hs

theorem writeMembers_thrown (ms : List Member) (t : StringTable) (d : Int) {r}
    (h : writeMembers t d ms = .ok r) :
    r.2.2.2.2 = true ↔ ∃ m ∈ ms, m.type ≠ 'n' ∧ m.type ≠ 'w' ∧ m.type ≠ 'r' := by
  induction ms generalizing t d r with
  | nil => cases h; simp
  | cons m ms ih =>
    simp only [writeMembers] at h
    obtain ⟨⟨dd, d'⟩, _, h⟩ := except_bind_ok h
    cases hm : memType m.type with
    | none =>
      simp only [hm] at h
      cases h
      have : m.type ≠ 'n' ∧ m.type ≠ 'w' ∧ m.type ≠ 'r' := by
        unfold memType at hm
        split at hm
        · cases hm
        · split at hm
          · cases hm
          · split at hm
            · cases hm
            · exact ⟨by assumption, by assumption, by assumption⟩
      simp [this]
    | some ty =>
      simp only [hm] at h
      obtain ⟨q, h1, h⟩ := except_bind_ok h
      cases h
      have : ¬ (m.type ≠ 'n' ∧ m.type ≠ 'w' ∧ m.type ≠ 'r') := by
        rintro ⟨a, b, c⟩
        simp [memType, a, b, c] at hm
      simp only [List.mem_cons, exists_eq_or_imp, this, false_or]
      exact ih _ _ h1

/-- **C15** (rejection): in whatever state the writer is, writing a relation throws an exception
exactly if some member has a type other than n, w, r. -/
theorem relation_rejected_iff (lib : PbfLib) (w w' : Writer) (r : Relation) (thrown : Bool)
    (h : w.write lib (.relation r) = .ok (w', thrown)) :
    thrown = true ↔ ∃ m ∈ r.members, m.type ≠ 'n' ∧ m.type ≠ 'w' ∧ m.type ≠ 'r' := by
  unfold Writer.write at h
  obtain ⟨w1, _, h⟩ := except_bind_ok h
  simp only [Writer.put, Writer.writeRelation] at h
  obtain ⟨⟨t2, i⟩, _, h⟩ := except_bind_ok h
  obtain ⟨⟨t3, sids, ids, tys, th⟩, h2, h⟩ := except_bind_ok h
  have := writeMembers_thrown _ _ _ h2
  simp only at this
  rw [← this]
  cases th <;> simp only [Bool.false_eq_true, if_false, if_true] at h <;> cases h <;> simp

/-- **C15** (rejection): nodes and ways are never rejected. -/
theorem node_way_accepted (lib : PbfLib) (w w' : Writer) (o : OsmObj) (ho : o.type ≠ .relation)
    (thrown : Bool) (h : w.write lib o = .ok (w', thrown)) : thrown = false := by
  unfold Writer.write at h
  obtain ⟨w1, _, h⟩ := except_bind_ok h
  cases o with
  | relation r => exact absurd rfl ho
  | way x =>
    obtain ⟨a, _, h⟩ := except_bind_ok h
    cases h; rfl
  | node x =>
    simp only [Writer.put] at h
    split at h
    all_goals
      obtain ⟨a, _, h⟩ := except_bind_ok h
      cases h; rfl

/-! ### C17 -/

/-- **C17** (bounds): whatever is done with the writer (objects written, with or without exception,
settings changed at any time), every block handed to the file contains at least one and at most
8000 objects, before and after `final`. -/
theorem pbf_block_bounds (lib : PbfLib) (cfg : PbfCfg) (ops : List WOp) (w w' : Writer)
    (h : (Writer.new cfg).run lib ops = .ok w) (h' : w.final lib = .ok w') :
    (∀ b ∈ w.out, 1 ≤ b.count ∧ b.count ≤ 8000) ∧ (∀ b ∈ w'.out, 1 ≤ b.count ∧ b.count ≤ 8000) := by
  have hc := (counted_new cfg).run ops h
  refine ⟨hc.out, ?_⟩
  unfold Writer.final at h'
  split at h'
  · rename_i h0
    exact (hc.store h' h0).1.out
  · cases h'; exact hc.out

/-- The number of objects still in the block under construction. -/
def Writer.buffered (w : Writer) : Nat := w.nodes.count + w.ways.count + w.rels.count

/-- **C17** (nothing remains): after `final` the block under construction is empty. -/
theorem pbf_final_flushes (lib : PbfLib) (cfg : PbfCfg) (ops : List WOp) (w w' : Writer)
    (h : (Writer.new cfg).run lib ops = .ok w) (h' : w.final lib = .ok w') :
    w'.buffered = 0 := by
  have hc := (counted_new cfg).run ops h
  unfold Writer.final at h'
  split at h'
  · rename_i h0
    have := hc.store h' h0
    exact this.1.counter.trans this.2
  · cases h'
    have := hc.counter
    unfold Writer.buffered; omega

/-- **C17** (every write counts once): the objects in the blocks and in the block under construction
are as many as the calls of `node`, `way` and `relation`. -/
theorem pbf_count (lib : PbfLib) (cfg : PbfCfg) (ops : List WOp) (w w' : Writer)
    (h : (Writer.new cfg).run lib ops = .ok w) (h' : w.final lib = .ok w') :
    (w'.out.map PBlock.count).sum = (ops.filter (fun op => match op with | .write _ => true | _ => false)).length := by
  have store_total : ∀ {a b : Writer}, Counted a → a.store lib = .ok b →
      (b.out.map PBlock.count).sum = (a.out.map PBlock.count).sum + a.contents ∧ b.contents = 0 := by
    intro a b hc hs
    obtain ⟨bl, rfl, hb⟩ := store_eq hs
    have hsum := sum_order (fun k => (a.group k).count) a.order hc.nodup hc.types
      (fun k hk => by simp only [hc.absent k hk]; rfl)
    have e : bl.count = a.contents := by
      rw [PBlock.count, hb, hsum]; exact hc.counter
    exact ⟨by simp [e], rfl⟩
  have total : ∀ (ops : List WOp) (a b : Writer), Counted a → a.run lib ops = .ok b →
      (b.out.map PBlock.count).sum + b.contents = (a.out.map PBlock.count).sum + a.contents +
        (ops.filter (fun op => match op with | .write _ => true | _ => false)).length := by
    intro ops
    induction ops with
    | nil => intro a b _ h; cases h; simp
    | cons op ops ih =>
      intro a b hc h
      obtain ⟨a1, h1, h⟩ := except_bind_ok h
      have hc1 : Counted a1 := hc.run [op] (by
        show (a.step lib op >>= fun x => x.run lib []) = _
        rw [h1]; rfl)
      rw [ih a1 b hc1 h]
      cases op with
      | set c => cases h1; simp
      | write o =>
        obtain ⟨⟨a2, t⟩, h2, h1⟩ := except_bind_ok h1
        have h1 : a2 = a1 := by cases h1; rfl
        subst h1
        unfold Writer.write at h2
        obtain ⟨a3, h3, h2⟩ := except_bind_ok h2
        have had := put_added h2
        have hcn : a2.contents = a3.contents := had.contents
        have hout : a2.out = a3.out := had.out
        have hk : (a3.out.map PBlock.count).sum + a3.contents =
            (a.out.map PBlock.count).sum + a.contents + 1 := by
          have hmax := hc.max
          unfold Writer.check at h3
          dsimp only at h3
          split at h3
          · obtain ⟨a4, h4, h3⟩ := except_bind_ok h3
            have := store_total hc h4
            cases h3
            simp only [this.2]; omega
          · split at h3
            · obtain ⟨a4, h4, h3⟩ := except_bind_ok h3
              have := store_total hc h4
              cases h3
              simp only [this.2]; omega
            · cases h3
              simp only; omega
        rw [hcn, hout, hk]
        simp; omega
  have hc := (counted_new cfg).run ops h
  have ht := total ops _ _ (counted_new cfg) h
  simp only [Writer.new, List.map_nil, List.sum_nil, Nat.zero_add] at ht
  rw [← ht]
  unfold Writer.final at h'
  split at h'
  · exact (store_total hc h').1
  · cases h'; omega

/-- **C17** (no leak): after a block has been stored, the writer behaves like a new one: the blocks
written from then on are those a new writer with the same settings writes for the same
operations. -/
theorem pbf_no_leak (lib : PbfLib) (w w1 w2 : Writer) (ops : List WOp)
    (hs : w.store lib = .ok w1) (hr : w1.run lib ops = .ok w2) :
    ∃ b v, w1.out = w.out ++ [b] ∧ (Writer.new w.cfg).run lib ops = .ok v ∧
      w2.out = w.out ++ [b] ++ v.out := by
  obtain ⟨b, rfl, _⟩ := store_eq hs
  have e : ({ Writer.new w.cfg with out := w.out ++ [b] } : Writer) =
      (Writer.new w.cfg).after (w.out ++ [b]) := by
    simp [Writer.after, Writer.new]
  rw [e, run_after] at hr
  cases hv : (Writer.new w.cfg).run lib ops with
  | error _ => rw [hv] at hr; cases hr
  | ok v =>
    rw [hv] at hr
    cases hr
    exact ⟨b, v, rfl, rfl, rfl⟩

/-! ### Concrete cases -/

/-- Some library behaviour. -/
def demoLib : PbfLib := ⟨countSort, fun _ => 20, fun _ => 20⟩

/-- A file with three objects. -/
def demoObjs : List OsmObj :=
  [ .node ⟨{ Obj.new with
        id := 17, version := 2, uid := 5, user := "joto", timestamp := 1300000000
        tags := [⟨"amenity", "pub"⟩, ⟨"name", "The Pub"⟩] }, ⟨81234567, -491234567⟩⟩,
    .way ⟨{ Obj.new with id := -3, version := 1, user := "someone" }, [⟨17, ⟨1, 2⟩⟩, ⟨18, ⟨3, 4⟩⟩]⟩,
    .relation ⟨{ Obj.new with id := 9, version := 7, tags := [⟨"type", "multipolygon"⟩] },
      [⟨'w', -3, "outer"⟩, ⟨'n', 17, ""⟩]⟩ ]

/-- The hypotheses of the theorems are met by a concrete file. -/
example : (PbfCfg.default true).Exact ∧ (∀ o ∈ demoObjs, o.PbfOk) ∧ SortedByType demoObjs := by
  refine ⟨⟨⟨1, rfl⟩, rfl⟩, ?_, by unfold SortedByType; decide⟩
  intro o ho
  simp only [demoObjs, List.mem_cons, List.not_mem_nil, or_false] at ho
  rcases ho with rfl | rfl | rfl
  · exact ⟨⟨⟨by decide, by decide, by decide, by decide, by decide⟩, by decide, by decide⟩, by decide,
      by decide, by decide⟩
  · exact ⟨⟨⟨by decide, by decide, by decide, by decide, by decide⟩, by decide, by decide⟩, by decide⟩
  · exact ⟨⟨⟨by decide, by decide, by decide, by decide, by decide⟩, by decide, by decide⟩, by decide⟩

/-- A file with few strings has few strings in all its parts. -/
theorem fewStrings_of_total (b : Bool) (os : List OsmObj)
    (h : (os.flatMap (strings b)).toFinset.card ≤ 65535) : FewStrings b os := by
  intro c hc _
  refine le_trans (Finset.card_le_card ?_) h
  intro s hs
  simp only [List.mem_toFinset, List.mem_flatMap] at hs ⊢
  obtain ⟨o, ho, hso⟩ := hs
  exact ⟨o, hc.subset ho, hso⟩

example : FewStrings true demoObjs := fewStrings_of_total _ _ (le_trans (List.toFinset_card_le _) (by decide))

example : (pbfBlocks demoLib (PbfCfg.default true) demoObjs).map (fun bs =>
    objects (readBlocks (Meta.new true) .unknown bs).1.calls) =
    .ok (demoObjs.map (kept true true)) := by decide +kernel

/-! ### Where the code falls short -/

/-- C16: objects of different types mixed within a block are read in another order (grouped by
type). -/
theorem pbf_mixed_types_reordered :
    let a : OsmObj := .way { Way.new with obj := { Obj.new with id := 1 } }
    let b : OsmObj := .node { Node.new with obj := { Obj.new with id := 2 } }
    let c : OsmObj := .way { Way.new with obj := { Obj.new with id := 3 } }
    (pbfBlocks demoLib (PbfCfg.default true) [a, b, c]).map (fun bs =>
      objects (readBlocks (Meta.new true) .unknown bs).1.calls) = .ok [a, c, b] := by
  decide +kernel

/-- A relation with a wrong member type. -/
def badRelation : Relation :=
  ⟨{ Obj.new with id := 9 }, [⟨'w', 1, "outer"⟩, ⟨'x', 2, "inner"⟩, ⟨'n', 3, ""⟩]⟩

/-- The blocks after some operations and `final`. -/
def blocksAfter (lib : PbfLib) (cfg : PbfCfg) (ops : List WOp) : Res (List PBlock) := do
  return (← (← (Writer.new cfg).run lib ops).final lib).out

/-- C15: the rejection of a relation is not clean: if the program catches the exception and goes
on, the file contains the rejected relation with its members up to the wrong one. -/
theorem pbf_rejected_relation_written :
    (blocksAfter demoLib (PbfCfg.default true) [.write (.relation badRelation)]).map (fun bs =>
      objects (readBlocks (Meta.new true) .unknown bs).1.calls) =
    .ok [.relation { badRelation with members := [⟨'w', 1, "outer"⟩] }] := by
  decide +kernel

/-- Turning dense format on between two nodes loses the first one: the reader sees only the dense
nodes of the group. -/
theorem pbf_dense_switch_loses_node :
    let cfg := PbfCfg.default true
    let a : OsmObj := .node { Node.new with obj := { Obj.new with id := 1 } }
    let b : OsmObj := .node { Node.new with obj := { Obj.new with id := 2 } }
    (blocksAfter demoLib { cfg with dense := false } [.write a, .set cfg, .write b]).map (fun bs =>
      objects (readBlocks (Meta.new true) .unknown bs).1.calls) = .ok [b] := by
  decide +kernel

/-- Changing the granularity between two nodes moves the first one. -/
theorem pbf_granularity_switch_moves_node :
    let cfg := PbfCfg.default true
    let a : OsmObj := .node ⟨{ Obj.new with id := 1 }, ⟨10000000, 20000000⟩⟩
    let b : OsmObj := .node ⟨{ Obj.new with id := 2 }, ⟨30000000, 40000000⟩⟩
    (blocksAfter demoLib { cfg with dense := false } [.write a, .set { cfg with dense := false, granularity := 10 }, .write b]).map
      (fun bs => objects (readBlocks (Meta.new true) .unknown bs).1.calls) =
      .ok [.node ⟨{ Obj.new with id := 1 }, ⟨1000000, 2000000⟩⟩, b] := by
  decide +kernel

/-- With a date granularity below one second all timestamps are read as 0. -/
theorem pbf_fine_date_granularity_loses_timestamps :
    let cfg := { PbfCfg.default true with dateGranularity := 100 }
    let a : OsmObj := .node { Node.new with obj := { Obj.new with id := 1, timestamp := 1300000000 } }
    (pbfBlocks demoLib cfg [a]).map
      (fun bs => objects (readBlocks (Meta.new true) .unknown bs).1.calls) =
      .ok [.node { Node.new with obj := { Obj.new with id := 1, timestamp := 0 } }] := by
  decide +kernel

end Osmium

import Verif.Pbf.FileProps
/-
The size of blocks written by output/pbf.hpp (C73), and the features a written file declares (C19).
-/
namespace Osmium
namespace Spec

/-- The bytes the ways and relations in the block under construction take, as counted by the protobuf
library. (specification, no counterpart in /repo) -/
def waysAndRelationsSize (lib : PbfLib) (w : Writer) : Nat :=
  (w.ways.ways.map lib.waySize).sum + (w.rels.relations.map lib.relSize).sum

/-- While these objects are written one after the other, no single way or relation takes more than `m`
bytes. (specification, no counterpart in /repo) -/
def EachTakesAtMost (lib : PbfLib) (w : Writer) (os : List OsmObj) (m : Nat) : Prop :=
  ∀ k v, w.writeAll lib (os.take k) = .ok v →
    (∀ p ∈ v.ways.ways, lib.waySize p ≤ m) ∧ (∀ p ∈ v.rels.relations, lib.relSize p ≤ m)

end Spec

open Spec

/-- The counter of the writer counts ways and relations, which take at most `l` bytes. (helper
for statements and proofs, no counterpart in /repo) -/
structure Sized (lib : PbfLib) (w : Writer) (l : Nat) : Prop where
  counted : w.size = waysAndRelationsSize lib w
  limit : waysAndRelationsSize lib w ≤ l

theorem sized_new (lib : PbfLib) (cfg : PbfCfg) (l : Nat) : Sized lib (Writer.new cfg) l :=
  ⟨rfl, Nat.zero_le _⟩

/-- The check before each object stores a block that has reached the limit. -/
theorem Sized.check {lib : PbfLib} {w w' : Writer} {l : Nat} (hs : Sized lib w l) (h : w.check lib = .ok w') :
    Sized lib w' sizeLimit ∧ (sizeLimit < waysAndRelationsSize lib w →
      waysAndRelationsSize lib w' = 0 ∧ ∃ b, w'.out = w.out ++ [b]) := by
  have hstore : ∀ w1 : Writer, w.store lib = .ok w1 → Sized lib w1 sizeLimit ∧
      waysAndRelationsSize lib w1 = 0 ∧ ∃ b, w1.out = w.out ++ [b] := by
    intro w1 h1
    obtain ⟨b, rfl, _⟩ := store_eq h1
    exact ⟨⟨rfl, Nat.zero_le _⟩, rfl, b, rfl⟩
  unfold Writer.check at h
  dsimp only at h
  split at h
  · obtain ⟨w1, h1, h⟩ := except_bind_ok h
    obtain ⟨a, b, c⟩ := hstore w1 h1
    cases h
    exact ⟨⟨a.counted, a.limit⟩, fun _ => ⟨b, c⟩⟩
  · split at h
    · obtain ⟨w1, h1, h⟩ := except_bind_ok h
      obtain ⟨a, b, c⟩ := hstore w1 h1
      cases h
      exact ⟨⟨a.counted, a.limit⟩, fun _ => ⟨b, c⟩⟩
    · rename_i hle
      cases h
      have hle : ¬ w.size > sizeLimit := hle
      have hc := hs.counted
      refine ⟨⟨hc, ?_⟩, fun hx => ?_⟩
      · show waysAndRelationsSize lib w ≤ sizeLimit
        omega
      · omega

theorem writeDenseNode_groups {w w' : Writer} {n : Node} (h : w.writeDenseNode n = .ok w') :
    w'.ways = w.ways ∧ w'.rels = w.rels ∧ w'.size = w.size := by
  unfold Writer.writeDenseNode at h
  obtain ⟨⟨a, a'⟩, _, h⟩ := except_bind_ok h
  obtain ⟨lon, _, h⟩ := except_bind_ok h
  obtain ⟨⟨b, b'⟩, _, h⟩ := except_bind_ok h
  obtain ⟨lat, _, h⟩ := except_bind_ok h
  obtain ⟨⟨c, c'⟩, _, h⟩ := except_bind_ok h
  dsimp only at h
  split at h
  · obtain ⟨⟨w2, i⟩, h2, h⟩ := except_bind_ok h
    cases h
    unfold Writer.denseInfo at h2
    obtain ⟨_, _, h2⟩ := except_bind_ok h2
    obtain ⟨⟨_, _⟩, _, h2⟩ := except_bind_ok h2
    obtain ⟨⟨_, _⟩, _, h2⟩ := except_bind_ok h2
    obtain ⟨⟨_, _⟩, _, h2⟩ := except_bind_ok h2
    cases h2
    exact ⟨rfl, rfl, rfl⟩
  · cases h
    exact ⟨rfl, rfl, rfl⟩

theorem writeNode_groups {w w' : Writer} {n : Node} (h : w.writeNode n = .ok w') :
    w'.ways = w.ways ∧ w'.rels = w.rels ∧ w'.size = w.size := by
  unfold Writer.writeNode at h
  obtain ⟨⟨_, _⟩, _, h⟩ := except_bind_ok h
  obtain ⟨_, _, h⟩ := except_bind_ok h
  obtain ⟨_, _, h⟩ := except_bind_ok h
  cases h
  exact ⟨rfl, rfl, rfl⟩

/-- Nodes do not count. -/
theorem put_node_size {lib : PbfLib} {w w' : Writer} {n : Node} {t : Bool}
    (h : w.put lib (.node n) = .ok (w', t)) :
    w'.ways = w.ways ∧ w'.rels = w.rels ∧ w'.size = w.size := by
  simp only [Writer.put] at h
  split at h
  · obtain ⟨a, h1, h⟩ := except_bind_ok h
    obtain ⟨e1, e2, e3⟩ := writeDenseNode_groups h1
    cases h
    exact ⟨e1, e2, e3⟩
  · obtain ⟨a, h1, h⟩ := except_bind_ok h
    obtain ⟨e1, e2, e3⟩ := writeNode_groups h1
    cases h
    exact ⟨e1, e2, e3⟩

/-- Writing one object. -/
theorem Sized.put {lib : PbfLib} {w w' : Writer} {o : OsmObj} {m : Nat} (hm : sizeLimit + m < 4294967296)
    (hs : Sized lib w sizeLimit) (h : w.put lib o = .ok (w', false))
    (hw : ∀ p ∈ w'.ways.ways, lib.waySize p ≤ m) (hr : ∀ p ∈ w'.rels.relations, lib.relSize p ≤ m) :
    Sized lib w' (sizeLimit + m) ∧ waysAndRelationsSize lib w' ≤ waysAndRelationsSize lib w + m := by
  have hc := hs.counted
  have hl := hs.limit
  cases o with
  | node n =>
    obtain ⟨e1, e2, e3⟩ := put_node_size h
    have e : waysAndRelationsSize lib w' = waysAndRelationsSize lib w := by
      simp only [waysAndRelationsSize, e1, e2]
    exact ⟨⟨by omega, by omega⟩, by omega⟩
  | way x =>
    unfold Writer.put at h
    obtain ⟨a, h1, h⟩ := except_bind_ok h
    cases h
    unfold Writer.writeWay at h1
    obtain ⟨⟨_, _⟩, _, h1⟩ := except_bind_ok h1
    obtain ⟨_, _, h1⟩ := except_bind_ok h1
    cases h1
    have hp := hw _ (List.mem_append_right _ (List.mem_singleton.mpr rfl))
    simp only [waysAndRelationsSize, Writer.alloc, List.map_append, List.sum_append, List.map_cons,
      List.map_nil, List.sum_cons, List.sum_nil] at *
    refine ⟨⟨?_, ?_⟩, ?_⟩ <;> try simp only [waysAndRelationsSize, List.map_append, List.sum_append,
      List.map_cons, List.map_nil, List.sum_cons, List.sum_nil]
    all_goals omega
  | relation x =>
    unfold Writer.put at h
    dsimp only at h
    unfold Writer.writeRelation at h
    obtain ⟨⟨_, _⟩, _, h⟩ := except_bind_ok h
    obtain ⟨⟨_, _, _, _, th⟩, _, h⟩ := except_bind_ok h
    dsimp only at h
    split at h
    · cases h
    · cases h
      have hp := hr _ (List.mem_append_right _ (List.mem_singleton.mpr rfl))
      simp only [waysAndRelationsSize, Writer.alloc, List.map_append, List.sum_append, List.map_cons,
        List.map_nil, List.sum_cons, List.sum_nil] at *
      refine ⟨⟨?_, ?_⟩, ?_⟩ <;> try simp only [waysAndRelationsSize, List.map_append, List.sum_append,
        List.map_cons, List.map_nil, List.sum_cons, List.sum_nil]
      all_goals omega

theorem Sized.write {lib : PbfLib} {w w' : Writer} {o : OsmObj} {m : Nat} (hm : sizeLimit + m < 4294967296)
    (hs : Sized lib w (sizeLimit + m)) (h : w.write lib o = .ok (w', false))
    (hw : ∀ p ∈ w'.ways.ways, lib.waySize p ≤ m) (hr : ∀ p ∈ w'.rels.relations, lib.relSize p ≤ m) :
    Sized lib w' (sizeLimit + m) ∧ (sizeLimit < waysAndRelationsSize lib w →
      waysAndRelationsSize lib w' ≤ m ∧ ∃ b, w'.out = w.out ++ [b]) := by
  unfold Writer.write at h
  obtain ⟨w1, h1, h⟩ := except_bind_ok h
  obtain ⟨a, b⟩ := hs.check h1
  obtain ⟨c, d⟩ := a.put hm h hw hr
  refine ⟨c, fun hx => ?_⟩
  obtain ⟨e, f⟩ := b hx
  have ho := (put_added h).out
  exact ⟨by omega, by rw [ho]; exact f⟩

theorem writeAll_cons_ok {lib : PbfLib} {w w' : Writer} {o : OsmObj} {os : List OsmObj}
    (h : w.writeAll lib (o :: os) = .ok w') :
    ∃ w1, w.write lib o = .ok (w1, false) ∧ w1.writeAll lib os = .ok w' := by
  unfold Writer.writeAll at h
  obtain ⟨⟨w1, t⟩, h1, h⟩ := except_bind_ok h
  cases t with
  | true => cases h
  | false => exact ⟨w1, h1, h⟩

theorem Sized.writeAll {lib : PbfLib} {m : Nat} (hm : sizeLimit + m < 4294967296) :
    ∀ (os : List OsmObj) {w w' : Writer}, Sized lib w (sizeLimit + m) → w.writeAll lib os = .ok w' →
      EachTakesAtMost lib w os m → Sized lib w' (sizeLimit + m)
  | [], w, w', hs, h, _ => by cases h; exact hs
  | o :: os, w, w', hs, h, he => by
    obtain ⟨w1, h1, h⟩ := writeAll_cons_ok h
    have step : ∀ k, w.writeAll lib ((o :: os).take (k + 1)) = w1.writeAll lib (os.take k) := by
      intro k
      rw [List.take_succ_cons]
      conv => lhs; unfold Writer.writeAll
      rw [h1]; rfl
    obtain ⟨hw, hr⟩ := he 1 w1 (by rw [step]; rfl)
    refine (hs.write hm h1 hw hr).1.writeAll hm os h (fun k v hv => he (k + 1) v (by rw [step]; exact hv))

/-- **C73** (partial): at any time, the ways and relations in the block under construction take at most
95 % of the 32 MB the format allows for a block, and one more way or relation.  (Partial: nodes and the
strings are not counted, see `pbf_nodes_not_counted`.) -/
theorem pbf_block_size_partial (lib : PbfLib) (cfg : PbfCfg) (os : List OsmObj) (w : Writer) (m : Nat)
    (h : (Writer.new cfg).writeAll lib os = .ok w) (hm : m ≤ 33554432)
    (he : EachTakesAtMost lib (Writer.new cfg) os m) :
    waysAndRelationsSize lib w ≤ 33554432 * 95 / 100 + m := by
  have hm' : sizeLimit + m < 4294967296 := by
    have : sizeLimit = 31876710 := rfl
    omega
  exact ((sized_new lib cfg _).writeAll hm' os h he).limit

/-- **C73** (a full block is written): when the ways and relations in the block take more than 95 % of
32 MB, the next object goes to a new block. -/
theorem pbf_full_block_written (lib : PbfLib) (cfg : PbfCfg) (os : List OsmObj) (o : OsmObj) (w w' : Writer)
    (m : Nat) (h : (Writer.new cfg).writeAll lib os = .ok w) (hm : m ≤ 33554432)
    (he : EachTakesAtMost lib (Writer.new cfg) os m)
    (hfull : 33554432 * 95 / 100 < waysAndRelationsSize lib w) (ho : w.write lib o = .ok (w', false)) :
    (∃ b, w'.out = w.out ++ [b]) ∧ w'.buffered = 1 := by
  have hm' : sizeLimit + m < 4294967296 := by
    have : sizeLimit = 31876710 := rfl
    omega
  have hs := (sized_new lib cfg _).writeAll hm' os h he
  unfold Writer.write at ho
  obtain ⟨w1, h1, ho⟩ := except_bind_ok ho
  have hsz : w.size > sizeLimit := by rw [hs.counted]; exact hfull
  have hst : ∃ b, w1 = { Writer.new w.cfg with out := w.out ++ [b], contents := 1 } := by
    unfold Writer.check at h1
    dsimp only at h1
    split at h1
    · obtain ⟨w2, h2, h1⟩ := except_bind_ok h1
      obtain ⟨b, rfl, _⟩ := store_eq h2
      cases h1; exact ⟨b, rfl⟩
    · try rw [if_pos hsz] at h1
      obtain ⟨w2, h2, h1⟩ := except_bind_ok h1
      obtain ⟨b, rfl, _⟩ := store_eq h2
      cases h1; exact ⟨b, rfl⟩
  obtain ⟨b, rfl⟩ := hst
  have ha := put_added ho
  refine ⟨⟨b, ha.out⟩, ?_⟩
  have hg := ha.grp
  have hn := ha.other
  have ht := o.type_cases
  unfold Writer.buffered
  rcases ht with ht | ht | ht <;> rw [ht] at hg hn
  · have h2 := hn .way (by decide)
    have h3 := hn .relation (by decide)
    simp only [Writer.group] at hg h2 h3
    rw [hg, h2, h3]; rfl
  · have h2 := hn .node (by decide)
    have h3 := hn .relation (by decide)
    simp only [Writer.group] at hg h2 h3
    rw [hg, h2, h3]; rfl
  · have h2 := hn .node (by decide)
    have h3 := hn .way (by decide)
    simp only [Writer.group] at hg h2 h3
    rw [hg, h2, h3]; rfl

/-- What is missing: nodes do not count at all, however many tags they have. -/
theorem pbf_nodes_not_counted (lib : PbfLib) (cfg : PbfCfg) (ns : List Node) (w : Writer)
    (h : (Writer.new cfg).writeAll lib (ns.map .node) = .ok w) : w.size = 0 := by
  suffices ∀ (ns : List Node) (v w : Writer), v.size = 0 → v.writeAll lib (ns.map .node) = .ok w → w.size = 0 from
    this ns _ _ rfl h
  intro ns
  induction ns with
  | nil => intro v w hv h; cases h; exact hv
  | cons n ns ih =>
    intro v w hv h
    obtain ⟨w1, h1, h⟩ := writeAll_cons_ok h
    refine ih w1 w ?_ h
    unfold Writer.write at h1
    obtain ⟨w2, h2, h1⟩ := except_bind_ok h1
    rw [(put_node_size h1).2.2]
    unfold Writer.check at h2
    dsimp only at h2
    split at h2
    · obtain ⟨w3, h3, h2⟩ := except_bind_ok h2
      obtain ⟨b, rfl, _⟩ := store_eq h3
      cases h2; rfl
    · rw [if_neg (by rw [hv]; exact Nat.not_lt_zero _)] at h2
      cases h2; exact hv

/-- A concrete case: three ways of 20 MB each take two blocks, the first with two of them. -/
example :
    let lib : PbfLib := ⟨countSort, fun _ => 20000000, fun _ => 20000000⟩
    let os : List OsmObj := [1, 2, 3].map fun i => .way ⟨{ Obj.new with id := i }, [⟨17, ⟨1, 2⟩⟩]⟩
    ((pbfBlocks lib (PbfCfg.default false) os).toOption.map fun bs => bs.map PBlock.count) = some [2, 1] ∧
      EachTakesAtMost lib (Writer.new (PbfCfg.default false)) os 20000000 :=
  ⟨by decide +kernel, fun _ _ _ => ⟨fun _ _ => Nat.le_refl _, fun _ _ => Nat.le_refl _⟩⟩

/-! ### Declared features -/

/-- Dense nodes occur only if the settings say so. (helper for statements and proofs, no
counterpart in /repo) -/
structure DenseOnly (w : Writer) (cfg : PbfCfg) : Prop where
  same : w.cfg = cfg
  now : ∀ k, (w.group k).dense ≠ none → cfg.dense = true
  out : ∀ b ∈ w.out, ∀ g ∈ b.groups, g.dense ≠ none → cfg.dense = true

theorem mapGroup_dense {t : StringTable} {u : Int} {g g' : PGroup} (h : mapGroup t u g = .ok g')
    (hd : g'.dense ≠ none) : g.dense ≠ none := by
  unfold mapGroup at h
  obtain ⟨ns, _, h⟩ := except_bind_ok h
  intro hn
  rw [hn] at h
  dsimp only at h
  obtain ⟨d, hd', h⟩ := except_bind_ok h
  cases hd'
  obtain ⟨ws, _, h⟩ := except_bind_ok h
  obtain ⟨rs, _, h⟩ := except_bind_ok h
  cases h
  exact hd rfl

theorem mapM_mem {α β : Type} {f : α → Res β} : ∀ {l : List α} {l' : List β}, l.mapM f = .ok l' →
    ∀ b ∈ l', ∃ a ∈ l, f a = .ok b
  | [], l', h, b, hb => by
    rw [List.mapM_nil] at h
    cases h; cases hb
  | x :: xs, l', h, b, hb => by
    rw [List.mapM_cons] at h
    obtain ⟨y, h1, h⟩ := except_bind_ok h
    obtain ⟨ys, h2, h⟩ := except_bind_ok h
    cases h
    rcases List.mem_cons.mp hb with rfl | hb
    · exact ⟨x, List.mem_cons_self .., h1⟩
    · obtain ⟨a, ha, he⟩ := mapM_mem h2 b hb
      exact ⟨a, List.mem_cons_of_mem _ ha, he⟩

theorem DenseOnly.store {lib : PbfLib} {w w' : Writer} {cfg : PbfCfg} (hd : DenseOnly w cfg)
    (h : w.store lib = .ok w') : DenseOnly w' cfg := by
  unfold Writer.store at h
  obtain ⟨gs, h1, h⟩ := except_bind_ok h
  cases h
  refine ⟨hd.same, ?_, ?_⟩
  · intro k; cases k <;> intro hx <;> exact absurd rfl hx
  · intro b hb g hg hx
    rcases List.mem_append.mp hb with hb | hb
    · exact hd.out b hb g hg hx
    · simp only [List.mem_singleton] at hb
      subst hb
      obtain ⟨k, _, hk⟩ := mapM_mem h1 g hg
      exact hd.now k (mapGroup_dense hk hx)

theorem DenseOnly.check {lib : PbfLib} {w w' : Writer} {cfg : PbfCfg} (hd : DenseOnly w cfg)
    (h : w.check lib = .ok w') : DenseOnly w' cfg := by
  unfold Writer.check at h
  dsimp only at h
  split at h
  · obtain ⟨w2, h2, h⟩ := except_bind_ok h
    have := hd.store h2
    cases h
    exact ⟨this.same, fun k => by cases k <;> first | exact this.now .node | exact this.now .way | exact this.now .relation | exact fun hx => absurd rfl hx, this.out⟩
  · split at h
    · obtain ⟨w2, h2, h⟩ := except_bind_ok h
      have := hd.store h2
      cases h
      exact ⟨this.same, fun k => by cases k <;> first | exact this.now .node | exact this.now .way | exact this.now .relation | exact fun hx => absurd rfl hx, this.out⟩
    · cases h
      exact ⟨hd.same, fun k => by cases k <;> first | exact hd.now .node | exact hd.now .way | exact hd.now .relation | exact fun hx => absurd rfl hx, hd.out⟩

theorem DenseOnly.put {lib : PbfLib} {w w' : Writer} {cfg : PbfCfg} {o : OsmObj} {t : Bool} (hd : DenseOnly w cfg)
    (h : w.put lib o = .ok (w', t)) : DenseOnly w' cfg := by
  have ha := put_added h
  refine ⟨ha.cfg.trans hd.same, ?_, fun b hb => hd.out b (by rw [ha.out] at hb; exact hb)⟩
  have old : ∀ k, (w.alloc o.type).group k = w.group k := by intro k; cases k <;> rfl
  intro k hx
  by_cases hk : k = o.type
  · subst hk
    cases o with
    | node n =>
      simp only [Writer.put] at h
      split at h
      · rename_i hdn
        rw [← hd.same]; exact hdn
      · obtain ⟨a, h1, h⟩ := except_bind_ok h
        cases h
        unfold Writer.writeNode at h1
        obtain ⟨⟨_, _⟩, _, h1⟩ := except_bind_ok h1
        obtain ⟨_, _, h1⟩ := except_bind_ok h1
        obtain ⟨_, _, h1⟩ := except_bind_ok h1
        cases h1
        exact hd.now .node hx
    | way x =>
      simp only [Writer.put] at h
      obtain ⟨a, h1, h⟩ := except_bind_ok h
      cases h
      unfold Writer.writeWay at h1
      obtain ⟨⟨_, _⟩, _, h1⟩ := except_bind_ok h1
      obtain ⟨_, _, h1⟩ := except_bind_ok h1
      cases h1
      exact hd.now .way hx
    | relation x =>
      simp only [Writer.put] at h
      unfold Writer.writeRelation at h
      obtain ⟨⟨_, _⟩, _, h⟩ := except_bind_ok h
      obtain ⟨⟨_, _, _, _, th⟩, _, h⟩ := except_bind_ok h
      dsimp only at h
      split at h <;> (cases h; exact hd.now .relation hx)
  · rw [ha.other k hk, old] at hx
    exact hd.now k hx

/-- **C19** (declared features): a written file declares every feature a reader needs: the schema always,
dense nodes if they occur in any block. -/
theorem pbf_features_declared (lib : PbfLib) (cfg : PbfCfg) (ft : FileType) (g : String) (m : Meta)
    (os : List OsmObj) (bs : List PBlock) (h : pbfBlocks lib cfg os = .ok bs) :
    "OsmSchema-V0.6" ∈ (headerMsg cfg ft g m).features ∧
    ((∃ b ∈ bs, ∃ gr ∈ b.groups, gr.dense ≠ none) → "DenseNodes" ∈ (headerMsg cfg ft g m).features) := by
  refine ⟨by simp [headerMsg], ?_⟩
  rintro ⟨b, hb, gr, hg, hx⟩
  have all : ∀ (os : List OsmObj) (v w : Writer), DenseOnly v cfg → v.writeAll lib os = .ok w → DenseOnly w cfg := by
    intro os
    induction os with
    | nil => intro v w hv h; cases h; exact hv
    | cons o os ih =>
      intro v w hv h
      obtain ⟨w1, h1, h⟩ := writeAll_cons_ok h
      unfold Writer.write at h1
      obtain ⟨w2, h2, h1⟩ := except_bind_ok h1
      exact ih w1 w ((hv.check h2).put h1) h
  unfold pbfBlocks at h
  obtain ⟨w, h1, h⟩ := except_bind_ok h
  obtain ⟨w', h2, h⟩ := except_bind_ok h
  cases h
  have hd := all os _ w ⟨rfl, by intro k; cases k <;> intro hx <;> exact absurd rfl hx, by intro b hb; cases hb⟩ h1
  have hd' : DenseOnly w' cfg := by
    unfold Writer.final at h2
    split at h2
    · exact hd.store h2
    · cases h2; exact hd
  have := hd'.out b hb gr hg hx
  simp [headerMsg, this]

/-- A concrete case with dense nodes. -/
example : ∃ bs, (pbfBlocks demoLib (PbfCfg.default true) demoObjs).toOption = some bs ∧
    ∃ b ∈ bs, ∃ gr ∈ b.groups, gr.dense ≠ none := by
  have : ((pbfBlocks demoLib (PbfCfg.default true) demoObjs).toOption.any fun bs =>
    bs.any fun b => b.groups.any fun gr => decide (gr.dense ≠ none)) = true := by decide +kernel
  simp only [Option.any_eq_true_iff_get, List.any_eq_true, decide_eq_true_eq] at this
  obtain ⟨hs, b, hb, gr, hg, hx⟩ := this
  exact ⟨_, (Option.some_get hs).symm, b, hb, gr, hg, hx⟩

end Osmium

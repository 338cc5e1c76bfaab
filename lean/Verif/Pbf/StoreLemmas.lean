import Verif.Pbf.DecodeLemmas
import Verif.Input.Lemmas
/-
Storing a block and reading it again.
-/
namespace Osmium
open Spec

theorem mapM_ok {α β : Type} {f : α → Res β} {g : α → β} (l : List α)
    (h : ∀ a ∈ l, f a = .ok (g a)) : l.mapM f = .ok (l.map g) := by
  induction l with
  | nil => rfl
  | cons a l ih =>
    rw [List.mapM_cons, h a (by simp), ih (fun x hx => h x (by simp [hx]))]
    rfl

section
variable {cfg : PbfCfg} {K : List String} {g : String → Int} {st : StringTable}

/-- `st` maps the interim ids of the strings in `K` to `g`. -/
structure GoodMap (K : List String) (g : String → Int) (st : StringTable) : Prop where
  map : ∀ s ∈ K, mapSid st (interim K s) = .ok (g s)
  len : K.length ≤ 65535
  pos : ∀ s ∈ K, 1 ≤ g s ∧ g s ≤ 65535

theorem mapInfo_ok (hg : GoodMap K g st) (o : Obj) (hu : cfg.metadata = true → o.user ∈ K) :
    mapInfo st (encInfo cfg (interim K) o) = .ok (encInfo cfg g o) := by
  unfold encInfo
  by_cases hm : cfg.metadata
  · simp only [hm, if_true, mapInfo, hg.map _ (hu hm), bind, Except.bind, pure, Except.pure]
  · simp only [hm, mapInfo]; rfl

theorem mapM_map_ok {α : Type} (hg : GoodMap K g st) (l : List α) (p : α → String)
    (h : ∀ a ∈ l, p a ∈ K) :
    (l.map (fun a => interim K (p a))).mapM (mapSid st) = .ok (l.map (fun a => g (p a))) := by
  induction l with
  | nil => rfl
  | cons a l ih =>
    rw [List.map_cons, List.mapM_cons, hg.map _ (h a (by simp)),
      ih (fun x hx => h x (by simp [hx]))]
    rfl

theorem HasStrings.keys {o : OsmObj} (h : HasStrings cfg K o) : ∀ t ∈ o.obj.tags, t.key ∈ K :=
  fun _ ht => h.tags _ (mem_tagStrings ht).1
theorem HasStrings.values {o : OsmObj} (h : HasStrings cfg K o) : ∀ t ∈ o.obj.tags, t.value ∈ K :=
  fun _ ht => h.tags _ (mem_tagStrings ht).2

theorem mapNode_ok (hg : GoodMap K g st) (n : Node) (h : HasStrings cfg K (.node n)) :
    mapNode st (encNode cfg (interim K) n) = .ok (encNode cfg g n) := by
  have h1 := mapInfo_ok hg n.obj h.user
  have h2 := mapM_map_ok hg n.obj.tags Tag.key h.keys
  have h3 := mapM_map_ok hg n.obj.tags Tag.value h.values
  simp only [mapNode, encNode, h1, h2, h3, bind, Except.bind, pure, Except.pure]

theorem mapWay_ok (hg : GoodMap K g st) (n : Way) (h : HasStrings cfg K (.way n)) :
    mapWay st (encWay cfg (interim K) n) = .ok (encWay cfg g n) := by
  have h1 := mapInfo_ok hg n.obj h.user
  have h2 := mapM_map_ok hg n.obj.tags Tag.key h.keys
  have h3 := mapM_map_ok hg n.obj.tags Tag.value h.values
  simp only [mapWay, encWay, h1, h2, h3, bind, Except.bind, pure, Except.pure]

theorem HasStrings.roles {r : Relation} (h : HasStrings cfg K (.relation r)) :
    ∀ m ∈ r.members, m.role ∈ K := fun m hm => h _ (by
    simp only [OsmObj.strings, List.mem_append, List.mem_map]
    exact Or.inr ⟨m, hm, rfl⟩)

theorem mapRel_ok (hg : GoodMap K g st) (n : Relation) (h : HasStrings cfg K (.relation n)) :
    mapRel st (encRel cfg (interim K) n) = .ok (encRel cfg g n) := by
  have h1 := mapInfo_ok hg n.obj h.user
  have h2 := mapM_map_ok hg n.obj.tags Tag.key h.keys
  have h3 := mapM_map_ok hg n.obj.tags Tag.value h.values
  have h4 := mapM_map_ok hg n.members Member.role h.roles
  simp only [mapRel, encRel, h1, h2, h3, h4, bind, Except.bind, pure, Except.pure]

theorem interim_pos (K : List String) (s : String) (hs : s ∈ K) (hK : K.length ≤ 65535) :
    1 ≤ interim K s ∧ interim K s ≤ 65535 := by
  have := List.idxOf_lt_length_iff.2 hs
  unfold interim fid; omega

theorem mapKV_ok (hg : GoodMap K g st) (ns : List Node) (h : ∀ n ∈ ns, HasStrings cfg K (.node n)) :
    (ns.flatMap (fun n => (tagStrings n.obj.tags).map (interim K) ++ [0])).mapM (mapKV st) =
      .ok (ns.flatMap (fun n => (tagStrings n.obj.tags).map g ++ [0])) := by
  have one : ∀ l : List String, (∀ s ∈ l, s ∈ K) →
      (l.map (interim K) ++ [0]).mapM (mapKV st) = .ok (l.map g ++ [0]) := by
    intro l hl
    induction l with
    | nil => rfl
    | cons s l ih =>
      have hs := hl s (by simp)
      have hp := interim_pos K s hs hg.len
      have hw : wrapU16 (interim K s) > 0 := by unfold wrapU16; omega
      have e : mapKV st (interim K s) = .ok (g s) := by
        unfold mapKV; rw [if_pos hw, hg.map s hs]
      rw [List.map_cons, List.cons_append, List.mapM_cons, e, ih (fun x hx => hl x (by simp [hx]))]
      rfl
  induction ns with
  | nil => rfl
  | cons n ns ih =>
    rw [List.flatMap_cons, List.mapM_append, one (tagStrings n.obj.tags) (h n (by simp)).tags,
      ih (fun x hx => h x (by simp [hx]))]
    rfl

theorem deltaSeqU32_small (us : List Int) (v : Int) (hv : 0 ≤ v ∧ v ≤ 65535)
    (h : ∀ u ∈ us, 0 ≤ u ∧ u ≤ 65535) :
    (deltaSeqU32 v us).map wrapS32 = deltas v us := by
  induction us generalizing v with
  | nil => rfl
  | cons u us ih =>
    have hu := h u (by simp)
    simp only [deltaSeqU32, deltaUpdateU32, List.map_cons, deltas]
    rw [ih u hu (fun x hx => h x (by simp [hx]))]
    congr 1
    unfold wrapS32 wrapU32; omega

theorem mapDense_ok (hg : GoodMap K g st) (ns : List Node) (h : ∀ n ∈ ns, HasStrings cfg K (.node n)) :
    mapDense st 0 (encDense cfg (interim K) (interimUsers K ns) ns) =
      .ok (encDense cfg g (deltas 0 (ns.map (fun n => g n.obj.user))) ns) := by
  have h1 := mapKV_ok hg ns h
  by_cases hm : cfg.metadata = true
  · have h2 := mapM_map_ok hg ns (fun n => n.obj.user) (fun n hn => (h n hn).user hm)
    have h3 := deltaSeqU32_small (ns.map (fun n => g n.obj.user)) 0 (by omega) (by
      intro u hu
      obtain ⟨n, hn, rfl⟩ := List.mem_map.1 hu
      have := hg.pos n.obj.user ((h n hn).user hm)
      omega)
    simp only [mapDense, encDense, hm, if_true, h1, encDenseInfo, interimUsers, h2, h3, bind,
      Except.bind, pure, Except.pure]
  · simp only [mapDense, encDense, hm, h1, bind, Except.bind, pure, Except.pure]
    rfl

/-- The group of objects of type `k` as stored in the block. -/
def encGroup (cfg : PbfCfg) (g : String → Int) (os : List OsmObj) : ObjType → PGroup
  | .node => encNodes cfg g (deltas 0 ((nodesOf os).map (fun n => g n.obj.user))) (nodesOf os)
  | .way => { PGroup.new with ways := (waysOf os).map (encWay cfg g) }
  | .relation => { PGroup.new with relations := (relsOf os).map (encRel cfg g) }
  | _ => .new

theorem mem_waysOf {os : List OsmObj} {n : Way} : n ∈ waysOf os ↔ OsmObj.way n ∈ os := by
  simp only [waysOf, List.mem_filterMap]
  constructor
  · rintro ⟨o, ho, e⟩
    cases o <;> simp at e
    subst e; exact ho
  · intro h; exact ⟨_, h, rfl⟩

theorem mem_relsOf {os : List OsmObj} {n : Relation} : n ∈ relsOf os ↔ OsmObj.relation n ∈ os := by
  simp only [relsOf, List.mem_filterMap]
  constructor
  · rintro ⟨o, ho, e⟩
    cases o <;> simp at e
    subst e; exact ho
  · intro h; exact ⟨_, h, rfl⟩

theorem mapGroup_ok (hg : GoodMap K g st) {w : Writer} {os : List OsmObj} (hi : BlockInv cfg K w os)
    (h : ∀ o ∈ os, HasStrings cfg K o) (k : ObjType) :
    mapGroup st 0 (w.group k) = .ok (encGroup cfg g os k) := by
  have hn : ∀ n ∈ nodesOf os, HasStrings cfg K (.node n) := fun n hn => h _ (mem_nodesOf.1 hn)
  cases k with
  | node =>
    simp only [Writer.group, encGroup, hi.nodes, encNodes]
    by_cases hd : cfg.dense
    · simp only [hd, if_true, mapGroup, PGroup.new, List.mapM_nil, bind, Except.bind, pure,
        Except.pure]
      by_cases he : (nodesOf os).isEmpty
      · simp [he]
      · have := mapDense_ok hg (nodesOf os) hn
        simp only [he, Bool.false_eq_true, if_false, this]
    · have : ((nodesOf os).map (encNode cfg (interim K))).mapM (mapNode st) =
          .ok ((nodesOf os).map (encNode cfg g)) := by
        revert hn; generalize nodesOf os = l; intro hn
        induction l with
        | nil => rfl
        | cons a l ih =>
          rw [List.map_cons, List.mapM_cons, mapNode_ok hg a (hn a (by simp)),
            ih (fun x hx => hn x (by simp [hx]))]
          rfl
      simp only [hd, mapGroup, PGroup.new, Bool.false_eq_true, if_false, this, List.mapM_nil, bind,
        Except.bind, pure, Except.pure]
  | way =>
    have hw : ∀ n ∈ waysOf os, HasStrings cfg K (.way n) := fun n hn => h _ (mem_waysOf.1 hn)
    have : ((waysOf os).map (encWay cfg (interim K))).mapM (mapWay st) =
        .ok ((waysOf os).map (encWay cfg g)) := by
      revert hw; generalize waysOf os = l; intro hw
      induction l with
      | nil => rfl
      | cons a l ih =>
        rw [List.map_cons, List.mapM_cons, mapWay_ok hg a (hw a (by simp)),
          ih (fun x hx => hw x (by simp [hx]))]
        rfl
    simp only [Writer.group, encGroup, hi.ways, mapGroup, PGroup.new, this, List.mapM_nil, bind,
      Except.bind, pure, Except.pure]
  | relation =>
    have hw : ∀ n ∈ relsOf os, HasStrings cfg K (.relation n) := fun n hn => h _ (mem_relsOf.1 hn)
    have : ((relsOf os).map (encRel cfg (interim K))).mapM (mapRel st) =
        .ok ((relsOf os).map (encRel cfg g)) := by
      revert hw; generalize relsOf os = l; intro hw
      induction l with
      | nil => rfl
      | cons a l ih =>
        rw [List.map_cons, List.mapM_cons, mapRel_ok hg a (hw a (by simp)),
          ih (fun x hx => hw x (by simp [hx]))]
        rfl
    simp only [Writer.group, encGroup, hi.rels, mapGroup, PGroup.new, this, List.mapM_nil, bind,
      Except.bind, pure, Except.pure]
  | unknown => rfl
  | area => rfl

theorem hasStrings_keysOf (os : List OsmObj) : ∀ o ∈ os, HasStrings cfg (keysOf cfg os) o := by
  intro o ho s hs
  rw [keysOf, mem_foldl_addKey]
  exact Or.inr (List.mem_flatMap.2 ⟨o, ho, hs⟩)

/-! ### The values fit into the fields of the messages -/

theorem deltas_bound (B : Int) (xs : List Int) (v : Int) (hv : -B ≤ v ∧ v ≤ B)
    (hx : ∀ x ∈ xs, -B ≤ x ∧ x ≤ B) : ∀ d ∈ deltas v xs, -(2 * B) ≤ d ∧ d ≤ 2 * B := by
  induction xs generalizing v with
  | nil => simp [deltas]
  | cons x xs ih =>
    intro d hd
    simp only [deltas, List.mem_cons] at hd
    have h0 := hx x (by simp)
    rcases hd with rfl | hd
    · omega
    · exact ih x h0 (fun y hy => hx y (by simp [hy])) d hd

theorem deltas_s64 (xs : List Int) (hx : ∀ x ∈ xs, In62 x) : ∀ d ∈ deltas 0 xs, InS64 d := by
  -- the range of `In62` is not symmetric
  have : ∀ v, In62 v → ∀ d ∈ deltas v xs, InS64 d := by
    induction xs with
    | nil => simp [deltas]
    | cons x xs ih =>
      intro v hv d hd
      simp only [deltas, List.mem_cons] at hd
      have h0 := hx x (by simp)
      rcases hd with rfl | hd
      · unfold In62 at *; unfold InS64; omega
      · exact ih (fun y hy => hx y (by simp [hy])) x h0 d hd
  exact this 0 (by decide)

theorem encInfo_range {o : Obj} (ho : o.PbfOk) (hpos : ∀ s ∈ K, 1 ≤ g s ∧ g s ≤ 65535)
    (hu : cfg.metadata = true → o.user ∈ K) : ∀ i ∈ encInfo cfg g o, i.InRange := by
  intro i hi
  unfold encInfo at hi
  split at hi
  · rename_i hm
    simp only [Option.mem_def, Option.some.injEq] at hi
    subst hi
    have h1 := hpos _ (hu hm)
    have h2 := ho.wf
    have h3 := ho.ts
    refine ⟨?_, ?_, ?_, ?_, ?_⟩
    · show InS32 (wrapS32 _); unfold wrapS32 InS32; omega
    · show InS64 o.timestamp; unfold InS64; omega
    · have := h2.changeset; show InS64 o.changeset; unfold InS32 at this; unfold InS64; omega
    · exact h2.uid
    · show InU32 (g o.user); unfold InU32; omega
  · simp at hi

theorem encGroup_range (hc : cfg.Exact) (hpos : ∀ s ∈ K, 1 ≤ g s ∧ g s ≤ 65535) (os : List OsmObj)
    (ho : ∀ o ∈ os, o.PbfOk) (hs : ∀ o ∈ os, HasStrings cfg K o) (k : ObjType) :
    (encGroup cfg g os k).InRange := by
  have tagk : ∀ o ∈ os, ∀ t ∈ o.obj.tags, t.key ∈ K ∧ t.value ∈ K := by
    intro o h t ht
    constructor <;> apply hs o h <;>
      simp only [OsmObj.strings, List.mem_append, tagStrings, List.mem_flatMap] <;>
      exact Or.inl (Or.inl ⟨t, ht, by simp⟩)
  have userk : ∀ o ∈ os, cfg.metadata = true → o.obj.user ∈ K := by
    intro o h hm
    apply hs o h
    simp [OsmObj.strings, hm]
  have keys : ∀ o ∈ os, ∀ x ∈ o.obj.tags.map (fun t => g t.key), InU32 x := by
    intro o h x hx
    obtain ⟨t, ht, rfl⟩ := List.mem_map.1 hx
    have := hpos _ (tagk o h t ht).1
    unfold InU32; omega
  have vals : ∀ o ∈ os, ∀ x ∈ o.obj.tags.map (fun t => g t.value), InU32 x := by
    intro o h x hx
    obtain ⟨t, ht, rfl⟩ := List.mem_map.1 hx
    have := hpos _ (tagk o h t ht).2
    unfold InU32; omega
  have info : ∀ o ∈ os, ∀ i ∈ encInfo cfg g o.obj, i.InRange := fun o h =>
    encInfo_range (ho o h).obj hpos (userk o h)
  have s62 : ∀ x, In62 x → InS64 x := by intro x h; unfold In62 at h; unfold InS64; omega
  have s32 : ∀ x, InS32 x → In62 x := by intro x h; unfold InS32 at h; unfold In62; omega
  have hnode : ∀ n ∈ nodesOf os, OsmObj.node n ∈ os := fun n h => mem_nodesOf.1 h
  cases k with
  | node =>
    unfold encGroup encNodes
    by_cases hd : cfg.dense
    · simp only [hd, if_true]
      refine ⟨by simp [PGroup.new], ?_, by simp [PGroup.new], by simp [PGroup.new]⟩
      intro d hd'
      split at hd'
      · simp at hd'
      · simp only [Option.mem_def, Option.some.injEq] at hd'
        subst hd'
        have col : ∀ f : Node → Int, (∀ n ∈ nodesOf os, In62 (f n)) →
            ∀ x ∈ deltas 0 ((nodesOf os).map f), InS64 x := by
          intro f hf
          apply deltas_s64
          intro x hx
          obtain ⟨n, hn, rfl⟩ := List.mem_map.1 hx
          exact hf n hn
        refine ⟨?_, ?_, ?_, ?_, ?_⟩
        · exact col _ (fun n hn => (ho _ (hnode n hn)).2.1)
        · exact col _ (fun n hn => (lonlat2intC_ok hc (ho _ (hnode n hn)).2.2.2).2.1)
        · exact col _ (fun n hn => (lonlat2intC_ok hc (ho _ (hnode n hn)).2.2.1).2.1)
        · intro x hx
          simp only [encDense, List.mem_flatMap, List.mem_append, List.mem_map,
            List.mem_singleton] at hx
          obtain ⟨n, hn, h | rfl⟩ := hx
          · obtain ⟨s, hs', rfl⟩ := h
            have : s ∈ K := by
              apply hs _ (hnode n hn)
              simp only [OsmObj.strings, List.mem_append]
              exact Or.inl (Or.inl hs')
            have := hpos _ this
            unfold InS32; omega
          · unfold InS32; omega
        · intro i hi
          simp only [encDense] at hi
          split at hi
          · rename_i hm
            simp only [Option.mem_def, Option.some.injEq] at hi
            subst hi
            refine ⟨?_, ?_, ?_, ?_, ?_⟩
            · intro x hx
              obtain ⟨n, _, rfl⟩ := List.mem_map.1 hx
              unfold wrapS32 InS32; omega
            · exact col _ (fun n hn => by
                have := (ho _ (hnode n hn)).1.ts
                unfold In62; omega)
            · exact col _ (fun n hn => s32 _ (ho _ (hnode n hn)).1.wf.changeset)
            · intro x hx
              obtain ⟨y, _, rfl⟩ := List.mem_map.1 hx
              unfold wrapS32 InS32; omega
            · intro x hx
              have := deltas_bound 65535 ((nodesOf os).map (fun n : Node => g n.obj.user)) 0 (by omega) (by
                intro y hy
                obtain ⟨n, hn, rfl⟩ := List.mem_map.1 hy
                have := hpos _ (userk _ (hnode n hn) hm)
                simp only [OsmObj.obj] at this
                omega) x hx
              unfold InS32; omega
          · simp at hi
    · simp only [hd, Bool.false_eq_true, if_false]
      refine ⟨?_, by simp [PGroup.new], by simp [PGroup.new], by simp [PGroup.new]⟩
      intro p hp
      obtain ⟨n, hn, rfl⟩ := List.mem_map.1 hp
      have hn' := hnode n hn
      have hok := ho _ hn'
      exact ⟨s62 _ hok.2.1, keys _ hn', vals _ hn', info _ hn',
        s62 _ (lonlat2intC_ok hc hok.2.2.2).2.1, s62 _ (lonlat2intC_ok hc hok.2.2.1).2.1⟩
  | way =>
    refine ⟨by simp [encGroup, PGroup.new], by simp [encGroup, PGroup.new], ?_, by simp [encGroup, PGroup.new]⟩
    intro p hp
    obtain ⟨n, hn, rfl⟩ := List.mem_map.1 hp
    have hn' := mem_waysOf.1 hn
    have hok := ho _ hn'
    refine ⟨hok.1.wf.id, keys _ hn', vals _ hn', info _ hn', ?_⟩
    apply deltas_s64
    intro x hx
    obtain ⟨y, hy, rfl⟩ := List.mem_map.1 hx
    exact hok.2 y hy
  | relation =>
    refine ⟨by simp [encGroup, PGroup.new], by simp [encGroup, PGroup.new], by simp [encGroup, PGroup.new], ?_⟩
    intro p hp
    obtain ⟨n, hn, rfl⟩ := List.mem_map.1 hp
    have hn' := mem_relsOf.1 hn
    have hok := ho _ hn'
    refine ⟨hok.1.wf.id, keys _ hn', vals _ hn', info _ hn', ?_, ?_⟩
    · intro x hx
      obtain ⟨m, hm, rfl⟩ := List.mem_map.1 hx
      have : m.role ∈ K := by
        apply hs _ hn'
        simp only [OsmObj.strings, List.mem_append]
        exact Or.inr (List.mem_map.2 ⟨m, hm, rfl⟩)
      have := hpos _ this
      unfold InS32; omega
    · apply deltas_s64
      intro x hx
      obtain ⟨m, hm, rfl⟩ := List.mem_map.1 hx
      exact (hok.2 m hm).1
  | unknown => simp [encGroup, PGroup.new, PGroup.InRange]
  | area => simp [encGroup, PGroup.new, PGroup.InRange]

/-- The block stored. -/
theorem store_ok (lib : PbfLib) {w : Writer} {os : List OsmObj}
    (hi : BlockInv cfg (keysOf cfg os) w os) (hK : (keysOf cfg os).length ≤ 65535)
    (hdate : cfg.dateGranularity = 1000) :
    ∃ (g : String → Int) (b : PBlock),
      w.store lib = .ok { Writer.new cfg with out := w.out ++ [b] } ∧
      GoodBlock cfg (keysOf cfg os) g b ∧
      b.groups = (kinds os).map (encGroup cfg g os) := by
  have hkl : w.strings.keys.length ≤ 65535 := by rw [hi.keys]; exact hK
  obtain ⟨S, h1, h2, h3⟩ := store_spec lib.sort w.strings hi.inv hkl
  rw [hi.keys] at h2 h3
  let g : String → Int := fun s => ((S.idxOf s + 1 : Nat) : Int)
  have hmem : ∀ s ∈ keysOf cfg os, S.idxOf s < S.length := fun s hs =>
    List.idxOf_lt_length_iff.2 (h2.mem_iff.2 hs)
  have hpos : ∀ s ∈ keysOf cfg os, 1 ≤ g s ∧ g s ≤ 65535 := by
    intro s hs
    have := hmem s hs
    have hl := h2.length_eq
    simp only [g]; omega
  have hgm : GoodMap (keysOf cfg os) g (w.strings.store lib.sort).2 := by
    refine ⟨?_, hK, hpos⟩
    intro s hs
    have hp := interim_pos _ s hs hK
    have e : (wrapU16 (interim (keysOf cfg os) s)).toNat = fid (keysOf cfg os) s := by
      unfold wrapU16
      have : interim (keysOf cfg os) s = (fid (keysOf cfg os) s : Int) := rfl
      omega
    unfold mapSid
    rw [e, h3 s hs]
    rfl
  have hgroups : w.order.mapM (fun k => mapGroup (w.strings.store lib.sort).2 w.dUserSid (w.group k))
      = .ok ((kinds os).map (encGroup cfg g os)) := by
    rw [hi.order, hi.dUserSid]
    exact mapM_ok _ (fun k _ => mapGroup_ok hgm hi (hasStrings_keysOf os) k)
  refine ⟨g, PBlock.mk (w.strings.store lib.sort).1 ((kinds os).map (encGroup cfg g os))
    w.cfg.granularity w.cfg.dateGranularity 0 0, ?_, ?_, rfl⟩
  · simp only [Writer.store, hgroups, bind, Except.bind, pure, Except.pure, hi.cfgEq]
    rfl
  · refine ⟨?_, hpos, ?_, ?_, rfl, rfl⟩
    · intro s hs
      have : ¬ g s < 0 := by have := hpos s hs; omega
      unfold sidStr
      rw [if_neg this]
      show Res.ofOption (w.strings.store lib.sort).1[(g s).toNat]? = _
      rw [h1]
      have : (g s).toNat = S.idxOf s + 1 := by simp only [g]; omega
      rw [this, List.getElem?_cons_succ, List.getElem?_eq_getElem (hmem s hs)]
      simp
    · show w.cfg.granularity = _
      rw [hi.cfgEq]
    · show w.cfg.dateGranularity = _
      rw [hi.cfgEq, hdate]

/-! ### Reading the block -/

theorem kept_type (a b : Bool) (o : OsmObj) : (kept a b o).type = o.type := by cases o <;> rfl

theorem readEach_ok {α : Type} {f : α → Res OsmObj} {h : α → OsmObj} (l : List α)
    (he : ∀ a ∈ l, f a = .ok (h a)) : readEach f l = ⟨l.map (fun a => .obj (h a)), none⟩ := by
  induction l with
  | nil => rfl
  | cons a l ih =>
    simp only [readEach, he a (by simp), ih (fun x hx => he x (by simp [hx])), List.map_cons]

theorem ofType_node (os : List OsmObj) : ofType .node os = (nodesOf os).map .node := by
  unfold ofType nodesOf
  induction os with
  | nil => rfl
  | cons o os ih => cases o <;> simp_all [OsmObj.type]
theorem ofType_way (os : List OsmObj) : ofType .way os = (waysOf os).map .way := by
  unfold ofType waysOf
  induction os with
  | nil => rfl
  | cons o os ih => cases o <;> simp_all [OsmObj.type]
theorem ofType_relation (os : List OsmObj) : ofType .relation os = (relsOf os).map .relation := by
  unfold ofType relsOf
  induction os with
  | nil => rfl
  | cons o os ih => cases o <;> simp_all [OsmObj.type]

theorem mem_kinds {os : List OsmObj} {k : ObjType} : k ∈ kinds os ↔ ∃ o ∈ os, o.type = k := by
  induction os using List.reverseRecOn with
  | nil => simp [kinds]
  | append_singleton os o ih =>
    rw [kinds_snoc]
    have : k ∈ addKind (kinds os) o.type ↔ k ∈ kinds os ∨ o.type = k := by
      unfold addKind
      split
      · rename_i hm
        constructor
        · exact Or.inl
        · rintro (h | rfl)
          · exact h
          · exact hm
      · simp [eq_comm]
    rw [this, ih]; simp [or_and_right, exists_or]

theorem kinds_nodup (os : List OsmObj) : (kinds os).Nodup := by
  induction os using List.reverseRecOn with
  | nil => simp [kinds]
  | append_singleton os o ih =>
    rw [kinds_snoc]; unfold addKind
    split
    · exact ih
    · rename_i h
      rw [List.nodup_append]
      exact ⟨ih, by simp, by intro a ha b hb e; simp at hb; subst hb; subst e; exact h ha⟩

variable {b : PBlock}

theorem readGroup_ok (hc : cfg.Exact) (hb : GoodBlock cfg K g b) (os : List OsmObj)
    (hl : os.length ≤ 8000) (ho : ∀ o ∈ os, o.PbfOk) (hs : ∀ o ∈ os, HasStrings cfg K o)
    (m : Meta) (last k : ObjType) (hk : k ∈ kinds os) :
    readGroup m last b (encGroup cfg g os k) =
      (⟨seqCalls m last ((ofType k os).map (kept cfg.metadata cfg.addVisible)), none⟩, k) := by
  have hkm := mem_kinds.1 hk
  have hne : (ofType k os).map (kept cfg.metadata cfg.addVisible) ≠ [] := by
    obtain ⟨o, h1, h2⟩ := hkm
    intro e
    have : o ∈ ofType k os := by simp [ofType, h1, h2]
    simp only [List.map_eq_nil_iff] at e
    rw [e] at this; simp at this
  have hty : ∀ o ∈ (ofType k os).map (kept cfg.metadata cfg.addVisible), o.type = k := by
    intro o h
    obtain ⟨x, hx, rfl⟩ := List.mem_map.1 h
    rw [kept_type]; simp [ofType] at hx; exact hx.2
  rw [seqCalls_run m last k _ hty hne]
  have hn : ∀ n ∈ nodesOf os, (OsmObj.node n).PbfOk ∧ HasStrings cfg K (.node n) :=
    fun n hn => ⟨ho _ (mem_nodesOf.1 hn), hs _ (mem_nodesOf.1 hn)⟩
  cases k with
  | node =>
    rw [ofType_node] at hne ⊢
    have hne' : nodesOf os ≠ [] := by intro e; rw [e] at hne; simp at hne
    simp only [encGroup, encNodes]
    by_cases hd : cfg.dense
    · have he : (nodesOf os).isEmpty = false := by simpa using hne'
      have hlen : (nodesOf os).length ≤ 8000 := le_trans (List.length_filterMap_le _ _) hl
      have := readDense_ok hc hb (nodesOf os) hne' hlen (fun n h => (hn n h).1) (fun n h => (hn n h).2)
      simp only [hd, if_true, he, Bool.false_eq_true, if_false, readGroup, this, Events.seq,
        List.map_map, Function.comp_def]
    · have h1 := readEach_ok (f := fun p => do return .node (← readNode b p))
        (h := fun p => match readNode b p with | .ok n => .node n | .error _ => .node Node.new)
        ((nodesOf os).map (encNode cfg g)) (by
          intro p hp
          obtain ⟨n, h, rfl⟩ := List.mem_map.1 hp
          rw [readNode_ok hc hb (hn n h).1 (hn n h).2]; rfl)
      have h2 : (nodesOf os).map (fun n => Cb.obj (match readNode b (encNode cfg g n) with
            | .ok n => .node n | .error _ => .node Node.new)) =
          (nodesOf os).map (fun n => Cb.obj (kept cfg.metadata cfg.addVisible (.node n))) := by
        apply List.map_congr_left
        intro n h
        rw [readNode_ok hc hb (hn n h).1 (hn n h).2]; rfl
      simp only [hd, Bool.false_eq_true, if_false, readGroup, PGroup.new, List.length_nil,
        ne_eq, not_true_eq_false, List.length_map, List.length_eq_zero_iff, hne', not_false_eq_true,
        if_true, h1, Events.seq, List.map_map, Function.comp_def]
      rw [h2]
  | way =>
    rw [ofType_way] at hne ⊢
    have hne' : waysOf os ≠ [] := by intro e; rw [e] at hne; simp at hne
    have hw : ∀ n ∈ waysOf os, (OsmObj.way n).PbfOk ∧ HasStrings cfg K (.way n) :=
      fun n hn => ⟨ho _ (mem_waysOf.1 hn), hs _ (mem_waysOf.1 hn)⟩
    have h1 := readEach_ok (f := fun p => do return .way (← readWay b p))
        (h := fun p => match readWay b p with | .ok n => .way n | .error _ => .way Way.new)
        ((waysOf os).map (encWay cfg g)) (by
          intro p hp
          obtain ⟨n, h, rfl⟩ := List.mem_map.1 hp
          rw [readWay_ok hb (hw n h).1 (hw n h).2]; rfl)
    have h2 : (waysOf os).map (fun n => Cb.obj (match readWay b (encWay cfg g n) with
            | .ok n => .way n | .error _ => .way Way.new)) =
          (waysOf os).map (fun n => Cb.obj (kept cfg.metadata cfg.addVisible (.way n))) := by
        apply List.map_congr_left
        intro n h
        rw [readWay_ok hb (hw n h).1 (hw n h).2]; rfl
    simp only [encGroup, readGroup, PGroup.new, 
        ne_eq, not_true_eq_false, List.length_map, List.length_eq_zero_iff, hne', not_false_eq_true,
        if_true, h1, Events.seq, List.map_map, Function.comp_def]
    rw [h2]
  | relation =>
    rw [ofType_relation] at hne ⊢
    have hne' : relsOf os ≠ [] := by intro e; rw [e] at hne; simp at hne
    have hw : ∀ n ∈ relsOf os, (OsmObj.relation n).PbfOk ∧ HasStrings cfg K (.relation n) :=
      fun n hn => ⟨ho _ (mem_relsOf.1 hn), hs _ (mem_relsOf.1 hn)⟩
    have h1 := readEach_ok (f := fun p => do return .relation (← readRelation b p))
        (h := fun p => match readRelation b p with
          | .ok n => .relation n | .error _ => .relation Relation.new)
        ((relsOf os).map (encRel cfg g)) (by
          intro p hp
          obtain ⟨n, h, rfl⟩ := List.mem_map.1 hp
          rw [readRelation_ok hb (hw n h).1 (hw n h).2]; rfl)
    have h2 : (relsOf os).map (fun n => Cb.obj (match readRelation b (encRel cfg g n) with
            | .ok n => .relation n | .error _ => .relation Relation.new)) =
          (relsOf os).map (fun n => Cb.obj (kept cfg.metadata cfg.addVisible (.relation n))) := by
        apply List.map_congr_left
        intro n h
        rw [readRelation_ok hb (hw n h).1 (hw n h).2]; rfl
    simp only [encGroup, readGroup, PGroup.new, List.length_nil,
        ne_eq, not_true_eq_false, List.length_map, List.length_eq_zero_iff, hne', not_false_eq_true,
        if_true, if_false, h1, Events.seq, List.map_map, Function.comp_def]
    rw [h2]
  | unknown => obtain ⟨o, _, h⟩ := hkm; cases o <;> simp [OsmObj.type] at h
  | area => obtain ⟨o, _, h⟩ := hkm; cases o <;> simp [OsmObj.type] at h

/-- The objects of a block in the order in which they are stored: by type, types in the order of
their first appearance. -/
def regroup (os : List OsmObj) : List OsmObj := (kinds os).flatMap (fun k => ofType k os)

theorem readGroups_ok (hc : cfg.Exact) (hb : GoodBlock cfg K g b) (os : List OsmObj)
    (hl : os.length ≤ 8000) (ho : ∀ o ∈ os, o.PbfOk) (hs : ∀ o ∈ os, HasStrings cfg K o)
    (m : Meta) (ks : List ObjType) (hk : ∀ k ∈ ks, k ∈ kinds os) (last : ObjType) :
    readGroups m b last (ks.map (encGroup cfg g os)) =
      (⟨seqCalls m last ((ks.flatMap (fun k => ofType k os)).map (kept cfg.metadata cfg.addVisible)),
        none⟩,
       lastType last ((ks.flatMap (fun k => ofType k os)).map (kept cfg.metadata cfg.addVisible))) := by
  induction ks generalizing last with
  | nil => rfl
  | cons k ks ih =>
    have h1 := readGroup_ok hc hb os hl ho hs m last k (hk k (by simp))
    have h2 := ih (fun x hx => hk x (by simp [hx])) k
    have hty : ∀ o ∈ (ofType k os).map (kept cfg.metadata cfg.addVisible), o.type = k := by
      intro o h
      obtain ⟨x, hx, rfl⟩ := List.mem_map.1 h
      rw [kept_type]; simp [ofType] at hx; exact hx.2
    have hne : (ofType k os).map (kept cfg.metadata cfg.addVisible) ≠ [] := by
      obtain ⟨o, h1, h2⟩ := mem_kinds.1 (hk k (by simp))
      intro e
      have : o ∈ ofType k os := by simp [ofType, h1, h2]
      simp only [List.map_eq_nil_iff] at e
      rw [e] at this; simp at this
    simp only [List.map_cons, readGroups, h1, h2, Events.seq, List.flatMap_cons, List.map_append,
      seqCalls_append, lastType_append, lastType_run last k _ hty hne]

end

/-- Reading the block stored for `os`. -/
theorem store_read_ok (lib : PbfLib) {cfg : PbfCfg} (hc : cfg.Exact) {w : Writer} {os : List OsmObj}
    (hi : BlockInv cfg (keysOf cfg os) w os) (hK : (keysOf cfg os).length ≤ 65535)
    (hl : os.length ≤ 8000) (ho : ∀ o ∈ os, o.PbfOk) :
    ∃ b : PBlock,
      w.store lib = .ok { Writer.new cfg with out := w.out ++ [b] } ∧ b.InRange ∧
      ∀ m last, readGroups m b last b.groups =
        (⟨seqCalls m last ((regroup os).map (kept cfg.metadata cfg.addVisible)), none⟩,
          lastType last ((regroup os).map (kept cfg.metadata cfg.addVisible))) := by
  obtain ⟨g, b, h1, h2, h3⟩ := store_ok lib hi hK hc.2
  refine ⟨b, h1, ?_, ?_⟩
  · refine ⟨?_, ?_, ?_, ?_, ?_⟩
    · rw [h3]
      intro x hx
      obtain ⟨k, _, rfl⟩ := List.mem_map.1 hx
      exact encGroup_range hc h2.pos os ho (hasStrings_keysOf os) k
    · rw [h2.gran]
      have h1 := Int.le_of_dvd (by norm_num) hc.1
      have h2 := Int.le_of_dvd (by norm_num) ((neg_dvd).2 hc.1)
      unfold InS32; omega
    · rw [h2.date]; unfold InS32; omega
    · rw [h2.lat]; unfold InS64; omega
    · rw [h2.lon]; unfold InS64; omega
  intro m last
  rw [h3]
  exact readGroups_ok hc h2 os hl ho (hasStrings_keysOf os) m (kinds os) (fun _ h => h) last

end Osmium

import Verif.Pbf.MeaningSpec
import Verif.Pbf.FileProps
/-
C72: the reader yields the objects a PBF file stands for, whatever program wrote the file.
-/
namespace Osmium
open Spec

theorem sidStr_means {b : PBlock} {i : Int} {s : String} (h : stringOf b i = some s) :
    sidStr b.strings i = .ok s := by
  unfold stringOf at h
  unfold sidStr
  split at h
  · cases h
  · rename_i hi
    rw [if_neg hi, h]
    rfl

theorem stringOf_range {b : PBlock} {i : Int} {s : String} (h : stringOf b i = some s) :
    0 ≤ i ∧ i < b.strings.length := by
  unfold stringOf at h
  split at h
  · cases h
  · rename_i hi
    obtain ⟨h1, _⟩ := List.getElem?_eq_some_iff.mp h
    omega

theorem chk64_ok {x : Int} (h : InS64 x) : Res.ofOption (chk64 x) = .ok x := by
  have : chk64 x = some x := by rw [chk64_eq_some]; exact ⟨h, rfl⟩
  rw [this]
  rfl

theorem dateFactor_means {b : PBlock} (hb : BlockFits b) {t ts : Int}
    (h : ts * 1000 = t * b.dateGranularity) (hts : InS64 ts) :
    t * dateFactor b = ts ∧ InS64 t := by
  obtain ⟨h0, h1⟩ := hb.seconds
  obtain ⟨k, hk⟩ : ∃ k, b.dateGranularity = 1000 * k := ⟨b.dateGranularity / 1000, by omega⟩
  have hd : dateFactor b = k := by
    unfold dateFactor
    rw [hk, Int.mul_tdiv_cancel_left _ (by decide)]
  have e : t * k = ts := by
    rw [hk, ← Int.mul_assoc, Int.mul_comm t 1000, Int.mul_assoc] at h
    omega
  refine ⟨by rw [hd]; exact e, ?_⟩
  have hk1 : 1 ≤ k := by omega
  have h2 : |t| ≤ |t * k| := by
    rw [abs_mul]
    have : 1 ≤ |k| := by rw [abs_of_nonneg (by omega)]; exact hk1
    exact le_mul_of_one_le_right (abs_nonneg t) this
  rw [e] at h2
  unfold InS64 at hts ⊢
  rcases le_or_gt 0 ts with p | p
  · rw [abs_of_nonneg p] at h2
    have := abs_le.mp h2
    omega
  · rw [abs_of_neg p] at h2
    rcases le_or_gt 0 t with q | q
    · exfalso
      have := mul_nonneg q (by omega : (0 : Int) ≤ k)
      omega
    · rw [abs_of_neg q] at h2
      omega

theorem noMetadata_eq {o : Obj} (h : NoMetadata o) (he : o.endtime = 0) :
    ({ o with tags := [] } : Obj) = { Obj.new with id := o.id } := by
  obtain ⟨h1, h2, h3, h4, h5, h6⟩ := h
  cases o
  simp only at *
  subst h1 h2 h3 h4 h5 h6 he
  rfl

theorem readInfo_means {b : PBlock} (hb : BlockFits b) {o : OsmObj} (ho : ObjectFits o) {id : Int}
    {info : Option PInfo} {keys vals : List Int} (h : AttrsMean b id info keys vals o.obj) :
    readInfo b.strings (dateFactor b) { Obj.new with id := id } info = .ok { o.obj with tags := [] } := by
  obtain ⟨hid, hi, he, _, _⟩ := h
  obtain ⟨_, o2, o3, o4, o5, o6, _⟩ := ho
  cases info with
  | none =>
    simp only [readInfo]
    rw [noMetadata_eq hi he, hid]
  | some i =>
    simp only at hi
    obtain ⟨i1, i2, i3, i4, i5, i6⟩ := hi
    obtain ⟨t1, t2⟩ := dateFactor_means hb i3 o4
    simp only [readInfo, t1, chk64_ok o4, sidStr_means i5, readUser_ok o6, bind, Except.bind, pure, Except.pure]
    rw [i1] at o2
    rw [i2] at o3
    rw [i4] at o5
    rw [wrapU32_of_in o2, wrapS32_of_in o3, wrapS32_of_in o5, ← i1, ← i2, ← i4, ← hid]
    cases hv : i.visible with
    | none =>
      rw [hv] at i6
      simp only [Option.getD_none] at i6
      simp only [Obj.new]
      rw [he, ← i6]
    | some v =>
      rw [hv] at i6
      simp only [Option.getD_some] at i6
      simp only [Obj.new]
      rw [he, ← i6]

theorem readTags_means {b : PBlock} (keys vals : List Int) (tags acc : TagList)
    (hk : keys.map (stringOf b) = tags.map fun t => some t.key)
    (hv : vals.map (stringOf b) = tags.map fun t => some t.value) :
    readTags b.strings keys vals acc = .ok (acc ++ tags) := by
  induction keys generalizing vals tags acc with
  | nil =>
    cases tags with
    | nil => simp [readTags]
    | cons t ts => simp at hk
  | cons k ks ih =>
    cases tags with
    | nil => simp at hk
    | cons t ts =>
      cases vals with
      | nil => simp at hv
      | cons v vs =>
        simp only [List.map_cons, List.cons.injEq] at hk hv
        have := ih vs ts (acc.add t.key t.value) hk.2 hv.2
        simp only [readTags, sidStr_means hk.1, sidStr_means hv.1, bind, Except.bind, this]
        simp [TagList.add]

theorem readCoord_means {b : PBlock} {off v x : Int} (hv : CoordFits b v) (hx : InS32 x)
    (h : x = hundredNanos b.granularity off v) : readCoord b.granularity off v = .ok x := by
  unfold hundredNanos at h
  have hs : InS64 (v * b.granularity + off) := by
    rw [Int.add_comm, Int.mul_comm]
    generalize off + b.granularity * v = s at h
    have h1 := Int.mul_tdiv_add_tmod s 100
    have h2 := Int.tmod_lt_of_pos s (by decide : (0 : Int) < 100)
    have h3 : -100 < s.tmod 100 := by
      rcases le_or_gt 0 s with p | p
      · have := Int.tmod_nonneg 100 p; omega
      · have := Int.tmod_lt_of_pos (-s) (by decide : (0 : Int) < 100)
        rw [Int.neg_tmod] at this
        omega
    rw [← h] at h1
    unfold InS32 at hx
    unfold InS64
    omega
  unfold readCoord
  rw [chk64_ok hv.2]
  simp only [bind, Except.bind, chk64_ok hs, pure, Except.pure]
  rw [h, Int.add_comm, Int.mul_comm]

theorem position_means {p : Position} {x y : Int} (hx : p.x = x) (hy : p.y = y) (h : InS32 p.x ∧ InS32 p.y) :
    Position.ofInt64 x y = p := by
  rw [← hx, ← hy]
  exact ofInt64_ok h

theorem readNode_means {b : PBlock} (hb : BlockFits b) {p : PNode} {n : Node} (h : NodeMeans b p n)
    (ho : ObjectFits (.node n)) (hc : CoordFits b p.lon ∧ CoordFits b p.lat) : readNode b p = .ok n := by
  have h1 := readInfo_means hb ho h.attrs
  have h2 := readTags_means p.keys p.vals n.obj.tags [] h.attrs.keys h.attrs.values
  have hp : InS32 n.position.x ∧ InS32 n.position.y := ho.2.2.2.2.2.2
  have h3 := readCoord_means hc.1 hp.1 h.x
  have h4 := readCoord_means hc.2 hp.2 h.y
  simp only [readNode, h1, h2, h3, h4, bind, Except.bind, pure, Except.pure, List.nil_append, OsmObj.obj]
  rw [ofInt64_ok hp]

theorem readRefs_means (ds : List Int) (ns : List WayNode) (v r : Int) (hr : r = wrapU64 v)
    (h : totals v ds = ns.map WayNode.ref) (hp : ∀ n ∈ ns, n.position = Position.undef)
    (hf : ∀ n ∈ ns, InS64 n.ref) : readRefs r ds = ns := by
  induction ds generalizing ns v r with
  | nil =>
    cases ns with
    | nil => rfl
    | cons n ns => simp [totals] at h
  | cons d ds ih =>
    cases ns with
    | nil => simp [totals] at h
    | cons n ns =>
      simp only [totals, List.map_cons, List.cons.injEq] at h
      have e : wrapU64 (r + d) = wrapU64 n.ref := by subst hr; rw [← h.1]; unfold wrapU64; omega
      have e2 : (⟨n.ref, Position.undef⟩ : WayNode) = n := by rw [← hp n (by simp)]
      simp only [readRefs, e, wrapS64_wrapU64 (hf n (by simp))]
      rw [ih ns (v + d) (wrapU64 n.ref) (by rw [h.1]) h.2 (fun x hx => hp x (by simp [hx]))
        (fun x hx => hf x (by simp [hx])), e2]

theorem readWay_means {b : PBlock} (hb : BlockFits b) {p : PWay} {w : Way} (h : WayMeans b p w)
    (ho : ObjectFits (.way w)) : readWay b p = .ok w := by
  have h1 := readInfo_means hb ho h.attrs
  have h2 := readTags_means p.keys p.vals w.obj.tags [] h.attrs.keys h.attrs.values
  have h3 := readRefs_means p.refs w.nodes 0 0 rfl h.refs h.positions ho.2.2.2.2.2.2
  simp only [readWay, h1, h2, h3, bind, Except.bind, pure, Except.pure, List.nil_append, OsmObj.obj]

theorem memChar_letter (t : PMemType) : memChar t = letterOf t := by cases t <;> rfl

theorem readMembers_means {b : PBlock} (types : List PMemType) (ids roles : List Int) (ms acc : List Member)
    (v r : Int) (hr : r = wrapU64 v) (ht : types.map letterOf = ms.map Member.type)
    (hi : totals v ids = ms.map Member.ref) (ho : roles.map (stringOf b) = ms.map fun m => some m.role)
    (hf : ∀ m ∈ ms, InS64 m.ref ∧ m.role.utf8ByteSize ≤ 1021) :
    readMembers b.strings r types ids roles acc = .ok (acc ++ ms) := by
  induction types generalizing ids roles ms acc v r with
  | nil =>
    cases ms with
    | nil => simp [readMembers]
    | cons m ms => simp at ht
  | cons t types ih =>
    cases ms with
    | nil => simp at ht
    | cons m ms =>
      cases ids with
      | nil => simp [totals] at hi
      | cons d ds =>
        cases roles with
        | nil => simp at ho
        | cons s ss =>
          simp only [totals, List.map_cons, List.cons.injEq] at ht hi ho
          obtain ⟨f1, f2⟩ := hf m (by simp)
          have e : wrapU64 (r + d) = wrapU64 m.ref := by subst hr; rw [← hi.1]; unfold wrapU64; omega
          have := ih ds ss ms (acc ++ [m]) (v + d) (wrapU64 m.ref) (by rw [hi.1]) ht.2 hi.2 ho.2
            (fun x hx => hf x (by simp [hx]))
          simp only [readMembers, e, wrapS64_wrapU64 f1, sidStr_means ho.1, memChar_letter, ht.1, bind, Except.bind]
          rw [addMember_appends _ _ _ _ f2]
          simp only [this]
          simp

theorem readRelation_means {b : PBlock} (hb : BlockFits b) {p : PRel} {r : Relation} (h : RelationMeans b p r)
    (ho : ObjectFits (.relation r)) : readRelation b p = .ok r := by
  have h1 := readInfo_means hb ho h.attrs
  have h2 := readTags_means p.keys p.vals r.obj.tags [] h.attrs.keys h.attrs.values
  have h3 := readMembers_means p.types p.memids p.rolesSid r.members [] 0 0 rfl h.types h.refs h.roles
    ho.2.2.2.2.2.2
  simp only [readRelation, h1, h2, h3, bind, Except.bind, pure, Except.pure, List.nil_append, OsmObj.obj]

theorem readEach_means {α β : Type} (means : α → β → Prop) (f : α → Res OsmObj) (g : β → OsmObj) (as : List α)
    (bs : List β) (h : EachMeans means as bs) (hf : ∀ a ∈ as, ∀ b ∈ bs, means a b → f a = .ok (g b)) :
    readEach f as = ⟨bs.map fun b => .obj (g b), none⟩ := by
  induction h with
  | nil => rfl
  | cons a b as bs hm _ ih =>
    simp only [readEach, hf a (by simp) b (by simp) hm,
      ih (fun x hx y hy => hf x (by simp [hx]) y (by simp [hy])), List.map_cons]

/-! ### Dense nodes -/

theorem readDenseTags_means {b : PBlock} {kv : List Int} {tags : TagList} {l : List TagList}
    (h : DenseTagsMean b kv (tags :: l)) (acc : TagList) :
    ∃ rest, readDenseTags b.strings kv acc = .ok (acc ++ tags, rest) ∧ DenseTagsMean b rest l := by
  generalize hL : tags :: l = L at h
  induction h generalizing tags l acc with
  | none L hn =>
    subst hL
    have ht : tags = [] := hn tags (by simp)
    subst ht
    exact ⟨[], by simp [readDenseTags], DenseTagsMean.none l (fun x hx => hn x (by simp [hx]))⟩
  | done rest l' hr _ =>
    simp only [List.cons.injEq] at hL
    obtain ⟨rfl, rfl⟩ := hL
    exact ⟨rest, by simp [readDenseTags], hr⟩
  | tag k v t ts rest l' hk h1 h2 hr ih =>
    simp only [List.cons.injEq] at hL
    obtain ⟨rfl, rfl⟩ := hL
    obtain ⟨rest', e, hd⟩ := ih (acc.add t.key t.value) rfl
    refine ⟨rest', ?_, hd⟩
    simp only [readDenseTags, hk, if_false, sidStr_means h1, sidStr_means h2, bind, Except.bind, e]
    simp [TagList.add]

/-- The state of the loop before the nodes `ns` are read. (helper for statements and proofs, no
counterpart in /repo) -/
structure DenseAt (b : PBlock) (hasInfo hasVisible : Bool) (s : DenseState) (ids : List Int) (ns : List Node) :
    Prop where
  id : totals s.id ids = ns.map fun n => n.obj.id
  x : (totals s.lon s.lons).map (hundredNanos b.granularity b.lonOffset) = ns.map fun n => n.position.x
  y : (totals s.lat s.lats).map (hundredNanos b.granularity b.latOffset) = ns.map fun n => n.position.y
  xFits : ∀ v ∈ totals s.lon s.lons, CoordFits b v
  yFits : ∀ v ∈ totals s.lat s.lats, CoordFits b v
  tags : DenseTagsMean b s.keysVals (ns.map fun n => n.obj.tags)
  endtime : ∀ n ∈ ns, n.obj.endtime = 0
  noInfo : hasInfo = false → ∀ n ∈ ns, NoMetadata n.obj
  version : hasInfo = true → s.versions = ns.map fun n => n.obj.version
  changeset : hasInfo = true → totals s.changeset s.changesets = ns.map fun n => n.obj.changeset
  timestamp : hasInfo = true → (totals s.timestamp s.timestamps).map (· * b.dateGranularity) =
    ns.map fun n => n.obj.timestamp * 1000
  uid : hasInfo = true → totals s.uid s.uids = ns.map fun n => n.obj.uid
  user : hasInfo = true → (totals s.userSid s.userSids).map (stringOf b) = ns.map fun n => some n.obj.user
  visible : hasInfo = true → hasVisible = true → s.visibles = ns.map fun n => n.obj.visible
  allVisible : hasInfo = true → hasVisible = false → ∀ n ∈ ns, n.obj.visible = true

/-- The first entry of a delta coded column. -/
theorem totals_cons {α β : Type} {f : Int → β} {g : α → β} {v : Int} {ds : List Int} {n : α} {ns : List α}
    (h : (totals v ds).map f = (n :: ns).map g) :
    ∃ d ds', ds = d :: ds' ∧ f (v + d) = g n ∧ (totals (v + d) ds').map f = ns.map g := by
  cases ds with
  | nil => simp [totals] at h
  | cons d ds =>
    simp only [totals, List.map_cons, List.cons.injEq] at h
    exact ⟨d, ds, rfl, h.1, h.2⟩

theorem totals_cons' {α : Type} {g : α → Int} {v : Int} {ds : List Int} {n : α} {ns : List α}
    (h : totals v ds = (n :: ns).map g) :
    ∃ d ds', ds = d :: ds' ∧ v + d = g n ∧ totals (g n) ds' = ns.map g := by
  obtain ⟨d, ds', h1, h2, h3⟩ := totals_cons (f := id) (g := g) (v := v) (ds := ds) (n := n) (ns := ns) (by simpa using h)
  simp only [List.map_id_fun, id] at h2 h3
  rw [h2] at h3
  exact ⟨d, ds', h1, h2, h3⟩

theorem add64_eq {v d x : Int} (h : v + d = x) (hx : InS64 x) : add64 v d = .ok x := by
  unfold add64
  rw [h]
  exact chk64_ok hx

theorem s32_s64 {x : Int} (h : InS32 x) : InS64 x := by unfold InS32 at h; unfold InS64; omega

theorem readDenseInfo_means {b : PBlock} (hb : BlockFits b) {hv : Bool} {s : DenseState} {ids : List Int} {n : Node}
    {ns : List Node} (h : DenseAt b true hv s ids (n :: ns)) (ho : ObjectFits (.node n)) :
    ∃ s', readDenseInfo b.strings (dateFactor b) hv { Obj.new with id := n.obj.id } s =
        .ok ({ n.obj with tags := [] }, s') ∧
      s'.versions = (ns.map fun n => n.obj.version) ∧
      totals s'.changeset s'.changesets = (ns.map fun n => n.obj.changeset) ∧
      (totals s'.timestamp s'.timestamps).map (· * b.dateGranularity) = (ns.map fun n => n.obj.timestamp * 1000) ∧
      totals s'.uid s'.uids = (ns.map fun n => n.obj.uid) ∧
      (totals s'.userSid s'.userSids).map (stringOf b) = (ns.map fun n => some n.obj.user) ∧
      (hv = true → s'.visibles = ns.map fun n => n.obj.visible) := by
  obtain ⟨_, o2, o3, o4, o5, o6, _⟩ := ho
  simp only [OsmObj.obj] at o2 o3 o4 o5 o6
  have c1 := h.version rfl
  obtain ⟨dc, dcs, c2, k2, l2⟩ := totals_cons' (h.changeset rfl)
  obtain ⟨dt, dts, c3, k3, l3⟩ := totals_cons (h.timestamp rfl)
  obtain ⟨du, dus, c4, k4, l4⟩ := totals_cons' (h.uid rfl)
  obtain ⟨dn, dns, c5, k5, l5⟩ := totals_cons (h.user rfl)
  obtain ⟨t1, t2⟩ := dateFactor_means hb k3.symm o4
  have r5 := stringOf_range k5
  have hst := hb.strings
  have a2 := add64_eq k2 (s32_s64 o3)
  have a3 := add64_eq (v := s.timestamp) (d := dt) rfl t2
  have a4 := add64_eq k4 (s32_s64 o5)
  have a5 := add64_eq (v := s.userSid) (d := dn) rfl (by unfold InS64; omega)
  have w5 : wrapS32 (s.userSid + dn) = s.userSid + dn := wrapS32_of_in (by unfold InS32; omega)
  have he := h.endtime n (by simp)
  simp only [List.map_cons] at c1
  cases hv with
  | true =>
    have c6 := h.visible rfl rfl
    simp only [List.map_cons] at c6
    refine ⟨⟨s.id, s.lat, s.lon, n.obj.uid, s.userSid + dn, n.obj.changeset, s.timestamp + dt,
        s.lats, s.lons, ns.map fun n => n.obj.version, dts, dcs, dus, dns, ns.map fun n => n.obj.visible, s.keysVals⟩, ?_, rfl, l2, l3, l4, l5, ?_⟩
    · simp only [readDenseInfo, c1, c2, c3, c4, c5, c6, pop, a2, a3, a4, a5, t1, chk64_ok o4, w5, sidStr_means k5,
        readUser_ok o6, bind, Except.bind, pure, Except.pure, if_true, wrapU32_of_in o2, wrapS32_of_in o3,
        wrapS32_of_in o5]
      simp only [Obj.new, he]
    · exact fun _ => rfl
  | false =>
    have c6 := h.allVisible rfl rfl n (by simp)
    refine ⟨⟨s.id, s.lat, s.lon, n.obj.uid, s.userSid + dn, n.obj.changeset, s.timestamp + dt,
        s.lats, s.lons, ns.map fun n => n.obj.version, dts, dcs, dus, dns, s.visibles, s.keysVals⟩, ?_, rfl, l2, l3, l4, l5, ?_⟩
    · simp only [readDenseInfo, c1, c2, c3, c4, c5, pop, a2, a3, a4, a5, t1, chk64_ok o4, w5, sidStr_means k5,
        readUser_ok o6, bind, Except.bind, pure, Except.pure, Bool.false_eq_true, if_false, wrapU32_of_in o2,
        wrapS32_of_in o3, wrapS32_of_in o5]
      simp only [Obj.new, he, c6]
    · exact fun h => by cases h

theorem readDenseNode_means {b : PBlock} (hb : BlockFits b) {hi hv : Bool} {s : DenseState} {d : Int} {ids : List Int}
    {n : Node} {ns : List Node} (h : DenseAt b hi hv s (d :: ids) (n :: ns)) (ho : ObjectFits (.node n)) :
    ∃ s', readDenseNode b hi hv d s = .ok (n, s') ∧ DenseAt b hi hv s' ids ns := by
  obtain ⟨d', ids', c1, k1, l1⟩ := totals_cons' h.id
  simp only [List.cons.injEq] at c1
  obtain ⟨rfl, rfl⟩ := c1
  obtain ⟨dx, dxs, cx, kx, lx⟩ := totals_cons h.x
  obtain ⟨dy, dys, cy, ky, ly⟩ := totals_cons h.y
  have hp : InS32 n.position.x ∧ InS32 n.position.y := ho.2.2.2.2.2.2
  have fx := h.xFits
  have fy := h.yFits
  rw [cx] at fx
  rw [cy] at fy
  simp only [totals, List.mem_cons, forall_eq_or_imp] at fx fy
  have rx := readCoord_means fx.1 hp.1 kx.symm
  have ry := readCoord_means fy.1 hp.2 ky.symm
  have a1 := add64_eq k1 ho.1
  have ax := add64_eq (v := s.lon) (d := dx) rfl fx.1.1
  have ay := add64_eq (v := s.lat) (d := dy) rfl fy.1.1
  obtain ⟨rest, et, lt⟩ := readDenseTags_means (tags := n.obj.tags) (l := ns.map fun n => n.obj.tags) h.tags []
  rw [List.nil_append] at et
  have ee : ∀ m ∈ ns, m.obj.endtime = 0 := fun m hm => h.endtime m (by simp [hm])
  cases hi with
  | true =>
    obtain ⟨s', e, j1, j2, j3, j4, j5, j6⟩ := readDenseInfo_means hb h ho
    refine ⟨{ s' with id := n.obj.id, lat := s.lat + dy, lon := s.lon + dx, lats := dys, lons := dxs, keysVals := rest },
      ?_, ?_⟩
    · simp only [readDenseNode, a1, if_true, e, cx, cy, pop, ax, ay, rx, ry, et, bind, Except.bind, pure, Except.pure]
      rw [ofInt64_ok hp]
    · exact ⟨l1, lx, ly, fx.2, fy.2, lt, ee, (fun h => by cases h), fun _ => j1, fun _ => j2, fun _ => j3, fun _ => j4,
        fun _ => j5, fun _ => j6, fun h1 h2 m hm => h.allVisible h1 h2 m (by simp [hm])⟩
  | false =>
    refine ⟨{ s with id := n.obj.id, lat := s.lat + dy, lon := s.lon + dx, lats := dys, lons := dxs, keysVals := rest },
      ?_, ?_⟩
    · simp only [readDenseNode, a1, Bool.false_eq_true, if_false, cx, cy, pop, ax, ay, rx, ry, et, bind, Except.bind,
        pure, Except.pure]
      rw [ofInt64_ok hp]
      have := noMetadata_eq (h.noInfo rfl n (by simp)) (h.endtime n (by simp))
      have e2 : ({ Obj.new with id := n.obj.id, tags := n.obj.tags } : Obj) = n.obj :=
        congrArg (fun o : Obj => ({ o with tags := n.obj.tags } : Obj)) this.symm
      exact congrArg (fun o => Except.ok (Node.mk o n.position, _)) e2
    · exact ⟨l1, lx, ly, fx.2, fy.2, lt, ee, fun h1 m hm => h.noInfo h1 m (by simp [hm]), (fun h => by cases h),
        (fun h => by cases h), (fun h => by cases h), (fun h => by cases h), (fun h => by cases h),
        (fun h => by cases h), (fun h => by cases h)⟩

theorem readDenseLoop_means {b : PBlock} (hb : BlockFits b) (hi hv : Bool) (ids : List Int) (s : DenseState)
    (ns : List Node) (h : DenseAt b hi hv s ids ns) (ho : ∀ n ∈ ns, ObjectFits (.node n)) :
    readDenseLoop b hi hv ids s = ⟨ns.map fun n => .obj (.node n), none⟩ := by
  induction ids generalizing s ns with
  | nil =>
    cases ns with
    | nil => rfl
    | cons n ns => have := h.id; simp [totals] at this
  | cons d ids ih =>
    cases ns with
    | nil => have := h.id; simp [totals] at this
    | cons n ns =>
      obtain ⟨s', e, h'⟩ := readDenseNode_means hb h (ho n (by simp))
      simp only [readDenseLoop, e, ih s' ns h' (fun m hm => ho m (by simp [hm])), List.map_cons]

theorem readDense_means {b : PBlock} (hb : BlockFits b) {d : PDense} {ns : List Node} (h : DenseMeans b d ns)
    (hx : ∀ v ∈ totals 0 d.lon, CoordFits b v) (hy : ∀ v ∈ totals 0 d.lat, CoordFits b v)
    (ho : ∀ n ∈ ns, ObjectFits (.node n)) :
    readDense b d = ⟨ns.map fun n => .obj (.node n), none⟩ := by
  unfold readDense
  apply readDenseLoop_means hb _ _ _ _ _ _ ho
  have hinfo := h.info
  cases hd : d.info with
  | none =>
    rw [hd] at hinfo
    simp only at hinfo
    constructor <;> try simp only [Option.isSome_none, Bool.false_eq_true, false_imp_iff]
    · exact h.id
    · exact h.x
    · exact h.y
    · exact hx
    · exact hy
    · exact h.tags
    · exact h.endtime
    · exact fun _ => hinfo
  | some i =>
    rw [hd] at hinfo
    simp only at hinfo
    constructor <;> try simp only [Option.isSome_some, Option.getD_some, forall_const, Bool.not_eq_true',
      Bool.not_eq_false', List.isEmpty_iff, Bool.true_eq_false, false_imp_iff, List.isEmpty_eq_false_iff]
    · exact h.id
    · exact h.x
    · exact h.y
    · exact hx
    · exact hy
    · exact h.tags
    · exact h.endtime
    · exact hinfo.version
    · exact hinfo.changeset
    · exact hinfo.timestamp
    · exact hinfo.uid
    · exact hinfo.user
    · intro hne
      rcases hinfo.visible with hv | ⟨hv, _⟩
      · exact hv
      · exact absurd hv hne
    · intro he
      rcases hinfo.visible with hv | ⟨_, hv⟩
      · rw [he] at hv
        have : ns = [] := by simpa using hv.symm
        subst this
        simp
      · exact hv

/-! ### Groups, blocks, files -/

theorem readGroup_means {b : PBlock} (hb : BlockFits b) (m : Meta) (last : ObjType) {g : PGroup} {os : List OsmObj}
    (h : GroupMeans b g os) (hg : GroupFits b g) (ho : ∀ o ∈ os, ObjectFits o) :
    (readGroup m last b g).1.fail = none ∧ objects (readGroup m last b g).1.calls = os := by
  have oab : ∀ l t, objects (afterAndBefore m l t) = [] := by
    intro l t; cases l <;> cases t <;> rfl
  have om : ∀ {α : Type} (f : α → OsmObj) (l : List α), objects (l.map fun x => Cb.obj (f x)) = l.map f := by
    intro α f l
    induction l with
    | nil => rfl
    | cons a l ih => simpa [objects] using ih
  have key : ∀ {α : Type} (t : ObjType) (f : α → OsmObj) (l : List α),
      (Events.seq ⟨afterAndBefore m last t, none⟩ ⟨l.map fun x => Cb.obj (f x), none⟩).fail = none ∧
      objects (Events.seq ⟨afterAndBefore m last t, none⟩ ⟨l.map fun x => Cb.obj (f x), none⟩).calls = l.map f := by
    intro α t f l
    refine ⟨rfl, ?_⟩
    simp only [Events.seq, objects_append, oab, om, List.nil_append]
  cases h with
  | dense d ns hd =>
    have hd' := hg.2 d rfl
    have e := readDense_means hb hd hd'.1 hd'.2 (fun n hn => ho _ (List.mem_map_of_mem hn))
    simp only [readGroup, e]
    exact key .node OsmObj.node ns
  | nodes ps ns hne he =>
    have e := readEach_means (NodeMeans b) (fun p => do return .node (← readNode b p)) OsmObj.node ps ns he
      (fun p hp n hn hm => by
        rw [readNode_means hb hm (ho _ (List.mem_map_of_mem hn)) (hg.1 p hp)]
        rfl)
    have hl : ps.length ≠ 0 := by simpa using hne
    simp only [readGroup, List.length_nil, ne_eq, not_true_eq_false, if_false, hl, not_false_eq_true, if_true, e]
    exact key .node OsmObj.node ns
  | ways ps ws hne he =>
    have e := readEach_means (WayMeans b) (fun p => do return .way (← readWay b p)) OsmObj.way ps ws he
      (fun p _ n hn hm => by
        rw [readWay_means hb hm (ho _ (List.mem_map_of_mem hn))]
        rfl)
    have hl : ps.length ≠ 0 := by simpa using hne
    simp only [readGroup, ne_eq, hl, not_false_eq_true, if_true, e]
    exact key .way OsmObj.way ws
  | relations ps rs hne he =>
    have e := readEach_means (RelationMeans b) (fun p => do return .relation (← readRelation b p)) OsmObj.relation ps
      rs he (fun p _ n hn hm => by
        rw [readRelation_means hb hm (ho _ (List.mem_map_of_mem hn))]
        rfl)
    have hl : ps.length ≠ 0 := by simpa using hne
    simp only [readGroup, List.length_nil, ne_eq, not_true_eq_false, if_false, hl, not_false_eq_true, if_true, e]
    exact key .relation OsmObj.relation rs

theorem readGroups_means {b : PBlock} (hb : BlockFits b) (m : Meta) (last : ObjType) {gs : List PGroup}
    {os : List OsmObj} (h : GroupsMean b gs os) (hg : ∀ g ∈ gs, GroupFits b g) (ho : ∀ o ∈ os, ObjectFits o) :
    (readGroups m b last gs).1.fail = none ∧ objects (readGroups m b last gs).1.calls = os := by
  induction h generalizing last with
  | nil => exact ⟨rfl, rfl⟩
  | cons g gs os rest hm _ ih =>
    obtain ⟨h1, h2⟩ := readGroup_means hb m last hm (hg g (by simp)) (fun o hx => ho o (by simp [hx]))
    obtain ⟨h3, h4⟩ := ih (readGroup m last b g).2 (fun x hx => hg x (by simp [hx])) (fun o hx => ho o (by simp [hx]))
    simp only [readGroups, Events.seq, h1]
    exact ⟨h3, by rw [objects_append, h2, h4]⟩

namespace Spec

/-- The reader accepts the header of a file for the expected type. (specification, no counterpart in /repo) -/
def HeaderFits (ft : FileType) (h : HeaderMsg) : Prop :=
  (∀ f ∈ h.features, f ∈ supportedFeatures) ∧
  (ft = .osm → "HistoricalInformation" ∉ h.features) ∧ (ft = .history → "HistoricalInformation" ∈ h.features)

/-- What a file means that consists of these blobs: header blocks, data blocks, and blobs of other
types, which are skipped. (specification, no counterpart in /repo) -/
inductive BlobsMean (c : PbfCodec) (ft : FileType) : List (String × Bytes) → List OsmObj → Prop
  | nil : BlobsMean c ft [] []
  | header (d : Bytes) (h : HeaderMsg) (rest : List (String × Bytes)) (os : List OsmObj) :
      c.decHeader d = some h → HeaderFits ft h → BlobsMean c ft rest os →
      BlobsMean c ft (("OSMHeader", d) :: rest) os
  | data (d : Bytes) (b : PBlock) (rest : List (String × Bytes)) (os os' : List OsmObj) :
      c.decBlock d = some b → BlockFits b → (∀ g ∈ b.groups, GroupFits b g) → GroupsMean b b.groups os →
      BlobsMean c ft rest os' → BlobsMean c ft (("OSMData", d) :: rest) (os ++ os')
  | other (t : String) (d : Bytes) (rest : List (String × Bytes)) (os : List OsmObj) :
      t ≠ "OSMHeader" → t ≠ "OSMData" → BlobsMean c ft rest os → BlobsMean c ft ((t, d) :: rest) os

end Spec

theorem parseBlobs_means {c : PbfCodec} {ft : FileType} {bl : List (String × Bytes)} {os : List OsmObj}
    (h : BlobsMean c ft bl os) (ho : ∀ o ∈ os, ObjectFits o) (m : Meta) (last : ObjType) :
    (parseBlobs c ft m last bl).1.fail = none ∧ objects (parseBlobs c ft m last bl).1.calls = os := by
  induction h generalizing m last with
  | nil => exact ⟨rfl, rfl⟩
  | header d hd rest os hdec hf _ ih =>
    obtain ⟨m', hm⟩ := (header_accepted_iff ft m hd).mpr hf
    unfold parseBlobs
    rw [if_neg (by decide), if_pos rfl, hdec]
    simp only [hm]
    exact ih ho m' last
  | data d b rest os os' hdec hb hg hm _ ih =>
    obtain ⟨h1, h2⟩ := readGroups_means hb m last hm hg (fun o hx => ho o (by simp [hx]))
    obtain ⟨h3, h4⟩ := ih (fun o hx => ho o (by simp [hx])) m (readGroups m b last b.groups).2
    unfold parseBlobs
    rw [if_pos rfl, hdec]
    simp only [Events.seq, h1]
    exact ⟨h3, by rw [objects_append, h2, h4]⟩
  | other t d rest os h1 h2 _ ih =>
    unfold parseBlobs
    rw [if_neg h2, if_neg h1]
    exact ih ho m last

/-- **C72**: reading a PBF file, by whatever program it was written, calls the handler with exactly the
objects the file stands for, in order: any granularities, offsets, string tables, dense or plain nodes, with
or without metadata and visible flags, any number of groups and blocks, blobs of unknown types in between.
(Partial: times in whole seconds; every group has at least one object.) -/
theorem pbf_reads_meaning_partial (c : PbfCodec) (ft : FileType) (h : Stops) (hh : ∀ l, h l = false) (s : Input)
    (bl : List (String × Bytes)) (hs : readBlobs c.toBlobCodec s = (bl, none)) (os : List OsmObj)
    (hm : BlobsMean c ft bl os) (ho : ∀ o ∈ os, ObjectFits o) :
    (pbfParse c ft h s).2 = .returned ∧ objects (pbfParse c ft h s).1 = os := by
  obtain ⟨h1, h2⟩ := parseBlobs_means hm ho (Meta.new ft.multi) .unknown
  have oab : ∀ m a b, objects (afterAndBefore m a b) = [] := by
    intro m a b; cases a <;> cases b <;> rfl
  unfold pbfParse
  rw [hs]
  simp only
  generalize parseBlobs c ft (Meta.new ft.multi) .unknown bl = r at h1 h2
  obtain ⟨ev, m, last⟩ := r
  simp only at h1 h2 ⊢
  rw [no_stop _ _ h hh]
  simp only [Events.seq, h1, List.append_nil]
  refine ⟨trivial, ?_⟩
  simp only [objects_append, oab, List.append_nil, h2]
  simp [objects]

/-- What is missing: times in milliseconds (date granularity 1) are lost, ... -/
theorem pbf_milliseconds_lost :
    ∃ (b : PBlock) (p : PWay) (w w' : Way), b.dateGranularity = 1 ∧ WayMeans b p w ∧ readWay b p = .ok w' ∧
      w.obj.timestamp = 1300000000 ∧ w'.obj.timestamp = 0 := by
  refine ⟨⟨["", "me"], [], 100, 1, 0, 0⟩, ⟨7, [], [], some ⟨none, 1, 1300000000000, 5, 3, 1⟩, [1, 1]⟩,
    ⟨⟨7, 1, 5, 1300000000, 0, 3, "me", true, []⟩, [⟨1, Position.undef⟩, ⟨2, Position.undef⟩]⟩,
    ⟨⟨7, 1, 5, 0, 0, 3, "me", true, []⟩, [⟨1, Position.undef⟩, ⟨2, Position.undef⟩]⟩, rfl, ?_, rfl, rfl, rfl⟩
  refine ⟨⟨rfl, ⟨rfl, rfl, by decide, rfl, rfl, rfl⟩, rfl, rfl, rfl⟩, rfl, ?_⟩
  intro n hn
  simp only [List.mem_cons, List.not_mem_nil, or_false] at hn
  rcases hn with rfl | rfl <;> rfl

/-- ... and a group without objects is refused. -/
theorem pbf_empty_group (m : Meta) (last : ObjType) (b : PBlock) :
    readGroup m last b ⟨[], none, [], []⟩ = (⟨[], some (.exn "Group of unknown type.")⟩, last) := rfl

/-- A concrete case: a block with granularity 1000 and an offset, with dense nodes without visible flags
(the second without tags) and with a relation. -/
example :
    let b : PBlock := ⟨["", "k", "v", "me", "role"],
      [⟨[], some ⟨[10, 2], [500, -700], [300, 0], [1, 2, 0, 0],
          some ⟨[1, 4], [1300000, 10], [5, 0], [3, -1], [3, 0], []⟩⟩, [], []⟩,
       ⟨[], none, [], [⟨9, [1], [2], none, [4, 0], [12, -2], [.node, .way]⟩]⟩], 1000, 1000000, 50, -50⟩
    let os : List OsmObj :=
      [.node ⟨⟨10, 1, 5, 1300000000, 0, 3, "me", true, [⟨"k", "v"⟩]⟩, ⟨2999, 5000⟩⟩,
       .node ⟨⟨12, 4, 5, 1300010000, 0, 2, "me", true, []⟩, ⟨2999, -1999⟩⟩,
       .relation ⟨{ Obj.new with id := 9, tags := [⟨"k", "v"⟩] }, [⟨'n', 12, "role"⟩, ⟨'w', 10, ""⟩]⟩]
    GroupsMean b b.groups os ∧ BlockFits b ∧ (∀ g ∈ b.groups, GroupFits b g) ∧ ∀ o ∈ os, ObjectFits o := by
  intro b os
  refine ⟨?_, ⟨⟨by decide, by decide⟩, by decide⟩, ?_, ?_⟩
  · refine GroupsMean.cons _ _ [os[0], os[1]] [os[2]] (GroupMeans.dense _ [_, _] ?_)
      (GroupsMean.cons _ _ [os[2]] [] (GroupMeans.relations _ [_] (by simp) (.cons _ _ _ _ ?_ .nil)) .nil)
    · refine ⟨rfl, rfl, rfl, ?_, ⟨rfl, rfl, rfl, rfl, rfl, Or.inr ⟨rfl, by simp⟩⟩, by simp⟩
      exact .tag _ _ ⟨"k", "v"⟩ [] _ _ (by decide) rfl rfl (.done _ _ (.done _ _ (.none _ (by simp))))
    · exact ⟨⟨rfl, ⟨rfl, rfl, rfl, rfl, rfl, rfl⟩, rfl, rfl, rfl⟩, rfl, rfl, rfl⟩
  · intro g hg
    simp only [b, List.mem_cons, List.not_mem_nil, or_false] at hg
    rcases hg with rfl | rfl
    · refine ⟨by simp, ?_⟩
      intro d hd
      cases hd
      constructor <;> intro v hv <;> simp only [totals, List.mem_cons, List.not_mem_nil, or_false] at hv <;>
        rcases hv with rfl | rfl <;> simp only [CoordFits, InS64] <;> decide
    · exact ⟨by simp, by simp⟩
  · intro o ho
    simp only [os, List.mem_cons, List.not_mem_nil, or_false] at ho
    rcases ho with rfl | rfl | rfl
    · refine ⟨by decide, by decide, by decide, by decide, by decide, by decide, by decide, by decide⟩
    · refine ⟨by decide, by decide, by decide, by decide, by decide, by decide, by decide, by decide⟩
    · refine ⟨by decide, by decide, by decide, by decide, by decide, by decide, ?_⟩
      intro m hm
      simp only [List.mem_cons, List.not_mem_nil, or_false] at hm
      rcases hm with rfl | rfl <;> exact ⟨by decide, by decide⟩

end Osmium

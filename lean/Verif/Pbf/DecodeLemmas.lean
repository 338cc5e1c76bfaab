import Verif.Pbf.BlockLemmas
import Verif.Pbf.Reader
import Verif.Pbf.Spec
import Verif.Osm.Props
/-
Reading the messages the writer has stored.
-/
namespace Osmium
open Spec

/-- `b` is a block with the given settings and a string table in which string `s` (of `K`) is found
at index `g s`. -/
structure GoodBlock (cfg : PbfCfg) (K : List String) (g : String → Int) (b : PBlock) : Prop where
  lookup : ∀ s ∈ K, sidStr b.strings (g s) = .ok s
  pos : ∀ s ∈ K, 1 ≤ g s ∧ g s ≤ 65535
  gran : b.granularity = cfg.granularity
  date : b.dateGranularity = 1000
  lat : b.latOffset = 0
  lon : b.lonOffset = 0

section
variable {cfg : PbfCfg} {K : List String} {g : String → Int} {b : PBlock}

theorem wrapU32_wrapS32 {x : Int} (h : InU32 x) : wrapU32 (wrapS32 x) = x := by
  unfold InU32 at h; unfold wrapU32 wrapS32; omega

theorem readUser_ok {s : String} (h : s.utf8ByteSize ≤ 1021) : readUser s = .ok s := by
  unfold readUser maxLength
  rw [if_neg (by omega)]

/-- The attributes of an object except its tags, after reading. -/
def readAttrs (cfg : PbfCfg) (o : Obj) : Obj :=
  { keptAttrs cfg.metadata cfg.addVisible o with tags := [] }

theorem readInfo_ok (hb : GoodBlock cfg K g b) {o : Obj} (ho : o.PbfOk)
    (hu : cfg.metadata = true → o.user ∈ K) :
    readInfo b.strings (dateFactor b) { Obj.new with id := o.id } (encInfo cfg g o) =
      .ok (readAttrs cfg o) := by
  have hf : dateFactor b = 1 := by unfold dateFactor; rw [hb.date]; decide
  unfold encInfo readAttrs keptAttrs
  by_cases hm : cfg.metadata
  · simp only [hm, if_true]
    have hts : chk64 (o.timestamp * dateFactor b) = some o.timestamp := by
      rw [hf, chk64_eq_some]; unfold InS64; have := ho.ts; exact ⟨by omega, by omega⟩
    simp only [readInfo, hts, Res.ofOption_some, hb.lookup _ (hu hm), readUser_ok ho.user, bind,
      Except.bind, pure, Except.pure, wrapU32_wrapS32 ho.wf.version, wrapS32_of_in ho.wf.changeset,
      wrapS32_of_in ho.wf.uid]
    by_cases hv : cfg.addVisible <;> simp [hv, Obj.new]
  · simp [hm, readInfo, Obj.new]

theorem mem_tagStrings {tags : TagList} {t : Tag} (h : t ∈ tags) :
    t.key ∈ tagStrings tags ∧ t.value ∈ tagStrings tags := by
  simp only [tagStrings, List.mem_flatMap]
  exact ⟨⟨t, h, by simp⟩, ⟨t, h, by simp⟩⟩

theorem tagStrings_cons (t : Tag) (tags : TagList) :
    tagStrings (t :: tags) = t.key :: t.value :: tagStrings tags := by simp [tagStrings]

theorem readTags_ok (hb : GoodBlock cfg K g b) (tags acc : TagList)
    (ht : ∀ s ∈ tagStrings tags, s ∈ K) :
    readTags b.strings (tags.map (fun t => g t.key)) (tags.map (fun t => g t.value)) acc =
      .ok (acc ++ tags) := by
  induction tags generalizing acc with
  | nil => simp [readTags]
  | cons t tags ih =>
    have h1 := ht t.key (mem_tagStrings (List.mem_cons_self ..)).1
    have h2 := ht t.value (mem_tagStrings (List.mem_cons_self ..)).2
    have := ih (acc.add t.key t.value) (fun s hs => ht s (by rw [tagStrings_cons]; simp [hs]))
    simp only [List.map_cons, readTags, hb.lookup _ h1, hb.lookup _ h2, bind, Except.bind, this]
    simp [TagList.add]

theorem readCoord_ok (hc : cfg.Exact) (hb : GoodBlock cfg K g b) {x : Int} (hx : InS32 x) :
    readCoord b.granularity 0 (lonlat2int cfg.granularity x) = .ok x := by
  have e := (lonlat2intC_ok hc hx).2.2
  unfold readCoord
  rw [hb.gran, e]
  unfold InS32 at hx
  have h1 : chk64 (x * 100) = some (x * 100) := by
    rw [chk64_eq_some]; unfold InS64; exact ⟨by omega, rfl⟩
  simp only [h1, Res.ofOption_some, bind, Except.bind, pure, Except.pure, Int.add_zero]
  rw [Int.mul_tdiv_cancel _ (by decide)]

theorem ofInt64_ok {p : Position} (h : p.WF) : Position.ofInt64 p.x p.y = p := by
  unfold Position.ofInt64; rw [wrapS32_of_in h.1, wrapS32_of_in h.2]

theorem readAttrs_tags (o : Obj) :
    { readAttrs cfg o with tags := o.tags } = keptAttrs cfg.metadata cfg.addVisible o := by
  unfold readAttrs keptAttrs
  split <;> simp [Obj.new]

/-- All strings of the object are in the table. -/
def HasStrings (cfg : PbfCfg) (K : List String) (o : OsmObj) : Prop := ∀ s ∈ o.strings cfg, s ∈ K

theorem HasStrings.tags {o : OsmObj} (h : HasStrings cfg K o) : ∀ s ∈ tagStrings o.obj.tags, s ∈ K :=
  fun s hs => h s (by simp [OsmObj.strings, hs])

theorem HasStrings.user {o : OsmObj} (h : HasStrings cfg K o) (hm : cfg.metadata = true) :
    o.obj.user ∈ K := h _ (by simp [OsmObj.strings, hm])

theorem readNode_ok (hc : cfg.Exact) (hb : GoodBlock cfg K g b) {n : Node} (ho : (OsmObj.node n).PbfOk)
    (hs : HasStrings cfg K (.node n)) :
    readNode b (encNode cfg g n) = .ok ⟨keptAttrs cfg.metadata cfg.addVisible n.obj, n.position⟩ := by
  have h1 := readInfo_ok hb ho.1 hs.user
  have h2 := readTags_ok hb n.obj.tags [] hs.tags
  have hx := readCoord_ok hc hb ho.2.2.1
  have hy := readCoord_ok hc hb ho.2.2.2
  simp only [readNode, encNode, h1, h2, hb.lat, hb.lon, hx, hy, bind, Except.bind, pure,
    Except.pure, ofInt64_ok ho.2.2, List.nil_append]
  rw [← readAttrs_tags (cfg := cfg)]

theorem in62_s64 {x : Int} (h : In62 x) : InS64 x := by unfold In62 at h; unfold InS64; omega

theorem wrapS64_wrapU64 {x : Int} (h : InS64 x) : wrapS64 (wrapU64 x) = x := by
  unfold InS64 at h; unfold wrapS64 wrapU64; omega

theorem readRefs_ok (xs : List Int) (v r : Int) (hr : r = wrapU64 v) (h : ∀ x ∈ xs, In62 x) :
    readRefs r (deltas v xs) = xs.map (fun x => { ref := x, position := Position.undef }) := by
  induction xs generalizing v r with
  | nil => rfl
  | cons x xs ih =>
    have hx := h x (by simp)
    have e : wrapU64 (r + (x - v)) = wrapU64 x := by subst hr; unfold wrapU64; omega
    simp only [deltas, readRefs, e, wrapS64_wrapU64 (in62_s64 hx), List.map_cons]
    rw [ih x _ rfl (fun y hy => h y (by simp [hy]))]

theorem readWay_ok (hb : GoodBlock cfg K g b) {w : Way} (ho : (OsmObj.way w).PbfOk)
    (hs : HasStrings cfg K (.way w)) :
    readWay b (encWay cfg g w) = .ok ⟨keptAttrs cfg.metadata cfg.addVisible w.obj,
      w.nodes.map (fun n => { ref := n.ref, position := Position.undef })⟩ := by
  have h1 := readInfo_ok hb ho.1 hs.user
  have h2 := readTags_ok hb w.obj.tags [] hs.tags
  have h3 := readRefs_ok (w.nodes.map WayNode.ref) 0 0 rfl (by
    intro x hx
    obtain ⟨n, hn, rfl⟩ := List.mem_map.1 hx
    exact ho.2 n hn)
  simp only [readWay, encWay, h1, h2, h3, bind, Except.bind, pure, Except.pure, List.nil_append,
    List.map_map, Function.comp_def]
  rw [← readAttrs_tags (cfg := cfg)]

theorem memChar_encType {m : Member} (h : m.type = 'n' ∨ m.type = 'w' ∨ m.type = 'r') :
    memChar (encType m) = m.type := by
  unfold encType
  rcases h with h | h | h <;> rw [h] <;> rfl

theorem readMembers_ok (hb : GoodBlock cfg K g b) (ms acc : List Member) (v r : Int)
    (hr : r = wrapU64 v)
    (h : ∀ m ∈ ms, In62 m.ref ∧ (m.type = 'n' ∨ m.type = 'w' ∨ m.type = 'r') ∧
        m.role.utf8ByteSize ≤ 1021) (hs : ∀ m ∈ ms, m.role ∈ K) :
    readMembers b.strings r (ms.map encType) (deltas v (ms.map Member.ref))
      (ms.map (fun m => g m.role)) acc = .ok (acc ++ ms) := by
  induction ms generalizing acc v r with
  | nil => simp [readMembers]
  | cons m ms ih =>
    obtain ⟨h1, h2, h3⟩ := h m (by simp)
    have e : wrapU64 (r + (m.ref - v)) = wrapU64 m.ref := by subst hr; unfold wrapU64; omega
    have := ih (acc ++ [m]) m.ref _ rfl (fun y hy => h y (by simp [hy]))
      (fun y hy => hs y (by simp [hy]))
    simp only [List.map_cons, deltas, readMembers, e, wrapS64_wrapU64 (in62_s64 h1),
      hb.lookup _ (hs m (by simp)), memChar_encType h2, bind, Except.bind]
    rw [addMember_appends _ _ _ _ h3]
    simp only [this]
    simp

theorem readRelation_ok (hb : GoodBlock cfg K g b) {r : Relation} (ho : (OsmObj.relation r).PbfOk)
    (hs : HasStrings cfg K (.relation r)) :
    readRelation b (encRel cfg g r) = .ok ⟨keptAttrs cfg.metadata cfg.addVisible r.obj, r.members⟩ := by
  have h1 := readInfo_ok hb ho.1 hs.user
  have h2 := readTags_ok hb r.obj.tags [] hs.tags
  have h3 := readMembers_ok hb r.members [] 0 0 rfl ho.2 (fun m hm => hs _ (by
    simp only [OsmObj.strings, List.mem_append, List.mem_map]
    exact Or.inr ⟨m, hm, rfl⟩))
  simp only [readRelation, encRel, h1, h2, h3, bind, Except.bind, pure, Except.pure,
    List.nil_append]
  rw [← readAttrs_tags (cfg := cfg)]

/-! ### Dense nodes -/

theorem readDenseTags_ok (hb : GoodBlock cfg K g b) (tags acc : TagList) (rest : List Int)
    (ht : ∀ s ∈ tagStrings tags, s ∈ K) :
    readDenseTags b.strings ((tagStrings tags).map g ++ 0 :: rest) acc = .ok (acc ++ tags, rest) := by
  induction tags generalizing acc with
  | nil => simp [tagStrings, readDenseTags]
  | cons t tags ih =>
    have h1 := ht t.key (mem_tagStrings (List.mem_cons_self ..)).1
    have h2 := ht t.value (mem_tagStrings (List.mem_cons_self ..)).2
    have := ih (acc.add t.key t.value) (fun s hs => ht s (by rw [tagStrings_cons]; simp [hs]))
    have e : tagStrings (t :: tags) = t.key :: t.value :: tagStrings tags := by simp [tagStrings]
    have hne : ¬ g t.key = 0 := by have := (hb.pos _ h1).1; omega
    rw [e]
    simp only [List.map_cons, List.cons_append, readDenseTags, hne, if_false, hb.lookup _ h1,
      hb.lookup _ h2, bind, Except.bind, this]
    simp [TagList.add]

/-- Reading a column entry of a delta encoded column. -/
theorem add64_ok {v x : Int} (hx : In62 x) : add64 v (x - v) = .ok x := by
  unfold add64
  have : chk64 (v + (x - v)) = some x := by
    rw [chk64_eq_some]; unfold InS64; unfold In62 at hx; exact ⟨by omega, by omega⟩
  rw [this]; rfl

theorem in32_in62 {z : Int} (hz : InS32 z) : In62 z := by unfold InS32 at hz; unfold In62; omega

/-- The state of the reader before reading `ns`; the nodes read before end with the given values. -/
structure DenseInv (cfg : PbfCfg) (g : String → Int) (v : Node) (u : Int) (s : DenseState)
    (ns : List Node) : Prop where
  id : s.id = v.obj.id
  lat : s.lat = lonlat2int cfg.granularity v.position.y
  lon : s.lon = lonlat2int cfg.granularity v.position.x
  lats : s.lats = deltas s.lat (ns.map (fun n => lonlat2int cfg.granularity n.position.y))
  lons : s.lons = deltas s.lon (ns.map (fun n => lonlat2int cfg.granularity n.position.x))
  kv : s.keysVals = ns.flatMap (fun n => (tagStrings n.obj.tags).map g ++ [0])
  uid : cfg.metadata = true → wrapS32 s.uid = wrapS32 v.obj.uid
  uidB : cfg.metadata = true →
    -4611686018427387904 ≤ s.uid - 2147483648 * ns.length ∧
    s.uid + 2147483648 * ns.length ≤ 4611686018427387903
  userSid : cfg.metadata = true → s.userSid = u
  changeset : cfg.metadata = true → s.changeset = v.obj.changeset
  timestamp : cfg.metadata = true → s.timestamp = v.obj.timestamp
  versions : cfg.metadata = true → s.versions = ns.map (fun n => wrapS32 n.obj.version)
  timestamps : cfg.metadata = true → s.timestamps = deltas s.timestamp (ns.map (fun n => n.obj.timestamp))
  changesets : cfg.metadata = true → s.changesets = deltas s.changeset (ns.map (fun n => n.obj.changeset))
  uids : cfg.metadata = true → s.uids = (deltas v.obj.uid (ns.map (fun n => n.obj.uid))).map wrapS32
  userSids : cfg.metadata = true → s.userSids = deltas u (ns.map (fun n => g n.obj.user))
  visibles : cfg.metadata = true → cfg.addVisible = true → s.visibles = ns.map (fun n => n.obj.visible)

theorem readDenseInfo_ok (hb : GoodBlock cfg K g b) (hm : cfg.metadata = true) {v : Node} {u : Int}
    {s : DenseState} {n : Node} {ns : List Node} (h : DenseInv cfg g v u s (n :: ns))
    (ho : n.obj.PbfOk) (hu : n.obj.user ∈ K) :
    ∃ s', readDenseInfo b.strings (dateFactor b) cfg.addVisible { Obj.new with id := n.obj.id } s =
        .ok (readAttrs cfg n.obj, s') ∧
      DenseInv cfg g n (g n.obj.user)
        { s' with id := n.obj.id, lat := lonlat2int cfg.granularity n.position.y,
                  lon := lonlat2int cfg.granularity n.position.x,
                  lats := deltas (lonlat2int cfg.granularity n.position.y)
                    (ns.map (fun n => lonlat2int cfg.granularity n.position.y)),
                  lons := deltas (lonlat2int cfg.granularity n.position.x)
                    (ns.map (fun n => lonlat2int cfg.granularity n.position.x)),
                  keysVals := ns.flatMap (fun n => (tagStrings n.obj.tags).map g ++ [0]) } ns := by
  have hf : dateFactor b = 1 := by unfold dateFactor; rw [hb.date]; decide
  have hts : chk64 (n.obj.timestamp * dateFactor b) = some n.obj.timestamp := by
    rw [hf, chk64_eq_some]; unfold InS64; have := ho.ts; exact ⟨by omega, by omega⟩
  have ecs := h.changesets hm
  have ets := h.timestamps hm
  have eu := h.uids hm
  have esi := h.userSids hm
  have ev := h.versions hm
  simp only [List.map_cons, deltas] at ecs ets eu esi ev
  have hub := h.uidB hm
  have huid := h.uid hm
  simp only [List.length_cons, Nat.cast_add, Nat.cast_one] at hub
  -- the new accumulated uid
  have hin : InS32 n.obj.uid := ho.wf.uid
  have h1 : wrapS32 (s.uid + wrapS32 (n.obj.uid - v.obj.uid)) = n.obj.uid := by
    unfold InS32 at hin; unfold wrapS32 at huid ⊢; omega
  have h3 := wrapS32_in (n.obj.uid - v.obj.uid)
  unfold InS32 at h3
  have h2 : add64 s.uid (wrapS32 (n.obj.uid - v.obj.uid)) =
      .ok (s.uid + wrapS32 (n.obj.uid - v.obj.uid)) := by
    unfold add64
    have : chk64 (s.uid + wrapS32 (n.obj.uid - v.obj.uid)) =
        some (s.uid + wrapS32 (n.obj.uid - v.obj.uid)) := by
      rw [chk64_eq_some]; unfold InS64; exact ⟨by omega, rfl⟩
    rw [this]; rfl
  have hg := hb.pos _ hu
  have hw : wrapS32 (g n.obj.user) = g n.obj.user := wrapS32_of_in (by unfold InS32; omega)
  have hsid : add64 s.userSid (g n.obj.user - u) = .ok (g n.obj.user) := by
    rw [h.userSid hm]; exact add64_ok (by unfold In62; omega)
  have htime : add64 s.timestamp (n.obj.timestamp - s.timestamp) = .ok n.obj.timestamp :=
    add64_ok (by have := ho.ts; unfold In62; omega)
  have hchg : add64 s.changeset (n.obj.changeset - s.changeset) = .ok n.obj.changeset :=
    add64_ok (in32_in62 ho.wf.changeset)
  have key : ∀ vs : List Bool, (cfg.addVisible = true → vs = ns.map (fun n => n.obj.visible)) →
      DenseInv cfg g n (g n.obj.user)
        { s with changeset := n.obj.changeset, timestamp := n.obj.timestamp,
                 uid := s.uid + wrapS32 (n.obj.uid - v.obj.uid), userSid := g n.obj.user,
                 changesets := deltas n.obj.changeset (ns.map (fun n => n.obj.changeset)),
                 timestamps := deltas n.obj.timestamp (ns.map (fun n => n.obj.timestamp)),
                 uids := (deltas n.obj.uid (ns.map (fun n => n.obj.uid))).map wrapS32,
                 userSids := deltas (g n.obj.user) (ns.map (fun n => g n.obj.user)),
                 versions := ns.map (fun n => wrapS32 n.obj.version),
                 visibles := vs,
                 id := n.obj.id, lat := lonlat2int cfg.granularity n.position.y,
                 lon := lonlat2int cfg.granularity n.position.x,
                 lats := deltas (lonlat2int cfg.granularity n.position.y)
                    (ns.map (fun n => lonlat2int cfg.granularity n.position.y)),
                 lons := deltas (lonlat2int cfg.granularity n.position.x)
                    (ns.map (fun n => lonlat2int cfg.granularity n.position.x)),
                 keysVals := ns.flatMap (fun n => (tagStrings n.obj.tags).map g ++ [0]) } ns := by
    intro vs hvs
    constructor <;> first | rfl | (intros; rfl) | skip
    · intro _; rw [h1, wrapS32_of_in hin]
    · intro _; simp only; omega
    · exact fun _ hv => hvs hv
  simp only [readDenseInfo, ecs, ets, eu, esi, ev, List.map_cons, pop, hchg, htime, h2, hsid, hts,
    Res.ofOption_some, hw, hb.lookup _ hu, readUser_ok ho.user, bind, Except.bind, pure, Except.pure, h1,
    wrapU32_wrapS32 ho.wf.version, wrapS32_of_in ho.wf.changeset]
  by_cases hv : cfg.addVisible
  · have evi := h.visibles hm hv
    simp only [List.map_cons] at evi
    simp only [hv, if_true, evi]
    refine ⟨_, congrArg Except.ok (congrArg₂ Prod.mk ?_ rfl),
      key (ns.map (fun n => n.obj.visible)) (fun _ => rfl)⟩
    simp [readAttrs, keptAttrs, hm, hv, Obj.new]
  · simp only [hv]
    refine ⟨_, congrArg Except.ok (congrArg₂ Prod.mk ?_ rfl),
      key s.visibles (fun h => absurd h hv)⟩
    simp [readAttrs, keptAttrs, hm, hv, Obj.new]

theorem readDenseNode_ok (hc : cfg.Exact) (hb : GoodBlock cfg K g b) {v : Node} {u : Int}
    {s : DenseState} {n : Node} {ns : List Node} (h : DenseInv cfg g v u s (n :: ns))
    (ho : (OsmObj.node n).PbfOk) (hs : HasStrings cfg K (.node n)) :
    ∃ s' u', readDenseNode b cfg.metadata cfg.addVisible (n.obj.id - v.obj.id) s =
        .ok (⟨keptAttrs cfg.metadata cfg.addVisible n.obj, n.position⟩, s') ∧
      DenseInv cfg g n u' s' ns := by
  have hid : add64 s.id (n.obj.id - v.obj.id) = .ok n.obj.id := by rw [h.id]; exact add64_ok ho.2.1
  have elat := h.lats
  have elon := h.lons
  have ekv := h.kv
  simp only [List.map_cons, deltas, List.flatMap_cons, List.append_assoc, List.singleton_append]
    at elat elon ekv
  have hlat := add64_ok (v := s.lat) (lonlat2intC_ok hc ho.2.2.2).2.1
  have hlon := add64_ok (v := s.lon) (lonlat2intC_ok hc ho.2.2.1).2.1
  have hx := readCoord_ok hc hb ho.2.2.1
  have hy := readCoord_ok hc hb ho.2.2.2
  have htags := readDenseTags_ok hb n.obj.tags []
    (ns.flatMap (fun n => (tagStrings n.obj.tags).map g ++ [0])) hs.tags
  by_cases hm : cfg.metadata = true
  · obtain ⟨s', e, hi⟩ := readDenseInfo_ok hb hm h ho.1 (hs.user hm)
    refine ⟨_, _, ?_, hi⟩
    simp only [readDenseNode, hid, hm, if_true, e, elat, elon, ekv, pop, hlat, hlon, hb.lat, hb.lon,
      hx, hy, htags, bind, Except.bind, pure, Except.pure, ofInt64_ok ho.2.2, List.nil_append]
    rw [← hm, ← readAttrs_tags (cfg := cfg)]
  · have hm' : cfg.metadata = false := by simpa using hm
    refine ⟨?s, u, ?e, ?i⟩
    case e =>
      simp only [readDenseNode, hid, hm', Bool.false_eq_true, if_false, elat, elon, ekv, pop, hlat,
        hlon, hb.lat, hb.lon, hx, hy, htags, bind, Except.bind, pure, Except.pure,
        ofInt64_ok ho.2.2, List.nil_append]
      have : keptAttrs false cfg.addVisible n.obj = { Obj.new with id := n.obj.id, tags := n.obj.tags } := by
        simp [keptAttrs]
      rw [this]
    case i =>
      constructor <;> first | rfl | (intro hx; rw [hm'] at hx; simp at hx)

/-- All dense nodes are read. -/
theorem readDenseLoop_ok (hc : cfg.Exact) (hb : GoodBlock cfg K g b) (ns : List Node) (v : Node)
    (u : Int) (s : DenseState) (h : DenseInv cfg g v u s ns)
    (ho : ∀ n ∈ ns, (OsmObj.node n).PbfOk) (hs : ∀ n ∈ ns, HasStrings cfg K (.node n)) :
    readDenseLoop b cfg.metadata cfg.addVisible (deltas v.obj.id (ns.map (fun n => n.obj.id))) s =
      ⟨ns.map (fun n => .obj (kept cfg.metadata cfg.addVisible (.node n))), none⟩ := by
  induction ns generalizing v u s with
  | nil => rfl
  | cons n ns ih =>
    obtain ⟨s', u', e, hi⟩ := readDenseNode_ok hc hb h (ho n (by simp)) (hs n (by simp))
    simp only [List.map_cons, deltas, readDenseLoop, e]
    rw [ih n u' s' hi (fun x hx => ho x (by simp [hx])) (fun x hx => hs x (by simp [hx]))]
    rfl

theorem readDense_ok (hc : cfg.Exact) (hb : GoodBlock cfg K g b) (ns : List Node)
    (hne : ns ≠ []) (hl : ns.length ≤ 8000)
    (ho : ∀ n ∈ ns, (OsmObj.node n).PbfOk) (hs : ∀ n ∈ ns, HasStrings cfg K (.node n)) :
    readDense b (encDense cfg g (deltas 0 (ns.map (fun n => g n.obj.user))) ns) =
      ⟨ns.map (fun n => .obj (kept cfg.metadata cfg.addVisible (.node n))), none⟩ := by
  have l0 : lonlat2int cfg.granularity 0 = 0 := by
    have h := (lonlat2intC_ok hc (x := 0) (by decide)).2.2
    have hg : cfg.granularity ≠ 0 := by
      intro h0; have := hc.1; rw [h0] at this; simp at this
    simp only [Int.zero_mul] at h
    rcases Int.mul_eq_zero.1 h with h | h
    · exact h
    · exact absurd h hg
  let v : Node := ⟨{ Obj.new with uid := 0 }, ⟨0, 0⟩⟩
  have := fun s h => readDenseLoop_ok hc hb ns v 0 s h ho hs
  unfold readDense
  by_cases hm : cfg.metadata = true
  · have hvis : (!((encDense cfg g (deltas 0 (ns.map (fun n => g n.obj.user))) ns).info.getD
        .new).visible.isEmpty) = cfg.addVisible := by
      simp only [encDense, hm, if_true, Option.getD_some, encDenseInfo]
      by_cases hv : cfg.addVisible
      · simp [hv, hne]
      · simp [hv]
    have hsome : (encDense cfg g (deltas 0 (ns.map (fun n => g n.obj.user))) ns).info.isSome
        = cfg.metadata := by simp [encDense, hm]
    simp only [hvis, hsome]
    apply this
    simp only [encDense, hm, if_true, Option.getD_some, encDenseInfo]
    constructor <;> simp only [v, l0] <;>
      first | rfl | (intros; rfl) | (intros; omega) | (intro _ hv; simp [hv]) | (intros; trivial)
  · have hm' : cfg.metadata = false := by simpa using hm
    have e1 : (encDense cfg g (deltas 0 (ns.map (fun n => g n.obj.user))) ns).info = none := by
      simp [encDense, hm']
    simp only [e1, Option.isSome_none, Option.getD_none]
    have hloop : ∀ (ids : List Int) (s : DenseState) (x y : Bool),
        readDenseLoop b false x ids s = readDenseLoop b false y ids s := by
      intro ids
      induction ids with
      | nil => intros; rfl
      | cons d ds ih =>
        intro s x y
        have e : readDenseNode b false x d s = readDenseNode b false y d s := by
          simp only [readDenseNode, Bool.false_eq_true, if_false]
        simp only [readDenseLoop, e]
        cases readDenseNode b false y d s with
        | error _ => rfl
        | ok r => simp only [ih r.2 x y]
    rw [hloop _ _ _ cfg.addVisible]
    have h2 := this
    rw [hm'] at h2 ⊢
    apply h2
    simp only [encDense]
    constructor <;> simp only [v, l0] <;> first | rfl | (intro hx; rw [hm'] at hx; simp at hx)

end
end Osmium

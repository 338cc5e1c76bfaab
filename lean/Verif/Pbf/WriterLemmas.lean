import Verif.Pbf.Writer
import Verif.Strings.Lemmas
import Verif.Float.Props
/-
What the PBF writer stores in a block, in closed form.
-/
namespace Osmium

/-! ### Deltas -/

/-- Differences of consecutive elements. -/
def deltas : Int → List Int → List Int
  | _, [] => []
  | v, x :: xs => (x - v) :: deltas x xs

theorem deltas_snoc (v : Int) (xs : List Int) (x : Int) :
    deltas v (xs ++ [x]) = deltas v xs ++ [x - xs.getLastD v] := by
  induction xs generalizing v with
  | nil => rfl
  | cons y ys ih =>
    simp only [List.cons_append, deltas, ih, List.getLastD_cons]

theorem deltas_length (v : Int) (xs : List Int) : (deltas v xs).length = xs.length := by
  induction xs generalizing v with
  | nil => rfl
  | cons y ys ih => simp [deltas, ih]

/-- Values whose differences do not overflow. -/
def In62 (x : Int) : Prop := -4611686018427387904 ≤ x ∧ x ≤ 4611686018427387903

instance (x : Int) : Decidable (In62 x) := by unfold In62; infer_instance

theorem chk64_sub {x y : Int} (hx : In62 x) (hy : In62 y) : chk64 (x - y) = some (x - y) := by
  rw [chk64_eq_some]; unfold InS64; unfold In62 at *; exact ⟨by omega, rfl⟩

theorem deltaUpdate_ok {v x : Int} (hv : In62 v) (hx : In62 x) :
    Res.ofOption (deltaUpdate v x) = .ok (x - v, x) := by
  simp [deltaUpdate, chk64_sub hx hv]

theorem deltaSeq_ok (xs : List Int) (v : Int) (hv : In62 v) (hx : ∀ x ∈ xs, In62 x) :
    deltaSeq v xs = some (deltas v xs) := by
  induction xs generalizing v with
  | nil => rfl
  | cons x xs ih =>
    have h1 := hx x (by simp)
    simp [deltaSeq, deltaUpdate, chk64_sub h1 hv, ih x h1 (fun y hy => hx y (by simp [hy])), deltas]

theorem getLastD_in62 (l : List Int) (h : ∀ x ∈ l, In62 x) : In62 (l.getLastD 0) := by
  rcases List.eq_nil_or_concat l with rfl | ⟨l', a, rfl⟩
  · unfold In62; simp
  · simp at h ⊢; exact h a (Or.inr rfl)

/-! ### Strings -/

/-- Keys and values in the order in which they are recorded. -/
def tagStrings (tags : TagList) : List String := tags.flatMap (fun t => [t.key, t.value])

/-- The strings of an object in the order in which the writer records them. -/
def OsmObj.strings (cfg : PbfCfg) (o : OsmObj) : List String :=
  tagStrings o.obj.tags ++ (if cfg.metadata then [o.obj.user] else []) ++
    (match o with | .relation r => r.members.map Member.role | _ => [])

/-- `t'` is the table after recording `ss` in `t`. -/
structure Recorded (t : StringTable) (ss : List String) (t' : StringTable) : Prop where
  inv : t'.Inv
  keys : t'.keys = ss.foldl addKey t.keys

theorem Recorded.trans {t t' t'' : StringTable} {a b : List String} (h : Recorded t a t')
    (h' : Recorded t' b t'') : Recorded t (a ++ b) t'' :=
  ⟨h'.inv, by rw [h'.keys, h.keys, List.foldl_append]⟩

/-- The id used for string `s` while the block is built. -/
def interim (K : List String) (s : String) : Int := (fid K s : Int)

theorem record_one {t : StringTable} {K : List String} (hi : t.Inv) (s : String) (rest : List String)
    (hp : (s :: rest).foldl addKey t.keys <+: K) (hK : K.length ≤ 65535) :
    Recorded t [s] (t.record s).1 ∧ ((t.record s).2 : Int) = interim K s := by
  have hp1 : (t.record s).1.keys <+: K := by
    rw [record_keys]
    exact (foldl_addKey_prefix rest (addKey t.keys s)).trans hp
  obtain ⟨h1, h2, _⟩ := record_fid t s K hi hp1 hK
  exact ⟨⟨h1, by rw [record_keys]; rfl⟩, by rw [h2]; rfl⟩

theorem recordTags_spec (tags : TagList) (t : StringTable) (K : List String) (hi : t.Inv)
    (rest : List String) (hp : (tagStrings tags ++ rest).foldl addKey t.keys <+: K)
    (hK : K.length ≤ 65535) :
    Recorded t (tagStrings tags) (recordTags t tags).1 ∧
    (recordTags t tags).2.1 = tags.map (fun g => interim K g.key) ∧
    (recordTags t tags).2.2 = tags.map (fun g => interim K g.value) := by
  induction tags generalizing t with
  | nil => exact ⟨⟨hi, rfl⟩, rfl, rfl⟩
  | cons g tags ih =>
    have e : tagStrings (g :: tags) = g.key :: g.value :: tagStrings tags := by simp [tagStrings]
    rw [e] at hp ⊢
    obtain ⟨r1, i1⟩ := record_one hi g.key _ hp hK
    have hp2 : (g.value :: (tagStrings tags ++ rest)).foldl addKey (t.record g.key).1.keys <+: K := by
      rw [r1.keys]; exact hp
    obtain ⟨r2, i2⟩ := record_one r1.inv g.value _ hp2 hK
    have hp3 : (tagStrings tags ++ rest).foldl addKey
        ((t.record g.key).1.record g.value).1.keys <+: K := by rw [r2.keys]; exact hp2
    obtain ⟨r3, i3, i4⟩ := ih _ r2.inv hp3
    refine ⟨?_, ?_, ?_⟩
    · exact (r1.trans r2).trans r3
    · simp only [recordTags, List.map_cons, i1, i3]
    · simp only [recordTags, List.map_cons, i2, i4]

theorem recordTagsDense_spec (tags : TagList) (t : StringTable) (K : List String) (hi : t.Inv)
    (rest : List String) (hp : (tagStrings tags ++ rest).foldl addKey t.keys <+: K)
    (hK : K.length ≤ 65535) :
    Recorded t (tagStrings tags) (recordTagsDense t tags).1 ∧
    (recordTagsDense t tags).2 = (tagStrings tags).map (interim K) := by
  induction tags generalizing t with
  | nil => exact ⟨⟨hi, rfl⟩, rfl⟩
  | cons g tags ih =>
    have e : tagStrings (g :: tags) = g.key :: g.value :: tagStrings tags := by simp [tagStrings]
    rw [e] at hp ⊢
    obtain ⟨r1, i1⟩ := record_one hi g.key _ hp hK
    have hp2 : (g.value :: (tagStrings tags ++ rest)).foldl addKey (t.record g.key).1.keys <+: K := by
      rw [r1.keys]; exact hp
    obtain ⟨r2, i2⟩ := record_one r1.inv g.value _ hp2 hK
    have hp3 : (tagStrings tags ++ rest).foldl addKey
        ((t.record g.key).1.record g.value).1.keys <+: K := by rw [r2.keys]; exact hp2
    obtain ⟨r3, i3⟩ := ih _ r2.inv hp3
    refine ⟨?_, ?_⟩
    · exact (r1.trans r2).trans r3
    · simp only [recordTagsDense, List.map_cons, i1, i2, i3]

/-! ### Conditions on settings and objects -/

/-- Settings with which coordinates and timestamps are exact: the granularity divides 100
nanodegrees and the date granularity is one second. -/
def PbfCfg.Exact (cfg : PbfCfg) : Prop := cfg.granularity ∣ 100 ∧ cfg.dateGranularity = 1000

/-- Attributes in the range of their C++ types, timestamps below 2^53 seconds, user names not longer
than the reader accepts. -/
structure Obj.PbfOk (o : Obj) : Prop where
  wf : o.WF
  ts : -9007199254740992 ≤ o.timestamp ∧ o.timestamp ≤ 9007199254740992
  user : o.user.utf8ByteSize ≤ 1021

/-- Objects the PBF writer can store: see `Obj.PbfOk`; ids that are delta encoded are below 2^62;
member types are n, w, r and roles not longer than the reader accepts. -/
def OsmObj.PbfOk : OsmObj → Prop
  | .node n => n.obj.PbfOk ∧ In62 n.obj.id ∧ n.position.WF
  | .way w => w.obj.PbfOk ∧ ∀ x ∈ w.nodes, In62 x.ref
  | .relation r => r.obj.PbfOk ∧
      ∀ m ∈ r.members, In62 m.ref ∧ (m.type = 'n' ∨ m.type = 'w' ∨ m.type = 'r') ∧
        m.role.utf8ByteSize ≤ 1021

theorem OsmObj.PbfOk.obj {o : OsmObj} (h : o.PbfOk) : o.obj.PbfOk := by
  cases o <;> exact h.1

theorem lonlat2intC_ok {cfg : PbfCfg} (hc : cfg.Exact) {x : Int} (hx : InS32 x) :
    lonlat2intC cfg x = .ok (lonlat2int cfg.granularity x) ∧
    In62 (lonlat2int cfg.granularity x) ∧
    lonlat2int cfg.granularity x * cfg.granularity = x * 100 := by
  obtain ⟨k, hk⟩ := hc.1
  have e := lonlat2int_exact x cfg.granularity k hx hk.symm
  have hg : cfg.granularity ≠ 0 := by intro h; rw [h] at hk; simp at hk
  have hkb : -100 ≤ k ∧ k ≤ 100 := by
    have : k ∣ 100 := ⟨cfg.granularity, by rw [hk, mul_comm]⟩
    have h1 := Int.le_of_dvd (by norm_num) this
    have h2 := Int.le_of_dvd (by norm_num) ((neg_dvd).2 this)
    omega
  have b : -214748364800 ≤ x * k ∧ x * k ≤ 214748364800 := by
    unfold InS32 at hx
    have h1 : |x * k| ≤ 2147483648 * 100 := by
      rw [abs_mul]
      apply mul_le_mul _ _ (abs_nonneg _) (by norm_num)
      · rw [abs_le]; omega
      · rw [abs_le]; omega
    rw [abs_le] at h1; omega
  have hin : In62 (lonlat2int cfg.granularity x) := by rw [e]; unfold In62; omega
  refine ⟨?_, hin, ?_⟩
  · unfold lonlat2intC
    rw [if_neg hg]
    have : chk64 (lonlat2int cfg.granularity x) = some (lonlat2int cfg.granularity x) := by
      rw [chk64_eq_some]; refine ⟨?_, rfl⟩; unfold InS64; unfold In62 at hin; omega
    rw [this]; rfl
  · rw [e, mul_assoc, mul_comm k, ← hk]

theorem timestamp2intC_ok {cfg : PbfCfg} (hc : cfg.Exact) {t : Int}
    (ht : -9007199254740992 ≤ t ∧ t ≤ 9007199254740992) :
    timestamp2intC cfg t = .ok t := by
  unfold timestamp2intC
  rw [hc.2, if_neg (by decide), timestamp2int_exact t (by rw [abs_le]; omega)]
  have : chk64 t = some t := by rw [chk64_eq_some]; unfold InS64; exact ⟨by omega, rfl⟩
  rw [this]; rfl

/-! ### The messages in closed form, for string ids given by `f` -/

/-- The metadata message of an object. -/
def encInfo (cfg : PbfCfg) (f : String → Int) (o : Obj) : Option PInfo :=
  if cfg.metadata then some
    { visible := if cfg.addVisible then some o.visible else none
      version := wrapS32 o.version, timestamp := o.timestamp, changeset := o.changeset,
      uid := o.uid, userSid := f o.user }
  else none

/-- The message of a node. -/
def encNode (cfg : PbfCfg) (f : String → Int) (n : Node) : PNode :=
  { id := n.obj.id, keys := n.obj.tags.map (fun t => f t.key),
    vals := n.obj.tags.map (fun t => f t.value), info := encInfo cfg f n.obj,
    lon := lonlat2int cfg.granularity n.position.x, lat := lonlat2int cfg.granularity n.position.y }

/-- The message of a way. -/
def encWay (cfg : PbfCfg) (f : String → Int) (w : Way) : PWay :=
  { id := w.obj.id, keys := w.obj.tags.map (fun t => f t.key),
    vals := w.obj.tags.map (fun t => f t.value), info := encInfo cfg f w.obj,
    refs := deltas 0 (w.nodes.map WayNode.ref) }

/-- The type of a member (for members of type n, w, r). -/
def encType (m : Member) : PMemType := (memType m.type).getD .node

/-- The message of a relation. -/
def encRel (cfg : PbfCfg) (f : String → Int) (r : Relation) : PRel :=
  { id := r.obj.id, keys := r.obj.tags.map (fun t => f t.key),
    vals := r.obj.tags.map (fun t => f t.value), info := encInfo cfg f r.obj,
    rolesSid := r.members.map (fun m => f m.role),
    memids := deltas 0 (r.members.map Member.ref),
    types := r.members.map encType }

/-- The columns with the metadata of dense nodes; `us` is the column of user name ids. -/
def encDenseInfo (cfg : PbfCfg) (us : List Int) (ns : List Node) : PDenseInfo :=
  { version := ns.map (fun n => wrapS32 n.obj.version)
    timestamp := deltas 0 (ns.map (fun n => n.obj.timestamp))
    changeset := deltas 0 (ns.map (fun n => n.obj.changeset))
    uid := (deltas 0 (ns.map (fun n => n.obj.uid))).map wrapS32
    userSid := us
    visible := if cfg.addVisible then ns.map (fun n => n.obj.visible) else [] }

/-- The columns of dense nodes. -/
def encDense (cfg : PbfCfg) (f : String → Int) (us : List Int) (ns : List Node) : PDense :=
  { id := deltas 0 (ns.map (fun n => n.obj.id))
    lat := deltas 0 (ns.map (fun n => lonlat2int cfg.granularity n.position.y))
    lon := deltas 0 (ns.map (fun n => lonlat2int cfg.granularity n.position.x))
    keysVals := ns.flatMap (fun n => (tagStrings n.obj.tags).map f ++ [0])
    info := if cfg.metadata then some (encDenseInfo cfg us ns) else none }

/-- The group of nodes; `us` as in `encDense`. -/
def encNodes (cfg : PbfCfg) (f : String → Int) (us : List Int) (ns : List Node) : PGroup :=
  if cfg.dense then
    { PGroup.new with dense := if ns.isEmpty then none else some (encDense cfg f us ns) }
  else { PGroup.new with nodes := ns.map (encNode cfg f) }

/-- The nodes in a sequence of objects. -/
def nodesOf (os : List OsmObj) : List Node := os.filterMap (fun | .node n => some n | _ => none)
/-- The ways in a sequence of objects. -/
def waysOf (os : List OsmObj) : List Way := os.filterMap (fun | .way n => some n | _ => none)
/-- The relations in a sequence of objects. -/
def relsOf (os : List OsmObj) : List Relation :=
  os.filterMap (fun | .relation n => some n | _ => none)

theorem recordInfo_spec {cfg : PbfCfg} (hc : cfg.Exact) {o : Obj} (ho : o.PbfOk) (t : StringTable)
    (K : List String) (hi : t.Inv) (rest : List String)
    (hp : ((if cfg.metadata then [o.user] else []) ++ rest).foldl addKey t.keys <+: K)
    (hK : K.length ≤ 65535) :
    ∃ t', recordInfo cfg t o = .ok (t', encInfo cfg (interim K) o) ∧
      Recorded t (if cfg.metadata then [o.user] else []) t' := by
  unfold recordInfo encInfo
  by_cases hm : cfg.metadata
  · simp only [hm, if_true] at hp ⊢
    obtain ⟨r1, i1⟩ := record_one hi o.user _ hp hK
    refine ⟨(t.record o.user).1, ?_, r1⟩
    rw [timestamp2intC_ok hc ho.ts]
    simp [bind, Except.bind, pure, Except.pure, i1]
  · simp only [hm] at hp ⊢
    exact ⟨t, rfl, ⟨hi, rfl⟩⟩

theorem encType_ok {m : Member} (h : m.type = 'n' ∨ m.type = 'w' ∨ m.type = 'r') :
    memType m.type = some (encType m) := by
  unfold encType
  rcases h with h | h | h <;> rw [h] <;> rfl

theorem writeMembers_spec (ms : List Member) (t : StringTable) (d : Int) (hd : In62 d)
    (K : List String) (hi : t.Inv) (hp : (ms.map Member.role).foldl addKey t.keys <+: K)
    (hK : K.length ≤ 65535)
    (hm : ∀ m ∈ ms, In62 m.ref ∧ (m.type = 'n' ∨ m.type = 'w' ∨ m.type = 'r')) :
    ∃ t', writeMembers t d ms = .ok (t', ms.map (fun m => interim K m.role),
        deltas d (ms.map Member.ref), ms.map encType, false) ∧
      Recorded t (ms.map Member.role) t' := by
  induction ms generalizing t d with
  | nil => exact ⟨t, rfl, hi, rfl⟩
  | cons m ms ih =>
    have h0 := hm m (by simp)
    rw [List.map_cons] at hp
    obtain ⟨r1, i1⟩ := record_one hi m.role _ hp hK
    obtain ⟨t', e, r2⟩ := ih (t.record m.role).1 m.ref h0.1 r1.inv
      (by rw [r1.keys]; exact hp) (fun x hx => hm x (by simp [hx]))
    refine ⟨t', ?_, r1.trans r2⟩
    simp only [writeMembers, deltaUpdate_ok hd h0.1, bind, Except.bind, pure, Except.pure]
    rw [encType_ok h0.2]
    simp only [e, i1, List.map_cons, deltas]

end Osmium

import Verif.Pbf.FileProps
import Verif.Pbf.Meaning
import Verif.Xml.MoreProps
import Mathlib.Data.List.TakeWhile

/-!
# NUL characters in the strings of PBF files

The strings in a string table are sequences of bytes with a length and may contain the character U+0000.  The reader
takes them as C strings, that is up to the first such character (`stringtable.s(i).data()`, input/pbf.hpp 202, 210-211,
240, 248-249, 281, 289-290, 307, 350 and 369-370).  `Pbf/Reader.lean` leaves this out; here is the reader with it.
(C134)
-/

namespace Osmium

open Spec

/-! ### Model -/

/-- A string as C functions see it: up to the first NUL. (`const char*` in osm/tag.hpp 43-46, osm/object.hpp 187-193,
osm/relation_member.hpp 86-92; the characters are those of `std::string::data()`, which ends with a NUL) -/
def pbfCString (s : String) : String := String.ofList (s.toList.takeWhile (· ≠ '\x00'))

/-- A block with its strings as the reader sees them, see `sidStr_cut_eq`. (input/pbf.hpp 97) -/
def cutBlock (b : PBlock) : PBlock := { b with strings := b.strings.map pbfCString }

/-- input/pbf.hpp 90-145 what happens for each blob, see `parseBlobs`; strings are C strings. -/
def parseBlobsC (c : PbfCodec) (ft : FileType) : Meta → ObjType → List (String × Bytes) →
    Events × Meta × ObjType
  | m, last, [] => (⟨[], none⟩, m, last)
  | m, last, (t, d) :: bs =>
    if t = "OSMData" then
      match c.decBlock d with
      | none => (⟨[], some (.exn "Failed to parse PrimitiveBlock.")⟩, m, last)
      | some b =>
        let (e1, last1) := readGroups m (cutBlock b) last b.groups
        let (e2, r) := parseBlobsC c ft m last1 bs
        (e1.seq e2, r)
    else if t = "OSMHeader" then
      match c.decHeader d with
      | none => (⟨[], some (.exn "Failed to parse HeaderBlock.")⟩, m, last)
      | some h =>
        match readHeader ft m h with
        | .error e => (⟨[], some e⟩, m, last)
        | .ok m' => parseBlobsC c ft m' last bs
    else parseBlobsC c ft m last bs

/-- input/pbf.hpp 88-150 `parse`, see `pbfParse`; strings are C strings. -/
def pbfParseC (c : PbfCodec) (ft : FileType) (h : Stops) (s : Input) : List Cb × ParseEnd :=
  let (bs, f) := readBlobs c.toBlobCodec s
  let (ev, m, last) := parseBlobsC c ft (Meta.new ft.multi) .unknown bs
  parseFrame h (ev.seq ⟨[], f⟩) (afterAndBefore m last .unknown)

/-! ### Specification -/

namespace Spec

/-- There is no NUL in the string. -/
def NoNul (s : String) : Prop := '\x00' ∉ s.toList

/-- `t` is `s` up to its first NUL. -/
def UpToNul (s t : String) : Prop :=
  NoNul t ∧ (s = t ∨ ∃ rest, s.toList = t.toList ++ '\x00' :: rest)

/-- There is no NUL in the strings of an object. -/
def NoNulObj (o : OsmObj) : Prop :=
  NoNul o.obj.user ∧ (∀ t ∈ o.obj.tags, NoNul t.key ∧ NoNul t.value) ∧
  match o with
  | .relation r => ∀ m ∈ r.members, NoNul m.role
  | _ => True

/-- The attributes of two objects: all the same, but each string of the second ends at the first NUL of that of the
first. -/
structure CutAttrs (a b : Obj) : Prop where
  same : { a with user := "", tags := [] } = { b with user := "", tags := [] }
  user : UpToNul a.user b.user
  tags : List.Forall₂ (fun s t : Tag => UpToNul s.key t.key ∧ UpToNul s.value t.value) a.tags b.tags

/-- Two objects: all the same, but each string of the second ends at the first NUL of that of the first. -/
inductive CutObject : OsmObj → OsmObj → Prop
  | node (a b : Obj) (p : Position) : CutAttrs a b → CutObject (.node ⟨a, p⟩) (.node ⟨b, p⟩)
  | way (a b : Obj) (ns : List WayNode) : CutAttrs a b → CutObject (.way ⟨a, ns⟩) (.way ⟨b, ns⟩)
  | relation (a b : Obj) (ms ms' : List Member) : CutAttrs a b →
      List.Forall₂ (fun m m' : Member => m.type = m'.type ∧ m.ref = m'.ref ∧ UpToNul m.role m'.role) ms ms' →
      CutObject (.relation ⟨a, ms⟩) (.relation ⟨b, ms'⟩)

end Spec

/-! ### C strings -/

theorem pbfCString_toList (s : String) : (pbfCString s).toList = s.toList.takeWhile (· ≠ '\x00') := by
  simp [pbfCString]

theorem pbfCString_noNul (s : String) : NoNul (pbfCString s) := by
  unfold NoNul
  rw [pbfCString_toList]
  intro h
  have := List.mem_takeWhile_imp h
  simp at this

theorem pbfCString_of_noNul {s : String} (h : NoNul s) : pbfCString s = s := by
  have : s.toList.takeWhile (· ≠ '\x00') = s.toList := by
    rw [List.takeWhile_eq_self_iff]
    intro c hc
    have : c ≠ '\x00' := fun e => h (e ▸ hc)
    simpa using this
  unfold pbfCString
  rw [this]
  simp

theorem pbfCString_idem (s : String) : pbfCString (pbfCString s) = pbfCString s := pbfCString_of_noNul (pbfCString_noNul s)

theorem noNul_of_pbfCString {s : String} (h : pbfCString s = s) : NoNul s := h ▸ pbfCString_noNul s

theorem upToNul_pbfCString (s : String) : UpToNul s (pbfCString s) := by
  refine ⟨pbfCString_noNul s, ?_⟩
  by_cases h : NoNul s
  · exact .inl (pbfCString_of_noNul h).symm
  · right
    have hs := List.takeWhile_append_dropWhile (p := fun c => decide (c ≠ '\x00')) (l := s.toList)
    rw [pbfCString_toList]
    cases hd : s.toList.dropWhile (fun c => decide (c ≠ '\x00')) with
    | nil =>
      exfalso
      apply h
      apply noNul_of_pbfCString
      rw [hd, List.append_nil] at hs
      unfold pbfCString
      rw [hs]
      simp
    | cons c rest =>
      have hc : c = '\x00' := by
        have := List.head_dropWhile_not (p := fun c => decide (c ≠ '\x00')) (l := s.toList) (by rw [hd]; simp)
        simp only [hd, List.head_cons] at this
        simpa using this
      subst hc
      exact ⟨rest, by rw [hd] at hs; exact hs.symm⟩

theorem pbfCString_size (s : String) : (pbfCString s).utf8ByteSize ≤ s.utf8ByteSize := by
  have hs := List.takeWhile_append_dropWhile (p := fun c => decide (c ≠ '\x00')) (l := s.toList)
  have : s = pbfCString s ++ String.ofList (s.toList.dropWhile fun c => decide (c ≠ '\x00')) := by
    unfold pbfCString
    rw [← String.ofList_append, hs]
    simp
  calc (pbfCString s).utf8ByteSize ≤ (pbfCString s ++ String.ofList (s.toList.dropWhile fun c => decide (c ≠ '\x00'))).utf8ByteSize := by
        rw [String.utf8ByteSize_append]; omega
    _ = s.utf8ByteSize := by rw [← this]

theorem map_self {α : Type} {f : α → α} {l : List α} (h : ∀ a ∈ l, f a = a) : l.map f = l := by
  rw [List.map_congr_left h, List.map_id']

/-! ### Objects with their strings cut -/

/-- (helper for statements and proofs, no counterpart in /repo) -/
def cutTag (t : Tag) : Tag := ⟨pbfCString t.key, pbfCString t.value⟩

/-- (helper for statements and proofs, no counterpart in /repo) -/
def cutAttrs (o : Obj) : Obj := { o with user := pbfCString o.user, tags := o.tags.map cutTag }

/-- (helper for statements and proofs, no counterpart in /repo) -/
def cutMember (m : Member) : Member := { m with role := pbfCString m.role }

/-- (helper for statements and proofs, no counterpart in /repo) -/
def cutObj : OsmObj → OsmObj
  | .node n => .node { n with obj := cutAttrs n.obj }
  | .way w => .way { w with obj := cutAttrs w.obj }
  | .relation r => .relation ⟨cutAttrs r.obj, r.members.map cutMember⟩

/-- (helper for statements and proofs, no counterpart in /repo) -/
def cutCb : Cb → Cb
  | .obj o => .obj (cutObj o)
  | c => c

theorem cutAttrs_spec (o : Obj) : CutAttrs o (cutAttrs o) where
  same := rfl
  user := upToNul_pbfCString _
  tags := by
    show List.Forall₂ _ o.tags (o.tags.map cutTag)
    rw [List.forall₂_map_right_iff, List.forall₂_same]
    intro t _
    exact ⟨upToNul_pbfCString _, upToNul_pbfCString _⟩

theorem cutObj_spec (o : OsmObj) : CutObject o (cutObj o) := by
  cases o with
  | node n => exact .node _ _ _ (cutAttrs_spec _)
  | way w => exact .way _ _ _ (cutAttrs_spec _)
  | relation r =>
    refine .relation _ _ _ _ (cutAttrs_spec _) ?_
    rw [List.forall₂_map_right_iff, List.forall₂_same]
    intro m _
    exact ⟨rfl, rfl, upToNul_pbfCString _⟩

theorem cutObj_noNul (o : OsmObj) : NoNulObj (cutObj o) := by
  have ht : ∀ o : Obj, ∀ t ∈ (cutAttrs o).tags, NoNul t.key ∧ NoNul t.value := by
    intro o t ht
    obtain ⟨s, _, rfl⟩ := List.mem_map.1 ht
    exact ⟨pbfCString_noNul _, pbfCString_noNul _⟩
  cases o with
  | node n => exact ⟨pbfCString_noNul _, ht _, trivial⟩
  | way w => exact ⟨pbfCString_noNul _, ht _, trivial⟩
  | relation r =>
    refine ⟨pbfCString_noNul _, ht _, ?_⟩
    intro m hm
    obtain ⟨s, _, rfl⟩ := List.mem_map.1 hm
    exact pbfCString_noNul _

theorem cutObj_of_noNul {o : OsmObj} (h : NoNulObj o) : cutObj o = o := by
  obtain ⟨hu, ht, hr⟩ := h
  have ha : cutAttrs o.obj = o.obj := by
    have h1 : o.obj.tags.map cutTag = o.obj.tags := by
      apply map_self
      intro t h
      simp only [cutTag, pbfCString_of_noNul (ht t h).1, pbfCString_of_noNul (ht t h).2]
    simp only [cutAttrs, h1, pbfCString_of_noNul hu]
  cases o with
  | node n => simp only [cutObj, show cutAttrs n.obj = n.obj from ha]
  | way w => simp only [cutObj, show cutAttrs w.obj = w.obj from ha]
  | relation r =>
    have h1 : r.members.map cutMember = r.members := by
      apply map_self
      intro m hm
      simp only [cutMember, pbfCString_of_noNul (hr m hm)]
    simp only [cutObj, show cutAttrs r.obj = r.obj from ha, h1]

/-! ### Reading with C strings -/

/-- The string table of `cutBlock` is what the reader sees: the C string at each number. -/
theorem sidStr_cut_eq (tbl : List String) (i : Int) : sidStr (tbl.map pbfCString) i = (sidStr tbl i).map pbfCString := by
  unfold sidStr
  split
  · rfl
  · rw [List.getElem?_map]
    cases tbl[i.toNat]? <;> rfl

theorem sidStr_cut {tbl : List String} {i : Int} {s : String} (h : sidStr tbl i = .ok s) :
    sidStr (tbl.map pbfCString) i = .ok (pbfCString s) := by
  rw [sidStr_cut_eq, h]; rfl

theorem readUser_cut {s u : String} (h : readUser s = .ok u) : readUser (pbfCString s) = .ok (pbfCString u) := by
  unfold readUser at h ⊢
  have := pbfCString_size s
  split at h
  · cases h
  · rename_i hs
    cases h
    rw [if_neg (by omega)]

theorem res_bind {α β : Type} {r : Res α} {f : α → Res β} {b : β} (h : (r >>= f) = .ok b) :
    ∃ a, r = .ok a ∧ f a = .ok b := by
  cases r with
  | error e => cases h
  | ok a => exact ⟨a, rfl, h⟩

theorem ok_bind {α β : Type} (a : α) (f : α → Res β) : ((.ok a : Res α) >>= f) = f a := rfl

theorem readInfo_cut {tbl : List String} {factor : Int} {o o' : Obj} {i : Option PInfo}
    (h : readInfo tbl factor o i = .ok o') : readInfo (tbl.map pbfCString) factor (cutAttrs o) i = .ok (cutAttrs o') := by
  cases i with
  | none => cases h; rfl
  | some i =>
    unfold readInfo at h ⊢
    obtain ⟨ts, h1, h⟩ := res_bind h
    obtain ⟨s, h2, h⟩ := res_bind h
    obtain ⟨u, h3, h⟩ := res_bind h
    simp only [h1, sidStr_cut h2, readUser_cut h3, ok_bind]
    cases hv : i.visible with
    | none => rw [hv] at h; cases h; rfl
    | some v => rw [hv] at h; cases h; rfl

theorem readTags_cut {tbl : List String} (ks vs : List Int) {acc r : TagList} (h : readTags tbl ks vs acc = .ok r) :
    readTags (tbl.map pbfCString) ks vs (acc.map cutTag) = .ok (r.map cutTag) := by
  induction ks generalizing vs acc with
  | nil => cases h; rfl
  | cons k ks ih =>
    cases vs with
    | nil => cases h
    | cons v vs =>
      unfold readTags at h ⊢
      obtain ⟨k', h1, h⟩ := res_bind h
      obtain ⟨v', h2, h⟩ := res_bind h
      simp only [sidStr_cut h1, sidStr_cut h2, ok_bind]
      have := ih vs h
      simpa [TagList.add, cutTag] using this

theorem addMember_cut {acc acc' : List Member} {t : Char} {ref : Int} {role : String}
    (h : addMember acc t ref role = (acc', false)) :
    addMember (acc.map cutMember) t ref (pbfCString role) = (acc'.map cutMember, false) := by
  by_cases hl : role.utf8ByteSize ≤ 1021
  · have e1 := addMember_ok' acc ⟨t, ref, role⟩ hl
    have e2 := addMember_ok' (acc.map cutMember) ⟨t, ref, pbfCString role⟩ (le_trans (pbfCString_size role) hl)
    rw [e1] at h
    cases h
    rw [e2]
    simp [cutMember]
  · exfalso
    have : role.utf8ByteSize > maxLength := by unfold maxLength; omega
    simp [addMember, Member.setRole, this] at h
where
  addMember_ok' (l : List Member) (m : Member) (h : m.role.utf8ByteSize ≤ 1021) :
      addMember l m.type m.ref m.role = (l ++ [m], false) := by
    have : ¬ m.role.utf8ByteSize > maxLength := by unfold maxLength; omega
    simp [addMember, Member.setRole, this]

theorem readMembers_cut {tbl : List String} (tys : List PMemType) {ref : Int} {ds ss : List Int} {acc r : List Member}
    (h : readMembers tbl ref tys ds ss acc = .ok r) :
    readMembers (tbl.map pbfCString) ref tys ds ss (acc.map cutMember) = .ok (r.map cutMember) := by
  induction tys generalizing ref ds ss acc with
  | nil => simp only [readMembers] at h ⊢; cases h; rfl
  | cons ty tys ih =>
    cases ds with
    | nil => simp only [readMembers] at h; cases h
    | cons d ds =>
      cases ss with
      | nil => simp only [readMembers] at h; cases h
      | cons s ss =>
        simp only [readMembers] at h ⊢
        obtain ⟨role, h1, h⟩ := res_bind h
        simp only [sidStr_cut h1, ok_bind]
        rcases ha : addMember acc (memChar ty) (wrapS64 (wrapU64 (ref + d))) role with ⟨acc', _ | _⟩
        · rw [ha] at h
          rw [addMember_cut ha]
          exact ih h
        · rw [ha] at h
          cases h

theorem readNode_cut {b : PBlock} {p : PNode} {n : Node} (h : readNode b p = .ok n) :
    readNode (cutBlock b) p = .ok { n with obj := cutAttrs n.obj } := by
  unfold readNode at h ⊢
  obtain ⟨o, h1, h⟩ := res_bind h
  obtain ⟨ts, h2, h⟩ := res_bind h
  obtain ⟨x, h3, h⟩ := res_bind h
  obtain ⟨y, h4, h⟩ := res_bind h
  cases h
  have e1 := readInfo_cut h1
  have e2 := readTags_cut _ _ h2
  have e0 : cutAttrs { Obj.new with id := p.id } = { Obj.new with id := p.id } := by
    simp [cutAttrs, Obj.new, pbfCString]
  rw [e0] at e1
  show (readInfo (b.strings.map pbfCString) (dateFactor b) _ p.info >>= _) = _
  simp only [e1, ok_bind]
  show (readTags (b.strings.map pbfCString) p.keys p.vals [] >>= _) = _
  rw [show readTags (b.strings.map pbfCString) p.keys p.vals [] = _ from e2]
  simp only [ok_bind]
  show (readCoord b.granularity b.lonOffset p.lon >>= _) = _
  rw [h3]
  simp only [ok_bind]
  show (readCoord b.granularity b.latOffset p.lat >>= _) = _
  rw [h4]
  rfl

theorem readWay_cut {b : PBlock} {p : PWay} {n : Way} (h : readWay b p = .ok n) :
    readWay (cutBlock b) p = .ok { n with obj := cutAttrs n.obj } := by
  unfold readWay at h ⊢
  obtain ⟨o, h1, h⟩ := res_bind h
  obtain ⟨ts, h2, h⟩ := res_bind h
  cases h
  have e1 := readInfo_cut h1
  have e2 := readTags_cut _ _ h2
  have e0 : cutAttrs { Obj.new with id := p.id } = { Obj.new with id := p.id } := by
    simp [cutAttrs, Obj.new, pbfCString]
  rw [e0] at e1
  show (readInfo (b.strings.map pbfCString) (dateFactor b) _ p.info >>= _) = _
  simp only [e1, ok_bind]
  show (readTags (b.strings.map pbfCString) p.keys p.vals [] >>= _) = _
  rw [show readTags (b.strings.map pbfCString) p.keys p.vals [] = _ from e2]
  rfl

theorem readRelation_cut {b : PBlock} {p : PRel} {n : Relation} (h : readRelation b p = .ok n) :
    readRelation (cutBlock b) p = .ok ⟨cutAttrs n.obj, n.members.map cutMember⟩ := by
  unfold readRelation at h ⊢
  obtain ⟨o, h1, h⟩ := res_bind h
  obtain ⟨ts, h2, h⟩ := res_bind h
  obtain ⟨ms, h3, h⟩ := res_bind h
  cases h
  have e1 := readInfo_cut h1
  have e2 := readTags_cut _ _ h2
  have e3 := readMembers_cut _ h3
  have e0 : cutAttrs { Obj.new with id := p.id } = { Obj.new with id := p.id } := by
    simp [cutAttrs, Obj.new, pbfCString]
  rw [e0] at e1
  show (readInfo (b.strings.map pbfCString) (dateFactor b) _ p.info >>= _) = _
  simp only [e1, ok_bind]
  show (readTags (b.strings.map pbfCString) p.keys p.vals [] >>= _) = _
  rw [show readTags (b.strings.map pbfCString) p.keys p.vals [] = _ from e2]
  simp only [ok_bind]
  show (readMembers (b.strings.map pbfCString) 0 p.types p.memids p.rolesSid [] >>= _) = _
  rw [show readMembers (b.strings.map pbfCString) 0 p.types p.memids p.rolesSid [] = _ from e3]
  rfl

theorem readDenseTags_cut {tbl : List String} (kv : List Int) {acc r : TagList} {rest : List Int}
    (h : readDenseTags tbl kv acc = .ok (r, rest)) :
    readDenseTags (tbl.map pbfCString) kv (acc.map cutTag) = .ok (r.map cutTag, rest) := by
  induction kv using List.twoStepInduction generalizing acc with
  | nil => simp only [readDenseTags] at h ⊢; cases h; rfl
  | singleton k =>
    unfold readDenseTags at h ⊢
    split at h
    · cases h; rename_i hk; rw [if_pos hk]
    · obtain ⟨s, _, h⟩ := res_bind h
      cases h
  | cons_cons k v kv ih _ih2 =>
    clear _ih2
    unfold readDenseTags at h ⊢
    split at h
    · cases h; rename_i hk; rw [if_pos hk]
    · rename_i hk
      rw [if_neg hk]
      obtain ⟨s, h1, h⟩ := res_bind h
      obtain ⟨s', h2, h⟩ := res_bind h
      simp only [sidStr_cut h1, sidStr_cut h2, ok_bind]
      have := ih h
      simpa [TagList.add, cutTag] using this

theorem readDenseInfo_cut {tbl : List String} {factor : Int} {hv : Bool} {o o' : Obj} {s s' : DenseState}
    (h : readDenseInfo tbl factor hv o s = .ok (o', s')) :
    readDenseInfo (tbl.map pbfCString) factor hv (cutAttrs o) s = .ok (cutAttrs o', s') := by
  unfold readDenseInfo at h ⊢
  obtain ⟨⟨cs, css⟩, h1, h⟩ := res_bind h
  obtain ⟨⟨ts, tss⟩, h2, h⟩ := res_bind h
  obtain ⟨⟨u, us⟩, h3, h⟩ := res_bind h
  obtain ⟨⟨si, sis⟩, h4, h⟩ := res_bind h
  obtain ⟨⟨ve, ves⟩, h5, h⟩ := res_bind h
  simp only at h
  obtain ⟨c1, h6, h⟩ := res_bind h
  obtain ⟨c2, h7, h⟩ := res_bind h
  obtain ⟨c3, h8, h⟩ := res_bind h
  obtain ⟨c4, h9, h⟩ := res_bind h
  obtain ⟨t, h10, h⟩ := res_bind h
  obtain ⟨str, h11, h⟩ := res_bind h
  obtain ⟨user, h12, h⟩ := res_bind h
  simp only [h1, h2, h3, h4, h5, h6, h7, h8, h9, h10, sidStr_cut h11, readUser_cut h12, ok_bind]
  cases hv with
  | false => cases h; rfl
  | true =>
    simp only [if_true] at h ⊢
    obtain ⟨⟨v, vs⟩, h13, h⟩ := res_bind h
    simp only [h13, ok_bind]
    cases h
    rfl

theorem readDenseNode_cut {b : PBlock} {hi hv : Bool} {d : Int} {s s' : DenseState} {n : Node}
    (h : readDenseNode b hi hv d s = .ok (n, s')) :
    readDenseNode (cutBlock b) hi hv d s = .ok ({ n with obj := cutAttrs n.obj }, s') := by
  unfold readDenseNode at h ⊢
  obtain ⟨id, h1, h⟩ := res_bind h
  simp only [h1, ok_bind]
  have e0 : cutAttrs { Obj.new with id := id } = { Obj.new with id := id } := by
    simp [cutAttrs, Obj.new, pbfCString]
  cases hi with
  | true =>
    simp only [if_true] at h ⊢
    obtain ⟨⟨o1, s1⟩, h2, h⟩ := res_bind h
    have e2 := readDenseInfo_cut h2
    rw [e0] at e2
    rw [show readDenseInfo (cutBlock b).strings (dateFactor (cutBlock b)) hv { Obj.new with id := id } s = _ from e2]
    simp only [ok_bind] at h ⊢
    obtain ⟨⟨dlat, lats⟩, h3, h⟩ := res_bind h
    obtain ⟨⟨dlon, lons⟩, h4, h⟩ := res_bind h
    obtain ⟨lat, h5, h⟩ := res_bind h
    obtain ⟨lon, h6, h⟩ := res_bind h
    obtain ⟨x, h7, h⟩ := res_bind h
    obtain ⟨y, h8, h⟩ := res_bind h
    obtain ⟨⟨tags, kv⟩, h9, h⟩ := res_bind h
    cases h
    have e9 := readDenseTags_cut _ h9
    simp only at h5 h6
    simp only [h3, h4, h5, h6, ok_bind]
    rw [show readCoord (cutBlock b).granularity (cutBlock b).lonOffset lon = _ from h7]
    simp only [ok_bind]
    rw [show readCoord (cutBlock b).granularity (cutBlock b).latOffset lat = _ from h8]
    simp only [ok_bind]
    rw [show readDenseTags (cutBlock b).strings s.keysVals [] = _ from e9]
    rfl
  | false =>
    simp only [Bool.false_eq_true, if_false] at h ⊢
    obtain ⟨⟨o1, s1⟩, h2, h⟩ := res_bind h
    cases h2
    rw [show ((pure ({ Obj.new with id := id }, s) : Res (Obj × DenseState))) = .ok ({ Obj.new with id := id }, s) from rfl]
    simp only [ok_bind] at h ⊢
    obtain ⟨⟨dlat, lats⟩, h3, h⟩ := res_bind h
    obtain ⟨⟨dlon, lons⟩, h4, h⟩ := res_bind h
    obtain ⟨lat, h5, h⟩ := res_bind h
    obtain ⟨lon, h6, h⟩ := res_bind h
    obtain ⟨x, h7, h⟩ := res_bind h
    obtain ⟨y, h8, h⟩ := res_bind h
    obtain ⟨⟨tags, kv⟩, h9, h⟩ := res_bind h
    cases h
    have e9 := readDenseTags_cut _ h9
    simp only at h5 h6
    simp only [h3, h4, h5, h6, ok_bind]
    rw [show readCoord (cutBlock b).granularity (cutBlock b).lonOffset lon = _ from h7]
    simp only [ok_bind]
    rw [show readCoord (cutBlock b).granularity (cutBlock b).latOffset lat = _ from h8]
    simp only [ok_bind]
    rw [show readDenseTags (cutBlock b).strings s.keysVals [] = _ from e9]
    simp [cutAttrs, Obj.new, pbfCString]

/-! ### Callbacks -/

/-- What is read with strings cut (`e'`) and without (`e`). (helper for statements and proofs, no counterpart in /repo) -/
def CutRel (e e' : Events) : Prop :=
  e.calls.map cutCb <+: e'.calls ∧ (e.fail = none → e'.calls = e.calls.map cutCb ∧ e'.fail = none)

theorem CutRel.nil (f : Option Fail) : CutRel ⟨[], f⟩ ⟨[], f⟩ := ⟨List.prefix_rfl, fun h => ⟨rfl, h⟩⟩

theorem CutRel.seq {a a' b b' : Events} (h1 : CutRel a a') (h2 : CutRel b b') : CutRel (a.seq b) (a'.seq b') := by
  obtain ⟨p1, q1⟩ := h1
  obtain ⟨p2, q2⟩ := h2
  cases hf : a.fail with
  | some e =>
    refine ⟨?_, ?_⟩
    · have : (a.seq b).calls = a.calls := by simp [Events.seq, hf]
      rw [this]
      refine p1.trans ?_
      unfold Events.seq
      split
      · exact List.prefix_rfl
      · exact List.prefix_append _ _
    · intro h
      simp [Events.seq, hf] at h
  | none =>
    obtain ⟨q, q'⟩ := q1 hf
    have e1 : a.seq b = ⟨a.calls ++ b.calls, b.fail⟩ := by simp [Events.seq, hf]
    have e2 : a'.seq b' = ⟨a'.calls ++ b'.calls, b'.fail⟩ := by simp [Events.seq, q']
    rw [e1, e2]
    refine ⟨?_, ?_⟩
    · simp only [q, List.map_append]
      exact List.prefix_append_right_inj _ |>.2 p2
    · intro h
      obtain ⟨r, r'⟩ := q2 h
      simp only [q, r, List.map_append]
      exact ⟨trivial, r'⟩

theorem cut_afterAndBefore (m : Meta) (a b : ObjType) : (afterAndBefore m a b).map cutCb = afterAndBefore m a b := by
  cases a <;> cases b <;> rfl

theorem CutRel.between (m : Meta) (a b : ObjType) : CutRel ⟨afterAndBefore m a b, none⟩ ⟨afterAndBefore m a b, none⟩ := by
  refine ⟨?_, fun _ => ⟨?_, rfl⟩⟩
  · simp only [cut_afterAndBefore]; exact List.prefix_rfl
  · simp only [cut_afterAndBefore]

theorem readEach_cut {α : Type} {f f' : α → Res OsmObj} (hf : ∀ a o, f a = .ok o → f' a = .ok (cutObj o)) (l : List α) :
    CutRel (readEach f l) (readEach f' l) := by
  induction l with
  | nil => exact CutRel.nil _
  | cons a l ih =>
    unfold readEach
    cases h : f a with
    | error e => exact ⟨List.nil_prefix, by simp⟩
    | ok o =>
      simp only [hf a o h]
      obtain ⟨p, q⟩ := ih
      refine ⟨?_, fun hn => ?_⟩
      · simp only [List.map_cons, cutCb]
        exact (List.prefix_cons_inj _).2 p
      · obtain ⟨q1, q2⟩ := q hn
        simp only [List.map_cons, cutCb, q1]
        exact ⟨trivial, q2⟩

theorem readDense_cut (b : PBlock) (d : PDense) : CutRel (readDense b d) (readDense (cutBlock b) d) := by
  have key : ∀ (hi hv : Bool) (l : List Int) (s : DenseState),
      CutRel (readDenseLoop b hi hv l s) (readDenseLoop (cutBlock b) hi hv l s) := by
    intro hi hv l
    induction l with
    | nil => intro s; exact CutRel.nil _
    | cons a l ih =>
      intro s
      unfold readDenseLoop
      cases h : readDenseNode b hi hv a s with
      | error e => exact ⟨List.nil_prefix, by simp⟩
      | ok r =>
        obtain ⟨n, s'⟩ := r
        simp only [readDenseNode_cut h]
        obtain ⟨p, q⟩ := ih s'
        refine ⟨?_, fun hn => ?_⟩
        · simp only [List.map_cons, cutCb, cutObj]
          exact (List.prefix_cons_inj _).2 p
        · obtain ⟨q1, q2⟩ := q hn
          simp only [List.map_cons, cutCb, cutObj, q1]
          exact ⟨trivial, q2⟩
  exact key _ _ _ _

theorem readGroup_cut (m : Meta) (last : ObjType) (b : PBlock) (g : PGroup) :
    CutRel (readGroup m last b g).1 (readGroup m last (cutBlock b) g).1 ∧
    (readGroup m last (cutBlock b) g).2 = (readGroup m last b g).2 := by
  unfold readGroup
  cases hd : g.dense with
  | some d => exact ⟨(CutRel.between _ _ _).seq (readDense_cut b d), rfl⟩
  | none =>
    simp only
    split
    · refine ⟨(CutRel.between _ _ _).seq (readEach_cut (fun p o h => ?_) _), rfl⟩
      obtain ⟨w, h1, h⟩ := res_bind h
      cases h
      rw [readWay_cut h1]; rfl
    · split
      · refine ⟨(CutRel.between _ _ _).seq (readEach_cut (fun p o h => ?_) _), rfl⟩
        obtain ⟨w, h1, h⟩ := res_bind h
        cases h
        rw [readRelation_cut h1]; rfl
      · split
        · refine ⟨(CutRel.between _ _ _).seq (readEach_cut (fun p o h => ?_) _), rfl⟩
          obtain ⟨w, h1, h⟩ := res_bind h
          cases h
          rw [readNode_cut h1]; rfl
        · exact ⟨CutRel.nil _, rfl⟩

theorem readGroups_cut (m : Meta) (b : PBlock) (gs : List PGroup) (last : ObjType) :
    CutRel (readGroups m b last gs).1 (readGroups m (cutBlock b) last gs).1 ∧
    (readGroups m (cutBlock b) last gs).2 = (readGroups m b last gs).2 := by
  induction gs generalizing last with
  | nil => exact ⟨CutRel.nil _, rfl⟩
  | cons g gs ih =>
    obtain ⟨h1, h2⟩ := readGroup_cut m last b g
    simp only [readGroups, h2]
    exact ⟨h1.seq (ih _).1, (ih _).2⟩

theorem parseBlobs_cut (c : PbfCodec) (ft : FileType) (bs : List (String × Bytes)) (m : Meta) (last : ObjType) :
    CutRel (parseBlobs c ft m last bs).1 (parseBlobsC c ft m last bs).1 ∧
    (parseBlobsC c ft m last bs).2 = (parseBlobs c ft m last bs).2 := by
  induction bs generalizing m last with
  | nil => exact ⟨CutRel.nil _, rfl⟩
  | cons x bs ih =>
    obtain ⟨t, d⟩ := x
    unfold parseBlobs parseBlobsC
    split
    · cases c.decBlock d with
      | none => exact ⟨CutRel.nil _, rfl⟩
      | some b =>
        obtain ⟨h1, h2⟩ := readGroups_cut m b b.groups last
        simp only [h2]
        exact ⟨h1.seq (ih _ _).1, (ih _ _).2⟩
    · split
      · cases c.decHeader d with
        | none => exact ⟨CutRel.nil _, rfl⟩
        | some h =>
          simp only
          cases readHeader ft m h with
          | error e => exact ⟨CutRel.nil _, rfl⟩
          | ok m' => exact ih _ _
      · exact ih _ _

/-! ### Files -/

theorem mem_parseFrame {h : Stops} {ev : Events} {ends : List Cb} {c : Cb} (hc : c ∈ (parseFrame h ev ends).1) :
    c ∈ ev.calls ∨ c ∈ ends ∨ c = .final := by
  have key : ∀ (l done : List Cb), ∀ c ∈ (deliver h done l).1, c ∈ done ∨ c ∈ l := by
    intro l
    induction l with
    | nil => intro done c hc; exact .inl hc
    | cons a l ih =>
      intro done c hc
      unfold deliver at hc
      split at hc
      · simp only [List.mem_append, List.mem_singleton] at hc
        rcases hc with hc | rfl
        · exact .inl hc
        · simp
      · rcases ih _ c hc with h1 | h1
        · simp only [List.mem_append, List.mem_singleton] at h1
          rcases h1 with h1 | rfl
          · exact .inl h1
          · simp
        · simp [h1]
  unfold parseFrame at hc
  have k1 := key ev.calls []
  generalize deliver h [] ev.calls = r at hc k1
  obtain ⟨done, b⟩ := r
  have k2 : ∀ c ∈ done, c ∈ ev.calls := fun c hc => by simpa using k1 c hc
  cases b with
  | true =>
    simp only [List.mem_append, List.mem_singleton] at hc
    rcases hc with hc | hc
    · exact .inl (k2 c hc)
    · exact .inr (.inr hc)
  | false =>
    simp only at hc
    cases hf : ev.fail with
    | some e => rw [hf] at hc; exact .inl (k2 c hc)
    | none =>
      rw [hf] at hc
      simp only [List.mem_append, List.mem_singleton] at hc
      rcases hc with hc | hc
      · rcases key _ _ c hc with h1 | h1
        · exact .inl (k2 c h1)
        · exact .inr (.inl h1)
      · exact .inr (.inr hc)

/-- Blocks whose strings are cut already: nothing changes. (helper for statements and proofs, no counterpart in /repo) -/
theorem cutBlock_idem (b : PBlock) : cutBlock (cutBlock b) = cutBlock b := by
  simp [cutBlock, Function.comp_def, pbfCString_idem]

theorem prefix_map_self {α : Type} {f : α → α} {l : List α} (h : l.map f <+: l) : l.map f = l :=
  h.eq_of_length (by simp)

theorem readGroups_cut_fixed (m : Meta) (b : PBlock) (gs : List PGroup) (last : ObjType) :
    (readGroups m (cutBlock b) last gs).1.calls.map cutCb = (readGroups m (cutBlock b) last gs).1.calls := by
  have := (readGroups_cut m (cutBlock b) gs last).1.1
  rw [cutBlock_idem] at this
  exact prefix_map_self this

theorem parseBlobsC_fixed (c : PbfCodec) (ft : FileType) (bs : List (String × Bytes)) (m : Meta) (last : ObjType) :
    (parseBlobsC c ft m last bs).1.calls.map cutCb = (parseBlobsC c ft m last bs).1.calls := by
  induction bs generalizing m last with
  | nil => rfl
  | cons x bs ih =>
    obtain ⟨t, d⟩ := x
    unfold parseBlobsC
    split
    · cases c.decBlock d with
      | none => rfl
      | some b =>
        simp only
        unfold Events.seq
        split
        · exact readGroups_cut_fixed _ _ _ _
        · simp only [List.map_append, readGroups_cut_fixed, ih]
    · split
      · cases c.decHeader d with
        | none => rfl
        | some h =>
          simp only
          cases readHeader ft m h with
          | error e => rfl
          | ok m' => exact ih _ _
      · exact ih _ _

/-- **C134.**  Whatever is in a PBF file: in the objects the handler gets there is no NUL in any string (user, keys and values of
tags, roles). -/
theorem pbf_strings_are_cstrings (c : PbfCodec) (ft : FileType) (h : Stops) (s : Input) :
    ∀ o, .obj o ∈ (pbfParseC c ft h s).1 → NoNulObj o := by
  intro o ho
  unfold pbfParseC at ho
  have hfix := parseBlobsC_fixed c ft (readBlobs c.toBlobCodec s).1 (Meta.new ft.multi) .unknown
  have hs : ∀ (e : Events) (f : Option Fail), (e.seq ⟨[], f⟩).calls = e.calls := by
    intro e f; unfold Events.seq; split <;> simp
  have oab : ∀ m a b, Cb.obj o ∉ afterAndBefore m a b := by
    intro m a b; cases a <;> cases b <;> simp [afterAndBefore, afterCalls, beforeCalls]
  rcases mem_parseFrame ho with h1 | h1 | h1
  · rw [hs] at h1
    rw [← hfix] at h1
    obtain ⟨x, _, hx⟩ := List.mem_map.1 h1
    cases x with
    | obj o' =>
      simp only [cutCb, Cb.obj.injEq] at hx
      rw [← hx]
      exact cutObj_noNul o'
    | _ => cases hx
  · exact absurd h1 (oab _ _ _)
  · cases h1

/-- If the reader without C strings gets through a file, so does that with C strings, and the callbacks are the same, with cut
strings. -/
theorem pbfParseC_of_returned {c : PbfCodec} {ft : FileType} {h : Stops} (hh : ∀ l, h l = false) {s : Input} {cs : List Cb}
    (hr : pbfParse c ft h s = (cs, .returned)) : pbfParseC c ft h s = (cs.map cutCb, .returned) := by
  unfold pbfParse at hr
  unfold pbfParseC
  obtain ⟨⟨_, h1⟩, h2⟩ := parseBlobs_cut c ft (readBlobs c.toBlobCodec s).1 (Meta.new ft.multi) .unknown
  simp only at hr ⊢
  generalize parseBlobs c ft (Meta.new ft.multi) .unknown (readBlobs c.toBlobCodec s).1 = r at hr h1 h2
  generalize parseBlobsC c ft (Meta.new ft.multi) .unknown (readBlobs c.toBlobCodec s).1 = r' at h1 h2
  obtain ⟨ev, m, last⟩ := r
  obtain ⟨ev', m', last'⟩ := r'
  simp only [Prod.mk.injEq] at h2
  obtain ⟨rfl, rfl⟩ := h2
  simp only at hr h1 ⊢
  rw [no_stop _ _ h hh] at hr ⊢
  cases hf : ev.fail with
  | some e => simp [Events.seq, hf] at hr
  | none =>
    obtain ⟨q1, q2⟩ := h1 hf
    cases hb : (readBlobs c.toBlobCodec s).2 with
    | some e => simp [Events.seq, hf, hb] at hr
    | none =>
      simp only [Events.seq, hf, hb, List.append_nil, Prod.mk.injEq, and_true] at hr
      simp only [Events.seq, q2, q1, List.append_nil, Prod.mk.injEq, and_true]
      rw [← hr]
      simp [cut_afterAndBefore, cutCb]

/-! ### What a file with NULs means -/

theorem upToNul_unique {s t : String} (h : UpToNul s t) : t = pbfCString s := by
  obtain ⟨hn, h⟩ := h
  rcases h with rfl | ⟨rest, hr⟩
  · exact (pbfCString_of_noNul hn).symm
  · have e : s.toList.takeWhile (· ≠ '\x00') = t.toList := by
      rw [hr, List.takeWhile_append_of_pos]
      · simp
      · intro c hc
        have : c ≠ '\x00' := fun e => hn (e ▸ hc)
        simpa using this
    unfold pbfCString
    rw [e]
    simp

theorem cutAttrs_unique {a b : Obj} (h : CutAttrs a b) : b = cutAttrs a := by
  obtain ⟨h1, h2, h3⟩ := h
  have hu := upToNul_unique h2
  have ht : b.tags = a.tags.map cutTag := by
    rw [← List.forall₂_eq_eq_eq, List.forall₂_map_right_iff]
    refine List.Forall₂.imp ?_ h3.flip
    rintro ⟨k', v'⟩ ⟨k, v⟩ ⟨hk, hv⟩
    simp only at hk hv
    simp only [cutTag, upToNul_unique hk, upToNul_unique hv]
  cases a
  cases b
  simp only [Obj.mk.injEq, and_true] at h1
  simp only at hu ht
  subst hu ht
  simp only [cutAttrs, Obj.mk.injEq]
  simp [h1]

theorem cutObject_unique {o o' : OsmObj} (h : CutObject o o') : o' = cutObj o := by
  cases h with
  | node a b p h => rw [cutAttrs_unique h]; rfl
  | way a b p h => rw [cutAttrs_unique h]; rfl
  | relation a b ms ms' h hm =>
    have : ms' = ms.map cutMember := by
      rw [← List.forall₂_eq_eq_eq, List.forall₂_map_right_iff]
      refine List.Forall₂.imp ?_ hm.flip
      rintro ⟨t', r', s'⟩ ⟨t, r, s⟩ ⟨h1, h2, h3⟩
      simp only at h1 h2 h3
      simp only [cutMember, upToNul_unique h3, h1, h2]
    rw [cutAttrs_unique h, this]
    rfl

theorem cutObjects_unique {os os' : List OsmObj} (h : List.Forall₂ CutObject os os') : os' = os.map cutObj := by
  rw [← List.forall₂_eq_eq_eq, List.forall₂_map_right_iff]
  exact List.Forall₂.imp (fun _ _ h => cutObject_unique h) h.flip

theorem stringOf_cut (b : PBlock) (i : Int) : stringOf (cutBlock b) i = (stringOf b i).map pbfCString := by
  unfold stringOf cutBlock
  split
  · rfl
  · simp

theorem stringOf_cut_some {b : PBlock} {i : Int} {s : String} (h : stringOf b i = some s) :
    stringOf (cutBlock b) i = some (pbfCString s) := by rw [stringOf_cut, h]; rfl

theorem map_stringOf_cut {α : Type} {b : PBlock} {is : List Int} {l : List α} {f : α → String}
    (h : is.map (stringOf b) = l.map fun a => some (f a)) :
    is.map (stringOf (cutBlock b)) = l.map fun a => some (pbfCString (f a)) := by
  have h1 : is.map (stringOf (cutBlock b)) = (is.map (stringOf b)).map (Option.map pbfCString) := by
    rw [List.map_map]
    exact List.map_congr_left fun i _ => stringOf_cut b i
  rw [h1, h, List.map_map]
  rfl

theorem noMetadata_cut {o : Obj} (h : NoMetadata o) : NoMetadata (cutAttrs o) := by
  obtain ⟨h1, h2, h3, h4, h5, h6⟩ := h
  exact ⟨h1, h2, h3, h4, by simp [cutAttrs, h5, pbfCString], h6⟩

theorem attrs_cut {b : PBlock} {id : Int} {info : Option PInfo} {ks vs : List Int} {o : Obj}
    (h : AttrsMean b id info ks vs o) : AttrsMean (cutBlock b) id info ks vs (cutAttrs o) where
  id := h.id
  info := by
    have := h.info
    cases info with
    | none => exact noMetadata_cut this
    | some i => exact ⟨this.version, this.changeset, this.timestamp, this.uid, stringOf_cut_some this.user, this.visible⟩
  endtime := h.endtime
  keys := by
    rw [map_stringOf_cut h.keys]
    simp [cutAttrs, cutTag, Function.comp_def]
  values := by
    rw [map_stringOf_cut h.values]
    simp [cutAttrs, cutTag, Function.comp_def]

theorem denseTags_cut {b : PBlock} {kv : List Int} {l : List TagList} (h : DenseTagsMean b kv l) :
    DenseTagsMean (cutBlock b) kv (l.map (List.map cutTag)) := by
  induction h with
  | none l h =>
    refine .none _ fun ts hts => ?_
    obtain ⟨x, hx, rfl⟩ := List.mem_map.1 hts
    rw [h x hx]; rfl
  | done rest l _ ih => exact .done _ _ ih
  | tag k v t ts rest l hk h1 h2 _ ih => exact .tag k v (cutTag t) _ _ _ hk (stringOf_cut_some h1) (stringOf_cut_some h2) ih

theorem dense_cut {b : PBlock} {d : PDense} {ns : List Node} (h : DenseMeans b d ns) :
    DenseMeans (cutBlock b) d (ns.map fun n => { n with obj := cutAttrs n.obj }) where
  id := by rw [h.id, List.map_map]; rfl
  x := by
    rw [List.map_map]
    exact h.x
  y := by
    rw [List.map_map]
    exact h.y
  tags := by
    have := denseTags_cut h.tags
    rw [List.map_map] at this ⊢
    exact this
  info := by
    have := h.info
    cases hi : d.info with
    | none =>
      rw [hi] at this
      intro n hn
      obtain ⟨x, hx, rfl⟩ := List.mem_map.1 hn
      exact noMetadata_cut (this x hx)
    | some i =>
      rw [hi] at this
      refine ⟨?_, ?_, ?_, ?_, ?_, ?_⟩
      · rw [this.version, List.map_map]; rfl
      · rw [this.changeset, List.map_map]; rfl
      · rw [List.map_map]; exact this.timestamp
      · rw [this.uid, List.map_map]; rfl
      · rw [map_stringOf_cut this.user, List.map_map]; rfl
      · rcases this.visible with h1 | ⟨h1, h2⟩
        · left; rw [h1, List.map_map]; rfl
        · right
          refine ⟨h1, fun n hn => ?_⟩
          obtain ⟨x, hx, rfl⟩ := List.mem_map.1 hn
          exact h2 x hx
  endtime := by
    intro n hn
    obtain ⟨x, hx, rfl⟩ := List.mem_map.1 hn
    exact h.endtime x hx

theorem each_cut {α β : Type} {means means' : α → β → Prop} {f : β → β} (hf : ∀ a b, means a b → means' a (f b))
    {as : List α} {bs : List β} (h : EachMeans means as bs) : EachMeans means' as (bs.map f) := by
  induction h with
  | nil => exact .nil
  | cons a b as bs h _ ih => exact .cons _ _ _ _ (hf a b h) ih

theorem group_cut {b : PBlock} {g : PGroup} {os : List OsmObj} (h : GroupMeans b g os) :
    GroupMeans (cutBlock b) g (os.map cutObj) := by
  cases h with
  | dense d ns h =>
    have := GroupMeans.dense d _ (dense_cut h)
    simpa [cutObj, Function.comp_def] using this
  | nodes ps ns hne h =>
    have := GroupMeans.nodes ps _ hne (each_cut (means' := NodeMeans (cutBlock b))
      (f := fun n => { n with obj := cutAttrs n.obj }) (fun p n h => ⟨attrs_cut h.attrs, h.x, h.y⟩) h)
    simpa [cutObj, Function.comp_def] using this
  | ways ps ns hne h =>
    have := GroupMeans.ways ps _ hne (each_cut (means' := WayMeans (cutBlock b))
      (f := fun n => { n with obj := cutAttrs n.obj }) (fun p n h => ⟨attrs_cut h.attrs, h.refs, h.positions⟩) h)
    simpa [cutObj, Function.comp_def] using this
  | relations ps ns hne h =>
    have := GroupMeans.relations ps _ hne (each_cut (means' := RelationMeans (cutBlock b))
      (f := fun n => ⟨cutAttrs n.obj, n.members.map cutMember⟩) (fun p n h => ⟨attrs_cut h.attrs,
        by rw [h.types, List.map_map]; rfl, by rw [h.refs, List.map_map]; rfl,
        by rw [map_stringOf_cut h.roles, List.map_map]; rfl⟩) h)
    simpa [cutObj, Function.comp_def] using this

theorem groups_cut {b : PBlock} {gs : List PGroup} {os : List OsmObj} (h : GroupsMean b gs os) :
    GroupsMean (cutBlock b) gs (os.map cutObj) := by
  induction h with
  | nil => exact .nil
  | cons g gs os rest h _ ih =>
    rw [List.map_append]
    exact .cons _ _ _ _ (group_cut h) ih

theorem parseBlobsC_means {c : PbfCodec} {ft : FileType} {bl : List (String × Bytes)} {os : List OsmObj}
    (h : BlobsMean c ft bl os) (ho : ∀ o ∈ os, ObjectFits (cutObj o)) (m : Meta) (last : ObjType) :
    (parseBlobsC c ft m last bl).1.fail = none ∧ objects (parseBlobsC c ft m last bl).1.calls = os.map cutObj := by
  induction h generalizing m last with
  | nil => exact ⟨rfl, rfl⟩
  | header d hd rest os hdec hf _ ih =>
    obtain ⟨m', hm⟩ := (header_accepted_iff ft m hd).mpr hf
    unfold parseBlobsC
    rw [if_neg (by decide), if_pos rfl, hdec]
    simp only [hm]
    exact ih ho m' last
  | data d b rest os os' hdec hb hg hm _ ih =>
    have hb' : BlockFits (cutBlock b) := ⟨hb.seconds, by simpa [cutBlock] using hb.strings⟩
    obtain ⟨h1, h2⟩ := readGroups_means hb' m last (groups_cut hm) (fun g hx => hg g hx) (fun o hx => by
      obtain ⟨x, hy, rfl⟩ := List.mem_map.1 hx
      exact ho x (by simp [hy]))
    obtain ⟨h3, h4⟩ := ih (fun o hx => ho o (by simp [hx])) m (readGroups m (cutBlock b) last b.groups).2
    unfold parseBlobsC
    rw [if_pos rfl, hdec]
    simp only [Events.seq, h1]
    exact ⟨h3, by rw [objects_append, h2, h4, List.map_append]⟩
  | other t d rest os h1 h2 _ ih =>
    unfold parseBlobsC
    rw [if_neg h2, if_neg h1]
    exact ih ho m last

/-- **C134.**  A file that stands for some objects, by whatever program it was written, is read as these objects with each string cut
at its first NUL, without an error.  Only what is before the NUL counts for the limits on the length of names.  (Partial: as
`pbf_reads_meaning_partial`.) -/
theorem pbf_reads_cut_partial (c : PbfCodec) (ft : FileType) (h : Stops) (hh : ∀ l, h l = false) (s : Input)
    (bl : List (String × Bytes)) (hs : readBlobs c.toBlobCodec s = (bl, none)) (os os' : List OsmObj)
    (hm : BlobsMean c ft bl os) (hc : List.Forall₂ CutObject os os') (ho : ∀ o ∈ os', ObjectFits o) :
    (pbfParseC c ft h s).2 = .returned ∧ objects (pbfParseC c ft h s).1 = os' := by
  have e := cutObjects_unique hc
  subst e
  obtain ⟨h1, h2⟩ := parseBlobsC_means hm (fun o hx => ho _ (List.mem_map_of_mem hx)) (Meta.new ft.multi) .unknown
  have oab : ∀ m a b, objects (afterAndBefore m a b) = [] := by
    intro m a b; cases a <;> cases b <;> rfl
  unfold pbfParseC
  rw [hs]
  simp only
  generalize parseBlobsC c ft (Meta.new ft.multi) .unknown bl = r at h1 h2
  obtain ⟨ev, m, last⟩ := r
  simp only at h1 h2 ⊢
  rw [no_stop _ _ h hh]
  simp only [Events.seq, h1, List.append_nil]
  refine ⟨trivial, ?_⟩
  simp only [objects_append, oab, List.append_nil, h2]
  simp [objects]

/-- The cut objects of `pbf_reads_cut_partial` always exist. -/
theorem cutObjects_exist (os : List OsmObj) : ∃ os', List.Forall₂ CutObject os os' := by
  refine ⟨os.map cutObj, ?_⟩
  rw [List.forall₂_map_right_iff, List.forall₂_same]
  exact fun o _ => cutObj_spec o

/-- **C134.**  Objects without NULs (in the strings of the API there cannot be any) survive being written and read, also
with C strings. -/
theorem pbf_file_roundtrip_cstrings (lib : PbfLib) (c : PbfCodec) (cfg : PbfCfg) (hc : cfg.Exact)
    (compress : Bool) (ft : FileType) (g : String) (m : Meta)
    (h1 : m.bounds.bottomLeft.WF) (h2 : m.bounds.topRight.WF) (os : List OsmObj) (hne : os ≠ [])
    (ho : ∀ o ∈ os, o.PbfOk) (hnul : ∀ o ∈ os, NoNulObj o) (hs : FewStrings cfg.metadata os) (hsort : SortedByType os)
    (data : Bytes) (hw : pbfFile lib c cfg compress ft g m os = .ok data)
    (hfit : ∀ bs, pbfBlocks lib cfg os = .ok bs →
      ∀ b ∈ fileBlobs c cfg ft g m bs, BlobFits c.toBlobCodec compress b.1 b.2)
    (h : Stops) (hh : ∀ l, h l = false) (chunks : Nat → Nat) :
    pbfParseC c ft h ⟨data, chunks⟩ =
      (protocol (readMeta cfg ft g m) (os.map (kept cfg.metadata cfg.addVisible)), .returned) := by
  have e := pbf_file_roundtrip lib c cfg hc compress ft g m h1 h2 os hne ho hs hsort data hw hfit h hh chunks
  rw [pbfParseC_of_returned hh e]
  refine Prod.ext ?_ rfl
  simp only
  apply map_self
  intro cb hcb
  cases cb with
  | obj o =>
    have hk : o ∈ os.map (kept cfg.metadata cfg.addVisible) := by
      have := objects_protocol (readMeta cfg ft g m) (os.map (kept cfg.metadata cfg.addVisible))
      rw [← this]
      exact List.mem_filterMap.2 ⟨_, hcb, rfl⟩
    obtain ⟨x, hx, rfl⟩ := List.mem_map.1 hk
    simp only [cutCb]
    rw [cutObj_of_noNul]
    obtain ⟨a1, a2, a3⟩ := hnul x hx
    have hu : NoNul (keptAttrs cfg.metadata cfg.addVisible x.obj).user := by
      unfold keptAttrs
      split
      · exact a1
      · simp [NoNul, Obj.new]
    have ht : (keptAttrs cfg.metadata cfg.addVisible x.obj).tags = x.obj.tags := by
      unfold keptAttrs; split <;> rfl
    cases x with
    | node n => exact ⟨hu, fun t h => a2 t (ht ▸ h), trivial⟩
    | way w => exact ⟨hu, fun t h => a2 t (ht ▸ h), trivial⟩
    | relation r => exact ⟨hu, fun t h => a2 t (ht ▸ h), a3⟩
  | _ => rfl

theorem parseBlobsC_eq (c : PbfCodec) (ft : FileType) (bs : List (String × Bytes)) (m : Meta) (last : ObjType)
    (hn : ∀ x ∈ bs, ∀ b, c.decBlock x.2 = some b → ∀ str ∈ b.strings, NoNul str) :
    parseBlobsC c ft m last bs = parseBlobs c ft m last bs := by
  induction bs generalizing m last with
  | nil => rfl
  | cons x bs ih =>
    obtain ⟨t, d⟩ := x
    have ih := fun m last => ih m last (fun x hx => hn x (.tail _ hx))
    unfold parseBlobs parseBlobsC
    simp only [ih]
    split
    · cases hd : c.decBlock d with
      | none => rfl
      | some b =>
        have : cutBlock b = b := by
          unfold cutBlock
          rw [map_self fun str h => pbfCString_of_noNul (hn (t, d) (.head _) b hd str h)]
        simp only [this]
    · rfl

/-- **C134.**  Where no string of a file contains a NUL, nothing is different, whatever else is in the file and whatever the handler does:
all that is proved about `pbfParse` holds of such files as they are read. -/
theorem pbf_without_nul (c : PbfCodec) (ft : FileType) (h : Stops) (s : Input)
    (hn : ∀ x ∈ (readBlobs c.toBlobCodec s).1, ∀ b, c.decBlock x.2 = some b → ∀ str ∈ b.strings, NoNul str) :
    pbfParseC c ft h s = pbfParse c ft h s := by
  unfold pbfParseC pbfParse
  simp only [parseBlobsC_eq c ft _ _ _ hn]

/-! ### Concrete files -/

/-- A file with one node. (helper for statements and proofs, no counterpart in /repo) -/
def nulFile (k1 k2 user : String) : Bytes :=
  (pbfFile demoLib demoPbfCodec (PbfCfg.default true) true .history "me" demoMeta
    [.node ⟨⟨17, 3, 5, 1300000000, 0, 4, user, true, [⟨k1, "1"⟩, ⟨k2, "2"⟩]⟩, ⟨7, -9⟩⟩]).toOption.getD []

/-- The node of `nulFile`. (helper for statements and proofs, no counterpart in /repo) -/
def nulNode (k1 k2 user : String) : OsmObj :=
  .node ⟨⟨17, 3, 5, 1300000000, 0, 4, user, true, [⟨k1, "1"⟩, ⟨k2, "2"⟩]⟩, ⟨7, -9⟩⟩

/-- **C134, disagreement.**  What comes after a NUL is lost without an error: two files with different nodes are read as the same
node, and keys that are different in the file are the same for the handler. -/
theorem pbf_nul_text_lost :
    objects (pbfParse demoPbfCodec .history (fun _ => false) ⟨nulFile "a\x00x" "a\x00y" "me", fun _ => 5⟩).1 =
      [nulNode "a\x00x" "a\x00y" "me"] ∧
    objects (pbfParse demoPbfCodec .history (fun _ => false) ⟨nulFile "a" "a\x00z" "me\x00you", fun _ => 5⟩).1 =
      [nulNode "a" "a\x00z" "me\x00you"] ∧
    ∀ d ∈ [nulFile "a\x00x" "a\x00y" "me", nulFile "a" "a\x00z" "me\x00you"],
      (pbfParseC demoPbfCodec .history (fun _ => false) ⟨d, fun _ => 5⟩).2 = .returned ∧
      objects (pbfParseC demoPbfCodec .history (fun _ => false) ⟨d, fun _ => 5⟩).1 = [nulNode "a" "a" "me"] := by
  decide +kernel

/-- A file without NULs is read as it was written. -/
example : objects (pbfParseC demoPbfCodec .history (fun _ => false) ⟨nulFile "a" "b" "me", fun _ => 5⟩).1 =
    [nulNode "a" "b" "me"] := by decide +kernel

example : NoNulObj (nulNode "a" "b" "me") ∧ ¬ NoNulObj (nulNode "a" "b\x00" "me") := by
  unfold NoNulObj NoNul nulNode
  decide +kernel

example : UpToNul "a\x00b\x00c" "a" := ⟨by unfold NoNul; decide, .inr ⟨['b', '\x00', 'c'], rfl⟩⟩

/-- The hypotheses of `pbf_reads_cut_partial` are met by a way whose user name is too long, but not up to its NUL. -/
example (z : String) (hz : 1021 < z.utf8ByteSize) :
    let long := "me\x00" ++ z
    let b : PBlock := ⟨["", "k\x00x", long], [⟨[], none, [⟨7, [1], [1], some ⟨none, 1, 1300000000, 5, 3, 2⟩, [1, 1]⟩], []⟩],
      100, 1000, 0, 0⟩
    let w : List OsmObj := [.way ⟨⟨7, 1, 5, 1300000000, 0, 3, long, true, [⟨"k\x00x", "k\x00x"⟩]⟩,
      [⟨1, Position.undef⟩, ⟨2, Position.undef⟩]⟩]
    let w' : List OsmObj := [.way ⟨⟨7, 1, 5, 1300000000, 0, 3, "me", true, [⟨"k", "k"⟩]⟩,
      [⟨1, Position.undef⟩, ⟨2, Position.undef⟩]⟩]
    BlobsMean demoPbfCodec .osm [("OSMData", demoPbfCodec.encBlock b)] w ∧ List.Forall₂ CutObject w w' ∧
    (∀ o ∈ w', ObjectFits o) ∧ ∀ o ∈ w, ¬ ObjectFits o := by
  intro long b w w'
  refine ⟨?_, ?_, ?_, ?_⟩
  · have hg : GroupsMean b b.groups w := by
      refine GroupsMean.cons _ _ w [] (GroupMeans.ways _ [_] (by simp) (.cons _ _ _ _ ⟨⟨rfl, ?_, rfl, rfl, rfl⟩, rfl, ?_⟩ .nil)) .nil
      · exact ⟨rfl, rfl, by simp [b], rfl, rfl, rfl⟩
      · intro n hn
        simp only [List.mem_cons, List.not_mem_nil, or_false] at hn
        rcases hn with rfl | rfl <;> rfl
    exact .data _ b [] w [] (Ser.decAll_enc _ b) ⟨⟨by simp [b], by simp [b]⟩, by simp [b]⟩
      (by
        intro g hx
        have : g = ⟨[], none, [⟨7, [1], [1], some ⟨none, 1, 1300000000, 5, 3, 2⟩, [1, 1]⟩], []⟩ := by simpa [b] using hx
        subst this
        exact ⟨by simp, by simp⟩) hg .nil
  · refine .cons (.way _ _ _ ⟨rfl, ⟨by unfold NoNul; decide, .inr ⟨z.toList, ?_⟩⟩, ?_⟩) .nil
    · simp [long]
    · exact .cons ⟨⟨by unfold NoNul; decide, .inr ⟨['x'], rfl⟩⟩, ⟨by unfold NoNul; decide, .inr ⟨['x'], rfl⟩⟩⟩ .nil
  · intro o ho
    simp only [w', List.mem_singleton] at ho
    subst ho
    refine ⟨by unfold InS64; decide, by unfold InU32; decide, by unfold InS32; decide, by unfold InS64; decide, by unfold InS32; decide, by decide, ?_⟩
    intro n hn
    simp only [List.mem_cons, List.not_mem_nil, or_false] at hn
    rcases hn with rfl | rfl <;> (unfold InS64; decide)
  · intro o ho h
    simp only [w, List.mem_singleton] at ho
    subst ho
    have := h.2.2.2.2.2.1
    revert this
    show ¬ long.utf8ByteSize ≤ 1021
    simp only [long, String.utf8ByteSize_append]
    omega

end Osmium

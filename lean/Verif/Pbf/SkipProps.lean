import Verif.Pbf.Skip
import Verif.Input.Deliver
import Verif.Pbf.FileProps
/-
C107: a handler without callback for nodes, ways or relations gets the same calls as one with an empty callback.
-/
namespace Osmium

namespace Spec

/-- The calls other than those for objects of skipped types. -/
def seen (skip : ObjType → Bool) (cs : List Cb) : List Cb :=
  cs.filter fun c => match c with | .obj o => !skip o.type | _ => true

/-- A handler with empty callbacks for the skipped types: it does not stop there, and whether it stops elsewhere does not
depend on the objects it was given there. -/
structure EmptyFor (skip : ObjType → Bool) (h : Stops) : Prop where
  never : ∀ cs o, skip o.type = true → h (cs ++ [.obj o]) = false
  rest : ∀ cs c, seen skip [c] = [c] → h (cs ++ [c]) = h (seen skip cs ++ [c])

end Spec
open Spec

theorem seen_append (skip : ObjType → Bool) (a b : List Cb) : seen skip (a ++ b) = seen skip a ++ seen skip b := by
  simp [seen]

/-- Events with and without the skipped objects. -/
def SkipRel (skip : ObjType → Bool) (e e' : Events) : Prop :=
  (e'.fail = e.fail ∧ e'.calls = seen skip e.calls) ∨ (e.fail.isSome ∧ seen skip e.calls <+: e'.calls)

theorem SkipRel.seq {skip : ObjType → Bool} {a a' b b' : Events} (h1 : SkipRel skip a a') (h2 : SkipRel skip b b') :
    SkipRel skip (a.seq b) (a'.seq b') := by
  unfold Events.seq
  rcases h1 with ⟨f1, c1⟩ | ⟨f1, c1⟩
  · rw [f1, c1]
    cases hf : a.fail with
    | some f => left; simp
    | none =>
      simp only
      rcases h2 with ⟨f2, c2⟩ | ⟨f2, c2⟩
      · left; simp [f2, c2, seen_append]
      · right
        refine ⟨f2, ?_⟩
        rw [seen_append]
        exact (List.prefix_append_right_inj _).2 c2
  · cases hf : a.fail with
    | none => rw [hf] at f1; cases f1
    | some f =>
      right
      refine ⟨rfl, ?_⟩
      simp only
      cases a'.fail with
      | some _ => exact c1
      | none => exact c1.trans (List.prefix_append _ _)

theorem SkipRel.same {skip : ObjType → Bool} {e : Events} (h : seen skip e.calls = e.calls) : SkipRel skip e e :=
  Or.inl ⟨rfl, h.symm⟩

theorem afterAndBefore_seen (skip : ObjType → Bool) (m : Meta) (a b : ObjType) :
    seen skip (afterAndBefore m a b) = afterAndBefore m a b := by
  unfold afterAndBefore
  split
  · cases a <;> cases b <;> rfl
  · rfl

/-- Objects of one type only. -/
def OnlyType (t : ObjType) (cs : List Cb) : Prop := ∀ c ∈ cs, ∃ o : OsmObj, c = .obj o ∧ o.type = t

theorem SkipRel.objects {skip : ObjType → Bool} {t : ObjType} {e : Events} (h : OnlyType t e.calls) :
    SkipRel skip e (unlessSkipped (skip t) e) := by
  unfold unlessSkipped
  cases hs : skip t with
  | false =>
    simp only [Bool.false_eq_true, if_false]
    apply SkipRel.same
    unfold seen
    rw [List.filter_eq_self]
    intro c hc
    obtain ⟨o, rfl, ho⟩ := h c hc
    simp [ho, hs]
  | true =>
    have hnil : seen skip e.calls = [] := by
      unfold seen
      rw [List.filter_eq_nil_iff]
      intro c hc
      obtain ⟨o, rfl, ho⟩ := h c hc
      simp [ho, hs]
    cases hf : e.fail with
    | none => left; simp [hnil, hf]
    | some f => right; simp [hnil, hf]

theorem readDenseLoop_only (b : PBlock) (hi hv : Bool) (ds : List Int) (s : DenseState) :
    OnlyType .node (readDenseLoop b hi hv ds s).calls := by
  induction ds generalizing s with
  | nil => simp [readDenseLoop, OnlyType]
  | cons d ds ih =>
    unfold readDenseLoop
    cases hr : readDenseNode b hi hv d s with
    | error e => simp [OnlyType]
    | ok p =>
      intro c hc
      simp only [List.mem_cons] at hc
      rcases hc with rfl | hc
      · exact ⟨_, rfl, rfl⟩
      · exact ih _ c hc

theorem readEach_only {α : Type} {f : α → Res OsmObj} {t : ObjType} (hf : ∀ a o, f a = .ok o → o.type = t) (as : List α) :
    OnlyType t (readEach f as).calls := by
  induction as with
  | nil => simp [readEach, OnlyType]
  | cons a as ih =>
    unfold readEach
    cases hr : f a with
    | error e => simp [OnlyType]
    | ok o =>
      intro c hc
      simp only [List.mem_cons] at hc
      rcases hc with rfl | hc
      · exact ⟨o, rfl, hf a o hr⟩
      · exact ih c hc

theorem way_type {b : PBlock} (a : PWay) (o : OsmObj) (h : (do return .way (← readWay b a) : Res OsmObj) = .ok o) :
    o.type = .way := by
  cases hr : readWay b a with
  | error e => rw [hr] at h; cases h
  | ok w => rw [hr] at h; cases h; rfl

theorem relation_type {b : PBlock} (a : PRel) (o : OsmObj)
    (h : (do return .relation (← readRelation b a) : Res OsmObj) = .ok o) : o.type = .relation := by
  cases hr : readRelation b a with
  | error e => rw [hr] at h; cases h
  | ok w => rw [hr] at h; cases h; rfl

theorem node_type {b : PBlock} (a : PNode) (o : OsmObj) (h : (do return .node (← readNode b a) : Res OsmObj) = .ok o) :
    o.type = .node := by
  cases hr : readNode b a with
  | error e => rw [hr] at h; cases h
  | ok w => rw [hr] at h; cases h; rfl

theorem readGroupFor_rel (skip : ObjType → Bool) (m : Meta) (last : ObjType) (b : PBlock) (g : PGroup) :
    SkipRel skip (readGroup m last b g).1 (readGroupFor skip m last b g).1 ∧
      (readGroupFor skip m last b g).2 = (readGroup m last b g).2 := by
  unfold readGroup readGroupFor
  cases g.dense with
  | some d =>
    refine ⟨SkipRel.seq (.same (afterAndBefore_seen _ _ _ _)) (.objects ?_), rfl⟩
    exact readDenseLoop_only _ _ _ _ _
  | none =>
    simp only
    by_cases h1 : g.ways.length ≠ 0
    · simp only [if_pos h1]
      exact ⟨SkipRel.seq (.same (afterAndBefore_seen _ _ _ _)) (.objects (readEach_only way_type _)), trivial⟩
    · simp only [if_neg h1]
      by_cases h2 : g.relations.length ≠ 0
      · simp only [if_pos h2]
        exact ⟨SkipRel.seq (.same (afterAndBefore_seen _ _ _ _)) (.objects (readEach_only relation_type _)), trivial⟩
      · simp only [if_neg h2]
        by_cases h3 : g.nodes.length ≠ 0
        · simp only [if_pos h3]
          exact ⟨SkipRel.seq (.same (afterAndBefore_seen _ _ _ _)) (.objects (readEach_only node_type _)), trivial⟩
        · simp only [if_neg h3]
          exact ⟨.same rfl, trivial⟩

theorem readGroupsFor_rel (skip : ObjType → Bool) (m : Meta) (b : PBlock) (gs : List PGroup) (last : ObjType) :
    SkipRel skip (readGroups m b last gs).1 (readGroupsFor skip m b last gs).1 ∧
      (readGroupsFor skip m b last gs).2 = (readGroups m b last gs).2 := by
  induction gs generalizing last with
  | nil => exact ⟨.same rfl, rfl⟩
  | cons g gs ih =>
    obtain ⟨h1, h2⟩ := readGroupFor_rel skip m last b g
    obtain ⟨h3, h4⟩ := ih (readGroup m last b g).2
    simp only [readGroups, readGroupsFor]
    rw [h2]
    exact ⟨h1.seq h3, h4⟩

theorem parseBlobsFor_rel (skip : ObjType → Bool) (c : PbfCodec) (ft : FileType) (bs : List (String × Bytes)) (m : Meta)
    (last : ObjType) :
    SkipRel skip (parseBlobs c ft m last bs).1 (parseBlobsFor skip c ft m last bs).1 ∧
      (parseBlobsFor skip c ft m last bs).2 = (parseBlobs c ft m last bs).2 := by
  induction bs generalizing m last with
  | nil => exact ⟨.same rfl, rfl⟩
  | cons p bs ih =>
    obtain ⟨t, d⟩ := p
    simp only [parseBlobs, parseBlobsFor]
    split
    · cases c.decBlock d with
      | none => exact ⟨.same rfl, rfl⟩
      | some b =>
        obtain ⟨h1, h2⟩ := readGroupsFor_rel skip m b b.groups last
        obtain ⟨h3, h4⟩ := ih m (readGroups m b last b.groups).2
        simp only
        rw [h2]
        exact ⟨h1.seq h3, h4⟩
    · split
      · cases c.decHeader d with
        | none => exact ⟨.same rfl, rfl⟩
        | some h =>
          simp only
          cases readHeader ft m h with
          | error e => exact ⟨.same rfl, rfl⟩
          | ok m' => exact ih m' last
      · exact ih m last

theorem deliver_seen {skip : ObjType → Bool} {h : Stops} (hh : EmptyFor skip h) (cs d : List Cb) :
    deliver h (seen skip d) (seen skip cs) = (seen skip (deliver h d cs).1, (deliver h d cs).2) := by
  induction cs generalizing d with
  | nil => simp [deliver, seen]
  | cons c cs ih =>
    have hcons : seen skip (c :: cs) = seen skip [c] ++ seen skip cs := by rw [← seen_append]; rfl
    by_cases hc : ∃ o, c = .obj o ∧ skip o.type = true
    · obtain ⟨o, rfl, ho⟩ := hc
      have h1 : seen skip [.obj o] = [] := by simp [seen, ho]
      rw [hcons, h1, List.nil_append]
      simp only [deliver, hh.never d o ho, Bool.false_eq_true, if_false]
      have h2 := ih (d ++ [.obj o])
      rwa [seen_append, h1, List.append_nil] at h2
    · have h1 : seen skip [c] = [c] := by
        unfold seen
        rw [List.filter_eq_self]
        intro x hx
        rw [List.mem_singleton] at hx
        subst hx
        cases x with
        | obj o =>
          have : ¬ skip o.type = true := fun h => hc ⟨o, rfl, h⟩
          simpa using this
        | _ => rfl
      rw [hcons, h1, List.singleton_append]
      have h2 : seen skip (d ++ [c]) = seen skip d ++ [c] := by rw [seen_append, h1]
      simp only [deliver]
      rw [hh.rest d c h1]
      split
      · simp [h2]
      · rw [← h2, ih]

/-- C107: for every file and every handler with empty callbacks for some types, leaving out the objects of these types gives
the same end and the same other calls; or decoding an object fails (`threw` is an exception or undefined behaviour) in the
reader that does decode them, which has then made the first of these calls. -/
theorem pbf_skip_partial (skip : ObjType → Bool) (c : PbfCodec) (ft : FileType) (h : Stops) (hh : EmptyFor skip h) (s : Input) :
    pbfParseFor skip c ft h s = (seen skip (pbfParse c ft h s).1, (pbfParse c ft h s).2) ∨
    ((∃ e, (pbfParse c ft h s).2 = .threw e) ∧ seen skip (pbfParse c ft h s).1 <+: (pbfParseFor skip c ft h s).1) := by
  unfold pbfParse pbfParseFor
  rcases readBlobs c.toBlobCodec s with ⟨bs, f⟩
  simp only
  obtain ⟨h1, h2⟩ := parseBlobsFor_rel skip c ft bs (Meta.new ft.multi) .unknown
  rcases hp : parseBlobs c ft (Meta.new ft.multi) .unknown bs with ⟨e, m, last⟩
  rcases hq : parseBlobsFor skip c ft (Meta.new ft.multi) .unknown bs with ⟨e', m', last'⟩
  rw [hp, hq] at h1 h2
  simp only [Prod.mk.injEq] at h2
  obtain ⟨rfl, rfl⟩ := h2
  have h3 : SkipRel skip (e.seq ⟨[], f⟩) (e'.seq ⟨[], f⟩) := SkipRel.seq h1 (.same rfl)
  simp only
  generalize e.seq ⟨[], f⟩ = ev at h3
  generalize e'.seq ⟨[], f⟩ = ev' at h3
  generalize hends : afterAndBefore m' last' .unknown = ends
  have hse : seen skip ends = ends := by rw [← hends]; exact afterAndBefore_seen _ _ _ _
  have hfin : ∀ l : List Cb, seen skip (l ++ [.final]) = seen skip l ++ [.final] := by
    intro l; rw [seen_append]; rfl
  unfold parseFrame
  have key := deliver_seen hh ev.calls []
  simp only [show seen skip [] = [] from rfl] at key
  rcases hd : deliver h [] ev.calls with ⟨d, b⟩
  rw [hd] at key
  simp only at key
  rcases h3 with ⟨f1, c1⟩ | ⟨f1, c1⟩
  · left
    rw [c1, key, f1]
    cases b with
    | true => simp [hfin]
    | false =>
      simp only
      cases ev.fail with
      | some e => rfl
      | none =>
        have key2 := deliver_seen hh ends d
        rw [hse] at key2
        simp only [key2, hfin]
  · obtain ⟨t, ht⟩ := c1
    rw [← ht, deliver_append, key]
    cases b with
    | true => left; simp [hfin]
    | false =>
      right
      cases hf : ev.fail with
      | none => rw [hf] at f1; cases f1
      | some e =>
        refine ⟨⟨e, rfl⟩, ?_⟩
        simp only
        have hp := deliver_prefix h (seen skip d) t
        rcases hd2 : deliver h (seen skip d) t with ⟨d2, b2⟩
        rw [hd2] at hp
        cases b2 with
        | true => exact hp.trans (List.prefix_append _ _)
        | false =>
          simp only
          cases ev'.fail with
          | some _ => exact hp
          | none =>
            have hp3 := deliver_prefix h d2 ends
            rcases hd3 : deliver h d2 ends with ⟨d3, b3⟩
            rw [hd3] at hp3
            exact hp.trans (hp3.trans (List.prefix_append _ _))

theorem seen_none (cs : List Cb) : seen (fun _ => false) cs = cs := by
  unfold seen
  rw [List.filter_eq_self]
  intro c _
  cases c <;> rfl

/-- A handler that never stops has callbacks as empty as needed. -/
theorem never_emptyFor (skip : ObjType → Bool) {h : Stops} (hh : ∀ l, h l = false) : EmptyFor skip h :=
  ⟨fun _ _ _ => hh _, fun _ _ _ => by rw [hh, hh]⟩

/-- C107: whatever the handler leaves out of a file written by the library, the other objects are delivered as they were
written, with the `before_...` and `after_...` calls of all types. -/
theorem pbf_skip_written (skip : ObjType → Bool) (lib : PbfLib) (c : PbfCodec) (cfg : PbfCfg) (hc : cfg.Exact)
    (compress : Bool) (ft : FileType) (g : String) (m : Meta)
    (h1 : m.bounds.bottomLeft.WF) (h2 : m.bounds.topRight.WF) (os : List OsmObj) (hne : os ≠ [])
    (ho : ∀ o ∈ os, o.PbfOk) (hs : FewStrings cfg.metadata os) (hsort : SortedByType os)
    (data : Bytes) (hw : pbfFile lib c cfg compress ft g m os = .ok data)
    (hfit : ∀ bs, pbfBlocks lib cfg os = .ok bs →
      ∀ b ∈ fileBlobs c cfg ft g m bs, BlobFits c.toBlobCodec compress b.1 b.2)
    (h : Stops) (hh : ∀ l, h l = false) (chunks : Nat → Nat) :
    pbfParseFor skip c ft h ⟨data, chunks⟩ =
      (seen skip (protocol (readMeta cfg ft g m) (os.map (kept cfg.metadata cfg.addVisible))), .returned) := by
  have key := pbf_file_roundtrip lib c cfg hc compress ft g m h1 h2 os hne ho hs hsort data hw hfit h hh chunks
  rcases pbf_skip_partial skip c ft h (never_emptyFor skip hh) ⟨data, chunks⟩ with r | ⟨⟨e, r⟩, _⟩
  · rw [r, key]
  · rw [key] at r; cases r

/-- A block with a way by the user `u`, and a relation. -/
def wayByUser (u : String) : PBlock :=
  { strings := ["", u]
    granularity := 100, dateGranularity := 1000, latOffset := 0, lonOffset := 0
    groups := [⟨[], none, [⟨1, [], [], some { version := 1, timestamp := 0, changeset := 0, uid := 1, userSid := 1, visible := none }, []⟩], []⟩, ⟨[], none, [], [⟨7, [], [], none, [], [], []⟩]⟩] }

theorem wayByUser_range (u : String) : (wayByUser u).InRange := by
  simp [PBlock.InRange, wayByUser, PGroup.InRange, PWay.InRange, PRel.InRange, PInfo.InRange, InS32, InS64, InU32]

/-- C107 is false without the second alternative of `pbf_skip_partial`: an error in an object is noticed only if the handler has a
callback for objects of this type.  Every file with a user name that is too long in a way is refused for a handler with
callbacks for all types and read without complaint for a handler without one for ways. -/
theorem pbf_skip_unnoticed (c : PbfCodec) (compress : Bool) (u : String) (hu : u.utf8ByteSize > 1021) (data : Bytes)
    (hw : storeBlobs c.toBlobCodec compress [("OSMData", c.encBlock (wayByUser u))] = .ok data)
    (hf : BlobFits c.toBlobCodec compress "OSMData" (c.encBlock (wayByUser u))) (chunks : Nat → Nat) :
    (pbfParse c .osm (fun _ => false) ⟨data, chunks⟩).2 = .threw (.exn "user name too long") ∧
    (pbfParseFor (fun t => t == .way) c .osm (fun _ => false) ⟨data, chunks⟩).2 = .returned := by
  have hr := blobs_roundtrip c.toBlobCodec compress _ data hw (by simpa using hf) chunks
  have hb := c.block_law (wayByUser u) (wayByUser_range u)
  unfold pbfParse pbfParseFor
  rw [hr]
  simp only [parseBlobs, parseBlobsFor, if_true, hb]
  have hx : readUser u = .error (.exn "user name too long") := by
    unfold readUser maxLength
    rw [if_pos hu]
  have h3 : readInfo ["", u] (dateFactor (wayByUser u)) { Obj.new with id := 1 }
      (some { version := 1, timestamp := 0, changeset := 0, uid := 1, userSid := 1, visible := none }) =
      .error (.exn "user name too long") := by
    have h4 : sidStr ["", u] 1 = .ok u := rfl
    simp only [readInfo, h4]
    have h5 : Res.ofOption (chk64 (0 * dateFactor (wayByUser u))) = .ok 0 := rfl
    rw [h5]
    show readUser u >>= _ = _
    rw [hx]
    rfl
  have h6 : readEach (fun p => do return .way (← readWay (wayByUser u) p)) [⟨1, [], [],
      some { version := 1, timestamp := 0, changeset := 0, uid := 1, userSid := 1, visible := none }, []⟩] =
      ⟨[], some (.exn "user name too long")⟩ := by
    have h7 : readWay (wayByUser u) ⟨1, [], [],
        some { version := 1, timestamp := 0, changeset := 0, uid := 1, userSid := 1, visible := none }, []⟩ =
        .error (.exn "user name too long") := by
      unfold readWay
      rw [show (wayByUser u).strings = ["", u] from rfl, h3]
      rfl
    unfold readEach
    simp only [h7]
    rfl
  constructor
  · have h8 : (readGroups (Meta.new FileType.osm.multi) (wayByUser u) .unknown (wayByUser u).groups).1.fail =
        some (.exn "user name too long") := by
      simp only [wayByUser, readGroups, readGroup, List.length_cons, List.length_nil] at h6 ⊢
      rw [if_pos (by decide), h6]
      rfl
    rw [no_stop _ _ _ (fun _ => rfl)]
    rcases hg : readGroups (Meta.new FileType.osm.multi) (wayByUser u) .unknown (wayByUser u).groups with ⟨e1, l1⟩
    rw [hg] at h8
    simp only at h8
    simp only [Events.seq, h8]
  · rfl

/-- The same for a smaller broken block; here the reader with callbacks for all types has undefined behaviour. -/
def brokenWayBlock : PBlock :=
  { strings := [""], granularity := 100, dateGranularity := 1000, latOffset := 0, lonOffset := 0
    groups := [⟨[], none, [⟨1, [5], [5], none, []⟩], []⟩, ⟨[], none, [], [⟨7, [], [], none, [], [], []⟩]⟩] }

/-- There are such files. -/
example : ∃ data,
    storeBlobs demoPbfCodec.toBlobCodec false [("OSMData", demoPbfCodec.encBlock brokenWayBlock)] = .ok data ∧
    (pbfParse demoPbfCodec .osm (fun _ => false) ⟨data, fun _ => 7⟩).2 = .threw .ub ∧
    (pbfParseFor (fun t => t == .way) demoPbfCodec .osm (fun _ => false) ⟨data, fun _ => 7⟩).2 = .returned := by
  refine ⟨(storeBlobs demoPbfCodec.toBlobCodec false [("OSMData", demoPbfCodec.encBlock brokenWayBlock)]).toOption.getD [],
    ?_, ?_, ?_⟩
  · rfl
  all_goals decide +kernel

/-- The conditions of `pbf_skip_partial` are met by a handler that has no callback for ways and stops at the second relation. -/
example : EmptyFor (fun t => t == .way) (fun cs => match cs.getLast? with
    | some (.obj (.relation _)) => (cs.filter fun c => match c with | .obj (.relation _) => true | _ => false).length == 2
    | _ => false) := by
  refine ⟨?_, ?_⟩
  · intro cs o ho
    cases o <;> simp [OsmObj.type] at ho ⊢
  · intro cs c hc
    simp only [List.getLast?_append, List.getLast?_singleton, Option.some_or]
    cases c with
    | obj o =>
      cases o with
      | relation r =>
        simp only [List.filter_append, seen, List.filter_filter]
        congr 3
        apply List.filter_congr
        intro x _
        rcases x with _ | _ | o | _ | _ <;> try rfl
        cases o <;> rfl
      | _ => rfl
    | _ => rfl

end Osmium

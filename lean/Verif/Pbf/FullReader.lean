import Verif.Pbf.CStrings
import Verif.Pbf.SkipProps
import Verif.Pbf.ReadErrors

/-!
# The PBF reader with everything at once

Handlers that leave out objects (C107), calls of `read` that fail (C130) and strings that are cut at NULs (C134) are modelled
apart elsewhere.  Here they come together.  (C135)
-/

namespace Osmium

open Spec

/-! ### Model -/

/-- input/pbf.hpp 90-145 what happens for each blob, for a handler that inherits the callbacks for the types in `skip`; strings
are C strings. -/
def parseBlobsAll (skip : ObjType → Bool) (c : PbfCodec) (ft : FileType) : Meta → ObjType → List (String × Bytes) →
    Events × Meta × ObjType
  | m, last, [] => (⟨[], none⟩, m, last)
  | m, last, (t, d) :: bs =>
    if t = "OSMData" then
      match c.decBlock d with
      | none => (⟨[], some (.exn "Failed to parse PrimitiveBlock.")⟩, m, last)
      | some b =>
        let (e1, last1) := readGroupsFor skip m (cutBlock b) last b.groups
        let (e2, r) := parseBlobsAll skip c ft m last1 bs
        (e1.seq e2, r)
    else if t = "OSMHeader" then
      match c.decHeader d with
      | none => (⟨[], some (.exn "Failed to parse HeaderBlock.")⟩, m, last)
      | some h =>
        match readHeader ft m h with
        | .error e => (⟨[], some e⟩, m, last)
        | .ok m' => parseBlobsAll skip c ft m' last bs
    else parseBlobsAll skip c ft m last bs

/-- input/pbf.hpp 88-150 `parse`: a handler that may throw `StopReading` and inherits the callbacks for the types in `skip`, a
file whose `read` calls may fail, and strings that are C strings. -/
def pbfParseAll (skip : ObjType → Bool) (c : PbfCodec) (ft : FileType) (h : Stops) (s : InputE) : List Cb × ParseEnd :=
  let (bs, f) := readBlobsE c.toBlobCodec s
  let (ev, m, last) := parseBlobsAll skip c ft (Meta.new ft.multi) .unknown bs
  parseFrame h (ev.seq ⟨[], f⟩) (afterAndBefore m last .unknown)

/-! ### Failing calls of `read` -/

theorem parseBlobsAll_append (skip : ObjType → Bool) (c : PbfCodec) (ft : FileType) (a b : List (String × Bytes)) (m : Meta)
    (last : ObjType) :
    ∃ more : Events, (parseBlobsAll skip c ft m last (a ++ b)).1 = (parseBlobsAll skip c ft m last a).1.seq more := by
  induction a generalizing m last with
  | nil => exact ⟨(parseBlobsAll skip c ft m last b).1, by simp [parseBlobsAll, Events.seq]⟩
  | cons x a ih =>
    obtain ⟨t, d⟩ := x
    simp only [List.cons_append, parseBlobsAll]
    split
    · cases c.decBlock d with
      | none => exact ⟨⟨[], none⟩, by simp [Events.seq]⟩
      | some bl =>
        simp only
        rcases readGroupsFor skip m (cutBlock bl) last bl.groups with ⟨e1, last1⟩
        obtain ⟨more, h1⟩ := ih m last1
        refine ⟨more, ?_⟩
        simp only [h1, Events.seq_assoc]
    · split
      · cases c.decHeader d with
        | none => exact ⟨⟨[], none⟩, by simp [Events.seq]⟩
        | some hd =>
          simp only
          cases readHeader ft m hd with
          | error e => exact ⟨⟨[], none⟩, by simp [Events.seq]⟩
          | ok m' => exact ih m' last
      · exact ih m last

/-- **C135.**  For every content of a PBF file, every handler, whatever it leaves out, and every behaviour of the operating
system: what the reader does is what it does when no call of `read` fails, or it throws one of the three exceptions for a
failed `read`, after the beginning of the calls it would have made.  `whole` are any calls of `read` that do not fail. -/
theorem pbf_all_read_errors (skip : ObjType → Bool) (c : PbfCodec) (ft : FileType) (h : Stops) (data : Bytes)
    (reads whole : Nat → Option Nat) (hwhole : ∀ i, whole i ≠ none) :
    pbfParseAll skip c ft h ⟨data, reads⟩ = pbfParseAll skip c ft h ⟨data, whole⟩ ∨
    (∃ msg ∈ Spec.readFailures, (pbfParseAll skip c ft h ⟨data, reads⟩).2 = .threw (.exn msg)) ∧
      (pbfParseAll skip c ft h ⟨data, reads⟩).1 <+: (pbfParseAll skip c ft h ⟨data, whole⟩).1 := by
  have e1 : readBlobsE c.toBlobCodec ⟨data, whole⟩ = readBlobs c.toBlobCodec (InputE.plain ⟨data, reads⟩) := by
    rw [readBlobsE_noFail c.toBlobCodec (data.length + 1) ⟨data, whole⟩ (Nat.lt_succ_self _) hwhole]
    exact readBlobs_same c.toBlobCodec (data.length + 1) _ _ (Nat.lt_succ_self _) rfl
  unfold pbfParseAll
  rw [e1]
  rcases readBlobsE_agrees c.toBlobCodec (data.length + 1) ⟨data, reads⟩ (Nat.lt_succ_self _) with h1 | ⟨⟨msg, hm, h1⟩, h2⟩
  · left; rw [h1]
  · obtain ⟨b, hb⟩ := h2
    rcases hr : readBlobsE c.toBlobCodec ⟨data, reads⟩ with ⟨bs, f⟩
    rcases hq : readBlobs c.toBlobCodec (InputE.plain ⟨data, reads⟩) with ⟨bs2, f2⟩
    rw [hr] at h1 hb
    rw [hq] at hb
    simp only at h1 hb
    subst h1 hb
    obtain ⟨more, h3⟩ := parseBlobsAll_append skip c ft bs b (Meta.new ft.multi) .unknown
    rcases h0 : parseBlobsAll skip c ft (Meta.new ft.multi) .unknown bs with ⟨ev, m, last⟩
    rcases h4 : parseBlobsAll skip c ft (Meta.new ft.multi) .unknown (bs ++ b) with ⟨ev2, m2, last2⟩
    rw [h4, h0] at h3
    simp only at h3
    subst h3
    simp only [h0, h4, Events.seq_assoc]
    rcases parseFrame_cut h ev (more.seq ⟨[], f2⟩) (.exn msg) (afterAndBefore m last .unknown)
      (afterAndBefore m2 last2 .unknown) with h5 | ⟨h5, h6⟩
    · exact .inl h5
    · exact .inr ⟨⟨msg, hm, h5⟩, h6⟩

/-- **C135.**  If the reader returns without an exception, no failed `read` has been taken for the end of the file, whatever
the handler leaves out. -/
theorem pbf_all_returned_whole (skip : ObjType → Bool) (c : PbfCodec) (ft : FileType) (h : Stops) (data : Bytes)
    (reads whole : Nat → Option Nat) (hwhole : ∀ i, whole i ≠ none)
    (hr : (pbfParseAll skip c ft h ⟨data, reads⟩).2 = .returned) :
    pbfParseAll skip c ft h ⟨data, reads⟩ = pbfParseAll skip c ft h ⟨data, whole⟩ := by
  rcases pbf_all_read_errors skip c ft h data reads whole hwhole with h1 | ⟨⟨msg, _, h1⟩, _⟩
  · exact h1
  · rw [hr] at h1; cases h1

/-! ### Leaving out objects -/

theorem parseBlobsAll_rel (skip : ObjType → Bool) (c : PbfCodec) (ft : FileType) (bs : List (String × Bytes)) (m : Meta)
    (last : ObjType) :
    SkipRel skip (parseBlobsC c ft m last bs).1 (parseBlobsAll skip c ft m last bs).1 ∧
      (parseBlobsAll skip c ft m last bs).2 = (parseBlobsC c ft m last bs).2 := by
  induction bs generalizing m last with
  | nil => exact ⟨.same rfl, rfl⟩
  | cons p bs ih =>
    obtain ⟨t, d⟩ := p
    simp only [parseBlobsC, parseBlobsAll]
    split
    · cases c.decBlock d with
      | none => exact ⟨.same rfl, rfl⟩
      | some b =>
        obtain ⟨h1, h2⟩ := readGroupsFor_rel skip m (cutBlock b) b.groups last
        obtain ⟨h3, h4⟩ := ih m (readGroups m (cutBlock b) last b.groups).2
        simp only
        rw [h2]
        exact ⟨h1.seq h3, h4⟩
    · split
      · cases c.decHeader d with
        | none => exact ⟨.same rfl, rfl⟩
        | some h =>
          simp only
          cases readHeader ft m h with
          | error e => exact ⟨.same rfl, rfl⟩
          | ok m' => exact ih m' last
      · exact ih m last

/-- Leaving out objects, if nothing fails in the reader that does not leave them out. -/
theorem parseFrame_seen {skip : ObjType → Bool} {h : Stops} (hh : EmptyFor skip h) {ev ev' : Events}
    (hr : SkipRel skip ev ev') {ends : List Cb} (hse : seen skip ends = ends) :
    parseFrame h ev' ends = (seen skip (parseFrame h ev ends).1, (parseFrame h ev ends).2) ∨
    ((∃ e, (parseFrame h ev ends).2 = .threw e) ∧ seen skip (parseFrame h ev ends).1 <+: (parseFrame h ev' ends).1) := by
  have hfin : ∀ l : List Cb, seen skip (l ++ [.final]) = seen skip l ++ [.final] := by
    intro l; rw [seen_append]; rfl
  unfold parseFrame
  have key := deliver_seen hh ev.calls []
  simp only [show seen skip [] = [] from rfl] at key
  rcases hd : deliver h [] ev.calls with ⟨d, b⟩
  rw [hd] at key
  simp only at key
  rcases hr with ⟨f1, c1⟩ | ⟨f1, c1⟩
  · left
    rw [c1, key, f1]
    cases b with
    | true => simp [hfin]
    | false =>
      simp only
      cases ev.fail with
      | some e => rfl
      | none =>
        have key2 := deliver_seen hh ends d
        rw [hse] at key2
        simp only [key2, hfin]
  · obtain ⟨t, ht⟩ := c1
    rw [← ht, deliver_append, key]
    cases b with
    | true => left; simp [hfin]
    | false =>
      right
      cases hf : ev.fail with
      | none => rw [hf] at f1; cases f1
      | some e =>
        refine ⟨⟨e, rfl⟩, ?_⟩
        simp only
        have hp := deliver_prefix h (seen skip d) t
        rcases hd2 : deliver h (seen skip d) t with ⟨d2, b2⟩
        rw [hd2] at hp
        cases b2 with
        | true => exact hp.trans (List.prefix_append _ _)
        | false =>
          simp only
          cases ev'.fail with
          | some _ => exact hp
          | none =>
            have hp3 := deliver_prefix h d2 ends
            rcases hd3 : deliver h d2 ends with ⟨d3, b3⟩
            rw [hd3] at hp3
            exact hp.trans (hp3.trans (List.prefix_append _ _))

/-- **C135.**  For every file none of whose `read` calls fails and every handler with empty callbacks for some types: leaving out
the objects of these types gives the same end and the same other calls as the reader of C134; or decoding an object fails in that
reader, which has then made the first of these calls. -/
theorem pbf_all_skip (skip : ObjType → Bool) (c : PbfCodec) (ft : FileType) (h : Stops) (hh : EmptyFor skip h)
    (data : Bytes) (reads : Nat → Option Nat) (hreads : ∀ i, reads i ≠ none) (chunks : Nat → Nat) :
    pbfParseAll skip c ft h ⟨data, reads⟩ =
      (seen skip (pbfParseC c ft h ⟨data, chunks⟩).1, (pbfParseC c ft h ⟨data, chunks⟩).2) ∨
    ((∃ e, (pbfParseC c ft h ⟨data, chunks⟩).2 = .threw e) ∧
      seen skip (pbfParseC c ft h ⟨data, chunks⟩).1 <+: (pbfParseAll skip c ft h ⟨data, reads⟩).1) := by
  have e1 : readBlobsE c.toBlobCodec ⟨data, reads⟩ = readBlobs c.toBlobCodec ⟨data, chunks⟩ := by
    rw [readBlobsE_noFail c.toBlobCodec (data.length + 1) ⟨data, reads⟩ (Nat.lt_succ_self _) hreads]
    exact readBlobs_same c.toBlobCodec (data.length + 1) _ _ (Nat.lt_succ_self _) rfl
  unfold pbfParseAll pbfParseC
  rw [e1]
  rcases readBlobs c.toBlobCodec ⟨data, chunks⟩ with ⟨bs, f⟩
  simp only
  obtain ⟨h1, h2⟩ := parseBlobsAll_rel skip c ft bs (Meta.new ft.multi) .unknown
  rcases hp : parseBlobsC c ft (Meta.new ft.multi) .unknown bs with ⟨e, m, last⟩
  rcases hq : parseBlobsAll skip c ft (Meta.new ft.multi) .unknown bs with ⟨e', m', last'⟩
  rw [hp, hq] at h1 h2
  simp only [Prod.mk.injEq] at h2
  obtain ⟨rfl, rfl⟩ := h2
  exact parseFrame_seen hh (SkipRel.seq h1 (.same rfl)) (afterAndBefore_seen _ _ _ _)

theorem readGroupsFor_none (m : Meta) (b : PBlock) (gs : List PGroup) (last : ObjType) :
    readGroupsFor (fun _ => false) m b last gs = readGroups m b last gs := by
  induction gs generalizing last with
  | nil => rfl
  | cons g gs ih =>
    have h : readGroupFor (fun _ => false) m last b g = readGroup m last b g := by
      unfold readGroupFor readGroup unlessSkipped
      rfl
    simp only [readGroupsFor, readGroups, h, ih]

theorem parseBlobsAll_none (c : PbfCodec) (ft : FileType) (bs : List (String × Bytes)) (m : Meta) (last : ObjType) :
    parseBlobsAll (fun _ => false) c ft m last bs = parseBlobsC c ft m last bs := by
  induction bs generalizing m last with
  | nil => rfl
  | cons p bs ih =>
    obtain ⟨t, d⟩ := p
    simp only [parseBlobsC, parseBlobsAll, readGroupsFor_none, ih]
    rfl

/-- **C135.**  For a handler with all callbacks and `read` calls that do not fail it is the reader of C134. -/
theorem pbf_all_none (c : PbfCodec) (ft : FileType) (h : Stops) (data : Bytes) (reads : Nat → Option Nat)
    (hreads : ∀ i, reads i ≠ none) (chunks : Nat → Nat) :
    pbfParseAll (fun _ => false) c ft h ⟨data, reads⟩ = pbfParseC c ft h ⟨data, chunks⟩ := by
  have e1 : readBlobsE c.toBlobCodec ⟨data, reads⟩ = readBlobs c.toBlobCodec ⟨data, chunks⟩ := by
    rw [readBlobsE_noFail c.toBlobCodec (data.length + 1) ⟨data, reads⟩ (Nat.lt_succ_self _) hreads]
    exact readBlobs_same c.toBlobCodec (data.length + 1) _ _ (Nat.lt_succ_self _) rfl
  unfold pbfParseAll pbfParseC
  rw [e1]
  simp only [parseBlobsAll_none]

/-! ### NULs -/

theorem unlessSkipped_cut {s : Bool} {e e' : Events} (h : CutRel e e') : CutRel (unlessSkipped s e) (unlessSkipped s e') := by
  cases s with
  | true => exact CutRel.nil _
  | false => exact h

theorem readGroupFor_cut (skip : ObjType → Bool) (m : Meta) (last : ObjType) (b : PBlock) (g : PGroup) :
    CutRel (readGroupFor skip m last b g).1 (readGroupFor skip m last (cutBlock b) g).1 ∧
    (readGroupFor skip m last (cutBlock b) g).2 = (readGroupFor skip m last b g).2 := by
  unfold readGroupFor
  cases hd : g.dense with
  | some d => exact ⟨(CutRel.between _ _ _).seq (unlessSkipped_cut (readDense_cut b d)), rfl⟩
  | none =>
    simp only
    split
    · refine ⟨(CutRel.between _ _ _).seq (unlessSkipped_cut (readEach_cut (fun p o h => ?_) _)), rfl⟩
      obtain ⟨w, h1, h⟩ := res_bind h
      cases h
      rw [readWay_cut h1]; rfl
    · split
      · refine ⟨(CutRel.between _ _ _).seq (unlessSkipped_cut (readEach_cut (fun p o h => ?_) _)), rfl⟩
        obtain ⟨w, h1, h⟩ := res_bind h
        cases h
        rw [readRelation_cut h1]; rfl
      · split
        · refine ⟨(CutRel.between _ _ _).seq (unlessSkipped_cut (readEach_cut (fun p o h => ?_) _)), rfl⟩
          obtain ⟨w, h1, h⟩ := res_bind h
          cases h
          rw [readNode_cut h1]; rfl
        · exact ⟨CutRel.nil _, rfl⟩

theorem readGroupsFor_cut (skip : ObjType → Bool) (m : Meta) (b : PBlock) (gs : List PGroup) (last : ObjType) :
    CutRel (readGroupsFor skip m b last gs).1 (readGroupsFor skip m (cutBlock b) last gs).1 ∧
    (readGroupsFor skip m (cutBlock b) last gs).2 = (readGroupsFor skip m b last gs).2 := by
  induction gs generalizing last with
  | nil => exact ⟨CutRel.nil _, rfl⟩
  | cons g gs ih =>
    obtain ⟨h1, h2⟩ := readGroupFor_cut skip m last b g
    simp only [readGroupsFor, h2]
    exact ⟨h1.seq (ih _).1, (ih _).2⟩

theorem readGroupsFor_fixed (skip : ObjType → Bool) (m : Meta) (b : PBlock) (gs : List PGroup) (last : ObjType) :
    (readGroupsFor skip m (cutBlock b) last gs).1.calls.map cutCb = (readGroupsFor skip m (cutBlock b) last gs).1.calls := by
  have := (readGroupsFor_cut skip m (cutBlock b) gs last).1.1
  rw [cutBlock_idem] at this
  exact prefix_map_self this

theorem unlessSkipped_only {skip : ObjType → Bool} {t : ObjType} {e : Events} (h : OnlyType t e.calls) :
    ∀ o, .obj o ∈ (unlessSkipped (skip t) e).calls → skip o.type = false := by
  intro o ho
  unfold unlessSkipped at ho
  split at ho
  · simp at ho
  · rename_i hs
    obtain ⟨o', e1, e2⟩ := h _ ho
    cases e1
    rw [e2]
    simpa using hs

theorem obj_notMem_between (o : OsmObj) (m : Meta) (a b : ObjType) : Cb.obj o ∉ afterAndBefore m a b := by
  cases a <;> cases b <;> simp [afterAndBefore, afterCalls, beforeCalls]

theorem mem_seq {a b : Events} {c : Cb} (h : c ∈ (a.seq b).calls) : c ∈ a.calls ∨ c ∈ b.calls := by
  unfold Events.seq at h
  split at h
  · exact .inl h
  · simpa using h

theorem readGroupFor_seen (skip : ObjType → Bool) (m : Meta) (last : ObjType) (b : PBlock) (g : PGroup) :
    ∀ o, .obj o ∈ (readGroupFor skip m last b g).1.calls → skip o.type = false := by
  intro o ho
  unfold readGroupFor at ho
  cases hd : g.dense with
  | some d =>
    rw [hd] at ho
    rcases mem_seq ho with h1 | h1
    · exact absurd h1 (obj_notMem_between _ _ _ _)
    · exact unlessSkipped_only (readDenseLoop_only _ _ _ _ _) o h1
  | none =>
    rw [hd] at ho
    simp only at ho
    split at ho
    · rcases mem_seq ho with h1 | h1
      · exact absurd h1 (obj_notMem_between _ _ _ _)
      · exact unlessSkipped_only (readEach_only way_type _) o h1
    · split at ho
      · rcases mem_seq ho with h1 | h1
        · exact absurd h1 (obj_notMem_between _ _ _ _)
        · exact unlessSkipped_only (readEach_only relation_type _) o h1
      · split at ho
        · rcases mem_seq ho with h1 | h1
          · exact absurd h1 (obj_notMem_between _ _ _ _)
          · exact unlessSkipped_only (readEach_only node_type _) o h1
        · simp at ho

theorem readGroupsFor_seen (skip : ObjType → Bool) (m : Meta) (b : PBlock) (gs : List PGroup) (last : ObjType) :
    ∀ o, .obj o ∈ (readGroupsFor skip m b last gs).1.calls → skip o.type = false := by
  induction gs generalizing last with
  | nil => intro o ho; simp [readGroupsFor] at ho
  | cons g gs ih =>
    intro o ho
    simp only [readGroupsFor] at ho
    rcases mem_seq ho with h1 | h1
    · exact readGroupFor_seen skip m last b g o h1
    · exact ih _ o h1

theorem parseBlobsAll_objects (skip : ObjType → Bool) (c : PbfCodec) (ft : FileType) (bs : List (String × Bytes)) (m : Meta)
    (last : ObjType) :
    ∀ o, .obj o ∈ (parseBlobsAll skip c ft m last bs).1.calls → NoNulObj o ∧ skip o.type = false := by
  induction bs generalizing m last with
  | nil => intro o ho; simp [parseBlobsAll] at ho
  | cons x bs ih =>
    obtain ⟨t, d⟩ := x
    intro o ho
    unfold parseBlobsAll at ho
    split at ho
    · cases hb : c.decBlock d with
      | none => rw [hb] at ho; simp at ho
      | some b =>
        rw [hb] at ho
        simp only at ho
        rcases mem_seq ho with h1 | h1
        · refine ⟨?_, readGroupsFor_seen _ _ _ _ _ o h1⟩
          rw [← readGroupsFor_fixed] at h1
          obtain ⟨x, _, hx⟩ := List.mem_map.1 h1
          cases x with
          | obj o' =>
            simp only [cutCb, Cb.obj.injEq] at hx
            rw [← hx]
            exact cutObj_noNul o'
          | _ => cases hx
        · exact ih _ _ o h1
    · split at ho
      · cases hb : c.decHeader d with
        | none => rw [hb] at ho; simp at ho
        | some hd =>
          rw [hb] at ho
          simp only at ho
          cases hr : readHeader ft m hd with
          | error e => rw [hr] at ho; simp at ho
          | ok m' => rw [hr] at ho; exact ih _ _ o ho
      · exact ih _ _ o ho

/-- **C135.**  Whatever is in a PBF file, whatever the handler leaves out and whatever `read` does: in the objects the handler gets
there is no NUL in any string, and none of them is of a type that is left out. -/
theorem pbf_all_objects (skip : ObjType → Bool) (c : PbfCodec) (ft : FileType) (h : Stops) (s : InputE) :
    ∀ o, .obj o ∈ (pbfParseAll skip c ft h s).1 → NoNulObj o ∧ skip o.type = false := by
  intro o ho
  unfold pbfParseAll at ho
  rcases mem_parseFrame ho with h1 | h1 | h1
  · rcases mem_seq h1 with h2 | h2
    · exact parseBlobsAll_objects skip c ft _ _ _ o h2
    · simp at h2
  · exact absurd h1 (obj_notMem_between _ _ _ _)
  · cases h1

/-! ### Written files -/

/-- **C135.**  A file written by the library, with objects without NULs, read by a handler that leaves out some types, on a system
whose `read` calls fail anywhere or nowhere: the handler gets all other objects as they were written, or gets the beginning of these
calls and the reader throws an exception for a failed `read`; if no call fails, it gets all of them. -/
theorem pbf_all_written (skip : ObjType → Bool) (lib : PbfLib) (c : PbfCodec) (cfg : PbfCfg) (hc : cfg.Exact)
    (compress : Bool) (ft : FileType) (g : String) (m : Meta)
    (h1 : m.bounds.bottomLeft.WF) (h2 : m.bounds.topRight.WF) (os : List OsmObj) (hne : os ≠ [])
    (ho : ∀ o ∈ os, o.PbfOk) (hnul : ∀ o ∈ os, NoNulObj o) (hs : FewStrings cfg.metadata os) (hsort : SortedByType os)
    (data : Bytes) (hw : pbfFile lib c cfg compress ft g m os = .ok data)
    (hfit : ∀ bs, pbfBlocks lib cfg os = .ok bs →
      ∀ b ∈ fileBlobs c cfg ft g m bs, BlobFits c.toBlobCodec compress b.1 b.2)
    (h : Stops) (hh : ∀ l, h l = false) (reads : Nat → Option Nat) :
    let calls := seen skip (protocol (readMeta cfg ft g m) (os.map (kept cfg.metadata cfg.addVisible)))
    (pbfParseAll skip c ft h ⟨data, reads⟩ = (calls, .returned) ∨
      (∃ msg ∈ Spec.readFailures, (pbfParseAll skip c ft h ⟨data, reads⟩).2 = .threw (.exn msg)) ∧
        (pbfParseAll skip c ft h ⟨data, reads⟩).1 <+: calls) ∧
    ((∀ i, reads i ≠ none) → pbfParseAll skip c ft h ⟨data, reads⟩ = (calls, .returned)) := by
  intro calls
  have key : ∀ reads : Nat → Option Nat, (∀ i, reads i ≠ none) →
      pbfParseAll skip c ft h ⟨data, reads⟩ = (calls, .returned) := by
    intro reads hr
    have e := pbf_file_roundtrip_cstrings lib c cfg hc compress ft g m h1 h2 os hne ho hnul hs hsort data hw hfit h hh (fun _ => 0)
    rcases pbf_all_skip skip c ft h (never_emptyFor skip hh) data reads hr (fun _ => 0) with r | ⟨⟨x, r⟩, _⟩
    · rw [r, e]
    · rw [e] at r; cases r
  refine ⟨?_, key reads⟩
  have hk := key (fun _ => some 0) (fun _ => by simp)
  have := pbf_all_read_errors skip c ft h data reads (fun _ => some 0) (fun _ => by simp)
  rwa [hk] at this

/-! ### Concrete files -/

/-- The file of the example in FileProps.lean, read by a handler without callback for ways, with a call of `read` that fails.
(helper for statements and proofs, no counterpart in /repo) -/
def demoAll (k : Nat) : List Cb × ParseEnd :=
  match pbfFile demoLib demoPbfCodec (PbfCfg.default true) true .history "me" demoMeta demoObjs with
  | .ok data => pbfParseAll (fun t => t == .way) demoPbfCodec .history (fun _ => false) ⟨data, failsAt k⟩
  | .error _ => ([], .returned)

example :
    demoAll 0 = ([], .threw (.exn "read error")) ∧
    demoAll 5 = ([], .threw (.exn "failed to read blob")) ∧
    (demoAll 6).2 = .threw (.exn "read error") ∧
    (objects (demoAll 6).1).map OsmObj.type = [.node, .relation] ∧
    demoAll 7 = (seen (fun t => t == .way)
      (protocol ⟨⟨⟨100, 200⟩, ⟨300, 400⟩⟩, "me", true⟩ (demoObjs.map (kept true true))), .returned) := by
  decide +kernel

/-- A file with NULs, read by a handler with all callbacks. -/
example : pbfParseAll (fun _ => false) demoPbfCodec .history (fun _ => false) ⟨nulFile "a\x00x" "b" "me\x00", failsAt 100⟩ =
    (protocol ⟨⟨⟨100, 200⟩, ⟨300, 400⟩⟩, "me", true⟩ [nulNode "a" "b" "me"], .returned) := by
  decide +kernel

/-- The objects of the example meet the hypothesis about NULs of `pbf_all_written`; for the others see Pbf/Witness.lean.  A handler
that meets `EmptyFor` and stops is at the end of Pbf/SkipProps.lean. -/
example : ∀ o ∈ demoObjs, NoNulObj o := by
  simp [NoNulObj, NoNul, demoObjs, OsmObj.obj, Obj.new]

end Osmium

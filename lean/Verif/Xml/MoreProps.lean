import Verif.Xml.DocProps
import Verif.Pbf.FileProps
/-
Corollaries, concrete cases and counterexamples for the XML properties (C24-C27), and truncated files
(C62).
-/
namespace Osmium
open Spec

/-! ### Concrete cases -/

/-- Attributes for the examples. -/
def xdemoObj (id : Int) (version : Nat) (visible : Bool) : Obj :=
  { Obj.new with id := id, version := version, visible := visible, timestamp := 1000000000,
                 uid := 17, user := "foo", changeset := 99, tags := [⟨"highway", "primary"⟩] }

/-- A deleted node, a created way and a modified relation. -/
def xdemoObjs : List OsmObj :=
  [.node ⟨xdemoObj (-5) 3 false, Position.undef⟩,
   .way ⟨xdemoObj 7 1 true, [{ ref := -5 }, { ref := 9000000000 }, { ref := -5 }]⟩,
   .relation ⟨xdemoObj 8 2 true, [⟨'w', 7, "outer"⟩, ⟨'n', -5, ""⟩]⟩,
   .relation ⟨xdemoObj 9 1 false, []⟩]

/-- The hypotheses of `xml_roundtrip` are met by these objects. -/
example : xdemoObjs ≠ [] ∧ ∀ o ∈ xdemoObjs, XmlOk o := by
  have wf : ∀ (id : Int) (v : Nat) (b : Bool), InS64 id → v < 100 → XmlAttrsOk (xdemoObj id v b) := by
    intro id v b hid hv
    refine ⟨⟨?_, ?_, ?_, ?_, ?_, ?_⟩, Or.inr ?_, by simp only [xdemoObj]; decide⟩ <;>
      simp only [xdemoObj, Obj.new] <;>
      first
        | assumption
        | (simp only [InU32]; omega)
        | (simp only [InIsoRange]; decide)
        | decide
  refine ⟨by decide, ?_⟩
  intro o ho
  simp only [xdemoObjs, List.mem_cons, List.not_mem_nil, or_false] at ho
  rcases ho with rfl | rfl | rfl | rfl
  · exact ⟨wf (-5) 3 false (by decide) (by decide), by simp only [Position.WF, Position.undef]; decide⟩
  · exact ⟨wf 7 1 true (by decide) (by decide), by decide⟩
  · exact ⟨wf 8 2 true (by decide) (by decide), by decide⟩
  · exact ⟨wf 9 1 false (by decide) (by decide), by decide⟩

/-- The sections of a change file with these objects. -/
example : (xmlWrite .change "me" (Meta.new true) xdemoObjs).map (fun evs =>
      (enclosing [] evs).filter isObjectElement) =
    some [("node", ["delete", "osmChange"]), ("way", ["create", "osmChange"]),
      ("relation", ["modify", "osmChange"]), ("relation", ["delete", "osmChange"])] := by
  decide +kernel

/-- Writing and reading it. -/
example : (xmlWrite .change "me" (Meta.new true) xdemoObjs).map (fun evs =>
      xmlParse .change (fun _ => false) ⟨evs, none⟩) =
    some (protocol ⟨Bounds.empty, "me", true⟩ xdemoObjs, .returned) := by
  decide +kernel

/-! ### C26 -/

theorem objects_run (r : List OsmObj) : objects (runCalls r) = r := by
  cases r with
  | nil => rfl
  | cons o os =>
    have : ∀ l : List OsmObj, objects (l.map Cb.obj ++ [.after o.type]) = l := by
      intro l
      induction l with
      | nil => rfl
      | cons a l ih => simp [objects]
    exact this (o :: os)

theorem runs_head_ne_nil (os : List OsmObj) (rs : List (List OsmObj)) : runs os ≠ [] :: rs := by
  cases os with
  | nil => simp [runs]
  | cons o os =>
    simp only [runs]
    split
    · split <;> simp
    · simp

/-- The objects among the calls of the protocol are the objects of the file. -/
theorem objects_protocol (m : Meta) (os : List OsmObj) : objects (protocol m os) = os := by
  have h : ∀ l : List (List OsmObj), objects (l.flatMap runCalls) = l.flatten := by
    intro l
    induction l with
    | nil => rfl
    | cons a l ih => rw [List.flatMap_cons, objects_append, objects_run, ih, List.flatten_cons]
  have e : protocol m os = [.init m] ++ ((runs os).flatMap runCalls ++ [.final]) := by simp [protocol]
  rw [e, objects_append, objects_append, h]
  show [] ++ ((runs os).flatten ++ []) = os
  rw [List.append_nil, List.nil_append]
  induction os with
  | nil => rfl
  | cons o os ih =>
    simp only [runs]
    split
    · rename_i x r rs hr
      have ih' : (runs os).flatten = os := ih (by simp [protocol])
      rw [hr] at ih'
      split <;> simp at ih' ⊢ <;> exact ih'
    · rename_i hr
      have ih' : (runs os).flatten = os := ih (by simp [protocol])
      rcases hq : runs os with _ | ⟨_ | ⟨x, r⟩, rs⟩
      · rw [hq] at ih'; simp at ih'; subst ih'; rfl
      · exact absurd hq (runs_head_ne_nil os rs)
      · exact absurd hq (hr _ _ _)

/-- **C26**: write any sequence of objects as a change file and read it again; the objects come back
in the same order, with the same ids, versions and visibility. -/
theorem xml_change_kind (gen : String) (m : Meta)
    (hb : m.bounds.defined = true → m.bounds.bottomLeft.WF ∧ m.bounds.topRight.WF ∧
      m.bounds.bottomLeft.x ≤ m.bounds.topRight.x ∧ m.bounds.bottomLeft.y ≤ m.bounds.topRight.y)
    (os : List OsmObj) (hne : os ≠ []) (ho : ∀ o ∈ os, XmlOk o)
    (evs : List XEv) (hw : xmlWrite .change gen m os = some evs)
    (h : Stops) (hh : ∀ l, h l = false) :
    (xmlParse .change h ⟨evs, none⟩).2 = .returned ∧
    (objects (xmlParse .change h ⟨evs, none⟩).1).map
        (fun o => (o.type, o.obj.id, o.obj.version, o.obj.visible)) =
      os.map (fun o => (o.type, o.obj.id, o.obj.version, o.obj.visible)) := by
  rw [xml_roundtrip .change gen m hb os hne ho evs hw h hh]
  refine ⟨rfl, ?_⟩
  rw [objects_protocol, List.map_map]
  refine List.map_congr_left ?_
  intro o _
  cases o <;> simp [xmlKept, xmlKeptAttrs, OsmObj.obj, OsmObj.type]

/-! ### C25: what does not survive -/

/-- An object with a timestamp in the year 10000 cannot be read again: it is written with an empty
timestamp, on which the reader throws. -/
theorem xml_far_timestamp_unreadable :
    let o := OsmObj.node ⟨{ xdemoObj 1 1 true with timestamp := 253402300800 }, Position.undef⟩
    ∃ evs, xmlWrite .osm "me" (Meta.new false) [o] = some evs ∧
      (xmlParse .osm (fun _ => false) ⟨evs, none⟩).2 =
        .threw (.exn "invalid_argument: can't parse timestamp") := by
  refine ⟨(xmlWrite .osm "me" (Meta.new false)
    [OsmObj.node ⟨{ xdemoObj 1 1 true with timestamp := 253402300800 }, Position.undef⟩]).getD [], ?_, ?_⟩ <;>
  decide +kernel

/-- Members of a type other than node, way and relation become members of type `u`. -/
theorem xml_other_member_type_lost :
    let o := OsmObj.relation ⟨xdemoObj 1 1 true, [⟨'a', 5, "x"⟩]⟩
    ∃ evs, xmlWrite .osm "me" (Meta.new false) [o] = some evs ∧
      objects (xmlParse .osm (fun _ => false) ⟨evs, none⟩).1 =
        [.relation ⟨xdemoObj 1 1 true, [⟨'u', 5, "x"⟩]⟩] := by
  refine ⟨(xmlWrite .osm "me" (Meta.new false)
    [OsmObj.relation ⟨xdemoObj 1 1 true, [⟨'a', 5, "x"⟩]⟩]).getD [], ?_, ?_⟩ <;>
  decide +kernel

/-- The name of a user with user id 0 or below is not written. -/
theorem xml_user_without_uid_lost :
    let o := OsmObj.relation ⟨{ xdemoObj 1 1 true with uid := 0 }, []⟩
    ∃ evs, xmlWrite .osm "me" (Meta.new false) [o] = some evs ∧
      objects (xmlParse .osm (fun _ => false) ⟨evs, none⟩).1 =
        [.relation ⟨{ xdemoObj 1 1 true with uid := -1, user := "" }, []⟩] := by
  refine ⟨(xmlWrite .osm "me" (Meta.new false)
    [OsmObj.relation ⟨{ xdemoObj 1 1 true with uid := 0 }, []⟩]).getD [], ?_, ?_⟩ <;>
  decide +kernel

/-! ### C27: concrete cases and counterexamples -/

/-- A document with elements the reader does not know. -/
def xdemoDoc : List XEv :=
  [.start "osm" [("version", "0.6")], .start "note" [], .stop "note",
   .start "extra" [],
     .start "way" [("id", "5")], .start "nd" [("ref", "1")], .stop "nd",
       .start "center" [], .stop "center", .start "member" [("ref", "1")], .stop "member", .stop "way",
   .stop "extra",
   .stop "osm"]

/-- The same document without them. -/
def xdemoDoc' : List XEv :=
  [.start "osm" [("version", "0.6")],
     .start "way" [("id", "5")], .start "nd" [("ref", "1")], .stop "nd", .stop "way",
   .stop "osm"]

/-- The hypotheses of `xml_unknown_ignored` are met. -/
example : SameButUnknown xdemoDoc xdemoDoc' := by
  refine ⟨"osm", [("version", "0.6")], xdemoDoc.tail.dropLast, xdemoDoc'.tail.dropLast, ?_, rfl, rfl⟩
  have kids : SameKids "way"
      [.start "nd" [("ref", "1")], .stop "nd", .start "center" [], .stop "center",
        .start "member" [("ref", "1")], .stop "member"] [.start "nd" [("ref", "1")], .stop "nd"] :=
    .keep _ _ _ _ (.drop _ _ _ _ (by simp [KnownChild]) (.drop _ _ _ _ (by simp [KnownChild]) .nil))
  exact .drop "note" [] [] [] _ _ (by simp [KnownTop, IsObjName]) .nil
    (.drop "extra" [] _ _ [] [] (by simp [KnownTop, IsObjName])
      (.object "way" [("id", "5")] _ _ [] [] (by simp [IsObjName]) kids .nil) .nil)

/-- The hypotheses of `xml_no_abort_partial` are met. -/
example : UsualDocument xdemoDoc ∧ CoordsOk xdemoDoc := by
  refine ⟨⟨"osm", [("version", "0.6")], xdemoDoc.tail.dropLast, ?_, rfl⟩, ?_⟩
  · have kids : Leaves
        [.start "nd" [("ref", "1")], .stop "nd", .start "center" [], .stop "center",
          .start "member" [("ref", "1")], .stop "member"] :=
      .cons _ _ _ (.cons _ _ _ (.cons _ _ _ .nil))
    exact .other "note" [] [] _ (by simp [IsObjName]) (by decide) (by decide) .nil
      (.other "extra" [] _ [] (by simp [IsObjName]) (by decide) (by decide)
        (.object "way" [("id", "5")] _ [] (by simp [IsObjName]) kids .nil) .nil)
  · intro n as hm a ha hc
    simp only [xdemoDoc, List.mem_cons, List.not_mem_nil, or_false, XEv.start.injEq, reduceCtorEq, false_or] at hm
    rcases hm with ⟨_, rfl⟩ | ⟨_, rfl⟩ | ⟨_, rfl⟩ | ⟨_, rfl⟩ | ⟨_, rfl⟩ | ⟨_, rfl⟩ | ⟨_, rfl⟩ <;>
      simp at ha <;> subst ha <;> simp [isCoordinate] at hc

/-- **C27 is false as stated**: well-formed documents on which the reader fails an assertion: a child
of a child of an object, and a second `osm` element inside the first. -/
theorem xml_assertion_reachable :
    (∃ evs, IsDocument evs ∧
      evs = [.start "osm" [], .start "node" [], .start "tag" [], .start "x" [], .stop "x", .stop "tag",
        .stop "node", .stop "osm"] ∧
      ∀ ft, (xmlParse ft (fun _ => false) ⟨evs, none⟩).2 = .threw .assertion) ∧
    (∃ evs, IsDocument evs ∧
      evs = [.start "osm" [], .start "osm" [], .stop "osm", .stop "osm"] ∧
      ∀ ft, (xmlParse ft (fun _ => false) ⟨evs, none⟩).2 = .threw .assertion) := by
  refine ⟨⟨_, ?_, rfl, ?_⟩, ⟨_, ?_, rfl, ?_⟩⟩
  · show nest _ _ = _; decide
  · intro ft; cases ft <;> decide
  · show nest _ _ = _; decide
  · intro ft; cases ft <;> decide

/-- **C27 is false as stated**, also because a coordinate that is not a finite number in range leads
to an undefined conversion. -/
theorem xml_coordinate_undefined :
    ∃ evs, UsualDocument evs ∧ IsDocument evs ∧
      evs = [.start "osm" [], .start "node" [("lon", "nan")], .stop "node", .stop "osm"] ∧
      ∀ ft, (xmlParse ft (fun _ => false) ⟨evs, none⟩).2 = .threw .ub := by
  refine ⟨_, ?_, ?_, rfl, ?_⟩
  · exact ⟨"osm", [], _, .object "node" [("lon", "nan")] [] [] (by simp [IsObjName]) .nil .nil, rfl⟩
  · show nest _ _ = _; decide
  · intro ft; cases ft <;> decide

/-- The same for a number out of range. -/
theorem xml_coordinate_out_of_range :
    (xmlParse .osm (fun _ => false)
      ⟨[.start "osm" [], .start "node" [("lon", "1000")], .stop "node", .stop "osm"], none⟩).2 =
      .threw .ub := by
  decide +kernel

/-! ### C62: damaged files -/

/-- **C62**: if the text of an XML file is cut off (or becomes malformed) somewhere, the reader makes
a prefix of the calls it makes for the complete file (the closing calls at the end apart), and then throws the error of the XML parser,
if nothing else fails before. -/
theorem xml_truncated (ft : FileType) (h : Stops) (hh : ∀ l, h l = false) (evs rest : List XEv)
    (e : Fail) (calls : List Cb) (hok : xmlParse ft h ⟨evs ++ rest, none⟩ = (calls, .returned)) :
    ∃ calls', xmlParse ft h ⟨evs, some e⟩ = (calls', .threw e) ∧ calls' <+: calls ∧
      objects calls' <+: objects calls := by
  unfold xmlParse at hok ⊢
  dsimp only at hok ⊢
  rw [xmlRun_append] at hok
  cases hr : (xmlRun (XCtl.init ft) evs).2 with
  | error f =>
    rw [hr] at hok
    simp only [no_stop _ _ h hh] at hok
    cases hok
  | ok s =>
    rw [hr] at hok
    simp only [no_stop _ _ h hh] at hok ⊢
    refine ⟨_, rfl, ?_⟩
    have hp : (Regs.init.run (xmlRun (XCtl.init ft) evs).1).2 <+: calls := by
      rcases hr2 : (xmlRun s rest).2 with f | s2
      · rw [hr2] at hok; cases hok
      · rw [hr2] at hok
        rw [Regs.run_append] at hok
        cases hok
        simp only [List.append_assoc]
        exact List.prefix_append _ _
    refine ⟨hp, ?_⟩
    obtain ⟨t, ht⟩ := hp
    rw [← ht, objects_append]
    exact List.prefix_append _ _

/-- Cutting the second half off. -/
example : ∃ a b, a ++ b = xdemoDoc ∧ b ≠ [] ∧
    (xmlParse .osm (fun _ => false) ⟨a ++ b, none⟩).2 = .returned ∧
    (xmlParse .osm (fun _ => false) ⟨a, some (.exn "XML parsing error")⟩).2 =
      .threw (.exn "XML parsing error") :=
  ⟨xdemoDoc.take 6, xdemoDoc.drop 6, by decide, by decide, by decide +kernel, by decide +kernel⟩

end Osmium

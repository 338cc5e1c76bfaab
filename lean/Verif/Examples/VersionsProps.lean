import Verif.Examples.Versions
import Mathlib.Tactic.Conv

/-
Properties C94 and C95: the extract of current versions, and the dump of a file with changes.
-/
namespace Osmium
open Spec

namespace Spec

/-- The last version of every object. -/
def lastVersions : List OsmObj → List OsmObj
  | [] => []
  | o :: os => if ∃ o' ∈ os, SameObject o o' then lastVersions os else o :: lastVersions os

end Spec

/-! ### Calls that matter to an output -/

/-- (helper) The calls an output handler does something for. -/
def isWritten : Cb → Bool
  | .before _ => false
  | .after _ => false
  | _ => true

theorem feed_written {σ : Type} (f : σ → Cb → Res σ) (hb : ∀ s t, f s (.before t) = .ok s)
    (ha : ∀ s t, f s (.after t) = .ok s) (s : σ) (cs : List Cb) : feed f s (cs.filter isWritten) = feed f s cs := by
  induction cs generalizing s with
  | nil => rfl
  | cons c cs ih =>
    cases c with
    | before t =>
      simp only [List.filter_cons, isWritten, feed, hb]
      exact ih s
    | after t =>
      simp only [List.filter_cons, isWritten, feed, ha]
      exact ih s
    | _ =>
      simp only [List.filter_cons, isWritten, if_true, feed]
      congr 1
      funext s'
      exact ih s'

theorem writeAs_written (lib : PbfLib) (c : PbfCodec) (compress : Bool) (ft : FileType) (gen : String) (fmt : Fmt)
    {a b : List Cb} (h : a.filter isWritten = b.filter isWritten) :
    writeAs lib c compress ft gen fmt a = writeAs lib c compress ft gen fmt b := by
  cases fmt with
  | xml =>
    have e : xmlOut ft gen a = xmlOut ft gen b := by
      unfold xmlOut
      rw [← feed_written (XmlOut.step ft gen) (fun _ _ => rfl) (fun _ _ => rfl) _ a,
        ← feed_written (XmlOut.step ft gen) (fun _ _ => rfl) (fun _ _ => rfl) _ b, h]
    simp only [writeAs, e]
  | pbf =>
    have e : pbfOut lib c (PbfCfg.default ft.multi) compress ft gen a
        = pbfOut lib c (PbfCfg.default ft.multi) compress ft gen b := by
      unfold pbfOut
      rw [← feed_written (PbfOut.step lib c compress ft gen) (fun _ _ => rfl) (fun _ _ => rfl) _ a,
        ← feed_written (PbfOut.step lib c compress ft gen) (fun _ _ => rfl) (fun _ _ => rfl) _ b, h]
    simp only [writeAs, e]

theorem written_protocol (m : Meta) (os : List OsmObj) :
    (protocol m os).filter isWritten = .init m :: os.map Cb.obj ++ [.final] := by
  have hr : ∀ r : List OsmObj, (runCalls r).filter isWritten = r.map Cb.obj := by
    intro r
    cases r with
    | nil => rfl
    | cons o r =>
      have : ∀ l : List OsmObj, (l.map Cb.obj).filter isWritten = l.map Cb.obj := by
        intro l
        rw [List.filter_eq_self]
        intro c hc
        obtain ⟨x, -, rfl⟩ := List.mem_map.1 hc
        rfl
      simp only [runCalls, List.filter_append, List.filter_cons, this, isWritten]
      simp
  have h : ∀ l : List (List OsmObj), (l.flatMap runCalls).filter isWritten = l.flatten.map Cb.obj := by
    intro l
    induction l with
    | nil => rfl
    | cons a l ih => rw [List.flatMap_cons, List.filter_append, ih, hr, List.flatten_cons, List.map_append]
  unfold protocol
  rw [List.filter_append, List.filter_cons, h, runs_flatten]
  rfl

/-- What is in a file that an output handler has written. -/
theorem written_objects (lib : PbfLib) (c : PbfCodec) (compress : Bool) (ft : FileType) (gen : String) (fmt : Fmt)
    (m : Meta) (hm : MetaOk m) (os : List OsmObj) (hos : Convertible ft os) (g : FileData)
    (hg : writeAs lib c compress ft gen fmt (protocol m os) = .ok g)
    (hfit : fmt = .pbf → ∀ bs, pbfBlocks lib (PbfCfg.default ft.multi) os = .ok bs →
      ∀ b ∈ fileBlobs c (PbfCfg.default ft.multi) ft gen m bs, BlobFits c.toBlobCodec compress b.1 b.2) :
    HasObjects c ft g (os.map (keptIn ft fmt)) := by
  cases fmt with
  | xml =>
    unfold writeAs at hg
    obtain ⟨evs, he, ha⟩ := except_bind_ok hg
    simp only [pure, Except.pure, Except.ok.injEq] at ha
    subst ha
    have hw := xmlWrite_eq ft gen m os
    have := xmlOut_protocol ft gen m os _ hw
    rw [this] at he
    simp only [Except.ok.injEq] at he
    subst he
    refine ⟨_, xmlReadMeta_ok ft gen hm, fun _ => ?_⟩
    exact xml_roundtrip ft gen m (fun hd => ⟨hm.bl, hm.tr, hm.order hd⟩) os hos.nonempty hos.xml _ hw _
      (fun _ => rfl)
  | pbf =>
    unfold writeAs at hg
    obtain ⟨data, he, ha⟩ := except_bind_ok hg
    simp only [pure, Except.pure, Except.ok.injEq] at ha
    subst ha
    have hw := pbfOut_protocol lib c _ compress ft gen m os data he
    refine ⟨_, readMeta_ok (PbfCfg.default ft.multi) ft gen m, fun ch => ?_⟩
    exact pbf_file_roundtrip lib c (PbfCfg.default ft.multi) ⟨⟨1, rfl⟩, rfl⟩ compress ft gen m hm.bl hm.tr os
      hos.nonempty hos.pbf hos.strings hos.sorted data hw (fun bs hbs => hfit rfl bs hbs) _ (fun _ => rfl) ch

/-! ### osmium_range_from_history -/

theorem history_tail {o : OsmObj} {os : List OsmObj} (h : History (o :: os)) : History os :=
  ⟨fun i j k a b c hij hjk ha hb hc hs => h.together (i + 1) (j + 1) (k + 1) a b c (by omega) (by omega)
      (by simpa using ha) (by simpa using hb) (by simpa using hc) hs,
   (List.pairwise_cons.1 h.increasing).2, fun x hx => h.positive x (by simp [hx]), fun x hx => h.unended x (by simp [hx])⟩

theorem unended_last (os : List OsmObj) (h : History os) :
    (endTimes os).filter (fun x => decide (x.obj.endtime = 0)) = lastVersions os := by
  induction os with
  | nil => rfl
  | cons o os ih =>
    have ih := ih (history_tail h)
    cases os with
    | nil =>
      have := h.unended o (by simp)
      simp [endTimes, lastVersions, this]
    | cons o' os =>
      rw [endTimes, List.filter_cons, ih]
      conv_rhs => rw [lastVersions]
      by_cases hs : SameObject o o'
      · have hp := h.positive o' (by simp)
        have he : ∃ x ∈ o' :: os, SameObject o x := ⟨o', by simp, hs⟩
        rw [if_pos hs, if_pos he, if_neg]
        simp only [setEndtime_endtime, decide_eq_true_eq]
        omega
      · have hn : ¬ ∃ x ∈ o' :: os, SameObject o x := by
          rintro ⟨x, hx, he⟩
          rcases List.mem_cons.1 hx with rfl | hx
          · exact hs he
          · obtain ⟨k, hk, rfl⟩ := List.getElem_of_mem hx
            exact hs (h.together 0 1 (k + 2) o o' os[k] (by omega) (by omega) rfl rfl (by simp [hk]) he)
        have := h.unended o (by simp)
        rw [if_neg hs, if_neg hn]
        simp [this]

/-- With two times after all versions exactly the last versions are in the range. -/
theorem current_in_range (os : List OsmObj) (h : History os) (lo hi : Int)
    (hlo : ∀ o ∈ os, o.obj.timestamp < lo) (hhi : ∀ o ∈ os, o.obj.timestamp < hi) :
    (endTimes os).filter (fun x => inRange lo hi x.obj) = lastVersions os := by
  rw [← unended_last os h]
  refine List.filter_congr fun x hx => ?_
  obtain ⟨k, hk, rfl⟩ := List.getElem_of_mem hx
  have hk' : k < os.length := by rw [← endTimes_length]; exact hk
  have e := endTimes_getElem os k os[k] (List.getElem?_eq_getElem hk')
  rw [List.getElem?_eq_getElem hk] at e
  simp only [Option.some.injEq] at e
  have hts : (endTimes os)[k].obj.timestamp < hi := by
    rw [e]
    have := hhi os[k] (List.getElem_mem _)
    cases os[k + 1]? with
    | none => exact this
    | some n => simp only; split <;> simpa using this
  have het : (endTimes os)[k].obj.endtime = 0 ∨ (endTimes os)[k].obj.endtime < lo ∧ (endTimes os)[k].obj.endtime ≠ 0 := by
    rw [e]
    have hu := h.unended os[k] (List.getElem_mem _)
    cases hn : os[k + 1]? with
    | none => exact .inl hu
    | some n =>
      have hmem := List.mem_of_getElem? hn
      simp only
      split
      · right
        simp only [setEndtime_endtime]
        exact ⟨hlo n hmem, by have := h.positive n hmem; omega⟩
      · exact .inl hu
  unfold inRange
  rcases het with h0 | ⟨h1, h2⟩
  · simp [h0]; omega
  · have h2' : ((endTimes os)[k].obj.endtime == 0) = false := by simpa using h2
    simp [h2, h2']; omega

/-- C94: for every history file with versions from before the program was started: the file that the program writes
has (for whoever reads it) exactly the last versions of the objects in the same order, up to what the format keeps.
(Partial: the extract must be one that both formats can store; and a last version that says the object was deleted
is one of them, see `range_from_history_deleted`.) -/
theorem range_from_history_partial (lib : PbfLib) (c : PbfCodec) (compress : Bool) (ft ft' : FileType) (gen : String)
    (chunks : Nat → Nat) (lo hi : Int) (fmt : Fmt) (f g : FileData) (os : List OsmObj) (hf : HasObjects c ft f os)
    (hh : History os) (hlo : ∀ o ∈ os, o.obj.timestamp < lo) (hhi : ∀ o ∈ os, o.obj.timestamp < hi)
    (hos : Convertible ft' (lastVersions os))
    (hg : rangeMain lib c compress ft ft' gen chunks lo hi fmt f = .ok g)
    (hfit : fmt = .pbf → ∀ m bs, pbfBlocks lib (PbfCfg.default ft'.multi) (lastVersions os) = .ok bs →
      ∀ b ∈ fileBlobs c (PbfCfg.default ft'.multi) ft' gen m bs, BlobFits c.toBlobCodec compress b.1 b.2) :
    HasObjects c ft' g ((lastVersions os).map (keptIn ft' fmt)) := by
  obtain ⟨m, hm, hr⟩ := hf
  unfold rangeMain convert at hg
  rw [hr chunks] at hg
  obtain ⟨a, ha, hg⟩ := except_bind_ok hg
  simp only [pure, Except.pure, Except.ok.injEq] at hg
  subst hg
  refine written_objects lib c compress ft' gen fmt m hm _ hos a ?_ (fun h bs hb => hfit h m bs hb)
  rw [← ha]
  refine writeAs_written lib c compress ft' gen fmt ?_
  rw [endTime_protocol, range_run, List.filter_comm, written_protocol, written_protocol, ← current_in_range os hh lo hi hlo hhi]
  simp only [List.cons_append, List.filter_cons, if_true, List.filter_append, List.cons.injEq, true_and, List.filter_nil]
  congr 1
  rw [List.filter_map]
  rfl

/-- C94: an error found while the history file is read is reported: there is a result only if the file was read to its
end. -/
theorem range_from_history_errors (lib : PbfLib) (c : PbfCodec) (compress : Bool) (ft ft' : FileType) (gen : String)
    (chunks : Nat → Nat) (lo hi : Int) (fmt : Fmt) (f g : FileData)
    (hg : rangeMain lib c compress ft ft' gen chunks lo hi fmt f = .ok g) : (f.read c ft chunks).2 = .returned :=
  ((convert_ok_iff _ _ _).1 hg).1

/-- A file that ends with an error. -/
example : ((FileData.xml [.start "osm" [("version", "0.5")]]).read demoPbfCodec .history (fun _ => 7)).2 ≠ .returned ∧
    (rangeMain demoLib demoPbfCodec true .history .history "me" (fun _ => 7) 1700000000 1700000000 .xml
      (.xml [.start "osm" [("version", "0.5")]])).toOption = none := by
  constructor
  · decide +kernel
  · decide +kernel

/-- The code does not do what its name says in this case: an object that was deleted before the program started is in
the extract, and if that is an ordinary file (not a history file) it is an existing object there. -/
theorem range_from_history_deleted (lib : PbfLib) (c : PbfCodec) (compress : Bool) (ft : FileType) (gen : String)
    (chunks : Nat → Nat) (lo hi : Int) (fmt : Fmt) (f g : FileData) (os : List OsmObj) (hf : HasObjects c ft f os)
    (hh : History os) (hlo : ∀ o ∈ os, o.obj.timestamp < lo) (hhi : ∀ o ∈ os, o.obj.timestamp < hi)
    (hos : Convertible .osm (lastVersions os))
    (hg : rangeMain lib c compress ft .osm gen chunks lo hi fmt f = .ok g)
    (hfit : fmt = .pbf → ∀ m bs, pbfBlocks lib (PbfCfg.default false) (lastVersions os) = .ok bs →
      ∀ b ∈ fileBlobs c (PbfCfg.default false) .osm gen m bs, BlobFits c.toBlobCodec compress b.1 b.2) :
    ∃ os', HasObjects c .osm g os' ∧ ∀ o ∈ lastVersions os, o.obj.visible = false →
      ∃ o' ∈ os', o'.type = o.type ∧ o'.obj.id = o.obj.id ∧ o'.obj.version = o.obj.version ∧ o'.obj.visible = true := by
  refine ⟨_, range_from_history_partial lib c compress ft .osm gen chunks lo hi fmt f g os hf hh hlo hhi hos hg hfit, ?_⟩
  intro o ho _
  refine ⟨_, List.mem_map_of_mem ho, ?_⟩
  cases fmt <;> cases o <;> exact ⟨rfl, rfl, rfl, rfl⟩

/-! ### Example -/

/-- An older version of the first object of `cdemoObjs`. (data for the examples, no counterpart in /repo) -/
def rdemoOld : OsmObj := .node ⟨{ xdemoObj (-5) 2 true with timestamp := 900000000 }, ⟨81234567, -491234567⟩⟩

/-- A history file with two versions of a node. (data for the examples, no counterpart in /repo) -/
def rdemoXml : List XEv := (xmlWrite .history "me" demoMeta (rdemoOld :: cdemoObjs)).getD []

/-- The file has these objects. -/
theorem rdemo_has : HasObjects demoPbfCodec .history (.xml rdemoXml) (rdemoOld :: cdemoObjs) := by
  refine ⟨⟨demoMeta.bounds, "me", true⟩, ?_, fun ch => ?_⟩
  · exact ⟨by simp only [Position.WF]; decide, by simp only [Position.WF]; decide, fun _ => by decide⟩
  · show xmlParse .history (fun _ => false) ⟨rdemoXml, none⟩ = _
    decide +kernel

theorem rdemo_history : History (rdemoOld :: cdemoObjs) := by
  refine ⟨?_, by decide +kernel, by decide +kernel, by decide +kernel⟩
  intro i j k a b c hij hjk ha hb hc hs
  have hk : k < 4 := by
    by_contra h
    rw [List.getElem?_eq_none (by simp [cdemoObjs]; omega)] at hc
    cases hc
  have : ¬ SameObject a c := by
    have hm : (i, k) ∈ [(0, 2), (0, 3), (1, 3)] := by
      have : k = 2 ∨ k = 3 := by omega
      have : i = 0 ∨ i = 1 := by omega
      simp; omega
    simp only [List.mem_cons, List.not_mem_nil, or_false, Prod.mk.injEq] at hm
    rcases hm with ⟨rfl, rfl⟩ | ⟨rfl, rfl⟩ | ⟨rfl, rfl⟩ <;>
      (simp only [cdemoObjs, List.getElem?_cons_zero, List.getElem?_cons_succ, Option.some.injEq] at ha hc
       subst ha hc; decide +kernel)
  exact absurd hs this

/-- The hypotheses of `range_from_history_partial` are met, and the extract has three of the four objects. -/
example : lastVersions (rdemoOld :: cdemoObjs) = cdemoObjs ∧ Convertible .history (lastVersions (rdemoOld :: cdemoObjs)) ∧
    (∀ o ∈ rdemoOld :: cdemoObjs, o.obj.timestamp < 1700000000) ∧
    (rangeMain demoLib demoPbfCodec true .history .history "me" (fun _ => 7) 1700000000 1700000000 .xml
      (.xml rdemoXml)).toOption = some (.xml cdemoXml) := by
  have e : lastVersions (rdemoOld :: cdemoObjs) = cdemoObjs := by decide +kernel
  exact ⟨e, by rw [e]; exact cdemo_convertible.1, by decide +kernel, by decide +kernel⟩

/-- The hypotheses of `range_from_history_deleted` are met: the last version of the first object is a deleted one. -/
example : Convertible .osm (lastVersions (rdemoOld :: cdemoObjs)) ∧
    (cdemoObjs.map (·.obj.visible)) = [false, true, true] ∧
    (rangeMain demoLib demoPbfCodec true .history .osm "me" (fun _ => 7) 1700000000 1700000000 .xml
      (.xml rdemoXml)).toOption.isSome = true := by
  have e : lastVersions (rdemoOld :: cdemoObjs) = cdemoObjs := by decide +kernel
  have h := cdemo_convertible.1
  refine ⟨?_, by decide +kernel, by decide +kernel⟩
  rw [e]
  refine ⟨h.nonempty, h.xml, h.pbf, h.strings, ?_, h.sorted⟩
  exact fewStrings_of_total _ _ (le_trans (List.toFinset_card_le _) (by decide))

/-! ### osmium_store_and_debug -/

theorem storedObjs_protocol (m : Meta) (os : List OsmObj) : storedObjs (protocol m os) = os := objects_protocol m os

/-- C95: for a change file with the objects `ch` and an OSM file with the nodes `ns`, ways `ws` and relations `rs` in
the usual order: the dump is the dump of one file that has every object of the OSM file, and every version from the
change file (the first of those with the same type, id and version) of a type that occurs in the OSM file, nodes
first, then ways, then relations, each ordered by id and version.
(Partial: objects of other types are missing, see `store_and_debug_loses`; and old versions are not replaced, see
`store_and_debug_keeps_old`.) -/
theorem store_and_debug_partial (bt : Bounds → Line) (mc mf : Meta) (ch ns ws rs : List OsmObj)
    (hc : Comparable (ch ++ (ns ++ ws ++ rs)))
    (hn : ∀ o ∈ ns, o.type = .node) (hw : ∀ o ∈ ws, o.type = .way) (hr : ∀ o ∈ rs, o.type = .relation)
    (tn : ns.Pairwise (fun a b => ¬ Before b a)) (tw : ws.Pairwise (fun a b => ¬ Before b a))
    (tr : rs.Pairwise (fun a b => ¬ Before b a)) :
    ∃ N W R cn cw cr, storeDebugMain bt (protocol mc ch) (protocol mf (ns ++ ws ++ rs)) =
        .ok (debugText bt false (protocol (Meta.new false) (N ++ W ++ R))) ∧
      Holds .node ch cn ∧ Holds .way ch cw ∧ Holds .relation ch cr ∧
      N.Perm ((if ns = [] then [] else cn) ++ ns) ∧ W.Perm ((if ws = [] then [] else cw) ++ ws) ∧
      R.Perm ((if rs = [] then [] else cr) ++ rs) ∧
      N.Pairwise (fun a b => ¬ Before b a) ∧ W.Pairwise (fun a b => ¬ Before b a) ∧
      R.Pairwise (fun a b => ¬ Before b a) := by
  obtain ⟨s, hs, h1, h2, h3⟩ := insertAll_holds ch (comparable_sub hc (fun x hx => List.mem_append_left _ hx))
  have hc' : Comparable (s.nodes ++ s.ways ++ s.relations ++ (ns ++ ws ++ rs)) := by
    refine comparable_sub hc fun x hx => ?_
    rcases List.mem_append.1 hx with hx | hx
    · refine List.mem_append_left _ ?_
      rcases List.mem_append.1 hx with hx | hx
      · rcases List.mem_append.1 hx with hx | hx
        · exact (h1.sub x hx).1
        · exact (h2.sub x hx).1
      · exact (h3.sub x hx).1
    · exact List.mem_append_right _ hx
  obtain ⟨N, W, R, ha, p1, p2, p3, q1, q2, q3⟩ := apply_merges_occurring (Meta.new false) mf s ns ws rs hc'
    (fun o h => (h1.sub o h).2) (fun o h => (h2.sub o h).2) (fun o h => (h3.sub o h).2) hn hw hr h1.sorted h2.sorted
    h3.sorted tn tw tr
  refine ⟨N, W, R, s.nodes, s.ways, s.relations, ?_, h1, h2, h3, p1, p2, p3, q1, q2, q3⟩
  unfold storeDebugMain
  rw [storedObjs_protocol, hs]
  simp only [ha]

/-- (data for the examples, no counterpart in /repo) -/
def sdNode (id v : Int) (visible : Bool) : OsmObj :=
  .node ⟨{ Obj.new with id := id, version := v, visible := visible }, .undef⟩

/-- (data for the examples, no counterpart in /repo) -/
def sdWay (id v : Int) : OsmObj := .way ⟨{ Obj.new with id := id, version := v }, []⟩

/-- The hypotheses of `store_and_debug_partial` are met. -/
example : Comparable ([sdNode 3 2 true, sdWay 5 2] ++ ([sdNode 1 1 true, sdNode 3 1 true] ++ [sdWay 5 1] ++ [])) ∧
    [sdNode 1 1 true, sdNode 3 1 true].Pairwise (fun a b => ¬ Before b a) ∧
    (storeDebugMain (fun _ => []) (protocol (Meta.new true) [sdNode 3 2 true, sdWay 5 2])
      (protocol (Meta.new false) [sdNode 1 1 true, sdNode 3 1 true, sdWay 5 1])).toOption =
      some (debugText (fun _ => []) false (protocol (Meta.new false)
        [sdNode 1 1 true, sdNode 3 1 true, sdNode 3 2 true, sdWay 5 1, sdWay 5 2])) := by
  refine ⟨⟨?_, ?_⟩, by decide +kernel, by decide +kernel⟩
  · unfold Obj.absOk; decide +kernel
  · decide +kernel

/-- The code does not do what is documented ("apply it to an OSM file"): the version of a node that a change replaces
is in the dump, too ... -/
theorem store_and_debug_keeps_old (bt : Bounds → Line) :
    storeDebugMain bt (protocol (Meta.new true) [sdNode 3 2 true]) (protocol (Meta.new false) [sdNode 3 1 true]) =
      .ok (debugText bt false (protocol (Meta.new false) [sdNode 3 1 true, sdNode 3 2 true])) := by
  have h : ObjStore.empty.insertAll [sdNode 3 2 true] = some ⟨[sdNode 3 2 true], [], []⟩ := by decide +kernel
  have h' : applyRun (Meta.new false) ⟨[sdNode 3 2 true], [], []⟩ (protocol (Meta.new false) [sdNode 3 1 true]) =
    some (protocol (Meta.new false) [sdNode 3 1 true, sdNode 3 2 true]) := by decide +kernel
  unfold storeDebugMain
  rw [storedObjs_protocol, h]
  simp only [h']

/-- ... a deletion looks like any other change ... -/
theorem store_and_debug_deleted (bt : Bounds → Line) :
    storeDebugMain bt (protocol (Meta.new true) [sdNode 3 2 true]) (protocol (Meta.new false) [sdNode 3 1 true]) =
    storeDebugMain bt (protocol (Meta.new true) [sdNode 3 2 false]) (protocol (Meta.new false) [sdNode 3 1 true]) := by
  have h : ObjStore.empty.insertAll [sdNode 3 2 false] = some ⟨[sdNode 3 2 false], [], []⟩ := by decide +kernel
  have h' : applyRun (Meta.new false) ⟨[sdNode 3 2 false], [], []⟩ (protocol (Meta.new false) [sdNode 3 1 true]) =
    some (protocol (Meta.new false) [sdNode 3 1 true, sdNode 3 2 false]) := by decide +kernel
  rw [store_and_debug_keeps_old]
  unfold storeDebugMain
  rw [storedObjs_protocol, h]
  simp only [h']
  rfl

/-- ... and a new way is not shown at all if the OSM file has no ways. -/
theorem store_and_debug_loses (bt : Bounds → Line) :
    storeDebugMain bt (protocol (Meta.new true) [sdWay 5 1]) (protocol (Meta.new false) [sdNode 3 1 true]) =
      .ok (debugText bt false (protocol (Meta.new false) [sdNode 3 1 true])) := by
  have h : ObjStore.empty.insertAll [sdWay 5 1] = some ⟨[], [sdWay 5 1], []⟩ := by decide +kernel
  have h' : applyRun (Meta.new false) ⟨[], [sdWay 5 1], []⟩ (protocol (Meta.new false) [sdNode 3 1 true]) =
    some (protocol (Meta.new false) [sdNode 3 1 true]) := by decide +kernel
  unfold storeDebugMain
  rw [storedObjs_protocol, h]
  simp only [h']

end Osmium

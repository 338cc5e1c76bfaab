import Verif.Convert.Chain
import Verif.Handler.Debug
import Verif.Handler.History

/-
C99: the program osmium_debug, which dumps a file, and its variant that also shows when versions were replaced
(examples/osmium_debug.cpp).
-/
namespace Osmium

/-- examples/osmium_debug.cpp 25-46 `main`: the text on standard output; `endtime` is
`OSMIUM_DEBUG_WITH_ENDTIME`, `r` the calls of the reader. -/
def osmiumDebug (bt : Bounds → Line) (endtime : Bool) (r : List Cb × ParseEnd) : List Char :=
  if endtime then debugText bt true (endTimeRun EndTimeState.new r.1) else debugText bt false r.1

namespace Spec

/-- The end of a version: when the next version of the same object begins, if that comes next. (specification, no
counterpart in /repo) -/
def endOf (os : List OsmObj) (k : Nat) : Int :=
  match os[k]?, os[k + 1]? with
  | some o, some o' => if o.type = o'.type ∧ o.obj.id = o'.obj.id then o'.obj.timestamp else o.obj.endtime
  | some o, none => o.obj.endtime
  | none, _ => 0

end Spec

open Spec

/-- (helper) The objects of a dump. (no counterpart in /repo) -/
def shownObjs (l : List Shown) : List (OsmObj × Option (Bool × Int)) :=
  l.filterMap fun | .obj o h => some (o, h) | _ => none

/-- (helper) The generators of a dump. (no counterpart in /repo) -/
def shownGens (l : List Shown) : List String :=
  l.filterMap fun | .start g => some g | _ => none

theorem shownObjs_calls (f : Bool) (cs : List Cb) (h : ∀ m, Cb.init m ∉ cs) :
    shownObjs (shows f cs) =
      (objects cs).map fun o => (plainObj o, if f then some (o.obj.visible, o.obj.endtime) else none) := by
  induction cs with
  | nil => rfl
  | cons c cs ih =>
    have ih := ih (fun m hm => h m (List.mem_cons_of_mem _ hm))
    cases c with
    | init m => exact absurd (List.mem_cons_self ..) (h m)
    | before t => exact ih
    | obj o =>
      have h1 : shownObjs (shows f (.obj o :: cs)) =
          (plainObj o, if f then some (o.obj.visible, o.obj.endtime) else none) :: shownObjs (shows f cs) := rfl
      have h2 : objects (.obj o :: cs) = o :: objects cs := rfl
      rw [h1, h2, ih, List.map_cons]
    | after t => exact ih
    | final => exact ih

theorem shown_protocol (f : Bool) (m : Meta) (os : List OsmObj) :
    shownObjs (shows f (protocol m os)) =
      os.map fun o => (plainObj o, if f || m.multi then some (o.obj.visible, o.obj.endtime) else none) := by
  have hin : ∀ m', Cb.init m' ∉ (runs os).flatMap runCalls ++ [.final] := by
    intro m' hm
    simp only [List.mem_append, List.mem_flatMap, List.mem_singleton, reduceCtorEq, or_false] at hm
    obtain ⟨r, -, hr⟩ := hm
    cases r with
    | nil => cases hr
    | cons a r => simp [runCalls] at hr
  have h := shownObjs_calls (f || m.multi) _ hin
  have h2 := objects_protocol m os
  have h3 : objects (protocol m os) = objects ((runs os).flatMap runCalls ++ [.final]) := rfl
  rw [← h3, h2] at h
  exact h

theorem gens_protocol (f : Bool) (m : Meta) (os : List OsmObj) :
    (shownGens (shows f (protocol m os))).head? = some m.generator := rfl

theorem endTimes_dump (os : List OsmObj) (h : ∀ o ∈ os, DumpObj o) : ∀ o ∈ endTimes os, DumpObj o := by
  have ts : ∀ o : OsmObj, DumpObj o → TimeOk o.obj.timestamp := by
    intro o ho
    cases o with
    | node n => exact ho.1.timestamp
    | way w => exact DumpAttrs.timestamp ho
    | relation r => exact ho.1.timestamp
  have se : ∀ (o : OsmObj) (t : Int), DumpObj o → TimeOk t → DumpObj (o.setEndtime t) := by
    intro o t ho ht
    cases o with
    | node n => exact ⟨⟨ho.1.user, ho.1.key, ho.1.value, ho.1.timestamp, ht⟩, ho.2⟩
    | way w =>
      have ha : DumpAttrs w.obj := ho
      exact ⟨ha.user, ha.key, ha.value, ha.timestamp, ht⟩
    | relation r => exact ⟨⟨ho.1.user, ho.1.key, ho.1.value, ho.1.timestamp, ht⟩, ho.2⟩
  induction os with
  | nil => exact h
  | cons a os ih =>
    cases os with
    | nil => exact h
    | cons b os =>
      intro o ho
      rw [endTimes, List.mem_cons] at ho
      rcases ho with rfl | ho
      · split
        · exact se a _ (h a (by simp)) (ts b (h b (by simp)))
        · exact h a (by simp)
      · exact ih (fun o ho => h o (List.mem_cons_of_mem _ ho)) o ho

theorem plainObj_setEndtime (o : OsmObj) (t : Int) : plainObj (o.setEndtime t) = plainObj o := by
  cases o <;> rfl

theorem setEndtime_visible (o : OsmObj) (t : Int) : (o.setEndtime t).obj.visible = o.obj.visible := by
  cases o <;> rfl

theorem endTimes_map {β : Type} (g : OsmObj → β) (hg : ∀ o t, g (o.setEndtime t) = g o) (os : List OsmObj) :
    (endTimes os).map g = os.map g := by
  induction os with
  | nil => rfl
  | cons a os ih =>
    cases os with
    | nil => rfl
    | cons b os =>
      rw [endTimes, List.map_cons, ih]
      split
      · rw [hg]; rfl
      · rfl

theorem endTimes_endOf (os : List OsmObj) (k : Nat) (hk : k < os.length) :
    ((endTimes os)[k]?).map (fun o => o.obj.endtime) = some (endOf os k) := by
  obtain ⟨o, ho⟩ : ∃ o, os[k]? = some o := ⟨os[k], List.getElem?_eq_getElem hk⟩
  rw [endTimes_getElem os k o ho, Option.map_some, endOf, ho]
  cases os[k + 1]? with
  | none => rfl
  | some o' =>
    simp only
    by_cases hs : o.type = o'.type ∧ o.obj.id = o'.obj.id
    · have : SameObject o o' := hs
      rw [if_pos this, if_pos hs, setEndtime_endtime]
    · have : ¬ SameObject o o' := hs
      rw [if_neg this, if_neg hs]

theorem dump_protocol (m : Meta) (os : List OsmObj) (hm : OneLine m.generator) (h : ∀ o ∈ os, DumpObj o) :
    ∀ c ∈ protocol m os, DumpCb c := by
  intro c hc
  unfold protocol at hc
  simp only [List.cons_append, List.mem_cons, List.mem_append, List.mem_flatMap, List.not_mem_nil, or_false] at hc
  have hty : ∀ o : OsmObj, o.type = .node ∨ o.type = .way ∨ o.type = .relation := by
    intro o
    cases o <;> simp [OsmObj.type]
  rcases hc with rfl | ⟨r, hr, hc⟩ | rfl
  · exact hm
  · cases r with
    | nil => cases hc
    | cons a r =>
      simp only [runCalls, List.cons_append, List.mem_cons, List.mem_append, List.mem_map, List.not_mem_nil,
        or_false] at hc
      rcases hc with rfl | ⟨o, ho, rfl⟩ | rfl
      · exact hty a
      · refine h o ?_
        have : o ∈ (runs os).flatten := List.mem_flatten.2 ⟨_, hr, List.mem_cons.2 ho⟩
        rwa [runs_flatten] at this
      · exact hty a
  · trivial

/-- **C99**: The dump of a file shows all that is in it: if the dumps of two files (in any format) are the same, they have
the same generator and the same objects in the same order, with all attributes, tags, positions of nodes,
references and members.  With end times the dump also shows which versions are visible, and for each the time at which
the next version of the same object begins.
(Partial: texts without newlines, keys without bars, times in the years 0 to 9999 or unset, see C70.) -/
theorem debug_program_partial (bt : Bounds → Line) (hbt : ∀ b, '\n' ∉ bt b) (endtime : Bool) (c : PbfCodec)
    (ft ft' : FileType) (f g : FileData) (ch ch' : Nat → Nat) (m m' : Meta) (os os' : List OsmObj)
    (hf : f.read c ft ch = (protocol m os, .returned)) (hg : g.read c ft' ch' = (protocol m' os', .returned))
    (hm : OneLine m.generator) (hm' : OneLine m'.generator) (ho : ∀ o ∈ os, DumpObj o) (ho' : ∀ o ∈ os', DumpObj o)
    (h : osmiumDebug bt endtime (f.read c ft ch) = osmiumDebug bt endtime (g.read c ft' ch')) :
    m.generator = m'.generator ∧ os.map plainObj = os'.map plainObj ∧
    (endtime = true → os.map (fun o => o.obj.visible) = os'.map (fun o => o.obj.visible) ∧
      ∀ k < os.length, endOf os k = endOf os' k) := by
  rw [hf, hg] at h
  unfold osmiumDebug at h
  cases endtime with
  | false =>
    simp only [Bool.false_eq_true, if_false] at h
    have hs := debug_dump_complete_partial bt hbt false false _ _ (dump_protocol m os hm ho) (dump_protocol m' os' hm' ho') h
    refine ⟨?_, ?_, fun e => by cases e⟩
    · have := congrArg (fun l => (shownGens l).head?) hs
      simpa only [gens_protocol, Option.some.injEq] using this
    · have := congrArg (fun l => (shownObjs l).map Prod.fst) hs
      simp only [shown_protocol, List.map_map] at this
      exact this
  | true =>
    simp only [if_true, endTime_protocol] at h
    have hs := debug_dump_complete_partial bt hbt true true _ _ (dump_protocol m _ hm (endTimes_dump os ho))
      (dump_protocol m' _ hm' (endTimes_dump os' ho')) h
    have hobj := congrArg shownObjs hs
    simp only [shown_protocol, Bool.true_or, if_true] at hobj
    have hpl := congrArg (List.map Prod.fst) hobj
    have hvis := congrArg (List.map fun p : OsmObj × Option (Bool × Int) => p.2.map Prod.fst) hobj
    have hend := congrArg (List.map fun p : OsmObj × Option (Bool × Int) => (p.2.map Prod.snd).getD 0) hobj
    simp only [List.map_map] at hpl hvis hend
    have hpl : os.map plainObj = os'.map plainObj := by
      rw [← endTimes_map plainObj plainObj_setEndtime os, ← endTimes_map plainObj plainObj_setEndtime os']
      exact hpl
    refine ⟨?_, hpl, fun _ => ⟨?_, ?_⟩⟩
    · have := congrArg (fun l => (shownGens l).head?) hs
      simpa only [gens_protocol, Option.some.injEq] using this
    · have e : (endTimes os).map (fun o => some o.obj.visible) = (endTimes os').map (fun o => some o.obj.visible) := hvis
      rw [endTimes_map _ (fun o t => by rw [setEndtime_visible]), endTimes_map _ (fun o t => by rw [setEndtime_visible])] at e
      have := congrArg (List.map (fun b : Option Bool => b.getD false)) e
      rw [List.map_map, List.map_map] at this
      exact this
    · intro k hk
      have hl : os.length = os'.length := by
        have := congrArg List.length hpl
        simpa using this
      have e : (endTimes os).map (fun o => o.obj.endtime) = (endTimes os').map (fun o => o.obj.endtime) := hend
      have e := congrArg (fun l => l[k]?) e
      simp only [List.getElem?_map] at e
      rw [endTimes_endOf os k hk, endTimes_endOf os' k (hl ▸ hk)] at e
      exact Option.some.inj e

/-- The demonstration file of C68 meets the hypotheses. -/
example : (FileData.xml cdemoXml).read demoPbfCodec .history (fun _ => 7) =
      (protocol ⟨demoMeta.bounds, "me", true⟩ cdemoObjs, .returned) ∧ OneLine "me" ∧ ∀ o ∈ cdemoObjs, DumpObj o := by
  refine ⟨?_, by simp only [OneLine]; decide, ?_⟩
  · show xmlParse .history (fun _ => false) ⟨cdemoXml, none⟩ = _
    decide +kernel
  · have at_ : ∀ (id : Int) (v : Nat) (b : Bool), DumpAttrs (xdemoObj id v b) := by
      intro id v b
      refine ⟨?_, ?_, ?_, ?_, ?_⟩ <;> simp only [xdemoObj, Obj.new, OneLine, TimeOk, InIsoRange] <;> decide
    intro o ho
    simp only [cdemoObjs, List.mem_cons, List.not_mem_nil, or_false] at ho
    rcases ho with rfl | rfl | rfl
    · exact ⟨at_ _ _ _, by simp only [Position.WF]; decide⟩
    · exact at_ _ _ _
    · exact ⟨at_ _ _ _, by simp only [OneLine]; decide⟩

end Osmium

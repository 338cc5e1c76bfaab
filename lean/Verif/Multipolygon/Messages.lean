import Verif.Multipolygon.Interrupted
import Verif.Examples.AreasProps
import Verif.Relations.Available
import Verif.Relations.Usage

/-
C124: the messages of the multipolygon assembler if debugging is compiled in (debug.hpp, multipolygon/assembler.hpp
78-122), as it is by examples/Makefile 22-23, and the standard output of osmium_mpdump with them.
-/
namespace Osmium
open Spec

/-- multipolygon/assembler.hpp 82-84: the line about a member that is not a way. -/
def ignoredLine (r : Relation) : Line :=
  txt "Ignored non-way member of multipolygon/boundary relation " ++ Text.intDec r.obj.id

/-- relations/assembler.hpp 252-274, 332-341 and multipolygon/assembler.hpp 60-86: the lines printed in the first pass
with a debug level; it ends with the first end of a block of relations. -/
def pass1Lines (level : Nat) : List Cb → List Line
  | [] => []
  | .obj (.relation r) :: cs =>
    (if mpCfg.accept r then
      r.members.flatMap fun m => if !mpCfg.keep r m && decide (1 ≤ level) then [ignoredLine r] else []
     else []) ++ pass1Lines level cs
  | .after .relation :: _ => []
  | _ :: cs => pass1Lines level cs

/-- multipolygon/assembler.hpp 114-116: the loop over the relations that are left.  A null pointer fails an assertion in
`boost::shared_ptr`. -/
def warnIds : List RelInfo → Res (List Char)
  | [] => .ok []
  | i :: is =>
    match i.relation with
    | none => .error .assertion
    | some r => (warnIds is).map fun cs => txt " " ++ Text.intDec r.obj.id ++ cs

/-- multipolygon/assembler.hpp 109-122 `all_members_available`: what is left of the relations and the lines printed. -/
def allAvailable (level : Nat) (s : Asm) : Res (Asm × List Line) :=
  if 1 ≤ level then
    let c := s.clean
    if c.rels = [] then .ok (c, [])
    else (warnIds c.rels).map fun cs =>
      (c, [txt "Warning! Some member ways missing for these multipolygon relations:" ++ cs])
  else .ok (s, [])

/-- What happens in the second pass with messages: a line is printed, or what happens without them. (helper for statements
and proofs, no counterpart in /repo) -/
inductive Noisy
  | line (l : Line)
  | event (e : AsmEvent)
deriving DecidableEq

/-- multipolygon/assembler.hpp 88-107: the lines printed at the beginning of the hooks. -/
def hookLines (level : Nat) : AsmEvent → List Line
  | .notInAny (.way w) =>
    if IsClosedArea w && decide (2 ≤ level) then [txt "MultiPolygon from way " ++ Text.intDec w.obj.id] else []
  | .complete r _ => if 2 ≤ level then [txt "MultiPolygon from relation " ++ Text.intDec r.obj.id] else []
  | _ => []

/-- The hooks of one call with their messages; the state is the one after the call without messages.  (`all_members_available`
is the only hook that changes it, and is not called together with others; multipolygon/assembler.hpp 88-122) -/
def noisyHooks (level : Nat) : Asm → List AsmEvent → Res (Asm × List Noisy)
  | s, [] => .ok (s, [])
  | s, .allAvailable :: es => do
    let p ← allAvailable level s
    let q ← noisyHooks level p.1 es
    return (q.1, p.2.map .line ++ .event .allAvailable :: q.2)
  | s, e :: es => do
    let q ← noisyHooks level s es
    return (q.1, (hookLines level e).map .line ++ .event e :: q.2)

/-- relations/assembler.hpp 347-482 with multipolygon/assembler.hpp 78-122: the second pass with messages. -/
def noisyPass2 (level : Nat) : Asm → List Cb → Res (Asm × List Noisy)
  | s, [] => .ok (s, [])
  | s, c :: cs => do
    let p ← s.step mpCfg c
    let q ← noisyHooks level p.1 p.2
    let r ← noisyPass2 level q.1 cs
    return (r.1, q.2 ++ r.2)

namespace Spec

/-- What happens besides the messages. (specification, no counterpart in /repo) -/
def eventsOf (ns : List Noisy) : List AsmEvent := ns.filterMap fun | .event e => some e | _ => none

/-- The messages. (specification, no counterpart in /repo) -/
def linesOf (ns : List Noisy) : List Line := ns.filterMap fun | .line l => some l | _ => none

/-- The relation has a way as a member that is not in the file. (specification, no counterpart in /repo) -/
def LacksWay (ws : List Way) (r : Relation) : Prop := ∃ m ∈ r.members, m.type = 'w' ∧ ∀ w ∈ ws, w.obj.id ≠ m.ref

instance (ws : List Way) (r : Relation) : Decidable (LacksWay ws r) := by unfold LacksWay; infer_instance

/-- The line with the numbers of some relations, no line if there are none. (specification, no counterpart in /repo) -/
def warningLines : List Relation → List Line
  | [] => []
  | rs => [txt "Warning! Some member ways missing for these multipolygon relations:" ++
      rs.flatMap fun r => ' ' :: Text.intDec r.obj.id]

/-- One line for each member that is not a way. (specification, no counterpart in /repo) -/
def ignoredLines (r : Relation) : List Line :=
  (r.members.filter fun m => decide (m.type ≠ 'w')).map fun _ =>
    txt "Ignored non-way member of multipolygon/boundary relation " ++ Text.intDec r.obj.id

end Spec

/-! ### osmium_mpdump with its messages -/

/-- examples/osmium_mpdump.cpp 30-46, 79-86: what is printed in the second pass, as things happen. -/
def mpdumpNoise (wkt : List (Coords × List Coords) → List Char) (env : WholeEnv) : List Noisy → Res (List Line)
  | [] => .ok []
  | .line l :: ns => (mpdumpNoise wkt env ns).map fun rest => l :: rest
  | .event e :: ns =>
    match wholeHook env e with
    | .error f => .error f
    | .ok cs =>
      match mpdumpCalls wkt cs with
      | .error f => .error f
      | .ok ls => (mpdumpNoise wkt env ns).map fun rest => ls ++ rest

/-- examples/osmium_mpdump.cpp 55-89 `main`: the standard output of both passes; the debug level is 1 (line 74);
`s` is the assembler after the first pass.  Simplification: what was printed before an exception is left out. -/
def mpdumpStdout {S T : Type} (wkt : List (Coords × List Coords) → List Char) (env : WholeEnv) (pos : IdStore S Position)
    (neg : IdStore T Position) (s : Asm) (calls : List Cb) : Res (List Line) :=
  match cfwRun pos neg (pos.empty, neg.empty) calls with
  | .error e => .error e
  | .ok out =>
    match noisyPass2 1 s out with
    | .error e => .error e
    | .ok p => (mpdumpNoise wkt env p.2).map fun ls => pass1Lines 1 calls ++ ls

/-! ### osmium_toogr2 with its messages -/

/-- Some lines, as they are written. (helper, no counterpart in /repo) -/
def asWritten (ls : List Line) : List Char := ls.flatMap fun l => l ++ ['\n']

/-- examples/osmium_toogr2.cpp 110-145 `main`: the standard output of both passes; the debug level is 1 (line 127); `s` is
the assembler after the first pass.  Line 137 prints a text and the result of `used_memory`, which prints by itself; the
language does not say which is printed first: `early` is true if the text is.  Simplification: the program is not ended by
an exception or the library for the output. -/
def toogr2Stdout {S T : Type} (early : Bool) (z : TypeSizes) (pos : IdStore S Position) (neg : IdStore T Position) (s : Asm)
    (calls : List Cb) : Res (List Char) :=
  match cfwRun pos neg (pos.empty, neg.empty) calls with
  | .error e => .error e
  | .ok out =>
    match noisyPass2 1 s out with
    | .error e => .error e
    | .ok p => .ok (asWritten (pass1Lines 1 calls) ++
        (if early then txt "Used memory: " ++ s.usedText z else s.usedText z ++ txt "Used memory: ") ++
        Text.natDec (s.usedMemory z / (1024 * 1024)) ++ txt " MB\n" ++ asWritten (linesOf p.2))

/-! ### Messages change nothing -/

/-- Null pointers are only left where a relation is finished. -/
def NullFinished (rels : List RelInfo) : Prop := ∀ i ∈ rels, i.relation = none → i.need = 0

theorem warnIds_ok {rels : List RelInfo} (h : ∀ i ∈ rels, i.relation ≠ none) :
    warnIds rels = .ok ((rels.filterMap (·.relation)).flatMap fun r => ' ' :: Text.intDec r.obj.id) := by
  induction rels with
  | nil => rfl
  | cons i is ih =>
    have hi := h i (by simp)
    cases hr : i.relation with
    | none => exact absurd hr hi
    | some r =>
      simp only [warnIds, hr, ih fun j hj => h j (by simp [hj]), List.filterMap_cons, List.flatMap_cons, Except.map]
      rfl

theorem clean_some {s : Asm} (h : NullFinished s.rels) : ∀ i ∈ s.clean.rels, i.relation ≠ none := by
  intro i hi hn
  unfold Asm.clean at hi
  obtain ⟨h1, h2⟩ := List.mem_filter.1 hi
  have := h i h1 hn
  simp [RelInfo.hasAll, this] at h2

theorem allAvailable_ok (level : Nat) {s : Asm} (h : NullFinished s.rels) :
    allAvailable level s = .ok (if 1 ≤ level then s.clean else s,
      if 1 ≤ level then warningLines (s.clean.rels.filterMap (·.relation)) else []) := by
  unfold allAvailable
  by_cases hl : 1 ≤ level
  · simp only [if_pos hl]
    have hs := clean_some h
    rw [warnIds_ok hs]
    by_cases he : s.clean.rels = []
    · rw [if_pos he, he]
      rfl
    · rw [if_neg he]
      obtain ⟨i, is, hc⟩ := List.exists_cons_of_ne_nil he
      have hi := hs i (by rw [hc]; simp)
      cases hr : i.relation with
      | none => exact absurd hr hi
      | some r =>
        rw [hc, List.filterMap_cons, hr]
        rfl
  · simp only [if_neg hl]

theorem eventsOf_append (a b : List Noisy) : eventsOf (a ++ b) = eventsOf a ++ eventsOf b := by
  unfold eventsOf; rw [List.filterMap_append]
theorem eventsOf_lines (a : List Line) : eventsOf (a.map .line) = [] := by
  unfold eventsOf; rw [List.filterMap_map]; simp
theorem linesOf_append (a b : List Noisy) : linesOf (a ++ b) = linesOf a ++ linesOf b := by
  unfold linesOf; rw [List.filterMap_append]
theorem linesOf_lines (a : List Line) : linesOf (a.map .line) = a := by
  unfold linesOf; rw [List.filterMap_map]; simp

theorem noisyHooks_none (level : Nat) (s : Asm) : ∀ es : List AsmEvent, AsmEvent.allAvailable ∉ es →
    ∃ ns, noisyHooks level s es = .ok (s, ns) ∧ eventsOf ns = es ∧ linesOf ns = es.flatMap (hookLines level) := by
  intro es
  induction es with
  | nil => intro _; exact ⟨[], rfl, rfl, rfl⟩
  | cons e es ih =>
    intro h
    obtain ⟨ns, h1, h2, h3⟩ := ih fun hm => h (by simp [hm])
    refine ⟨(hookLines level e).map .line ++ .event e :: ns, ?_, ?_, ?_⟩
    · have hne : e ≠ .allAvailable := fun he => h (by simp [he])
      cases e with
      | allAvailable => exact absurd rfl hne
      | notInAny o => simp only [noisyHooks, h1]; rfl
      | complete r ms => simp only [noisyHooks, h1]; rfl
      | next c => simp only [noisyHooks, h1]; rfl
    · rw [eventsOf_append, eventsOf_lines]
      show e :: eventsOf ns = _
      rw [h2]
    · rw [linesOf_append, linesOf_lines, List.flatMap_cons]
      show _ ++ linesOf ns = _
      rw [h3]

theorem addOne_next (o : OsmObj) (rels rels' : List RelInfo) (i : MemberInfo) (es : List AsmEvent)
    (h : addOne o rels i = .ok (rels', es)) (hn : NullFinished rels) :
    NullFinished rels' ∧ ∀ e ∈ es, ∃ r ms, e = .complete r ms := by
  unfold addOne at h
  split at h
  · split at h
    · cases h
    · rename_i ri hri
      split at h
      · cases h
      · rename_i r hr
        split at h
        · cases ha : ri.addMember o i.pos with
          | error e => rw [ha] at h; cases h
          | ok p =>
            rw [ha] at h
            replace h : (if p.2 = true then pure (rels.set i.rel RelInfo.empty, [AsmEvent.complete r p.1.members])
              else pure (rels.set i.rel p.1, []) : Res (List RelInfo × List AsmEvent)) = .ok (rels', es) := h
            have hp : p.1.relation = some r := by
              unfold RelInfo.addMember at ha
              split at ha
              · rw [hr] at ha
                simp only at ha
                split at ha
                · cases ha; rfl
                · cases ha; rfl
              · cases ha
            have keep : ∀ x : RelInfo, (x.relation = none → x.need = 0) → NullFinished (rels.set i.rel x) := by
              intro x hx j hj hjn
              rcases List.mem_or_eq_of_mem_set hj with hj | rfl
              · exact hn j hj hjn
              · exact hx hjn
            split at h
            · cases h
              exact ⟨keep _ (fun _ => rfl), by simp⟩
            · cases h
              exact ⟨keep _ (fun hx => by rw [hp] at hx; cases hx), by simp⟩
        · cases h
  · cases h

theorem addAll_next (o : OsmObj) (is : List MemberInfo) : ∀ (rels rels' : List RelInfo) (es : List AsmEvent),
    addAll o rels is = .ok (rels', es) → NullFinished rels →
    NullFinished rels' ∧ ∀ e ∈ es, ∃ r ms, e = .complete r ms := by
  induction is with
  | nil => intro rels rels' es h hn; cases h; exact ⟨hn, by simp⟩
  | cons i is ih =>
    intro rels rels' es h hn
    rw [addAll] at h
    cases h1 : addOne o rels i with
    | error e => rw [h1] at h; cases h
    | ok p =>
      cases h2 : addAll o p.1 is with
      | error e => simp only [h1, h2, bind, Except.bind] at h; cases h
      | ok q =>
        simp only [h1, h2, bind, Except.bind] at h
        cases h
        obtain ⟨a1, a2⟩ := addOne_next o rels p.1 i p.2 h1 hn
        obtain ⟨b1, b2⟩ := ih p.1 q.1 q.2 h2 a1
        refine ⟨b1, fun e he => ?_⟩
        rcases List.mem_append.1 he with he | he
        · exact a2 e he
        · exact b2 e he

theorem step_next (s s' : Asm) (c : Cb) (es : List AsmEvent) (h : s.step mpCfg c = .ok (s', es))
    (hn : NullFinished s.rels) : NullFinished s'.rels := by
  unfold Asm.step at h
  split at h
  · rename_i o
    split at h
    · split at h
      · cases h; exact hn
      · rename_i i is _
        cases ha : addAll o s.rels (i :: is) with
        | error e => rw [ha] at h; cases h
        | ok p =>
          rw [ha] at h
          cases h
          exact (addAll_next o (i :: is) s.rels p.1 p.2 ha hn).1
    · cases h; exact hn
  · split at h
    · cases h; exact hn
    · cases h; exact hn
  · cases h; exact hn


theorem noisyPass2_append (level : Nat) (a b : List Cb) : ∀ s : Asm, noisyPass2 level s (a ++ b) =
    (do
      let p ← noisyPass2 level s a
      let q ← noisyPass2 level p.1 b
      return (q.1, p.2 ++ q.2)) := by
  induction a with
  | nil =>
    intro s
    show noisyPass2 level s b = _
    simp only [noisyPass2, bind, Except.bind]
    cases noisyPass2 level s b with
    | error e => rfl
    | ok q => rfl
  | cons c a ih =>
    intro s
    rw [List.cons_append, noisyPass2, noisyPass2]
    simp only [bind, Except.bind]
    cases s.step mpCfg c with
    | error e => rfl
    | ok p =>
      simp only
      cases noisyHooks level p.1 p.2 with
      | error e => rfl
      | ok q =>
        simp only
        rw [ih]
        simp only [bind, Except.bind]
        cases noisyPass2 level q.1 a with
        | error e => rfl
        | ok r =>
          simp only [pure, Except.pure]
          cases noisyPass2 level r.1 b with
          | error e => rfl
          | ok t => simp

theorem pass2_app (a b : List Cb) : ∀ s : Asm, s.pass2 mpCfg (a ++ b) =
    (do
      let p ← s.pass2 mpCfg a
      let q ← p.1.pass2 mpCfg b
      return (q.1, p.2 ++ q.2)) := by
  induction a with
  | nil =>
    intro s
    show s.pass2 mpCfg b = _
    simp only [Asm.pass2, bind, Except.bind]
    cases s.pass2 mpCfg b with
    | error e => rfl
    | ok q => rfl
  | cons c a ih =>
    intro s
    rw [List.cons_append, Asm.pass2, Asm.pass2]
    simp only [bind, Except.bind]
    cases s.step mpCfg c with
    | error e => rfl
    | ok p =>
      simp only
      rw [ih]
      simp only [bind, Except.bind]
      cases p.1.pass2 mpCfg a with
      | error e => rfl
      | ok r =>
        simp only [pure, Except.pure]
        cases r.1.pass2 mpCfg b with
        | error e => rfl
        | ok t => simp

/-- Before the end of the ways. -/
theorem step_before (s : Asm) (c : Cb) (hc : c ≠ .after .way) (hn : NullFinished s.rels) (s' : Asm) (es : List AsmEvent)
    (h : s.step mpCfg c = .ok (s', es)) : AsmEvent.allAvailable ∉ es ∧ s'.want = s.want ∧ NullFinished s'.rels := by
  refine ⟨?_, ?_, step_next s s' c es h hn⟩
  · unfold Asm.step at h
    split at h
    · rename_i o
      split at h
      · split at h
        · cases h; simp
        · rename_i i is _
          cases ha : addAll o s.rels (i :: is) with
          | error e => rw [ha] at h; cases h
          | ok p =>
            rw [ha] at h
            cases h
            intro hm
            rcases List.mem_append.1 hm with hm | hm
            · obtain ⟨r, ms, e⟩ := (addAll_next o (i :: is) s.rels p.1 p.2 ha hn).2 _ hm
              cases e
            · simp at hm
      · cases h; simp
    · rename_i t
      have ht : mpCfg.enabled t = false := by
        have : t ≠ .way := fun h => hc (by rw [h])
        simp [mpCfg, this]
      rw [ht] at h
      cases h; simp
    · cases h; simp
  · unfold Asm.step at h
    split at h
    · rename_i o
      split at h
      · split at h
        · cases h; rfl
        · rename_i i is _
          cases ha : addAll o s.rels (i :: is) with
          | error e => rw [ha] at h; cases h
          | ok p => rw [ha] at h; cases h; rfl
      · cases h; rfl
    · rename_i t
      have ht : mpCfg.enabled t = false := by
        have : t ≠ .way := fun h => hc (by rw [h])
        simp [mpCfg, this]
      rw [ht] at h
      cases h; rfl
    · cases h; rfl

theorem noisy_before (level : Nat) (a : List Cb) : ∀ s : Asm, Cb.after .way ∉ a → NullFinished s.rels →
    (∃ f, s.pass2 mpCfg a = .error f ∧ noisyPass2 level s a = .error f) ∨
    ∃ s' ev ns, s.pass2 mpCfg a = .ok (s', ev) ∧ noisyPass2 level s a = .ok (s', ns) ∧ eventsOf ns = ev ∧
      linesOf ns = ev.flatMap (hookLines level) ∧ s'.want = s.want ∧ NullFinished s'.rels := by
  induction a with
  | nil => intro s _ hn; exact .inr ⟨s, [], [], rfl, rfl, rfl, rfl, rfl, hn⟩
  | cons c a ih =>
    intro s hc hn
    rw [Asm.pass2, noisyPass2]
    cases hs : s.step mpCfg c with
    | error f => exact .inl ⟨f, rfl, rfl⟩
    | ok p =>
      obtain ⟨k1, k2, k3⟩ := step_before s c (fun h => hc (by simp [h])) hn p.1 p.2 hs
      obtain ⟨ns, n1, n2, n3⟩ := noisyHooks_none level p.1 p.2 k1
      simp only [bind, Except.bind, n1]
      rcases ih p.1 (fun h => hc (by simp [h])) k3 with ⟨f, h1, h2⟩ | ⟨s', ev, ms, h1, h2, h3, h4, h5, h6⟩
      · exact .inl ⟨f, by rw [h1], by rw [h2]⟩
      · rw [h1, h2]
        refine .inr ⟨s', p.2 ++ ev, ns ++ ms, rfl, rfl, ?_, ?_, by rw [h5, k2], h6⟩
        · rw [eventsOf_append, n2, h3]
        · rw [linesOf_append, n3, h4, List.flatMap_append]

/-- After the end of the ways it does not matter which relations are kept. -/
theorem noisy_done (level : Nat) (b : List Cb) : ∀ s t : Asm, s.infos .way = [] → s.want ≤ 0 → t.infos = s.infos →
    t.want = s.want →
    ∃ s' ev t' ns, s.pass2 mpCfg b = .ok (s', ev) ∧ noisyPass2 level t b = .ok (t', ns) ∧ eventsOf ns = ev ∧
      linesOf ns = ev.flatMap (hookLines level) ∧ s'.rels = s.rels ∧ completions ev = [] := by
  induction b with
  | nil => intro s t _ _ _ _; exact ⟨s, [], t, [], rfl, rfl, rfl, rfl, rfl, rfl⟩
  | cons c b ih =>
    intro s t h1 h2 h3 h4
    -- one call
    have one : ∃ s1 t1 es, s.step mpCfg c = .ok (s1, es) ∧ t.step mpCfg c = .ok (t1, es) ∧ AsmEvent.allAvailable ∉ es ∧
        s1.infos .way = [] ∧ s1.want ≤ 0 ∧ t1.infos = s1.infos ∧ t1.want = s1.want ∧ s1.rels = s.rels ∧
        completions es = [] := by
      cases c with
      | obj o =>
        by_cases he : mpCfg.enabled o.type = true
        · have ht : o.type = .way := by simpa [mpCfg] using he
          have e0 : equalRange o.obj.id [] = [] := rfl
          refine ⟨s, t, [.notInAny o, .next (.obj o)], ?_, ?_, by simp, h1, h2, h3, h4, rfl, rfl⟩
          · unfold Asm.step
            simp only [ht, h1, e0]
            rfl
          · unfold Asm.step
            simp only [ht, h3, h1, e0]
            rfl
        · refine ⟨s, t, [.next (.obj o)], ?_, ?_, by simp, h1, h2, h3, h4, rfl, rfl⟩
          · unfold Asm.step
            simp only [he]
            rfl
          · unfold Asm.step
            simp only [he]
            rfl
      | after k =>
        by_cases he : mpCfg.enabled k = true
        · have hs : ¬ s.want - 1 = 0 := by omega
          have ht : ¬ t.want - 1 = 0 := by omega
          refine ⟨{ s with infos := fun t' => if t' = k then [] else s.infos t', want := s.want - 1 },
            { t with infos := fun t' => if t' = k then [] else t.infos t', want := t.want - 1 },
            [.next (.after k)], by unfold Asm.step; simp only [he, if_true, hs, if_false]; rfl,
            by unfold Asm.step; simp only [he, if_true, ht, if_false]; rfl, by simp, ?_, ?_, ?_, ?_, rfl, rfl⟩
          · simp only
            split
            · rfl
            · exact h1
          · simp only; omega
          · simp only [h3]
          · simp only [h4]
        · refine ⟨s, t, [.next (.after k)], ?_, ?_, by simp, h1, h2, h3, h4, rfl, rfl⟩
          · unfold Asm.step
            simp only [he]
            rfl
          · unfold Asm.step
            simp only [he]
            rfl
      | init m => exact ⟨s, t, _, rfl, rfl, by simp, h1, h2, h3, h4, rfl, rfl⟩
      | before k => exact ⟨s, t, _, rfl, rfl, by simp, h1, h2, h3, h4, rfl, rfl⟩
      | final => exact ⟨s, t, _, rfl, rfl, by simp, h1, h2, h3, h4, rfl, rfl⟩
    obtain ⟨s1, t1, es, k1, k2, k3, k4, k5, k6, k7, k8, k9⟩ := one
    obtain ⟨ns, n1, n2, n3⟩ := noisyHooks_none level t1 es k3
    obtain ⟨s', ev, t', ms, g1, g2, g3, g4, g5, g6⟩ := ih s1 t1 k4 k5 k6 k7
    rw [Asm.pass2, noisyPass2]
    simp only [bind, Except.bind, k1, k2, n1, g1, g2]
    refine ⟨s', es ++ ev, t', ns ++ ms, rfl, rfl, ?_, ?_, by rw [g5, k8], ?_⟩
    · rw [eventsOf_append, n2, g3]
    · rw [linesOf_append, n3, g4, List.flatMap_append]
    · have : completions (es ++ ev) = completions es ++ completions ev := by
        unfold completions; rw [List.filterMap_append]
      rw [this, k9, g6]
      rfl

/-- The end of the ways. -/
theorem noisy_after (level : Nat) (s : Asm) (hw : s.want = 1) (hn : NullFinished s.rels) :
    ∃ s1 t1 ns, s.step mpCfg (.after .way) = .ok (s1, [.allAvailable, .next (.after .way)]) ∧
      noisyHooks level s1 [.allAvailable, .next (.after .way)] = .ok (t1, ns) ∧
      eventsOf ns = [.allAvailable, .next (.after .way)] ∧
      linesOf ns = (if 1 ≤ level then warningLines (s.clean.rels.filterMap (·.relation)) else []) ∧
      s1.infos .way = [] ∧ s1.want ≤ 0 ∧ t1.infos = s1.infos ∧ t1.want = s1.want ∧
      ns = (if 1 ≤ level then warningLines (s.clean.rels.filterMap (·.relation)) else []).map .line ++
        [.event .allAvailable, .event (.next (.after .way))] := by
  have he : mpCfg.enabled .way = true := rfl
  refine ⟨{ s with infos := fun t' => if t' = .way then [] else s.infos t', want := s.want - 1 },
    if 1 ≤ level then Asm.clean { s with infos := fun t' => if t' = .way then [] else s.infos t', want := s.want - 1 }
      else { s with infos := fun t' => if t' = .way then [] else s.infos t', want := s.want - 1 },
    (if 1 ≤ level then warningLines (s.clean.rels.filterMap (·.relation)) else []).map .line ++
      [.event .allAvailable, .event (.next (.after .way))], ?_, ?_, ?_, ?_, rfl, by simp [hw], ?_, ?_, rfl⟩
  · unfold Asm.step
    simp only [he, if_true, hw]
    rfl
  · simp only [noisyHooks]
    have hall := allAvailable_ok level
      (s := { s with infos := fun t' => if t' = .way then [] else s.infos t', want := s.want - 1 }) hn
    rw [hall]
    rfl
  · rw [eventsOf_append, eventsOf_lines]
    rfl
  · rw [linesOf_append, linesOf_lines]
    simp [linesOf]
  · split <;> rfl
  · split <;> rfl


theorem afterPass1_null {calls : List Cb} {s : Asm} (h : Asm.AfterPass1 mpCfg calls s) : NullFinished s.rels := by
  have hadd := added_pass1 mpCfg [] (Asm.new mpCfg) calls ⟨rfl, rfl, fun _ => rfl⟩
  have hr : s.rels = ((Asm.new mpCfg).pass1 mpCfg calls).1.rels := by
    unfold Asm.AfterPass1 at h
    by_cases hb : ((Asm.new mpCfg).pass1 mpCfg calls).2
    · simp only [hb, if_true] at h
      exact h.1
    · simp only [hb] at h
      rw [h]
  rw [hr, hadd.1]
  intro i hi hn
  obtain ⟨x, -, rfl⟩ := List.mem_map.1 hi
  unfold slotOf at hn ⊢
  split
  · rfl
  · rename_i hx
    rw [if_neg hx] at hn
    cases hn

/-- **C124**: the messages change nothing: with any debug level, for all calls in both passes, the second pass makes the
same calls, in the same order, and fails if and only if it fails without messages. -/
theorem messages_change_nothing (level : Nat) (calls1 calls2 : List Cb) (s : Asm)
    (h1 : Asm.AfterPass1 mpCfg calls1 s) :
    (noisyPass2 level s calls2).map (fun p => eventsOf p.2) = (s.pass2 mpCfg calls2).map (fun p => p.2) := by
  have hw : s.want = 1 := by rw [pass1_want h1]; rfl
  have hn := afterPass1_null h1
  by_cases hc : Cb.after .way ∈ calls2
  · obtain ⟨a, b, rfl, ha⟩ : ∃ a b, calls2 = a ++ Cb.after .way :: b ∧ Cb.after .way ∉ a := by
      obtain ⟨a, b, e1, e2⟩ := List.eq_append_cons_of_mem hc
      exact ⟨a, b, e1, e2⟩
    rw [noisyPass2_append, pass2_app]
    rcases noisy_before level a s ha hn with ⟨f, e1, e2⟩ | ⟨s1, ev, ns, e1, e2, e3, e4, e5, e6⟩
    · rw [e1, e2]; rfl
    · obtain ⟨s2, t2, ms, g1, g2, g3, g4, g5, g6, g7, g8, g9⟩ := noisy_after level s1 (by rw [e5, hw]) e6
      obtain ⟨s3, ev3, t3, ks, k1, k2, k3, k4, k5, k6⟩ := noisy_done level b s2 t2 g5 g6 g7 g8
      rw [e1, e2]
      simp only [bind, Except.bind, Asm.pass2, noisyPass2, g1, g2, k1, k2, pure, Except.pure, Except.map]
      rw [eventsOf_append, eventsOf_append, e3, g3, k3]
  · rcases noisy_before level calls2 s hc hn with ⟨f, e1, e2⟩ | ⟨s1, ev, ns, e1, e2, e3, e4, e5, e6⟩
    · rw [e1, e2]; rfl
    · rw [e1, e2]
      simp only [Except.map, e3]

/-! ### The warning -/

theorem hookLines_one (e : AsmEvent) : hookLines 1 e = [] := by
  cases e with
  | notInAny o => cases o <;> simp [hookLines]
  | complete r ms => simp [hookLines]
  | allAvailable => rfl
  | next c => rfl

theorem quiet_events (ns : List Noisy) (h : linesOf ns = []) : ns = (eventsOf ns).map .event := by
  induction ns with
  | nil => rfl
  | cons n ns ih =>
    cases n with
    | line l => cases h
    | event e => exact congrArg (Noisy.event e :: ·) (ih h)

theorem pass2_rest (b : List Cb) : ∀ s : Asm, (∀ c ∈ b, c ≠ .after .way ∧ ∀ w, c ≠ .obj (.way w)) →
    s.pass2 mpCfg b = .ok (s, b.map .next) := by
  induction b with
  | nil => intro s _; rfl
  | cons c b ih =>
    intro s h
    have h1 := h c (by simp)
    have hs : s.step mpCfg c = .ok (s, [.next c]) := by
      cases c with
      | obj o => cases o with
        | way w => exact absurd rfl (h1.2 w)
        | node n => rfl
        | relation r => rfl
      | after t => cases t with
        | way => exact absurd rfl h1.1
        | node => rfl
        | relation => rfl
        | unknown => rfl
        | area => rfl
      | init m => rfl
      | before t => rfl
      | final => rfl
    rw [Asm.pass2, hs]
    simp only [bind, Except.bind, ih s fun c hc => h c (by simp [hc])]
    rfl

theorem usual_file_calls (m : Meta) (ns : List Node) (ws : List Way) (rs : List Relation) (hws : ws ≠ []) :
    ∃ b, protocol m (fileOf ns ws rs) =
      (Cb.init m :: runCalls (ns.map OsmObj.node) ++ Cb.before .way :: ws.map fun v => Cb.obj (.way v)) ++
        Cb.after .way :: b ∧
      (∀ c ∈ b, c ≠ .after .way ∧ ∀ w, c ≠ .obj (.way w)) ∧
      Cb.after .way ∉ (Cb.init m :: runCalls (ns.map OsmObj.node) ++ Cb.before .way :: ws.map fun v => Cb.obj (.way v)) := by
  refine ⟨runCalls (rs.map OsmObj.relation) ++ [.final], ?_, ?_, ?_⟩
  · unfold fileOf
    rw [protocol_split m _ _ _ fileOf_nodes fileOf_ways (by simp [OsmObj.type])]
    obtain ⟨w, ws, rfl⟩ := List.exists_cons_of_ne_nil hws
    have : runCalls ((w :: ws).map OsmObj.way) =
        [Cb.before .way] ++ ((w :: ws).map (fun v => Cb.obj (.way v)) ++ [Cb.after .way]) := by
      simp [runCalls, OsmObj.type, List.map_map, Function.comp_def]
    rw [this]
    simp
  · intro c hc
    rcases List.mem_append.1 hc with hc | hc
    · rcases mem_runCalls (t := .relation) (by simp [OsmObj.type]) hc with rfl | rfl | ⟨o, ho, rfl⟩
      · simp
      · simp
      · obtain ⟨r, -, rfl⟩ := List.mem_map.1 ho
        simp
    · simp only [List.mem_singleton] at hc
      subst hc
      simp
  · intro hc
    rcases List.mem_append.1 hc with hc | hc
    · rcases List.mem_cons.1 hc with hc | hc
      · cases hc
      · rcases mem_runCalls fileOf_nodes hc with hc | hc | ⟨o, ho, hc⟩
        · cases hc
        · cases hc
        · cases hc
    · rcases List.mem_cons.1 hc with hc | hc
      · cases hc
      · obtain ⟨w, -, hc⟩ := List.mem_map.1 hc
        cases hc

theorem accepted_eq (rs : List Relation) : rs.filter mpCfg.accept = rs.filter fun r => decide (IsMultipolygon r) := by
  apply List.filter_congr
  intro r _
  have := mp_accept_iff r
  by_cases h : IsMultipolygon r
  · simp [h, this.2 h]
  · have : mpCfg.accept r = false := by
      cases hc : mpCfg.accept r with
      | false => rfl
      | true => exact absurd (this.1 hc) h
    simp [h, this]

theorem not_allSeen_ways (ws : List Way) (r : Relation) : ¬ AllSeen mpCfg (ws.map OsmObj.way) r ↔ LacksWay ws r := by
  unfold AllSeen LacksWay wanted
  have hk : ∀ m : Member, mpCfg.keep r m = true ↔ m.type = 'w' := by intro m; simp [mpCfg]
  constructor
  · intro h
    simp only [not_forall] at h
    obtain ⟨m, hm, h⟩ := h
    rw [List.mem_filter, hk] at hm
    refine ⟨m, hm.1, hm.2, fun w hw he => h ⟨.way w, List.mem_map.2 ⟨w, hw, rfl⟩, ?_⟩⟩
    simp [refersTo, OsmObj.obj, hm.2, he]
  · rintro ⟨m, hm, ht, hn⟩ h
    obtain ⟨o, ho, hr⟩ := h m (List.mem_filter.2 ⟨hm, (hk m).2 ht⟩)
    obtain ⟨w, hw, rfl⟩ := List.mem_map.1 ho
    simp only [refersTo, OsmObj.obj, Bool.and_eq_true, beq_iff_eq] at hr
    exact hn w hw hr.1.symm

/-- The second pass at level 1 with all its messages. -/
theorem noisy_file (m m1 : Meta) (ns : List Node) (ws ws1 : List Way) (rs : List Relation)
    (hd : DistinctObjects (fileOf ns ws rs)) (hws : ws ≠ []) (s : Asm)
    (h1 : Asm.AfterPass1 mpCfg (protocol m1 (fileOf ns ws1 rs)) s) :
    ∃ (s' t' : Asm) (ev : List AsmEvent) (b : List Cb), s.pass2 mpCfg (protocol m (fileOf ns ws rs)) =
        .ok (s', ev ++ (.allAvailable :: .next (.after .way) :: b.map .next)) ∧
      noisyPass2 1 s (protocol m (fileOf ns ws rs)) = .ok (t', ev.map .event ++
        (warningLines (rs.filter fun r => decide (IsMultipolygon r ∧ LacksWay ws r))).map .line ++
        (.allAvailable :: .next (.after .way) :: b.map .next : List AsmEvent).map .event) := by
  obtain ⟨b, hcalls, hb, ha⟩ := usual_file_calls m ns ws rs hws
  generalize hA : (Cb.init m :: runCalls (ns.map OsmObj.node) ++ Cb.before .way :: ws.map fun v => Cb.obj (.way v)) = a
    at hcalls ha
  have hone := oneBlock_file m (ns.map OsmObj.node) (ws.map OsmObj.way) (rs.map OsmObj.relation) fileOf_nodes fileOf_ways
    (by simp [OsmObj.type])
  change OneBlockEach (protocol m (fileOf ns ws rs)) at hone
  rw [hcalls] at hone ⊢
  have hone' : OneBlockEach a := List.Pairwise.sublist (List.sublist_append_left _ _) hone
  have hobj : asmObjects mpCfg a = ws.map OsmObj.way := by rw [← hA]; exact asmObjects_before m ns ws
  have hdist : DistinctObjects (asmObjects mpCfg a) := by
    rw [hobj]
    unfold fileOf at hd
    exact List.Pairwise.sublist ((List.sublist_append_right _ _).trans (List.sublist_append_left _ _)) hd
  obtain ⟨hrel, hend⟩ := asmRelations_file mpCfg m1 (ns.map OsmObj.node) (ws1.map OsmObj.way) rs fileOf_nodes fileOf_ways
  change asmRelations mpCfg (protocol m1 (fileOf ns ws1 rs)) = _ at hrel
  change rs ≠ [] → Cb.after .relation ∈ protocol m1 (fileOf ns ws1 rs) at hend
  have hend' : asmRelations mpCfg (protocol m1 (fileOf ns ws1 rs)) ≠ [] →
      Cb.after .relation ∈ protocol m1 (fileOf ns ws1 rs) := by
    intro hne
    apply hend
    rintro rfl
    rw [hrel] at hne
    exact hne rfl
  obtain ⟨sa, eva, hrun, -⟩ := assembler_trace_partial mpCfg _ a s h1 hend' hdist hone'
  have hinc := assembler_incomplete_partial mpCfg _ a s sa eva h1 hend' hdist hone' hrun
  have hw : s.want = 1 := by rw [pass1_want h1]; rfl
  rcases noisy_before 1 a s ha (afterPass1_null h1) with ⟨f, e1, e2⟩ | ⟨s1, ev, ms, e1, e2, e3, e4, e5, e6⟩
  · rw [hrun] at e1; cases e1
  · rw [hrun] at e1
    cases e1
    obtain ⟨s2, t2, ks, g1, g2, g3, g4, g5, g6, g7, g8, g9⟩ := noisy_after 1 sa (by rw [e5, hw]) e6
    obtain ⟨s3, ev3, t3, ls, k1, k2, k3, k4, -, -⟩ := noisy_done 1 b s2 t2 g5 g6 g7 g8
    have hrest := pass2_rest b s2 hb
    rw [hrest] at k1
    cases k1
    have hflat : ∀ l : List AsmEvent, l.flatMap (hookLines 1) = [] := by
      intro l
      rw [List.flatMap_eq_nil_iff]
      exact fun e _ => hookLines_one e
    rw [hflat] at e4 k4
    have hms := quiet_events ms e4
    have hls := quiet_events ls k4
    rw [e3] at hms
    rw [k3] at hls
    have hleft : sa.clean.rels.filterMap (·.relation) = rs.filter fun r => decide (IsMultipolygon r ∧ LacksWay ws r) := by
      have h := congrArg (List.map Prod.fst) hinc
      rw [List.map_map, List.map_map] at h
      have h2 : sa.clean.rels.filterMap (·.relation) = (sa.clean.rels.map (·.relation)).filterMap id := by
        rw [List.filterMap_map]; rfl
      have h3 : sa.clean.rels.map (·.relation) = ((rs.filter mpCfg.accept).filter fun r =>
          ¬ AllSeen mpCfg (asmObjects mpCfg a) r).map some := by
        rw [← hrel]
        exact h
      rw [h2, h3, List.filterMap_map, hobj, accepted_eq, List.filter_filter]
      simp only [Function.comp_def, id, List.filterMap_some]
      apply List.filter_congr
      intro r _
      rw [← Bool.decide_and, decide_eq_decide]
      constructor
      · rintro ⟨q1, q2⟩
        exact ⟨q2, (not_allSeen_ways ws r).1 (by simpa using q1)⟩
      · rintro ⟨q1, q2⟩
        exact ⟨by simpa using (not_allSeen_ways ws r).2 q2, q1⟩
    refine ⟨s2, t3, eva, b, ?_, ?_⟩
    · rw [pass2_app, hrun]
      simp only [bind, Except.bind, Asm.pass2, g1, hrest]
      rfl
    · rw [noisyPass2_append, e2]
      simp only [bind, Except.bind, noisyPass2, g1, g2, k2]
      rw [hms, hls, g9, if_pos (Nat.le_refl 1), hleft]
      simp only [pure, Except.pure, List.append_assoc, List.map_cons]
      rfl

/-- **C124**, for a file in the usual order in which no object occurs twice and which has a way (partial: the osmium code
says nothing of relations if a file has no ways at all, `no_warning_without_ways`): at level 1 the messages of the second
pass are one line with the numbers of the multipolygon relations that lack a way, in the order of the file, or no line if
there is no such relation. -/
theorem warning_partial (m : Meta) (ns : List Node) (ws : List Way) (rs : List Relation)
    (hd : DistinctObjects (fileOf ns ws rs)) (hws : ws ≠ []) (s : Asm)
    (h1 : Asm.AfterPass1 mpCfg (protocol m (fileOf ns ws rs)) s) :
    ∃ s' out, noisyPass2 1 s (protocol m (fileOf ns ws rs)) = .ok (s', out) ∧
      linesOf out = warningLines (rs.filter fun r => decide (IsMultipolygon r ∧ LacksWay ws r)) := by
  obtain ⟨s', t', ev, b, -, h⟩ := noisy_file m m ns ws ws rs hd hws s h1
  refine ⟨t', _, h, ?_⟩
  have hev : ∀ l : List AsmEvent, linesOf (l.map .event) = [] := by
    intro l
    unfold linesOf
    rw [List.filterMap_map]
    simp
  rw [linesOf_append, linesOf_append, linesOf_lines, hev, hev]
  simp

theorem pass1Lines_zero (calls : List Cb) : pass1Lines 0 calls = [] := by
  induction calls with
  | nil => rfl
  | cons c cs ih =>
    cases c with
    | obj o => cases o with
      | relation r => simp [pass1Lines, ih]
      | node n => exact ih
      | way w => exact ih
    | after t => cases t with
      | relation => rfl
      | node => exact ih
      | way => exact ih
      | unknown => exact ih
      | area => exact ih
    | init m => exact ih
    | before t => exact ih
    | final => exact ih

/-- Without debugging nothing is printed. -/
theorem no_messages (calls1 calls2 : List Cb) (s s' : Asm) (out : List Noisy) (h1 : Asm.AfterPass1 mpCfg calls1 s)
    (h : noisyPass2 0 s calls2 = .ok (s', out)) : pass1Lines 0 calls1 = [] ∧ linesOf out = [] := by
  have hflat : ∀ l : List AsmEvent, l.flatMap (hookLines 0) = [] := by
    intro l
    rw [List.flatMap_eq_nil_iff]
    intro e _
    cases e with
    | notInAny o => cases o <;> simp [hookLines]
    | complete r ms => simp [hookLines]
    | allAvailable => rfl
    | next c => rfl
  constructor
  · exact pass1Lines_zero calls1
  · have hw : s.want = 1 := by rw [pass1_want h1]; rfl
    have hn := afterPass1_null h1
    by_cases hc : Cb.after .way ∈ calls2
    · obtain ⟨a, b, rfl, ha⟩ : ∃ a b, calls2 = a ++ Cb.after .way :: b ∧ Cb.after .way ∉ a := by
        obtain ⟨a, b, e1, e2⟩ := List.eq_append_cons_of_mem hc
        exact ⟨a, b, e1, e2⟩
      rw [noisyPass2_append] at h
      rcases noisy_before 0 a s ha hn with ⟨f, e1, e2⟩ | ⟨s1, ev, ns, e1, e2, e3, e4, e5, e6⟩
      · rw [e2] at h; cases h
      · obtain ⟨s2, t2, ms, g1, g2, g3, g4, g5, g6, g7, g8, g9⟩ := noisy_after 0 s1 (by rw [e5, hw]) e6
        obtain ⟨s3, ev3, t3, ks, k1, k2, k3, k4, k5, k6⟩ := noisy_done 0 b s2 t2 g5 g6 g7 g8
        rw [e2] at h
        simp only [bind, Except.bind, noisyPass2, g1, g2, k2, pure, Except.pure] at h
        cases h
        rw [linesOf_append, linesOf_append, e4, g4, k4, hflat, hflat]
        rfl
    · rcases noisy_before 0 calls2 s hc hn with ⟨f, e1, e2⟩ | ⟨s1, ev, ns, e1, e2, e3, e4, e5, e6⟩
      · rw [e2] at h; cases h
      · rw [e2] at h
        cases h
        rw [e4, hflat]


/-! ### The first pass -/

theorem ignored_eq (r : Relation) (ms : List Member) :
    (ms.flatMap fun m => if !mpCfg.keep r m && decide (1 ≤ 1) then [ignoredLine r] else []) =
      (ms.filter fun m => decide (m.type ≠ 'w')).map fun _ =>
        txt "Ignored non-way member of multipolygon/boundary relation " ++ Text.intDec r.obj.id := by
  induction ms with
  | nil => rfl
  | cons m ms ih =>
    rw [List.flatMap_cons, ih, List.filter_cons]
    by_cases h : m.type = 'w'
    · simp [mpCfg, h]
    · simp [mpCfg, h, ignoredLine]

theorem pass1Lines_skip (a : List Cb) : ∀ b, (∀ c ∈ a, c ≠ .after .relation ∧ ∀ r, c ≠ .obj (.relation r)) →
    pass1Lines 1 (a ++ b) = pass1Lines 1 b := by
  induction a with
  | nil => intro b _; rfl
  | cons c a ih =>
    intro b h
    have h1 := h c (by simp)
    have h2 := ih b fun c hc => h c (by simp [hc])
    cases c with
    | obj o => cases o with
      | relation r => exact absurd rfl (h1.2 r)
      | node n => exact h2
      | way w => exact h2
    | after t => cases t with
      | relation => exact absurd rfl h1.1
      | node => exact h2
      | way => exact h2
      | unknown => exact h2
      | area => exact h2
    | init m => exact h2
    | before t => exact h2
    | final => exact h2

theorem pass1Lines_relations (rs : List Relation) (b : List Cb) :
    pass1Lines 1 (rs.map (fun r => Cb.obj (.relation r)) ++ Cb.after .relation :: b) =
      (rs.filter fun r => decide (IsMultipolygon r)).flatMap ignoredLines := by
  rw [← accepted_eq]
  induction rs with
  | nil => rfl
  | cons r rs ih =>
    rw [List.map_cons, List.cons_append, pass1Lines, ih, List.filter_cons]
    by_cases h : mpCfg.accept r = true
    · rw [if_pos h, if_pos h, List.flatMap_cons, ignored_eq]
      rfl
    · rw [if_neg h, if_neg h]
      rfl

/-- **C124**: in the first pass over a file in the usual order one line is printed for each member that is not a way of a
multipolygon relation. -/
theorem ignored_members (m : Meta) (ns : List Node) (ws : List Way) (rs : List Relation) :
    pass1Lines 1 (protocol m (fileOf ns ws rs)) = (rs.filter fun r => decide (IsMultipolygon r)).flatMap ignoredLines := by
  unfold fileOf
  rw [protocol_split m _ _ _ fileOf_nodes fileOf_ways (by simp [OsmObj.type])]
  show pass1Lines 1 (runCalls _ ++ _) = _
  rw [pass1Lines_skip, pass1Lines_skip]
  · cases rs with
    | nil => rfl
    | cons r rs =>
      have : runCalls ((r :: rs).map OsmObj.relation) =
          Cb.before .relation :: ((r :: rs).map (fun r => Cb.obj (.relation r)) ++ [Cb.after .relation]) := by
        simp [runCalls, OsmObj.type, List.map_map, Function.comp_def]
      rw [this, List.cons_append, List.append_assoc]
      show pass1Lines 1 (_ ++ Cb.after .relation :: [Cb.final]) = _
      exact pass1Lines_relations (r :: rs) _
  · intro c hc
    rcases mem_runCalls fileOf_ways hc with rfl | rfl | ⟨o, ho, rfl⟩
    · simp
    · simp
    · obtain ⟨w, -, rfl⟩ := List.mem_map.1 ho
      simp
  · intro c hc
    rcases mem_runCalls fileOf_nodes hc with rfl | rfl | ⟨o, ho, rfl⟩
    · simp
    · simp
    · obtain ⟨w, -, rfl⟩ := List.mem_map.1 ho
      simp

/-! ### The standard output of osmium_mpdump -/

theorem mpdumpCalls_app (wkt : List (Coords × List Coords) → List Char) (a b : List WholeCall) (ls : List Line) :
    mpdumpCalls wkt (a ++ b) = .ok ls →
    ∃ la lb, mpdumpCalls wkt a = .ok la ∧ mpdumpCalls wkt b = .ok lb ∧ ls = la ++ lb := by
  induction a generalizing ls with
  | nil => intro h; exact ⟨[], ls, rfl, h, rfl⟩
  | cons c a ih =>
    intro h
    cases c with
    | call c => exact ih ls h
    | area x g =>
      rw [List.cons_append, mpdumpCalls] at h
      rw [mpdumpCalls]
      cases hx : mpdumpArea wkt x g with
      | error e => rw [hx] at h; cases h
      | ok lx =>
        rw [hx] at h
        simp only at h
        cases hr : mpdumpCalls wkt (a ++ b) with
        | error e => rw [hr] at h; cases h
        | ok lr =>
          rw [hr] at h
          cases h
          obtain ⟨la, lb, h1, h2, rfl⟩ := ih lr hr
          exact ⟨lx ++ la, lb, by simp only [h1], h2, by simp⟩

theorem noise_events (wkt : List (Coords × List Coords) → List Char) (env : WholeEnv) (ev : List AsmEvent)
    (rest : List Noisy) (cs : List WholeCall) (ls : List Line) (h1 : wholeCalls env ev = .ok cs)
    (h2 : mpdumpCalls wkt cs = .ok ls) :
    mpdumpNoise wkt env (ev.map .event ++ rest) = (mpdumpNoise wkt env rest).map fun r => ls ++ r := by
  induction ev generalizing cs ls with
  | nil =>
    cases h1
    cases h2
    show mpdumpNoise wkt env rest = _
    cases mpdumpNoise wkt env rest <;> rfl
  | cons e ev ih =>
    rw [wholeCalls] at h1
    rw [List.map_cons, List.cons_append, mpdumpNoise]
    cases he : wholeHook env e with
    | error f => rw [he] at h1; cases h1
    | ok ca =>
      rw [he] at h1
      simp only at h1
      cases hr : wholeCalls env ev with
      | error f => rw [hr] at h1; cases h1
      | ok cb =>
        rw [hr] at h1
        cases h1
        obtain ⟨la, lb, k1, k2, rfl⟩ := mpdumpCalls_app wkt ca cb ls h2
        simp only [k1]
        rw [ih cb lb hr k2]
        cases mpdumpNoise wkt env rest with
        | error f => rfl
        | ok r => simp [Except.map]

theorem noise_lines (wkt : List (Coords × List Coords) → List Char) (env : WholeEnv) (l : List Line) (rest : List Noisy) :
    mpdumpNoise wkt env (l.map .line ++ rest) = (mpdumpNoise wkt env rest).map fun r => l ++ r := by
  induction l with
  | nil => cases h : mpdumpNoise wkt env rest <;> simp [h, Except.map]
  | cons x l ih =>
    rw [List.map_cons, List.cons_append, mpdumpNoise, ih]
    cases mpdumpNoise wkt env rest <;> rfl

theorem wholeCalls_app (env : WholeEnv) (a b : List AsmEvent) (cs : List WholeCall) (h : wholeCalls env (a ++ b) = .ok cs) :
    ∃ ca cb, wholeCalls env a = .ok ca ∧ wholeCalls env b = .ok cb ∧ cs = ca ++ cb := by
  induction a generalizing cs with
  | nil => exact ⟨[], cs, rfl, h, rfl⟩
  | cons e a ih =>
    rw [List.cons_append, wholeCalls] at h
    rw [wholeCalls]
    cases he : wholeHook env e with
    | error f => rw [he] at h; cases h
    | ok ce =>
      rw [he] at h
      simp only at h
      cases hr : wholeCalls env (a ++ b) with
      | error f => rw [hr] at h; cases h
      | ok cr =>
        rw [hr] at h
        cases h
        obtain ⟨ca, cb, h1, h2, rfl⟩ := ih cr hr
        exact ⟨ce ++ ca, cb, by simp only [h1]; rfl, h2, by simp⟩

theorem wholeCalls_next (env : WholeEnv) (b : List Cb) : wholeCalls env (b.map .next) = .ok (b.map .call) := by
  induction b with
  | nil => rfl
  | cons c b ih => simp only [List.map_cons, wholeCalls, wholeHook, ih]; rfl

theorem mpdumpCalls_next (wkt : List (Coords × List Coords) → List Char) (b : List Cb) :
    mpdumpCalls wkt (b.map .call) = .ok [] := by
  induction b with
  | nil => rfl
  | cons c b ih => exact ih

theorem lacksWay_located {ns : List Node} {unset : Position} {ws ws' : List Way}
    (hl : List.Forall₂ (LocatedBy ns unset) ws ws') (r : Relation) : LacksWay ws' r ↔ LacksWay ws r := by
  unfold LacksWay
  have hids : ws'.map (·.obj) = ws.map (·.obj) := located_ids hl
  have : ∀ us : List Way, ∀ i : Int, (∀ w ∈ us, w.obj.id ≠ i) ↔ ∀ o ∈ us.map (·.obj), o.id ≠ i := by
    intro us i; simp
  simp only [this, hids]

/-- **C124**: what osmium_mpdump writes to the standard output for a file in the usual order that has a way: first a line
for each member of a multipolygon relation that is not a way, then the areas as in C92, then the warning.  (Partial: the
case of an exception, a file without ways, and what C92 leaves out.) -/
theorem mpdump_stdout_partial {S T : Type} {pos : IdStore S Position} {neg : IdStore T Position}
    {okp okn : List (Nat × Position) → Prop} {up un : Nat → Res Position} {unset : Position}
    (wkt : List (Coords × List Coords) → List Char)
    (fp : Faithful pos okp up) (fn : Faithful neg okn un) (env : WholeEnv) (m : Meta)
    (ns : List Node) (ws : List Way) (rs : List Relation) (hd : DistinctObjects (fileOf ns ws rs))
    (hn : ∀ n ∈ ns, NegatableId n.obj.id) (hw : ∀ w ∈ ws, ∀ wn ∈ w.nodes, NegatableId wn.ref)
    (hokp : ∀ j, okp ((posOps (nodeCalls ns)).take j)) (hokn : ∀ j, okn ((negOps (nodeCalls ns)).take j))
    (hu : ∀ w ∈ ws, ∀ wn ∈ w.nodes, (∀ n ∈ ns, n.obj.id ≠ wn.ref) →
      (if 0 ≤ wn.ref then up wn.ref.toNat else un (-wn.ref).toNat) = .ok unset)
    (hws : ws ≠ []) (s : Asm) (h1 : Asm.AfterPass1 mpCfg (protocol m (fileOf ns ws rs)) s) (areas : List Line)
    (h : mpdumpMain wkt env pos neg s (protocol m (fileOf ns ws rs)) = .ok areas) :
    mpdumpStdout wkt env pos neg s (protocol m (fileOf ns ws rs)) =
      .ok ((rs.filter fun r => decide (IsMultipolygon r)).flatMap ignoredLines ++ areas ++
        warningLines (rs.filter fun r => decide (IsMultipolygon r ∧ LacksWay ws r))) := by
  obtain ⟨ws', hl, hcfw⟩ := coordinates_file fp fn m ns ws rs (distinct_nodes hd) hn hw hokp hokn hu
  have hlen := hl.length_eq
  have hws' : ws' ≠ [] := by
    rintro rfl
    exact hws (List.length_eq_zero_iff.1 hlen)
  obtain ⟨s', t', ev, b, k1, k2⟩ := noisy_file m m ns ws' ws rs (distinct_located hl hd) hws' s h1
  have hlack : ∀ r, LacksWay ws' r ↔ LacksWay ws r := lacksWay_located hl
  simp only [hlack] at k2
  unfold mpdumpMain secondPass at h
  unfold mpdumpStdout
  rw [hcfw] at h ⊢
  simp only [k1, k2] at h ⊢
  cases hc : wholeCalls env (ev ++ (AsmEvent.allAvailable :: .next (.after .way) :: b.map .next)) with
  | error f => rw [hc] at h; cases h
  | ok cs =>
    rw [hc] at h
    simp only at h
    obtain ⟨ca, cb, c1, c2, rfl⟩ := wholeCalls_app env _ _ cs hc
    obtain ⟨la, lb, l1, l2, rfl⟩ := mpdumpCalls_app wkt ca cb areas h
    have hcb : cb = (Cb.after .way :: b).map .call := by
      simp only [wholeCalls, wholeHook, wholeCalls_next] at c2
      cases c2
      rfl
    have hlast := noise_events wkt env _ [] cb lb c2 l2
    rw [List.append_nil] at hlast
    subst hcb
    rw [mpdumpCalls_next] at l2
    cases l2
    rw [List.append_assoc, noise_events wkt env ev _ ca la c1 l1, noise_lines, hlast, ignored_members]
    simp [mpdumpNoise, Except.map]

/-! ### The standard output of osmium_toogr2 -/

theorem wantedOf_ways (rels : List Relation) : wantedOf mpCfg 'n' rels = 0 ∧ wantedOf mpCfg 'r' rels = 0 ∧
    wantedOf mpCfg 'w' rels = (rels.map fun r => r.members.countP fun m => decide (m.type = 'w')).sum := by
  have hz : ∀ c : Char, c ≠ 'w' → wantedOf mpCfg c rels = 0 := by
    intro c hc
    unfold wantedOf
    rw [List.sum_eq_zero]
    intro x hx
    obtain ⟨r, -, rfl⟩ := List.mem_map.1 hx
    rw [List.countP_eq_zero]
    intro m _
    simp only [mpCfg, Bool.and_eq_true, beq_iff_eq, not_and]
    rintro h1 h2
    exact hc (by rw [← h2]; simpa using h1)
  refine ⟨hz 'n' (by decide), hz 'r' (by decide), ?_⟩
  unfold wantedOf
  congr 1
  apply List.map_congr_left
  intro r _
  apply List.countP_congr
  intro m _
  simp [mpCfg]

/-- **C124**: what osmium_toogr2 writes to the standard output for a file in the usual order that has a way: a line for each
member of a multipolygon relation that is not a way, the numbers of the multipolygon relations and of their ways with the
memory they take, and the warning.  The words `Used memory: ` are before or after the numbers, as the compiler likes.
(Partial: as `mpdump_stdout_partial`; the numbers must be smaller than `2^64`.) -/
theorem toogr2_stdout_partial {S T : Type} {pos : IdStore S Position} {neg : IdStore T Position}
    {okp okn : List (Nat × Position) → Prop} {up un : Nat → Res Position} {unset : Position}
    (early : Bool) (z : TypeSizes)
    (fp : Faithful pos okp up) (fn : Faithful neg okn un) (m : Meta)
    (ns : List Node) (ws : List Way) (rs : List Relation) (hd : DistinctObjects (fileOf ns ws rs))
    (hn : ∀ n ∈ ns, NegatableId n.obj.id) (hw : ∀ w ∈ ws, ∀ wn ∈ w.nodes, NegatableId wn.ref)
    (hokp : ∀ j, okp ((posOps (nodeCalls ns)).take j)) (hokn : ∀ j, okn ((negOps (nodeCalls ns)).take j))
    (hu : ∀ w ∈ ws, ∀ wn ∈ w.nodes, (∀ n ∈ ns, n.obj.id ≠ wn.ref) →
      (if 0 ≤ wn.ref then up wn.ref.toNat else un (-wn.ref).toNat) = .ok unset)
    (hws : ws ≠ []) (s : Asm) (h1 : Asm.AfterPass1 mpCfg (protocol m (fileOf ns ws rs)) s)
    (mps : List Relation) (hm : mps = rs.filter fun r => decide (IsMultipolygon r))
    (members : Nat) (hmem : members = (mps.map fun r => r.members.countP fun x => decide (x.type = 'w')).sum)
    (hz : 0 < z.member)
    (hfit : mps.length * (z.relInfo + z.relation) + members * (z.member + z.memberInfo) < 2 ^ 64) :
    ∃ numbers, toogr2Stdout early z pos neg s (protocol m (fileOf ns ws rs)) =
      .ok (asWritten (mps.flatMap ignoredLines) ++
        (if early then txt "Used memory: " ++ numbers else numbers ++ txt "Used memory: ") ++
        Text.natDec ((mps.length * (z.relInfo + z.relation) + members * (z.member + z.memberInfo)) / 1048576) ++
        txt " MB\n" ++ asWritten (warningLines (mps.filter fun r => decide (LacksWay ws r)))) ∧
      numbers = asWritten
        [txt "nR  = m_relations.size()             = " ++ Text.natDec mps.length,
         txt "nMN = m_member_info[NODE].size()     = " ++ txt "0",
         txt "nMW = m_member_info[WAY].size()      = " ++ Text.natDec members,
         txt "nMR = m_member_info[RELATION].size() = " ++ txt "0",
         txt "nM  = m_member_info[*].size()        = " ++ Text.natDec members,
         txt "sRI = sizeof(TRelationInfo)  = " ++ Text.natDec z.relInfo,
         txt "sR  = sizeof(Relation)       = " ++ Text.natDec z.relation,
         txt "sRM = sizeof(RelationMember) = " ++ Text.natDec z.member,
         txt "sMI = sizeof(MemberInfo)     = " ++ Text.natDec z.memberInfo,
         txt "nR * (sRI + sR) = " ++ Text.natDec (mps.length * (z.relInfo + z.relation)),
         txt "nM * sRM        = " ++ Text.natDec (members * z.member),
         txt "nM * sMI        = " ++ Text.natDec (members * z.memberInfo)] := by
  obtain ⟨ws', hl, hcfw⟩ := coordinates_file fp fn m ns ws rs (distinct_nodes hd) hn hw hokp hokn hu
  have hlen := hl.length_eq
  have hws' : ws' ≠ [] := by
    rintro rfl
    exact hws (List.length_eq_zero_iff.1 hlen)
  obtain ⟨s', out, k1, k2⟩ := warning_partial m ns ws' rs (distinct_located hl hd) hws' s
    (pass1_located m ns ws ws' rs unset hl s h1)
  have hlack : ∀ r, LacksWay ws' r ↔ LacksWay ws r := lacksWay_located hl
  obtain ⟨hrel, hend⟩ := asmRelations_file mpCfg m (ns.map OsmObj.node) (ws.map OsmObj.way) rs fileOf_nodes fileOf_ways
  change asmRelations mpCfg (protocol m (fileOf ns ws rs)) = _ at hrel
  change rs ≠ [] → Cb.after .relation ∈ protocol m (fileOf ns ws rs) at hend
  rw [accepted_eq, ← hm] at hrel
  have hend' : asmRelations mpCfg (protocol m (fileOf ns ws rs)) ≠ [] →
      Cb.after .relation ∈ protocol m (fileOf ns ws rs) := by
    intro hne
    apply hend
    rintro rfl
    rw [hrel, hm] at hne
    exact hne rfl
  obtain ⟨w1, w2, w3⟩ := wantedOf_ways mps
  obtain ⟨u1, u2⟩ := assembler_used mpCfg _ s z h1 hend' mps.length 0 members 0 members (by rw [hrel]) (by rw [hrel, w1])
    (by rw [hrel, w3, hmem]) (by rw [hrel, w2]) (by omega) hz hfit
  refine ⟨s.usedText z, ?_, ?_⟩
  · unfold toogr2Stdout
    rw [hcfw]
    simp only [k1]
    rw [u1, k2, ignored_members, ← hm]
    have : (rs.filter fun r => decide (IsMultipolygon r ∧ LacksWay ws' r)) =
        mps.filter fun r => decide (LacksWay ws r) := by
      rw [hm, List.filter_filter]
      apply List.filter_congr
      intro r _
      rw [← Bool.decide_and, decide_eq_decide, hlack, and_comm]
    rw [this]
  · have e0 : Text.natDec 0 = "0".toList := by decide
    have e1 : "\n".toList = ['\n'] := by decide
    rw [u2, e0, e1]
    simp only [asWritten, txt, List.flatMap_cons, List.flatMap_nil, List.append_nil, List.append_assoc]

/-- **C124, disagreement**: the output of osmium_toogr2 depends on the compiler: the two orders never give the same text. -/
theorem toogr2_stdout_order {S T : Type} (z : TypeSizes) (pos : IdStore S Position) (neg : IdStore T Position) (s : Asm)
    (calls : List Cb) (a b : List Char) (ha : toogr2Stdout true z pos neg s calls = .ok a)
    (hb : toogr2Stdout false z pos neg s calls = .ok b) : a ≠ b := by
  unfold toogr2Stdout at ha hb
  cases hc : cfwRun pos neg (pos.empty, neg.empty) calls with
  | error e => rw [hc] at ha; cases ha
  | ok out =>
    cases hp : noisyPass2 1 s out with
    | error e => simp only [hc, hp] at ha; cases ha
    | ok p =>
      simp only [hc, hp, if_true, Bool.false_eq_true, if_false, Except.ok.injEq] at ha hb
      rw [← ha, ← hb]
      intro h
      simp only [List.append_assoc, List.append_cancel_left_eq] at h
      have hx : ∃ t, s.usedText z = 'n' :: t := by
        have e : "nR  = m_relations.size()             = ".toList = 'n' :: "R  = m_relations.size()             = ".toList := by
          decide
        unfold Asm.usedText Asm.usedLines
        rw [List.flatMap_cons, e]
        exact ⟨_, rfl⟩
      have hy : ∃ t, txt "Used memory: " = 'U' :: t := ⟨txt "sed memory: ", by decide⟩
      obtain ⟨t, ht⟩ := hx
      obtain ⟨u, hu⟩ := hy
      rw [ht, hu] at h
      injection h with h _
      exact absurd h (by decide)

/-- **C124, disagreement**: the end of the ways is only reported if there are ways.  In a file without ways no warning is
printed, although every multipolygon relation that has a way as a member lacks it. -/
theorem no_warning_without_ways (m : Meta) (ns : List Node) (rs : List Relation) (s : Asm) :
    (noisyPass2 1 s (protocol m (fileOf ns [] rs))).map (fun p => linesOf p.2) = .ok [] ∧
    ∀ r ∈ rs, (∃ x ∈ r.members, x.type = 'w') → LacksWay [] r := by
  have hquiet : ∀ (b : List Cb) (s : Asm), (∀ c ∈ b, c ≠ .after .way ∧ ∀ w, c ≠ .obj (.way w)) →
      noisyPass2 1 s b = .ok (s, b.map fun c => .event (.next c)) := by
    intro b
    induction b with
    | nil => intro s _; rfl
    | cons c b ih =>
      intro s h
      have h1 := pass2_rest [c] s (by simpa using h c (by simp))
      rw [Asm.pass2] at h1
      cases hs : s.step mpCfg c with
      | error f => rw [hs] at h1; cases h1
      | ok p =>
        rw [hs] at h1
        obtain ⟨e1, e2⟩ : p.1 = s ∧ p.2 ++ [] = [AsmEvent.next c] := by
          simp only [bind, Except.bind, Asm.pass2, pure, Except.pure, Except.ok.injEq, Prod.mk.injEq] at h1
          exact h1
        rw [List.append_nil] at e2
        rw [noisyPass2, hs]
        simp only [bind, Except.bind, e1, e2, noisyHooks, pure, Except.pure,
          ih s fun c hc => h c (by simp [hc])]
        rfl
  refine ⟨?_, fun r _ ⟨x, hx, ht⟩ => ⟨x, hx, ht, by simp⟩⟩
  rw [hquiet]
  · show Except.ok (linesOf _) = _
    unfold linesOf
    rw [List.filterMap_map]
    simp
  · unfold fileOf
    rw [protocol_split m _ _ _ fileOf_nodes fileOf_ways (by simp [OsmObj.type])]
    intro c hc
    rcases List.mem_cons.1 hc with rfl | hc
    · simp
    · rcases List.mem_append.1 hc with hc | hc
      · rcases mem_runCalls fileOf_nodes hc with rfl | rfl | ⟨o, ho, rfl⟩
        · simp
        · simp
        · obtain ⟨n, -, rfl⟩ := List.mem_map.1 ho
          simp
      · replace hc : c ∈ runCalls (rs.map OsmObj.relation) ++ [Cb.final] := hc
        rcases List.mem_append.1 hc with hc | hc
        · rcases mem_runCalls (t := .relation) (by simp [OsmObj.type]) hc with rfl | rfl | ⟨o, ho, rfl⟩
          · simp
          · simp
          · obtain ⟨r, -, rfl⟩ := List.mem_map.1 ho
            simp
        · simp only [List.mem_singleton] at hc
          subst hc
          simp

/-! ### An example: the file of the squares (Multipolygon/Pipeline) -/

theorem pipe_distinct : DistinctObjects (fileOf pipeNodes pipeWays pipeRelations) := by
  unfold DistinctObjects; decide +kernel

/-- Relation 9 has a node as a member. -/
example : pass1Lines 1 pipeCalls = [txt "Ignored non-way member of multipolygon/boundary relation 9"] := by
  decide +kernel

/-- The hypotheses of the theorem hold for the file, and what it says is this: relation 10 lacks a way. -/
example : ∃ s' out, noisyPass2 1 pipeAsm pipeCalls = .ok (s', out) ∧
    linesOf out = [txt "Warning! Some member ways missing for these multipolygon relations: 10"] := by
  obtain ⟨s', out, h1, h2⟩ := warning_partial (Meta.new false) pipeNodes pipeWays pipeRelations pipe_distinct (by decide)
    pipeAsm pipe_pass1
  refine ⟨s', out, h1, h2.trans ?_⟩
  decide +kernel

/-- The same file without its ways: no warning. -/
example : ∀ s, (noisyPass2 1 s (protocol (Meta.new false) (fileOf pipeNodes [] pipeRelations))).map
      (fun p => linesOf p.2) = .ok [] ∧
    (pipeRelations.filter fun r => decide (IsMultipolygon r ∧ LacksWay [] r)).map (·.obj.id) = [9, 10] := by
  intro s
  exact ⟨(no_warning_without_ways _ _ _ s).1, by decide +kernel⟩

/-- A file of one way and two relations: with level 2 the areas are announced as well. -/
example : (noisyPass2 2 (((Asm.new mpCfg).pass1 mpCfg (protocol (Meta.new false) (fileOf [] [squareWay 1 1 0 0 10 []]
      [⟨{ squareRelation.obj with id := 8 }, [⟨'w', 1, ""⟩]⟩, ⟨{ squareRelation.obj with id := 10 }, [⟨'w', 77, ""⟩]⟩]))).1)
      (protocol (Meta.new false) (fileOf [] [squareWay 1 1 0 0 10 []] []))).toOption.map (fun p => linesOf p.2) =
    some [txt "MultiPolygon from relation 8",
      txt "Warning! Some member ways missing for these multipolygon relations: 10"] := by
  decide +kernel

end Osmium

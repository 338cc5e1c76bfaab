import Verif.Common.Num
import Verif.Common.Res
import Verif.Common.Text

/-
C71: the progress handler, handler/progress.hpp.

The clock is the environment: every callback is given with the two times it could read.  Rates are
computed with exact numbers here, the program rounds to `float`.
-/
namespace Osmium

/-- progress.hpp 42 `timeval`. -/
structure Stamp where
  sec : Int
  usec : Int
deriving DecidableEq, Repr

/-- progress.hpp 75: microseconds between two times (`long` is assumed to be wide enough). -/
def Stamp.minus (a b : Stamp) : Int := (a.sec - b.sec) * 1000000 + (a.usec - b.usec)

/-- The three kinds of objects counted. (handler/progress.hpp 129-154) -/
inductive PKind
  | node
  | way
  | relation
deriving DecidableEq, Repr

/-- progress.hpp 49-61: the members.  A `bool` stands for the result of `isatty(1)`. -/
structure ProgressSt where
  nodes : Int
  ways : Int
  relations : Int
  step : Int
  tty : Bool
  firstNode : Stamp
  firstWay : Stamp
  firstRelation : Stamp
deriving DecidableEq, Repr

/-- What is printed. (handler/progress.hpp 61-127 and 156-165) -/
inductive POut
  /-- 115 -/
  | hideCursor
  /-- 61-93: the counts and the rate, if there is one to show -/
  | display (nodes ways relations : Int) (rate : Option (PKind × Int))
  /-- 163-187 -/
  | average (rates : List (PKind × Int))
  /-- 119 -/
  | showCursor
deriving DecidableEq, Repr

/-- progress.hpp 75-76 and its copies: objects per second, as an `int`.  A division by zero yields an
infinite `float`; converting that, or a number that is too large, to `int` is undefined. -/
def perSecond (count diff : Int) : Res Int :=
  if diff = 0 then .error .ub
  else
    let q := Int.tdiv (count * 1000000) diff
    if -2147483648 ≤ q ∧ q ≤ 2147483647 then .ok q else .error .ub

/-- progress.hpp 105-114: the constructor. -/
def ProgressSt.new (step : Int) (tty : Bool) : ProgressSt :=
  ⟨0, 0, 0, step, tty, ⟨0, 0⟩, ⟨0, 0⟩, ⟨0, 0⟩⟩

/-- progress.hpp 61-93 `update_display`. -/
def updateDisplay (s : ProgressSt) (perSec : Bool) (now : Stamp) : Res (List POut) :=
  if perSec then
    if s.relations > 0 then do
      let r ← perSecond s.relations (now.minus s.firstRelation)
      return [.display s.nodes s.ways s.relations (some (.relation, r))]
    else if s.ways > 0 then do
      let r ← perSecond s.ways (now.minus s.firstWay)
      return [.display s.nodes s.ways s.relations (some (.way, r))]
    else if s.nodes > 0 then do
      let r ← perSecond s.nodes (now.minus s.firstNode)
      return [.display s.nodes s.ways s.relations (some (.node, r))]
    else .ok [.display s.nodes s.ways s.relations none]
  else .ok [.display s.nodes s.ways s.relations none]

/-- progress.hpp 122-127 `init`. -/
def progressInit (s : ProgressSt) (now : Stamp) : Res (List POut) :=
  if s.tty then do
    let d ← updateDisplay s true now
    return .hideCursor :: d
  else .ok []

/-- progress.hpp 130-132, 139-141, 148-150: the time of the first object of a kind. -/
def ProgressSt.noteFirst (s : ProgressSt) (t : Stamp) : PKind → ProgressSt
  | .node => { s with firstNode := if s.firstNode.sec = 0 then t else s.firstNode }
  | .way => { s with firstWay := if s.firstWay.sec = 0 then t else s.firstWay }
  | .relation => { s with firstRelation := if s.firstRelation.sec = 0 then t else s.firstRelation }

/-- progress.hpp 133, 142, 151: the increment of a counter. -/
def ProgressSt.increment (s : ProgressSt) : PKind → ProgressSt
  | .node => { s with nodes := wrapU64 (s.nodes + 1) }
  | .way => { s with ways := wrapU64 (s.ways + 1) }
  | .relation => { s with relations := wrapU64 (s.relations + 1) }

/-- progress.hpp 133, 142, 151: the counter of a kind. -/
def ProgressSt.counter (s : ProgressSt) : PKind → Int
  | .node => s.nodes
  | .way => s.ways
  | .relation => s.relations

/-- progress.hpp 133-135 and its copies: the step is converted to an unsigned number; the remainder
of a division by zero is undefined. -/
def progressShow (s : ProgressSt) (k : PKind) (t2 : Stamp) : Res (ProgressSt × List POut) :=
  if wrapU64 s.step = 0 then .error .ub
  else if s.counter k % wrapU64 s.step = 0 then do
    let d ← updateDisplay s true t2
    return (s, d)
  else .ok (s, [])

/-- progress.hpp 129-154 `node`, `way` and `relation`. -/
def progressCount (s : ProgressSt) (k : PKind) (t1 t2 : Stamp) : Res (ProgressSt × List POut) :=
  let s := s.noteFirst t1 k
  if s.tty then progressShow (s.increment k) k t2 else .ok (s, [])

/-- progress.hpp 168-172 and its copies: one of the averages, if there are such objects. -/
def averageRate (k : PKind) (count diff : Int) : Res (List (PKind × Int)) :=
  if count > 0 then do
    let r ← perSecond count diff
    return [(k, r)]
  else .ok []

/-- progress.hpp 156-189 `final`. -/
def progressFinal (s : ProgressSt) (now : Stamp) : Res (List POut) :=
  if s.tty then do
    let d ← updateDisplay s false now
    let a ← averageRate .node s.nodes (s.firstWay.minus s.firstNode)
    let b ← averageRate .way s.ways (s.firstRelation.minus s.firstWay)
    let c ← averageRate .relation s.relations (now.minus s.firstRelation)
    return d ++ [.average (a ++ b ++ c), .showCursor]
  else .ok []

/-- An object, and the times its callback could read from the clock. (handler/progress.hpp
129-154: the calls of `time()`) -/
structure PEvent where
  kind : PKind
  t1 : Stamp
  t2 : Stamp
deriving DecidableEq, Repr

/-- The callbacks for the objects of a file. (handler/progress.hpp 129-154) -/
def progressObjects (s : ProgressSt) : List PEvent → Res (ProgressSt × List POut)
  | [] => .ok (s, [])
  | e :: es => do
    let (s, a) ← progressCount s e.kind e.t1 e.t2
    let (s, b) ← progressObjects s es
    return (s, a ++ b)

/-- All callbacks for a file: `init`, the objects, `final`. (handler/progress.hpp 122-165) -/
def progressRun (step : Int) (tty : Bool) (t0 : Stamp) (es : List PEvent) (t1 : Stamp) :
    Res (List POut) := do
  let s := ProgressSt.new step tty
  let a ← progressInit s t0
  let (s, b) ← progressObjects s es
  let c ← progressFinal s t1
  return a ++ b ++ c

namespace Spec

/-- How many objects of a kind there are. (specification, no counterpart in /repo) -/
def countKind (k : PKind) (es : List PEvent) : Nat := (es.filter fun e => e.kind = k).length

/-- The counts of nodes, ways and relations. (specification, no counterpart in /repo) -/
def counts (es : List PEvent) : Int × Int × Int :=
  (countKind .node es, countKind .way es, countKind .relation es)

/-- The counts on the terminal, one after the other. (specification, no counterpart in /repo) -/
def shownCounts (o : List POut) : List (Int × Int × Int) :=
  o.filterMap fun
    | .display n w r _ => some (n, w, r)
    | _ => none

/-- The counts at the moments when an object arrives that is the `step`th, the `2 * step`th, ... of
its kind; `seen` are the objects before. (specification, no counterpart in /repo) -/
def dueCounts (step : Nat) (seen : List PEvent) : List PEvent → List (Int × Int × Int)
  | [] => []
  | e :: es =>
    (if step ∣ countKind e.kind (seen ++ [e]) then [counts (seen ++ [e])] else []) ++
      dueCounts step (seen ++ [e]) es

/-- The sequence of switches of the cursor. (specification, no counterpart in /repo) -/
def cursor (o : List POut) : List POut := o.filter fun x => x = .hideCursor ∨ x = .showCursor

end Spec
open Spec

/-- The state after some objects. (helper for statements and proofs, no counterpart in /repo) -/
def ProgressSt.Has (s : ProgressSt) (step : Int) (es : List PEvent) : Prop :=
  (s.nodes, s.ways, s.relations) = counts es ∧ s.step = step ∧ s.tty = true

theorem updateDisplay_shown {s : ProgressSt} {b : Bool} {t : Stamp} {o : List POut}
    (h : updateDisplay s b t = .ok o) : ∃ r, o = [.display s.nodes s.ways s.relations r] := by
  unfold updateDisplay at h
  split at h
  · split at h
    · cases hp : perSecond s.relations (t.minus s.firstRelation) with
      | error e => rw [hp] at h; cases h
      | ok r => rw [hp] at h; cases h; exact ⟨_, rfl⟩
    · split at h
      · cases hp : perSecond s.ways (t.minus s.firstWay) with
        | error e => rw [hp] at h; cases h
        | ok r => rw [hp] at h; cases h; exact ⟨_, rfl⟩
      · split at h
        · cases hp : perSecond s.nodes (t.minus s.firstNode) with
          | error e => rw [hp] at h; cases h
          | ok r => rw [hp] at h; cases h; exact ⟨_, rfl⟩
        · cases h; exact ⟨_, rfl⟩
  · cases h; exact ⟨_, rfl⟩

theorem countKind_snoc (k : PKind) (es : List PEvent) (e : PEvent) :
    countKind k (es ++ [e]) = countKind k es + if e.kind = k then 1 else 0 := by
  unfold countKind
  rw [List.filter_append, List.length_append]
  by_cases h : e.kind = k <;> simp [h]

theorem countKind_le (k : PKind) (es : List PEvent) : countKind k es ≤ es.length :=
  List.length_filter_le _ _

theorem progressShow_has {s s' : ProgressSt} {step : Int} {es : List PEvent} {k : PKind} {t : Stamp}
    {o : List POut} (hs : s.Has step es) (hstep : 0 < step ∧ step < 2147483648)
    (h : progressShow s k t = .ok (s', o)) :
    s'.Has step es ∧ shownCounts o = (if step.toNat ∣ countKind k es then [counts es] else []) ∧
    cursor o = [] := by
  have w1 : wrapU64 step = step := wrapU64_of_in (by unfold InU64; omega)
  have d : ∀ n : Nat, (((n : Int) % step = 0) ↔ step.toNat ∣ n) := by
    intro n
    rw [← Int.natCast_dvd_natCast, Int.toNat_of_nonneg (by omega), Int.dvd_iff_emod_eq_zero]
  have hc : s.counter k = countKind k es := by
    have := hs.1
    unfold counts at this
    simp only [Prod.mk.injEq] at this
    cases k
    · exact this.1
    · exact this.2.1
    · exact this.2.2
  unfold progressShow at h
  rw [hs.2.1, w1, if_neg (by omega), hc] at h
  by_cases hz : (countKind k es : Int) % step = 0
  · rw [if_pos hz] at h
    rw [if_pos ((d _).mp hz)]
    cases hu : updateDisplay s true t with
    | error e => rw [hu] at h; cases h
    | ok x =>
      rw [hu] at h
      cases h
      obtain ⟨r, rfl⟩ := updateDisplay_shown hu
      refine ⟨hs, ?_, rfl⟩
      rw [← hs.1]
      rfl
  · rw [if_neg hz] at h
    rw [if_neg (fun h => hz ((d _).mpr h))]
    cases h
    exact ⟨hs, rfl, rfl⟩

theorem progressCount_has {s s' : ProgressSt} {step : Int} {seen : List PEvent} {e : PEvent} {o : List POut}
    (hs : s.Has step seen) (hstep : 0 < step ∧ step < 2147483648) (hn : seen.length + 1 < 18446744073709551616)
    (h : progressCount s e.kind e.t1 e.t2 = .ok (s', o)) :
    s'.Has step (seen ++ [e]) ∧
    shownCounts o = (if step.toNat ∣ countKind e.kind (seen ++ [e]) then [counts (seen ++ [e])] else []) ∧
    cursor o = [] := by
  obtain ⟨hc, h1, h2⟩ := hs
  have hl := countKind_le
  have w : ∀ k, wrapU64 ((countKind k seen : Int) + 1) = (countKind k seen : Int) + 1 := by
    intro k
    have := hl k seen
    exact wrapU64_of_in (by unfold InU64; omega)
  have f2 : (s.noteFirst e.t1 e.kind).tty = true := by cases e.kind <;> exact h2
  unfold progressCount at h
  dsimp only at h
  rw [if_pos f2] at h
  refine progressShow_has ⟨?_, ?_, ?_⟩ hstep h
  · unfold counts at hc ⊢
    simp only [Prod.mk.injEq] at hc
    obtain ⟨c1, c2, c3⟩ := hc
    rw [countKind_snoc, countKind_snoc, countKind_snoc]
    cases hk : e.kind
    · simp [ProgressSt.noteFirst, ProgressSt.increment, c1, c2, c3, w]
    · simp [ProgressSt.noteFirst, ProgressSt.increment, c1, c2, c3, w]
    · simp [ProgressSt.noteFirst, ProgressSt.increment, c1, c2, c3, w]
  · cases e.kind <;> exact h1
  · cases e.kind <;> exact h2

theorem progressObjects_has {s s' : ProgressSt} {step : Int} {seen es : List PEvent} {o : List POut}
    (hs : s.Has step seen) (hstep : 0 < step ∧ step < 2147483648)
    (hn : (seen ++ es).length < 18446744073709551616) (h : progressObjects s es = .ok (s', o)) :
    s'.Has step (seen ++ es) ∧ shownCounts o = dueCounts step.toNat seen es ∧ cursor o = [] := by
  induction es generalizing s seen o with
  | nil => cases h; simpa [dueCounts, shownCounts, cursor] using hs
  | cons e es ih =>
    unfold progressObjects at h
    cases h1 : progressCount s e.kind e.t1 e.t2 with
    | error x => rw [h1] at h; cases h
    | ok p =>
      obtain ⟨s1, a⟩ := p
      rw [h1] at h
      cases h2 : progressObjects s1 es with
      | error x => simp only [bind, Except.bind, h2] at h; cases h
      | ok p =>
        obtain ⟨s2, b⟩ := p
        simp only [bind, Except.bind, h2] at h
        cases h
        rw [List.length_append, List.length_cons] at hn
        obtain ⟨k1, k2, k3⟩ := progressCount_has hs hstep (by omega) h1
        have hn' : (seen ++ [e] ++ es).length < 18446744073709551616 := by
          simp only [List.length_append, List.length_cons, List.length_nil]; omega
        obtain ⟨j1, j2, j3⟩ := ih k1 hn' h2
        rw [List.append_assoc, List.singleton_append] at j1
        refine ⟨j1, ?_, ?_⟩
        · unfold shownCounts at k2 j2 ⊢
          rw [List.filterMap_append, k2, j2]
          rfl
        · unfold cursor at k3 j3 ⊢
          rw [List.filter_append, k3, j3]
          rfl

private theorem progress_bind_ok {α β : Type} {x : Res α} {f : α → Res β} {b : β} (h : (x >>= f) = .ok b) :
    ∃ a, x = .ok a ∧ f a = .ok b := by
  cases x with
  | error e => cases h
  | ok a => exact ⟨a, rfl, h⟩

theorem progressFinal_shown {s : ProgressSt} {t : Stamp} {o : List POut} (ht : s.tty = true)
    (h : progressFinal s t = .ok o) :
    shownCounts o = [(s.nodes, s.ways, s.relations)] ∧ cursor o = [.showCursor] := by
  unfold progressFinal at h
  rw [if_pos ht] at h
  obtain ⟨d, h1, h⟩ := progress_bind_ok h
  obtain ⟨a, _, h⟩ := progress_bind_ok h
  obtain ⟨b, _, h⟩ := progress_bind_ok h
  obtain ⟨c, _, h⟩ := progress_bind_ok h
  obtain ⟨r, rfl⟩ := updateDisplay_shown h1
  cases h
  exact ⟨rfl, rfl⟩

/-- **C71**: whenever the terminal shows counts, they are the numbers of objects read so far: zeros at
the beginning, then after each object that is the `step`th, `2 * step`th, ... of its kind, and the
totals at the end.  The cursor is hidden once and shown again once, after everything else.
For every positive step and every sequence of objects and times, if no rate is undefined. -/
theorem progress_counts_partial (step : Int) (t0 t1 : Stamp) (es : List PEvent) (o : List POut)
    (hstep : 0 < step ∧ step < 2147483648) (hn : es.length < 18446744073709551616)
    (h : progressRun step true t0 es t1 = .ok o) :
    shownCounts o = (0, 0, 0) :: dueCounts step.toNat [] es ++ [counts es] ∧
    cursor o = [.hideCursor, .showCursor] ∧ o.head? = some .hideCursor ∧ o.getLast? = some .showCursor := by
  unfold progressRun at h
  obtain ⟨a, h1, h⟩ := progress_bind_ok h
  obtain ⟨⟨s, b⟩, h2, h⟩ := progress_bind_ok h
  obtain ⟨c, h3, h⟩ := progress_bind_ok h
  cases h
  have e1 : a = [.hideCursor, .display 0 0 0 none] := by
    have : progressInit (ProgressSt.new step true) t0 = .ok [.hideCursor, .display 0 0 0 none] := rfl
    rw [this] at h1
    cases h1
    rfl
  obtain ⟨k1, k2, k3⟩ := progressObjects_has (seen := []) (s := ProgressSt.new step true) ⟨rfl, rfl, rfl⟩ hstep
    (by simpa using hn) h2
  obtain ⟨f1, f2⟩ := progressFinal_shown k1.2.2 h3
  have hc := k1.1
  rw [List.nil_append] at hc
  rw [hc] at f1
  subst e1
  unfold shownCounts at k2 f1 ⊢
  unfold cursor at k3 f2 ⊢
  refine ⟨?_, ?_, rfl, ?_⟩
  · rw [List.filterMap_append, List.filterMap_append, k2, f1]
    rfl
  · rw [List.filter_append, List.filter_append, k3, f2]
    rfl
  · unfold progressFinal at h3
    rw [if_pos k1.2.2] at h3
    obtain ⟨d, _, h⟩ := progress_bind_ok h3
    obtain ⟨x, _, h⟩ := progress_bind_ok h
    obtain ⟨y, _, h⟩ := progress_bind_ok h
    obtain ⟨z, _, h⟩ := progress_bind_ok h
    cases h
    rw [List.getLast?_append, List.getLast?_append]
    rfl

/-- If standard output is not a terminal nothing is printed, whatever the step and the times are. -/
theorem progress_quiet (step : Int) (t0 t1 : Stamp) (es : List PEvent) :
    progressRun step false t0 es t1 = .ok [] := by
  have h : ∀ (s : ProgressSt), s.tty = false →
      ∃ s', s'.tty = false ∧ progressObjects s es = .ok (s', []) := by
    induction es with
    | nil => exact fun s hs => ⟨s, hs, rfl⟩
    | cons e es ih =>
      intro s hs
      obtain ⟨k, a, b⟩ := e
      have : ∃ s1, s1.tty = false ∧ progressCount s k a b = .ok (s1, []) := by
        have hf : (s.noteFirst a k).tty = false := by cases k <;> exact hs
        refine ⟨s.noteFirst a k, hf, ?_⟩
        unfold progressCount
        dsimp only
        rw [if_neg (by simp [hf])]
      obtain ⟨s1, h1, e1⟩ := this
      obtain ⟨s2, h2, e2⟩ := ih s1 h1
      refine ⟨s2, h2, ?_⟩
      simp only [progressObjects, bind, Except.bind, e1, e2]
      rfl
  obtain ⟨s', h1, h2⟩ := h (ProgressSt.new step false) rfl
  have f : progressFinal s' t1 = .ok [] := by
    unfold progressFinal
    rw [if_neg (by simp [h1])]
  unfold progressRun
  have i : progressInit (ProgressSt.new step false) t0 = .ok [] := rfl
  simp only [bind, Except.bind, i, h2, f]
  rfl

/-- What is missing: with step 0 the first object is undefined behaviour on a terminal, ... -/
theorem progress_step_zero (t0 t1 : Stamp) (e : PEvent) (es : List PEvent) :
    progressRun 0 true t0 (e :: es) t1 = .error .ub := by
  obtain ⟨k, a, b⟩ := e
  have : progressCount (ProgressSt.new 0 true) k a b = .error .ub := by cases k <;> rfl
  have i : progressInit (ProgressSt.new 0 true) t0 = .ok [.hideCursor, .display 0 0 0 none] := rfl
  unfold progressRun
  simp only [bind, Except.bind, i, progressObjects, this]

/-- ... a negative step is the same as a very large one, ... -/
theorem progress_step_negative :
    progressRun (-1) true ⟨100, 0⟩ [⟨.node, ⟨100, 0⟩, ⟨100, 5⟩⟩, ⟨.way, ⟨101, 0⟩, ⟨101, 5⟩⟩] ⟨102, 0⟩ =
      .ok [.hideCursor, .display 0 0 0 none, .display 1 1 0 none, .average [(.node, 1), (.way, 0)], .showCursor] := by
  rfl

private theorem progressShow_ub {s : ProgressSt} {k : PKind} {t : Stamp} (h : updateDisplay s true t = .error .ub)
    (h1 : wrapU64 s.step ≠ 0) (h2 : s.counter k % wrapU64 s.step = 0) : progressShow s k t = .error .ub := by
  unfold progressShow
  rw [if_neg h1, if_pos h2, h]
  rfl

/-- ... two objects in the same microsecond, one of them the `step`th, are undefined behaviour, and so
are a node and the first way in the same microsecond (at the end), ... -/
theorem progress_same_microsecond (t0 t1 t : Stamp) :
    progressRun 1 true t0 [⟨.node, t, t⟩] t1 = .error .ub ∧
    progressRun 1000 true t0 [⟨.node, ⟨100, 0⟩, t⟩, ⟨.way, ⟨100, 0⟩, t⟩] t1 = .error .ub := by
  refine ⟨?_, rfl⟩
  have h : ∀ c, perSecond c (t.minus t) = .error .ub := by
    intro c
    unfold perSecond Stamp.minus
    simp
  have i : progressInit (ProgressSt.new 1 true) t0 = .ok [.hideCursor, .display 0 0 0 none] := rfl
  have : progressCount (ProgressSt.new 1 true) .node t t = .error .ub := by
    have u : updateDisplay ⟨1, 0, 0, 1, true, t, ⟨0, 0⟩, ⟨0, 0⟩⟩ true t = .error .ub := by
      simp only [updateDisplay, h]
      rfl
    have e : progressCount (ProgressSt.new 1 true) .node t t =
        progressShow ⟨1, 0, 0, 1, true, t, ⟨0, 0⟩, ⟨0, 0⟩⟩ .node t := rfl
    rw [e]
    exact progressShow_ub u (show wrapU64 1 ≠ 0 by decide) (show (1 : Int) % wrapU64 1 = 0 by decide)
  unfold progressRun
  simp only [bind, Except.bind, i, progressObjects, this]

/-- ... and without ways the average of the nodes at the end is the wrong number: two nodes in half a
second, and an average of zero; the average of ways without relations is wrong in the same way. -/
theorem progress_average_without_ways :
    progressRun 1000 true ⟨1300000000, 0⟩
      [⟨.node, ⟨1300000000, 0⟩, ⟨0, 0⟩⟩, ⟨.node, ⟨1300000000, 500000⟩, ⟨0, 0⟩⟩] ⟨1300000000, 500000⟩ =
      .ok [.hideCursor, .display 0 0 0 none, .display 2 0 0 none, .average [(.node, 0)], .showCursor] := by
  rfl

/-- A concrete case for `progress_counts_partial`. -/
example :
    progressRun 2 true ⟨100, 0⟩
      [⟨.node, ⟨100, 1⟩, ⟨0, 0⟩⟩, ⟨.node, ⟨100, 3⟩, ⟨100, 5⟩⟩, ⟨.way, ⟨101, 0⟩, ⟨0, 0⟩⟩,
       ⟨.node, ⟨101, 3⟩, ⟨101, 5⟩⟩, ⟨.relation, ⟨102, 0⟩, ⟨102, 0⟩⟩] ⟨103, 0⟩ =
      .ok [.hideCursor, .display 0 0 0 none, .display 2 0 0 (some (.node, 500000)), .display 3 1 1 none,
        .average [(.node, 3), (.way, 1), (.relation, 1)], .showCursor] := by
  rfl

end Osmium

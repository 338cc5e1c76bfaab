import Verif.Handler.Progress

/-
C71: the rates shown by the progress handler.
-/
namespace Osmium
open Spec

namespace Spec

/-- A time in microseconds. (specification, no counterpart in /repo) -/
def micros (t : Stamp) : Int := t.sec * 1000000 + t.usec

/-- When the first object of a kind came (the beginning of 1970 if there is none). -/
def firstAt (k : PKind) (es : List PEvent) : Stamp :=
  match es.find? fun e => e.kind = k with
  | some e => e.t1
  | none => ⟨0, 0⟩

/-- Objects per second, without the fraction. (specification, no counterpart in /repo) -/
def rateOf (count : Nat) (fromT toT : Stamp) : Int := Int.tdiv (count * 1000000) (micros toT - micros fromT)

/-- The rate to be shown after some objects: that of the relations once there are relations, before that
that of the ways once there are ways, and before that that of the nodes. (specification, no counterpart in /repo) -/
def rateNow (es : List PEvent) (now : Stamp) : Option (PKind × Int) :=
  if 0 < countKind .relation es then some (.relation, rateOf (countKind .relation es) (firstAt .relation es) now)
  else if 0 < countKind .way es then some (.way, rateOf (countKind .way es) (firstAt .way es) now)
  else if 0 < countKind .node es then some (.node, rateOf (countKind .node es) (firstAt .node es) now)
  else none

/-- The rates on the terminal, one after the other. (specification, no counterpart in /repo) -/
def shownRates (o : List POut) : List (Option (PKind × Int)) :=
  o.filterMap fun
    | .display _ _ _ r => some r
    | _ => none

/-- The rates at the moments when an object arrives that is the `step`th, the `2 * step`th, ... of its
kind; `seen` are the objects before. (specification, no counterpart in /repo) -/
def dueRates (step : Nat) (seen : List PEvent) : List PEvent → List (Option (PKind × Int))
  | [] => []
  | e :: es =>
    (if step ∣ countKind e.kind (seen ++ [e]) then [rateNow (seen ++ [e]) e.t2] else []) ++
      dueRates step (seen ++ [e]) es

/-- An average, if there is anything to average. (specification, no counterpart in /repo) -/
def averageOf (k : PKind) (es : List PEvent) (toT : Stamp) : List (PKind × Int) :=
  if 0 < countKind k es then [(k, rateOf (countKind k es) (firstAt k es) toT)] else []

/-- The averages on the terminal. (specification, no counterpart in /repo) -/
def averages (o : List POut) : List (List (PKind × Int)) :=
  o.filterMap fun
    | .average l => some l
    | _ => none

end Spec

/-- The times noted after some objects. (helper for statements and proofs, no counterpart in /repo) -/
def ProgressSt.Timed (s : ProgressSt) (es : List PEvent) : Prop :=
  s.firstNode = firstAt .node es ∧ s.firstWay = firstAt .way es ∧ s.firstRelation = firstAt .relation es

theorem firstAt_snoc (k : PKind) (es : List PEvent) (e : PEvent) (h : ∀ x ∈ es, x.t1.sec ≠ 0) :
    firstAt k (es ++ [e]) =
      if e.kind = k ∧ (firstAt k es).sec = 0 then e.t1 else firstAt k es := by
  unfold firstAt
  rw [List.find?_append]
  cases hf : es.find? fun e => decide (e.kind = k) with
  | some x =>
    have := h x (List.mem_of_find?_eq_some hf)
    simp [this]
  | none =>
    by_cases hk : e.kind = k <;> simp [hk]

theorem perSecond_ok {c : Nat} {a b : Stamp} {r : Int} (h : perSecond c (b.minus a) = .ok r) :
    r = rateOf c a b := by
  unfold perSecond at h
  split at h
  · cases h
  · dsimp only at h
    split at h
    · cases h
      unfold rateOf micros Stamp.minus
      congr 1
      omega
    · cases h

private theorem rates_bind_ok {α β : Type} {x : Res α} {f : α → Res β} {b : β} (h : (x >>= f) = .ok b) :
    ∃ a, x = .ok a ∧ f a = .ok b := by
  cases x with
  | error e => cases h
  | ok a => exact ⟨a, rfl, h⟩

theorem updateDisplay_rate {s : ProgressSt} {step : Int} {es : List PEvent} {now : Stamp} {o : List POut}
    (hs : s.Has step es) (ht : s.Timed es) (h : updateDisplay s true now = .ok o) :
    shownRates o = [rateNow es now] ∧ averages o = [] := by
  obtain ⟨hc, -, -⟩ := hs
  obtain ⟨t1, t2, t3⟩ := ht
  unfold counts at hc
  simp only [Prod.mk.injEq] at hc
  obtain ⟨c1, c2, c3⟩ := hc
  unfold updateDisplay at h
  rw [if_pos rfl, c1, c2, c3, t1, t2, t3] at h
  unfold rateNow
  by_cases r : 0 < countKind .relation es
  · rw [if_pos (by omega)] at h
    obtain ⟨x, hx, h⟩ := rates_bind_ok h
    cases h
    rw [if_pos r, perSecond_ok hx]
    exact ⟨rfl, rfl⟩
  · rw [if_neg (by omega)] at h
    rw [if_neg r]
    by_cases w : 0 < countKind .way es
    · rw [if_pos (by omega)] at h
      obtain ⟨x, hx, h⟩ := rates_bind_ok h
      cases h
      rw [if_pos w, perSecond_ok hx]
      exact ⟨rfl, rfl⟩
    · rw [if_neg (by omega)] at h
      rw [if_neg w]
      by_cases n : 0 < countKind .node es
      · rw [if_pos (by omega)] at h
        obtain ⟨x, hx, h⟩ := rates_bind_ok h
        cases h
        rw [if_pos n, perSecond_ok hx]
        exact ⟨rfl, rfl⟩
      · rw [if_neg (by omega)] at h
        rw [if_neg n]
        cases h
        exact ⟨rfl, rfl⟩

theorem noteFirst_timed {s : ProgressSt} {es : List PEvent} (e : PEvent) (ht : s.Timed es)
    (hz : ∀ x ∈ es, x.t1.sec ≠ 0) : ((s.noteFirst e.t1 e.kind).increment e.kind).Timed (es ++ [e]) := by
  obtain ⟨t1, t2, t3⟩ := ht
  unfold ProgressSt.Timed
  rw [firstAt_snoc _ _ _ hz, firstAt_snoc _ _ _ hz, firstAt_snoc _ _ _ hz, ← t1, ← t2, ← t3]
  cases e.kind <;> simp [ProgressSt.noteFirst, ProgressSt.increment]

theorem progressCount_rates {s s' : ProgressSt} {step : Int} {seen : List PEvent} {e : PEvent} {o : List POut}
    (hs : s.Has step seen) (ht : s.Timed seen) (hstep : 0 < step ∧ step < 2147483648)
    (hn : seen.length + 1 < 18446744073709551616) (hz : ∀ x ∈ seen, x.t1.sec ≠ 0)
    (h : progressCount s e.kind e.t1 e.t2 = .ok (s', o)) :
    s'.Timed (seen ++ [e]) ∧
    shownRates o = (if step.toNat ∣ countKind e.kind (seen ++ [e]) then [rateNow (seen ++ [e]) e.t2] else []) ∧
    averages o = [] := by
  have hh := progressCount_has hs hstep hn h
  obtain ⟨hs', hd, -⟩ := hh
  have tt := noteFirst_timed e ht hz
  have f2 : (s.noteFirst e.t1 e.kind).tty = true := by cases e.kind <;> exact hs.2.2
  unfold progressCount at h
  dsimp only at h
  rw [if_pos f2] at h
  unfold progressShow at h
  split at h
  · cases h
  · split at h
    · obtain ⟨d, h1, h⟩ := rates_bind_ok h
      cases h
      obtain ⟨r, hr⟩ := updateDisplay_shown h1
      refine ⟨tt, ?_, (updateDisplay_rate hs' tt h1).2⟩
      rw [(updateDisplay_rate hs' tt h1).1]
      split
      · rfl
      · rename_i hnd
        rw [if_neg hnd, hr] at hd
        cases hd
    · cases h
      refine ⟨tt, ?_, rfl⟩
      split
      · rename_i hnd
        rw [if_pos hnd] at hd
        cases hd
      · rfl

theorem progressObjects_rates {s s' : ProgressSt} {step : Int} {seen es : List PEvent} {o : List POut}
    (hs : s.Has step seen) (ht : s.Timed seen) (hstep : 0 < step ∧ step < 2147483648)
    (hn : (seen ++ es).length < 18446744073709551616) (hz : ∀ x ∈ seen ++ es, x.t1.sec ≠ 0)
    (h : progressObjects s es = .ok (s', o)) :
    s'.Timed (seen ++ es) ∧ shownRates o = dueRates step.toNat seen es ∧ averages o = [] := by
  induction es generalizing s seen o with
  | nil => cases h; simpa [dueRates, shownRates, averages] using ht
  | cons e es ih =>
    unfold progressObjects at h
    obtain ⟨⟨s1, a⟩, h1, h⟩ := rates_bind_ok h
    obtain ⟨⟨s2, b⟩, h2, h⟩ := rates_bind_ok h
    cases h
    have hn1 := hn
    rw [List.length_append, List.length_cons] at hn1
    obtain ⟨k1, k2, k3⟩ := progressCount_rates hs ht hstep (by omega)
      (fun x hx => hz x (List.mem_append_left _ hx)) h1
    have kh := (progressCount_has hs hstep (by omega) h1).1
    rw [← List.singleton_append, ← List.append_assoc] at hz hn ⊢
    obtain ⟨j1, j2, j3⟩ := ih kh k1 hn hz h2
    refine ⟨j1, ?_, ?_⟩
    · unfold shownRates at k2 j2 ⊢
      rw [List.filterMap_append, k2, j2]
      rfl
    · unfold averages at k3 j3 ⊢
      rw [List.filterMap_append, k3, j3]
      rfl

theorem averageRate_ok {k : PKind} {es : List PEvent} {a b : Stamp} {l : List (PKind × Int)}
    (ha : a = firstAt k es) (h : averageRate k (countKind k es) (b.minus a) = .ok l) : l = averageOf k es b := by
  unfold averageRate at h
  unfold averageOf
  by_cases n : 0 < countKind k es
  · rw [if_pos (by omega)] at h
    obtain ⟨x, hx, h⟩ := rates_bind_ok h
    cases h
    rw [if_pos n, perSecond_ok hx, ha]
  · rw [if_neg (by omega)] at h
    cases h
    rw [if_neg n]

/-- **C71**: the rates.  At the beginning and at the end no rate is shown with the counts; whenever counts are
shown in between, the rate is the number of relations (ways, nodes) read so far per second since the first
relation (way, node).  The averages at the end are: nodes from the first node to the first way, ways from the
first way to the first relation, relations from the first relation to the end.  For every sequence of objects
after the first second of 1970, if no rate is undefined.  (`progress_average_without_ways`: for want of ways
the average of the nodes is computed with the beginning of 1970.) -/
theorem progress_rates_partial (step : Int) (t0 t1 : Stamp) (es : List PEvent) (o : List POut)
    (hstep : 0 < step ∧ step < 2147483648) (hn : es.length < 18446744073709551616)
    (hz : ∀ x ∈ es, x.t1.sec ≠ 0) (h : progressRun step true t0 es t1 = .ok o) :
    shownRates o = none :: dueRates step.toNat [] es ++ [none] ∧
    averages o = [averageOf .node es (firstAt .way es) ++ averageOf .way es (firstAt .relation es) ++
      averageOf .relation es t1] := by
  unfold progressRun at h
  obtain ⟨a, h1, h⟩ := rates_bind_ok h
  obtain ⟨⟨s, b⟩, h2, h⟩ := rates_bind_ok h
  obtain ⟨c, h3, h⟩ := rates_bind_ok h
  cases h
  have e1 : a = [.hideCursor, .display 0 0 0 none] := by
    have : progressInit (ProgressSt.new step true) t0 = .ok [.hideCursor, .display 0 0 0 none] := rfl
    rw [this] at h1
    cases h1
    rfl
  have hs0 : (ProgressSt.new step true).Has step [] := ⟨rfl, rfl, rfl⟩
  obtain ⟨k1, k2, k3⟩ := progressObjects_rates (seen := []) hs0 ⟨rfl, rfl, rfl⟩ hstep
    (by simpa using hn) (by simpa using hz) h2
  obtain ⟨hc, hst, htty⟩ := (progressObjects_has (seen := []) hs0 hstep (by simpa using hn) h2).1
  rw [List.nil_append] at k1 hc
  unfold counts at hc
  simp only [Prod.mk.injEq] at hc
  obtain ⟨c1, c2, c3⟩ := hc
  obtain ⟨m1, m2, m3⟩ := k1
  unfold progressFinal at h3
  rw [if_pos htty] at h3
  obtain ⟨d, g1, h3⟩ := rates_bind_ok h3
  obtain ⟨x, g2, h3⟩ := rates_bind_ok h3
  obtain ⟨y, g3, h3⟩ := rates_bind_ok h3
  obtain ⟨z, g4, h3⟩ := rates_bind_ok h3
  cases h3
  have ed : d = [.display s.nodes s.ways s.relations none] := by
    unfold updateDisplay at g1
    rw [if_neg (by decide)] at g1
    cases g1
    rfl
  rw [c1] at g2
  rw [c2] at g3
  rw [c3] at g4
  have r1 := averageRate_ok m1 g2
  have r2 := averageRate_ok m2 g3
  have r3 := averageRate_ok m3 g4
  rw [m2] at r1
  rw [m3] at r2
  subst e1 ed
  unfold shownRates at k2 ⊢
  unfold averages at k3 ⊢
  constructor
  · rw [List.filterMap_append, List.filterMap_append, k2]
    rfl
  · rw [List.filterMap_append, List.filterMap_append, k3, r1, r2, r3]
    rfl

/-- A concrete case: three nodes in the first second, a way one second later, a relation two seconds later. -/
example :
    ∃ o, progressRun 2 true ⟨100, 0⟩
      [⟨.node, ⟨100, 1⟩, ⟨0, 0⟩⟩, ⟨.node, ⟨100, 3⟩, ⟨100, 5⟩⟩, ⟨.way, ⟨101, 0⟩, ⟨0, 0⟩⟩, ⟨.way, ⟨101, 4⟩, ⟨101, 8⟩⟩,
       ⟨.node, ⟨101, 3⟩, ⟨101, 5⟩⟩, ⟨.relation, ⟨102, 0⟩, ⟨102, 0⟩⟩] ⟨103, 0⟩ = .ok o ∧
      shownRates o = [none, some (.node, 500000), some (.way, 250000), none] ∧
      averages o = [[(.node, 3), (.way, 2), (.relation, 1)]] := ⟨_, rfl, rfl, rfl⟩

end Osmium

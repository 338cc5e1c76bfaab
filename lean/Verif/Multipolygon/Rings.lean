import Verif.Common.Res
import Verif.Osm.Model
import Mathlib.Data.List.Perm.Basic
import Mathlib.Data.List.Nodup

/-
C44, C45: the search for rings, multipolygon/builder.hpp.
-/
namespace Osmium

/-- multipolygon/builder.hpp 90-122 class `WayInfo` (the field `innerouter` is only written). -/
structure WayInfo where
  way : Way
  used : Int
  sequence : Nat
  invert : Bool
deriving DecidableEq

/-- multipolygon/builder.hpp 100-106 constructor. -/
def WayInfo.new (w : Way) : WayInfo := ⟨w, -1, 0, false⟩

/-- multipolygon/builder.hpp 108-110 `firstnode`.  (Ways without nodes never get here, 648-650;
the value for them is arbitrary.) -/
def WayInfo.firstnode (w : WayInfo) : Int := (w.way.nodes.head?.map WayNode.ref).getD 0

/-- multipolygon/builder.hpp 112-114 `lastnode`. -/
def WayInfo.lastnode (w : WayInfo) : Int := (w.way.nodes.getLast?.map WayNode.ref).getD 0

/-- multipolygon/builder.hpp 451-456: the vector `sorted_ways`.  An index out of range is undefined
behaviour. -/
def sortedWays (ways : List WayInfo) (ring : Int) (num : Nat) : Option (List (Option WayInfo)) :=
  ways.foldlM (fun acc w =>
    if w.used = ring then
      if w.sequence < acc.length then some (acc.set w.sequence (some w)) else none
    else some acc) (List.replicate num none)

/-- multipolygon/builder.hpp 450-479 `ring_is_complete`: whether a ring is returned.  The
geometric part, which depends on the coordinates of the ways in order and direction, is the
parameter `chk`; a null pointer in the vector is undefined behaviour. -/
def ringIsComplete (chk : List (Way × Bool) → Bool) (ways : List WayInfo) (ring : Int) (num : Nat) :
    Res Bool :=
  match sortedWays ways ring num with
  | none => .error .ub
  | some l =>
    match l.mapM id with
    | none => .error .ub
    | some l => .ok (chk (l.map fun w => (w.way, w.invert)))

/-- The result of the search: the ways, whose marks are changed in place, and the ways pushed to
the ring (by index), if one was found. (multipolygon/builder.hpp 424-520, result of `complete_ring`) -/
abbrev Found := List WayInfo × Option (List Nat)

/-- multipolygon/builder.hpp 493-522: the loop of `complete_ring` from the ways with the given
indices on; `rec` is the recursive call. -/
def tryWays (rec : List WayInfo → Int → Res Found) (ring last : Int) (seq : Nat) :
    List Nat → List WayInfo → Res Found
  | [], ways => .ok (ways, none)
  | i :: is, ways =>
    match ways[i]? with
    | none => .error .ub
    | some w =>
      if w.used ≥ 0 then tryWays rec ring last seq is ways
      else if w.firstnode = last then
        match rec (ways.set i { w with used := ring, sequence := seq, invert := false }) w.lastnode with
        | .error e => .error e
        | .ok (ways', some r) => .ok (ways', some (r ++ [i]))
        | .ok (ways', none) =>
          tryWays rec ring last seq is (ways'.modify i fun x => { x with used := w.used })
      else if w.lastnode = last then
        match rec (ways.set i { w with used := ring, sequence := seq, invert := true }) w.firstnode with
        | .error e => .error e
        | .ok (ways', some r) => .ok (ways', some (r ++ [i]))
        | .ok (ways', none) =>
          tryWays rec ring last seq is (ways'.modify i fun x => { x with used := w.used })
      else tryWays rec ring last seq is ways

/-- multipolygon/builder.hpp 484-526 `complete_ring`.  `none` means the recursion is deeper than
`fuel`, see `completeRing_terminates`. -/
def completeRing (chk : List (Way × Bool) → Bool) (ring first : Int) :
    (fuel : Nat) → (seq : Nat) → List WayInfo → (last : Int) → Res Found
  | 0, _, _, _ => .error (.exn "out of fuel")
  | fuel + 1, seq, ways, last =>
    if first = last then do
      let ok ← ringIsComplete chk ways ring seq
      return (ways, if ok then some [] else none)
    else
      tryWays (completeRing chk ring first fuel (seq + 1)) ring last seq (List.range ways.length) ways

/-- How deep the search can go: one more than the number of unused ways. (helper for statements
and proofs, no counterpart in /repo) -/
def ringFuel (ways : List WayInfo) : Nat := ways.countP (fun w => w.used < 0) + 1

namespace Spec

/-- The node at the other end of a way entered at `at`, and whether the way is turned around. (specification, no
counterpart in /repo) -/
def traverse (w : WayInfo) (at' : Int) : Option (Int × Bool) :=
  if w.firstnode = at' then some (w.lastnode, false)
  else if w.lastnode = at' then some (w.firstnode, true)
  else none

/-- `ClosingChain ways first last is path`: beginning at the node `last`, the unused ways with the
numbers `is`, each entered where the one before ended, lead to the node `first`, which none of them
but the last one reaches.  `path` has the ways with their directions. (specification, no counterpart in /repo) -/
inductive ClosingChain (ways : List WayInfo) (first : Int) : Int → List Nat → List (Way × Bool) → Prop
  | done : ClosingChain ways first first [] []
  | step {last i w next inv is path} : last ≠ first → ways[i]? = some w → w.used < 0 →
      traverse w last = some (next, inv) → ClosingChain ways first next is path →
      ClosingChain ways first last (i :: is) ((w.way, inv) :: path)

/-- The ways with the numbers in `is` are marked as used by `ring`, nothing else about the `used`
marks has changed, nor the order of ways. (specification, no counterpart in /repo) -/
def MarkedBy (ways ways' : List WayInfo) (ring : Int) (is : List Nat) : Prop :=
  ways'.map (·.way) = ways.map (·.way) ∧
  ∀ i, (ways'[i]?).map (·.used) = if i ∈ is then (ways[i]?).map (fun _ => ring) else (ways[i]?).map (·.used)

end Spec

open Spec

/-- Same ways and marks; ways in use are unchanged. (helper for statements and proofs, no
counterpart in /repo) -/
structure SameWays (a b : List WayInfo) : Prop where
  length : b.length = a.length
  way : ∀ (i : Nat) w w', a[i]? = some w → b[i]? = some w' → w'.way = w.way
  used : ∀ (i : Nat) w w', a[i]? = some w → b[i]? = some w' → w'.used = w.used
  keep : ∀ (i : Nat) w w', a[i]? = some w → b[i]? = some w' → w.used ≥ 0 → w' = w

theorem SameWays.refl (a : List WayInfo) : SameWays a a :=
  ⟨rfl, by grind, by grind, by grind⟩

theorem SameWays.trans {a b c : List WayInfo} (h : SameWays a b) (h' : SameWays b c) :
    SameWays a c := by
  have key : ∀ (i : Nat) w, a[i]? = some w → ∃ w', b[i]? = some w' := by
    intro i w hw
    have := (List.getElem?_eq_some_iff.1 hw).1
    exact ⟨_, List.getElem?_eq_getElem (by rw [h.length]; exact this)⟩
  refine ⟨h'.length.trans h.length, ?_, ?_, ?_⟩
  · intro i w w'' h1 h2
    obtain ⟨w', hb⟩ := key i w h1
    rw [h'.way i w' w'' hb h2, h.way i w w' h1 hb]
  · intro i w w'' h1 h2
    obtain ⟨w', hb⟩ := key i w h1
    rw [h'.used i w' w'' hb h2, h.used i w w' h1 hb]
  · intro i w w'' h1 h2 hu
    obtain ⟨w', hb⟩ := key i w h1
    have e := h.keep i w w' h1 hb hu
    rw [h'.keep i w' w'' hb h2 (by rw [e]; exact hu), e]

/-- The chain built so far is recorded in the marks. (helper for statements and proofs, no
counterpart in /repo) -/
structure ChainMarks (ways : List WayInfo) (ring : Int) (pre : List (Nat × Bool)) : Prop where
  ring0 : 0 ≤ ring
  nodup : (pre.map Prod.fst).Nodup
  only : ∀ (i : Nat) w, ways[i]? = some w → w.used = ring → i ∈ pre.map Prod.fst
  each : ∀ (j i : Nat) b, pre[j]? = some (i, b) →
    ∃ w, ways[i]? = some w ∧ w.used = ring ∧ w.sequence = j ∧ w.invert = b

/-- The ways of the chain. (helper for statements and proofs, no counterpart in /repo) -/
def preWays (ways : List WayInfo) (pre : List (Nat × Bool)) : List (Way × Bool) :=
  pre.filterMap fun p => (ways[p.1]?).map fun w => (w.way, p.2)

theorem ChainMarks.same {a b : List WayInfo} {ring : Int} {pre : List (Nat × Bool)}
    (h : ChainMarks a ring pre) (hs : SameWays a b) : ChainMarks b ring pre := by
  have get : ∀ (i : Nat) w, a[i]? = some w → ∃ w', b[i]? = some w' := by
    intro i w hw
    have := (List.getElem?_eq_some_iff.1 hw).1
    exact ⟨_, List.getElem?_eq_getElem (by rw [hs.length]; exact this)⟩
  have get' : ∀ (i : Nat) w, b[i]? = some w → ∃ w', a[i]? = some w' := by
    intro i w hw
    have := (List.getElem?_eq_some_iff.1 hw).1
    exact ⟨_, List.getElem?_eq_getElem (by rw [← hs.length]; exact this)⟩
  refine ⟨h.ring0, h.nodup, ?_, ?_⟩
  · intro i w' hw' hu
    obtain ⟨w, hw⟩ := get' i w' hw'
    exact h.only i w hw (by rw [← hs.used i w w' hw hw']; exact hu)
  · intro j i bb hp
    obtain ⟨w, hw, hu, hr⟩ := h.each j i bb hp
    obtain ⟨w', hw'⟩ := get i w hw
    have := hs.keep i w w' hw hw' (by rw [hu]; exact h.ring0)
    subst this
    exact ⟨w', hw', hu, hr⟩

/-- Taking an unused way into the chain. -/
theorem ChainMarks.extend {ways : List WayInfo} {ring : Int} {pre : List (Nat × Bool)}
    (h : ChainMarks ways ring pre) {i : Nat} {w : WayInfo} (hw : ways[i]? = some w) (hu : w.used < 0)
    (inv : Bool) :
    ChainMarks (ways.set i { w with used := ring, sequence := pre.length, invert := inv }) ring
      (pre ++ [(i, inv)]) := by
  have hlt := (List.getElem?_eq_some_iff.1 hw).1
  have hni : i ∉ pre.map Prod.fst := by
    intro hm
    obtain ⟨p, hp, rfl⟩ := List.mem_map.1 hm
    obtain ⟨j, hj⟩ := List.mem_iff_getElem?.1 hp
    obtain ⟨w', h1, h2, -⟩ := h.each j p.1 p.2 (by simpa using hj)
    rw [hw] at h1; cases h1
    have := h.ring0
    omega
  refine ⟨h.ring0, ?_, ?_, ?_⟩
  · rw [List.map_append, List.nodup_append]
    refine ⟨h.nodup, by simp, ?_⟩
    intro a ha b hb e
    simp only [List.map_cons, List.map_nil, List.mem_singleton] at hb
    subst hb; subst e; exact hni ha
  · intro k w' hk hr
    by_cases e : i = k
    · subst e; simp
    · rw [List.getElem?_set_ne e] at hk
      have := h.only k w' hk hr
      simp [this]
  · intro j k b hp
    rw [List.getElem?_append] at hp
    split at hp
    · obtain ⟨w', h1, h2⟩ := h.each j k b hp
      have hne : i ≠ k := by
        rintro rfl
        exact hni (List.mem_map.2 ⟨(i, b), List.mem_of_getElem? hp, rfl⟩)
      exact ⟨w', by rw [List.getElem?_set_ne hne]; exact h1, h2⟩
    · rename_i hge
      have hj : j = pre.length := by
        have := (List.getElem?_eq_some_iff.1 hp).1
        simp at this; omega
      subst hj
      simp only [Nat.sub_self, List.getElem?_cons_zero, Option.some.injEq, Prod.mk.injEq] at hp
      obtain ⟨rfl, rfl⟩ := hp
      exact ⟨_, List.getElem?_set_self hlt, rfl, rfl, rfl⟩

/-- The vector of sorted ways is the chain. -/
theorem sortedWays_eq {ways : List WayInfo} {ring : Int} {pre : List (Nat × Bool)}
    (h : ChainMarks ways ring pre) :
    ∃ l : List WayInfo, sortedWays ways ring pre.length = some (l.map some) ∧ l.length = pre.length ∧
      ∀ (j i : Nat) b, pre[j]? = some (i, b) → ∃ w, l[j]? = some w ∧ ways[i]? = some w ∧ w.invert = b := by
  -- process the ways one after the other
  have gen : ∀ (rest : List WayInfo) (k : Nat) (acc : List (Option WayInfo)),
      rest = ways.drop k → acc.length = pre.length →
      (∀ (j i : Nat) b, pre[j]? = some (i, b) → i < k → acc[j]? = some (ways[i]?)) →
      ∃ acc', rest.foldlM (fun acc w =>
        if w.used = ring then
          if w.sequence < acc.length then some (acc.set w.sequence (some w)) else none
        else some acc) acc = some acc' ∧ acc'.length = pre.length ∧
        ∀ (j i : Nat) b, pre[j]? = some (i, b) → acc'[j]? = some (ways[i]?) := by
    intro rest
    induction rest with
    | nil =>
      intro k acc hk hl hacc
      refine ⟨acc, rfl, hl, fun j i b hp => ?_⟩
      apply hacc j i b hp
      obtain ⟨w, hw, -⟩ := h.each j i b hp
      have h1 := (List.getElem?_eq_some_iff.1 hw).1
      have h2 : ways.length ≤ k := by
        have := congrArg List.length hk; simp at this; omega
      omega
    | cons w rest ih =>
      intro k acc hk hl hacc
      have hkw : ways[k]? = some w := by
        have : (ways.drop k)[0]? = some w := by rw [← hk]; rfl
        simpa using this
      have hrest : rest = ways.drop (k + 1) := by
        have : (ways.drop k).tail = rest := by rw [← hk]; rfl
        rw [← this]; simp
      rw [List.foldlM_cons]
      by_cases hu : w.used = ring
      · obtain ⟨p, hp, hpk⟩ := List.mem_map.1 (h.only k w hkw hu)
        obtain ⟨j, hj⟩ := List.mem_iff_getElem?.1 hp
        have hj' : pre[j]? = some (k, p.2) := by rw [hj]; cases p; simp at hpk; subst hpk; rfl
        obtain ⟨w', g1, g2, g3, g4⟩ := h.each j k p.2 hj'
        rw [hkw] at g1; cases g1
        have hjl : j < pre.length := (List.getElem?_eq_some_iff.1 hj).1
        rw [if_pos hu, if_pos (by rw [g3, hl]; exact hjl)]
        simp only [Option.bind_eq_bind, Option.bind_some]
        apply ih (k + 1) _ hrest (by simp [hl])
        intro j' i' b' hp' hlt
        by_cases ej : w.sequence = j'
        · have : j = j' := by omega
          subst this
          rw [hj'] at hp'
          simp only [Option.some.injEq, Prod.mk.injEq] at hp'
          obtain ⟨rfl, rfl⟩ := hp'
          rw [g3, List.getElem?_set_self (by rw [hl]; exact hjl), hkw]
        · rw [List.getElem?_set_ne ej]
          have hne : i' ≠ k := by
            rintro rfl
            obtain ⟨w', q1, -, q3, -⟩ := h.each j' i' b' hp'
            rw [hkw] at q1; cases q1
            exact ej q3
          exact hacc j' i' b' hp' (by omega)
      · rw [if_neg hu]
        simp only [Option.bind_eq_bind, Option.bind_some]
        apply ih (k + 1) acc hrest hl
        intro j' i' b' hp' hlt
        have hne : i' ≠ k := by
          rintro rfl
          obtain ⟨w', q1, q2, -⟩ := h.each j' i' b' hp'
          rw [hkw] at q1; cases q1
          exact hu q2
        exact hacc j' i' b' hp' (by omega)
  obtain ⟨acc', h1, h2, h3⟩ := gen ways 0 (List.replicate pre.length none) rfl (by simp)
    (by intro j i b _ hlt; omega)
  refine ⟨acc'.filterMap id, ?_, ?_⟩
  · have e : (acc'.filterMap id).map some = acc' := by
      have : ∀ x ∈ acc', x.isSome := by
        intro x hx
        obtain ⟨j, hj⟩ := List.mem_iff_getElem?.1 hx
        have hjl : j < pre.length := by rw [← h2]; exact (List.getElem?_eq_some_iff.1 hj).1
        obtain ⟨w, q1, -⟩ := h.each j _ _ (List.getElem?_eq_getElem hjl)
        have := h3 j _ _ (List.getElem?_eq_getElem hjl)
        rw [hj, q1] at this
        simp only [Option.some.injEq] at this
        rw [this]; rfl
      clear * - this
      induction acc' with
      | nil => rfl
      | cons x xs ih =>
        cases x with
        | none => have := this none (by simp); simp at this
        | some x =>
          have := ih (fun y hy => this y (by simp [hy]))
          simpa using this
    rw [e]; exact h1
  · have e : (acc'.filterMap id).map some = acc' := by
      have : ∀ x ∈ acc', x.isSome := by
        intro x hx
        obtain ⟨j, hj⟩ := List.mem_iff_getElem?.1 hx
        have hjl : j < pre.length := by rw [← h2]; exact (List.getElem?_eq_some_iff.1 hj).1
        obtain ⟨w, q1, -⟩ := h.each j _ _ (List.getElem?_eq_getElem hjl)
        have := h3 j _ _ (List.getElem?_eq_getElem hjl)
        rw [hj, q1] at this
        simp only [Option.some.injEq] at this
        rw [this]; rfl
      clear * - this
      induction acc' with
      | nil => rfl
      | cons x xs ih =>
        cases x with
        | none => have := this none (by simp); simp at this
        | some x =>
          have := ih (fun y hy => this y (by simp [hy]))
          simpa using this
    refine ⟨by rw [← h2, ← congrArg List.length e]; simp, fun j i b hp => ?_⟩
    obtain ⟨w, q1, -, -, q4⟩ := h.each j i b hp
    have := h3 j i b hp
    rw [← e, List.getElem?_map, q1] at this
    cases hl : (acc'.filterMap id)[j]? with
    | none => rw [hl] at this; simp at this
    | some x =>
      rw [hl] at this
      simp only [Option.map_some, Option.some.injEq] at this
      subst this
      exact ⟨x, rfl, q1, q4⟩

theorem ringIsComplete_eq (chk : List (Way × Bool) → Bool) {ways : List WayInfo} {ring : Int}
    {pre : List (Nat × Bool)} (h : ChainMarks ways ring pre) :
    ringIsComplete chk ways ring pre.length = .ok (chk (preWays ways pre)) := by
  obtain ⟨l, h1, h2, h3⟩ := sortedWays_eq h
  have e : (l.map some).mapM id = some l := by
    clear * -
    induction l with
    | nil => rfl
    | cons x xs ih => simp [List.mapM_cons, ih]
  have e2 : l.map (fun w => (w.way, w.invert)) = preWays ways pre := by
    have hlen : (preWays ways pre).length = pre.length ∧ ∀ (j : Nat) p, pre[j]? = some p →
        ∃ w, ways[p.1]? = some w ∧ (preWays ways pre)[j]? = some (w.way, p.2) := by
      have hall : ∀ p ∈ pre, ∃ w, ways[p.1]? = some w := by
        intro p hp
        obtain ⟨j, hj⟩ := List.mem_iff_getElem?.1 hp
        obtain ⟨w, q, -⟩ := h.each j p.1 p.2 (by simpa using hj)
        exact ⟨w, q⟩
      clear * - hall
      induction pre with
      | nil => simp [preWays]
      | cons p pre ih =>
        obtain ⟨i1, i2⟩ := ih (fun q hq => hall q (by simp [hq]))
        obtain ⟨w, hw⟩ := hall p (by simp)
        have e : preWays ways (p :: pre) = (w.way, p.2) :: preWays ways pre := by
          simp [preWays, hw]
        rw [e]
        refine ⟨by simp [i1], ?_⟩
        intro j q hq
        cases j with
        | zero => simp at hq; subst hq; exact ⟨w, hw, by simp⟩
        | succ j => simp at hq; simpa using i2 j q hq
    apply List.ext_getElem?
    intro j
    by_cases hj : j < pre.length
    · have hp := List.getElem?_eq_getElem hj
      obtain ⟨w, q1, q2, q3⟩ := h3 j pre[j].1 pre[j].2 (by rw [hp])
      obtain ⟨w', r1, r2⟩ := hlen.2 j pre[j] hp
      rw [q2] at r1; cases r1
      rw [List.getElem?_map, q1, r2]
      simp [q3]
    · rw [List.getElem?_eq_none (by simp; omega), List.getElem?_eq_none (by omega)]
  unfold ringIsComplete
  rw [h1]
  simp only [e, e2]

theorem preWays_same {a b : List WayInfo} (hs : SameWays a b) (pre : List (Nat × Bool)) :
    preWays b pre = preWays a pre := by
  unfold preWays
  congr 1
  funext p
  cases ha : a[p.1]? with
  | none =>
    have : b[p.1]? = none := by
      rw [List.getElem?_eq_none_iff] at ha ⊢; rw [hs.length]; exact ha
    rw [this]
  | some w =>
    have hlt := (List.getElem?_eq_some_iff.1 ha).1
    have hb : b[p.1]? = some (b[p.1]'(by rw [hs.length]; exact hlt)) :=
      List.getElem?_eq_getElem _
    rw [hb]
    simp only [Option.map_some, Option.some.injEq, Prod.mk.injEq, and_true]
    exact hs.way _ _ _ ha hb

/-- A chain of ways in the same state. -/
theorem closingChain_same {a b : List WayInfo} (hs : SameWays a b) {first last : Int} {is : List Nat}
    {path : List (Way × Bool)} (h : ClosingChain a first last is path) :
    ClosingChain b first last is path := by
  induction h with
  | done => exact .done
  | @step last i w next inv is path h1 h2 h3 h4 _ ih =>
    have hlt := (List.getElem?_eq_some_iff.1 h2).1
    have hb : b[i]? = some (b[i]'(by rw [hs.length]; exact hlt)) := List.getElem?_eq_getElem _
    have e1 := hs.way _ _ _ h2 hb
    have e2 := hs.used _ _ _ h2 hb
    rw [← e1]
    refine .step h1 hb (by rw [e2]; exact h3) ?_ ih
    rw [← h4]
    unfold traverse WayInfo.firstnode WayInfo.lastnode
    rw [e1]

theorem SameWays.symm' {a b : List WayInfo} (hs : SameWays a b) : SameWays b a :=
  ⟨hs.length.symm, fun i w w' h1 h2 => (hs.way i w' w h2 h1).symm,
    fun i w w' h1 h2 => (hs.used i w' w h2 h1).symm,
    fun i w w' h1 h2 hu => (hs.keep i w' w h2 h1 (by rw [← hs.used i w' w h2 h1]; exact hu)).symm⟩

/-- Marking a way: the chains of the new state are the chains of the old one that avoid it. -/
theorem closingChain_set {ways : List WayInfo} {i : Nat} {w w' : WayInfo} (hw : ways[i]? = some w)
    (hway : w'.way = w.way) (hu : 0 ≤ w'.used) {first last : Int} {is : List Nat}
    {path : List (Way × Bool)} :
    ClosingChain (ways.set i w') first last is path ↔
      ClosingChain ways first last is path ∧ i ∉ is := by
  have hlt := (List.getElem?_eq_some_iff.1 hw).1
  constructor
  · intro h
    induction h with
    | done => exact ⟨.done, by simp⟩
    | @step last k v next inv is path h1 h2 h3 h4 _ ih =>
      have hne : i ≠ k := by
        rintro rfl
        rw [List.getElem?_set_self hlt] at h2; cases h2; omega
      rw [List.getElem?_set_ne hne] at h2
      refine ⟨.step h1 h2 h3 h4 ih.1, ?_⟩
      simp only [List.mem_cons, not_or]
      exact ⟨hne, ih.2⟩
  · rintro ⟨h, hi⟩
    induction h with
    | done => exact .done
    | @step last k v next inv is path h1 h2 h3 h4 _ ih =>
      simp only [List.mem_cons, not_or] at hi
      exact .step h1 (by rw [List.getElem?_set_ne hi.1]; exact h2) h3 h4 (ih hi.2)

theorem preWays_set {ways : List WayInfo} {i : Nat} {w w' : WayInfo} (hw : ways[i]? = some w)
    (hway : w'.way = w.way) (pre : List (Nat × Bool)) :
    preWays (ways.set i w') pre = preWays ways pre := by
  have hlt := (List.getElem?_eq_some_iff.1 hw).1
  unfold preWays
  congr 1
  funext p
  by_cases e : i = p.1
  · subst e
    rw [List.getElem?_set_self hlt, hw]
    simp [hway]
  · rw [List.getElem?_set_ne e]

theorem preWays_snoc {ways : List WayInfo} {i : Nat} {w : WayInfo} (hw : ways[i]? = some w)
    (pre : List (Nat × Bool)) (inv : Bool) :
    preWays ways (pre ++ [(i, inv)]) = preWays ways pre ++ [(w.way, inv)] := by
  simp [preWays, hw]

/-- The number of ways still free. (helper for statements and proofs, no counterpart in /repo) -/
abbrev freeWays (ways : List WayInfo) : Nat := ways.countP (fun w => w.used < 0)

theorem freeWays_set {ways : List WayInfo} {i : Nat} {w w' : WayInfo} (hw : ways[i]? = some w)
    (hu : w.used < 0) (hu' : 0 ≤ w'.used) : freeWays (ways.set i w') + 1 = freeWays ways := by
  induction ways generalizing i with
  | nil => simp at hw
  | cons x xs ih =>
    cases i with
    | zero =>
      simp only [List.getElem?_cons_zero, Option.some.injEq] at hw
      subst hw
      have : ¬ w'.used < 0 := by omega
      simp [freeWays, hu, this]
    | succ i =>
      simp only [List.getElem?_cons_succ] at hw
      have := ih hw
      simp only [freeWays, List.set_cons_succ, List.countP_cons] at this ⊢
      omega

theorem freeWays_same {a b : List WayInfo} (hs : SameWays a b) : freeWays b = freeWays a := by
  have e : b.map (·.used) = a.map (·.used) := by
    apply List.ext_getElem (by simp [hs.length])
    intro i h1 h2
    simp only [List.length_map] at h1 h2
    simp only [List.getElem_map]
    exact hs.used i _ _ (List.getElem?_eq_getElem h2) (List.getElem?_eq_getElem h1)
  have key : ∀ l : List WayInfo, freeWays l = (l.map (·.used)).countP (fun u => u < 0) := by
    intro l; simp [freeWays, List.countP_map, Function.comp_def]
  rw [key, key, e]

/-- Taking a mark back after a failed attempt. -/
theorem sameWays_undo {ways ways' : List WayInfo} {i : Nat} {w w' : WayInfo}
    (hw : ways[i]? = some w) (hu : w.used < 0) (hway : w'.way = w.way)
    (hs : SameWays (ways.set i w') ways') :
    SameWays ways (ways'.modify i fun x => { x with used := w.used }) := by
  have hlt := (List.getElem?_eq_some_iff.1 hw).1
  have hlen : ways'.length = ways.length := by rw [hs.length]; simp
  have get : ∀ (k : Nat) v v', ways[k]? = some v →
      (ways'.modify i fun x => { x with used := w.used })[k]? = some v' →
      ∃ u, ways'[k]? = some u ∧ (i ≠ k → (ways.set i w')[k]? = some v ∧ v' = u) ∧
        (i = k → v = w ∧ (ways.set i w')[k]? = some w' ∧ v' = { u with used := w.used }) := by
    intro k v v' h1 h2
    have hk := (List.getElem?_eq_some_iff.1 h1).1
    rw [List.getElem?_modify, List.getElem?_eq_getElem (by rw [hlen]; exact hk)] at h2
    refine ⟨_, List.getElem?_eq_getElem (by rw [hlen]; exact hk), ?_, ?_⟩
    · intro hne
      simp only [if_neg hne, Option.map_eq_map, Option.map_some] at h2
      refine ⟨by rw [List.getElem?_set_ne hne]; exact h1, ?_⟩
      simpa using h2.symm
    · intro he
      subst he
      simp only [if_pos, Option.map_eq_map, Option.map_some] at h2
      rw [hw] at h1; cases h1
      refine ⟨rfl, List.getElem?_set_self hlt, ?_⟩
      simpa using h2.symm
  refine ⟨by simp [hlen], ?_, ?_, ?_⟩
  · intro k v v' h1 h2
    obtain ⟨u, q1, q2, q3⟩ := get k v v' h1 h2
    by_cases e : i = k
    · obtain ⟨rfl, r2, rfl⟩ := q3 e
      simpa [hway] using hs.way k _ _ r2 q1
    · obtain ⟨r1, rfl⟩ := q2 e
      exact hs.way k _ _ r1 q1
  · intro k v v' h1 h2
    obtain ⟨u, q1, q2, q3⟩ := get k v v' h1 h2
    by_cases e : i = k
    · obtain ⟨rfl, r2, rfl⟩ := q3 e
      rfl
    · obtain ⟨r1, rfl⟩ := q2 e
      exact hs.used k _ _ r1 q1
  · intro k v v' h1 h2 hv
    obtain ⟨u, q1, q2, q3⟩ := get k v v' h1 h2
    by_cases e : i = k
    · obtain ⟨rfl, r2, rfl⟩ := q3 e
      omega
    · obtain ⟨r1, rfl⟩ := q2 e
      exact hs.keep k _ _ r1 q1 hv

theorem markedBy_cons {ways ways' : List WayInfo} {i : Nat} {w w' : WayInfo} {ring : Int}
    {is : List Nat} (hw : ways[i]? = some w) (hway : w'.way = w.way) (hu : w'.used = ring)
    (h : MarkedBy (ways.set i w') ways' ring is) : MarkedBy ways ways' ring (i :: is) := by
  have hlt := (List.getElem?_eq_some_iff.1 hw).1
  obtain ⟨h1, h2⟩ := h
  refine ⟨?_, ?_⟩
  · rw [h1]
    apply List.ext_getElem?
    intro k
    by_cases e : i = k
    · subst e
      rw [List.getElem?_map, List.getElem?_map, List.getElem?_set_self hlt, hw]
      simp [hway]
    · simp [List.getElem?_set_ne e]
  · intro k
    rw [h2 k]
    by_cases e : i = k
    · subst e
      simp [hw, hlt, hu]
    · have e' : ¬ k = i := fun h => e h.symm
      simp [List.getElem?_set_ne e, e']

/-- The ways in use are left as they are. (helper for statements and proofs, no counterpart in
/repo) -/
def Kept (ways ways' : List WayInfo) : Prop :=
  ∀ (k : Nat) v, ways[k]? = some v → 0 ≤ v.used → ways'[k]? = some v

theorem SameWays.kept {a b : List WayInfo} (hs : SameWays a b) : Kept a b := by
  intro k v hv hu
  have hlt := (List.getElem?_eq_some_iff.1 hv).1
  have hb : b[k]? = some (b[k]'(by rw [hs.length]; exact hlt)) := List.getElem?_eq_getElem _
  rw [hb, hs.keep k _ _ hv hb hu]

theorem Kept.trans {a b c : List WayInfo} (h1 : Kept a b) (h2 : Kept b c) : Kept a c :=
  fun k v hv hu => h2 k v (h1 k v hv hu) hu

theorem kept_set {ways : List WayInfo} {i : Nat} {w w' : WayInfo} (hw : ways[i]? = some w)
    (hu : w.used < 0) : Kept ways (ways.set i w') := by
  intro k v hv hk
  have : i ≠ k := by rintro rfl; rw [hw] at hv; cases hv; omega
  rw [List.getElem?_set_ne this]; exact hv

/-- What a call of the search achieves; `pre` is the chain so far. (helper for statements and
proofs, no counterpart in /repo) -/
def SearchResult (chk : List (Way × Bool) → Bool) (ring first last : Int) (ways : List WayInfo)
    (pre : List (Nat × Bool)) (starts : Nat → Prop) (r : Found) : Prop :=
  match r with
  | (ways', none) => SameWays ways ways' ∧
      ∀ is path, ClosingChain ways first last is path → is.Nodup → (∀ i ∈ is.head?, starts i) →
        chk (preWays ways pre ++ path) = false
  | (ways', some rs) => ∃ is path, ClosingChain ways first last is path ∧ is.Nodup ∧
      chk (preWays ways pre ++ path) = true ∧ rs = is.reverse ∧ MarkedBy ways ways' ring is ∧
      ChainMarks ways' ring (pre ++ is.zip (path.map Prod.snd)) ∧ Kept ways ways'

theorem searchResult_same {chk : List (Way × Bool) → Bool} {ring first last : Int}
    {a b : List WayInfo} {pre : List (Nat × Bool)} {starts : Nat → Prop} {r : Found}
    (hs : SameWays a b) (h : SearchResult chk ring first last b pre starts r) :
    SearchResult chk ring first last a pre starts r := by
  obtain ⟨ways', r⟩ := r
  cases r with
  | none =>
    obtain ⟨h1, h2⟩ := h
    refine ⟨hs.trans h1, fun is path hc hn hst => ?_⟩
    rw [← preWays_same hs]
    exact h2 is path (closingChain_same hs hc) hn hst
  | some rs =>
    obtain ⟨is, path, h1, h2, h3, h4, ⟨h5, h6⟩, h7, h8⟩ := h
    refine ⟨is, path, closingChain_same hs.symm' h1, h2, by rw [← preWays_same hs]; exact h3, h4, ⟨?_, ?_⟩,
      h7, hs.kept.trans h8⟩
    · rw [h5]
      apply List.ext_getElem (by simp [hs.length])
      intro i q1 q2
      simp only [List.length_map] at q1 q2
      simp only [List.getElem_map]
      exact hs.way i _ _ (List.getElem?_eq_getElem q2) (List.getElem?_eq_getElem q1)
    · intro i
      rw [h6 i]
      by_cases hi : i < a.length
      · have hi' : i < b.length := by rw [hs.length]; exact hi
        rw [List.getElem?_eq_getElem hi, List.getElem?_eq_getElem hi']
        have := hs.used i _ _ (List.getElem?_eq_getElem hi) (List.getElem?_eq_getElem hi')
        simp [this]
      · have hi' : ¬ i < b.length := by rw [hs.length]; exact hi
        rw [List.getElem?_eq_none (by omega), List.getElem?_eq_none (by omega)]

/-- The loop over the ways. -/
theorem tryWays_spec (chk : List (Way × Bool) → Bool) (ring first last : Int) (hfl : last ≠ first)
    (fuel : Nat) (pre : List (Nat × Bool))
    (rec : List WayInfo → Int → Res Found)
    (hrec : ∀ ways pre' last', pre'.length = pre.length + 1 → ChainMarks ways ring pre' →
      freeWays ways < fuel →
      ∃ r, rec ways last' = .ok r ∧
        SearchResult chk ring first last' ways pre' (fun _ => True) r)
    (idx : List Nat) :
    ∀ ways : List WayInfo, (∀ i ∈ idx, i < ways.length) → ChainMarks ways ring pre →
      freeWays ways < fuel + 1 →
      ∃ r, tryWays rec ring last pre.length idx ways = .ok r ∧
        SearchResult chk ring first last ways pre (fun i => i ∈ idx) r := by
  induction idx with
  | nil =>
    intro ways _ _ _
    refine ⟨(ways, none), rfl, SameWays.refl _, ?_⟩
    intro is path hc _ hst
    cases hc with
    | done => exact absurd rfl hfl
    | step => simp at hst
  | cons i idx ih =>
    intro ways hidx hcm hfree
    have hi := hidx i (by simp)
    have hw := List.getElem?_eq_getElem hi
    generalize ways[i] = w at hw
    have ih' := fun v h1 h2 h3 => ih v h1 h2 h3
    -- continuing with the remaining ways, in a state like this one, when way i leads nowhere
    have go : ∀ ways', SameWays ways ways' →
        (∀ is path, ClosingChain ways first last (i :: is) path → (i :: is).Nodup →
          chk (preWays ways pre ++ path) = false) →
        ∃ r, tryWays rec ring last pre.length idx ways' = .ok r ∧
          SearchResult chk ring first last ways pre (fun k => k ∈ i :: idx) r := by
      intro ways' hs hno
      obtain ⟨r, hr, hres⟩ := ih ways' (fun k hk => by rw [hs.length]; exact hidx k (by simp [hk]))
        (hcm.same hs) (by rw [freeWays_same hs]; exact hfree)
      refine ⟨r, hr, ?_⟩
      have hres := searchResult_same hs hres
      obtain ⟨ways'', r⟩ := r
      cases r with
      | some rs => exact hres
      | none =>
        refine ⟨hres.1, fun is path hc hn hst => ?_⟩
        cases is with
        | nil => exact hres.2 [] path hc hn (by simp)
        | cons k is =>
          have := hst k (by simp)
          by_cases e : k = i
          · subst e; exact hno is path hc hn
          · refine hres.2 (k :: is) path hc hn ?_
            intro k' hk'
            simp only [List.head?_cons, Option.mem_some] at hk'
            subst hk'
            simpa [e] using this
    -- taking way i in direction inv
    have take : ∀ next inv, w.used < 0 → traverse w last = some (next, inv) →
        ∃ r, (match rec (ways.set i { w with used := ring, sequence := pre.length, invert := inv }) next with
          | .error e => .error e
          | .ok (ways', some r) => .ok (ways', some (r ++ [i]))
          | .ok (ways', none) =>
            tryWays rec ring last pre.length idx (ways'.modify i fun x => { x with used := w.used })) =
              Except.ok r ∧
          SearchResult chk ring first last ways pre (fun k => k ∈ i :: idx) r := by
      intro next inv hu htr
      have hcm' := hcm.extend hw hu inv
      have hr0 := hcm.ring0
      have hmw : ({ w with used := ring, sequence := pre.length, invert := inv } : WayInfo).way = w.way := rfl
      have hmu : ({ w with used := ring, sequence := pre.length, invert := inv } : WayInfo).used = ring := rfl
      generalize ({ w with used := ring, sequence := pre.length, invert := inv } : WayInfo) = m at hcm' hmw hmu ⊢
      have hm0 : 0 ≤ m.used := by omega
      have hfree' := freeWays_set hw hu hm0
      obtain ⟨⟨ways', r⟩, hr, hres⟩ := hrec _ _ next (by simp) hcm' (by omega)
      have epre : ∀ path, preWays (ways.set i m)
          (pre ++ [(i, inv)]) ++ path = preWays ways pre ++ (w.way, inv) :: path := by
        intro path
        rw [preWays_set hw hmw, preWays_snoc hw]
        simp
      rw [hr]
      cases r with
      | some rs =>
        obtain ⟨is, path, h1, h2, h3, h4, h5, h6, h7⟩ := hres
        rw [closingChain_set hw hmw hm0] at h1
        refine ⟨_, rfl, i :: is, (w.way, inv) :: path, .step hfl hw hu htr h1.1, ?_, ?_, ?_,
          markedBy_cons hw hmw hmu h5, by simpa using h6, (kept_set hw hu).trans h7⟩
        · exact List.nodup_cons.2 ⟨h1.2, h2⟩
        · rw [← epre]; exact h3
        · rw [h4]; simp
      | none =>
        obtain ⟨h1, h2⟩ := hres
        apply go _ (sameWays_undo hw hu hmw h1)
        intro is path hc hn
        cases hc with
        | step q1 q2 q3 q4 q5 =>
          rw [hw] at q2; cases q2
          rw [htr] at q4; cases q4
          have hn := List.nodup_cons.1 hn
          rw [← epre]
          exact h2 is _ ((closingChain_set hw hmw hm0).2 ⟨q5, hn.1⟩) hn.2 (by simp)
    unfold tryWays
    rw [hw]
    simp only
    by_cases hu : w.used ≥ 0
    · rw [if_pos hu]
      apply go ways (SameWays.refl _)
      intro is path hc
      cases hc with
      | step q1 q2 q3 q4 q5 => rw [hw] at q2; cases q2; omega
    · rw [if_neg hu]
      by_cases hf : w.firstnode = last
      · rw [if_pos hf]
        exact take w.lastnode false (by omega) (by simp [traverse, hf])
      · rw [if_neg hf]
        by_cases hl : w.lastnode = last
        · rw [if_pos hl]
          exact take w.firstnode true (by omega) (by simp [traverse, hf, hl])
        · rw [if_neg hl]
          apply go ways (SameWays.refl _)
          intro is path hc
          cases hc with
          | step q1 q2 q3 q4 q5 =>
            rw [hw] at q2; cases q2
            simp [traverse, hf, hl] at q4

theorem completeRing_spec (chk : List (Way × Bool) → Bool) (ring first : Int) (fuel : Nat) :
    ∀ (ways : List WayInfo) (pre : List (Nat × Bool)) (last : Int), ChainMarks ways ring pre →
      freeWays ways < fuel →
      ∃ r, completeRing chk ring first fuel pre.length ways last = .ok r ∧
        SearchResult chk ring first last ways pre (fun _ => True) r := by
  induction fuel with
  | zero => intro ways pre last _ h; omega
  | succ fuel ih =>
    intro ways pre last hcm hfree
    unfold completeRing
    by_cases e : first = last
    · subst e
      rw [if_pos rfl, ringIsComplete_eq chk hcm]
      by_cases hc : chk (preWays ways pre) = true
      · refine ⟨(ways, some []), by simp [bind, Except.bind, pure, Except.pure, hc], [], [], .done,
          by simp, by simpa using hc, rfl, ⟨rfl, by simp⟩, by simpa using hcm, fun _ _ h _ => h⟩
      · refine ⟨(ways, none), by simp [bind, Except.bind, pure, Except.pure, hc], SameWays.refl _, ?_⟩
        intro is path hcc _ _
        cases hcc with
        | done => simpa using hc
        | step h => exact absurd rfl h
    · rw [if_neg e]
      obtain ⟨r, hr, hres⟩ := tryWays_spec chk ring first last (fun h => e h.symm) fuel pre
        (completeRing chk ring first fuel (pre.length + 1))
        (by
          intro ways pre' last' hl hcm hf
          rw [← hl]
          exact ih ways pre' last' hcm hf)
        (List.range ways.length) ways (by simp) hcm hfree
      refine ⟨r, hr, ?_⟩
      obtain ⟨ways', r⟩ := r
      cases r with
      | some rs => exact hres
      | none =>
        refine ⟨hres.1, fun is path hc hn _ => hres.2 is path hc hn ?_⟩
        cases hc with
        | done => simp
        | step q1 q2 q3 q4 q5 =>
          intro i hi
          simp only [List.head?_cons, Option.mem_some] at hi
          subst hi
          simpa using (List.getElem?_eq_some_iff.1 q2).1

end Osmium

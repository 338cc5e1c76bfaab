import Verif.Multipolygon.Reports

/-
C126: what the repair of rings announces on the standard error: multipolygon/builder.hpp 450-479, 484-549 and 562-687.
-/
namespace Osmium
open Spec

/-- The messages about rings. (multipolygon/builder.hpp 468, 476 and 631; the text of the exception is left out) -/
inductive RingMsg
  | repaired
  | caught
  | gap (a b : Int)
deriving DecidableEq

/-- multipolygon/builder.hpp 468, 476 and 631: the line on the standard error; `what` is the text of the exception. -/
def RingMsg.line (what : Line) : RingMsg → Line
  | .repaired => txt "Successfully repaired an invalid ring"
  | .caught => txt "Exception: " ++ what
  | .gap a b => txt "fill gap between nodes " ++ Text.intDec a ++ txt " and " ++ Text.intDec b

/-- multipolygon/builder.hpp 450-479 `ring_is_complete`: what it prints for these coordinates. -/
def ringSays (g : Geos) (repair : Bool) (cs : List Position) : List RingMsg :=
  if !ringMakes cs then [.caught]
  else
    match g.simpleRing cs with
    | none => [.caught]
    | some simple =>
      match if simple then g.validRing cs else some false with
      | none => [.caught]
      | some true => match g.ccw cs with
        | none => [.caught]
        | some _ => []
      | some false =>
        if repair then
          match repairRing g cs with
          | .error e => if e = geosError then [.caught] else []
          | .ok none => []
          | .ok (some ring) => .repaired :: match g.ccw ring with
            | none => [.caught]
            | some _ => []
        else []

/-- multipolygon/builder.hpp 450-479: the same, from the marks of the ways; `say` is what is printed for ways in order and
direction. -/
def completeSays (say : List (Way × Bool) → List RingMsg) (ways : List WayInfo) (ring : Int) (num : Nat) : List RingMsg :=
  match sortedWays ways ring num with
  | none => []
  | some l =>
    match l.mapM id with
    | none => []
    | some l => say (l.map fun w => (w.way, w.invert))

/-- multipolygon/builder.hpp 493-522: what is printed during the loop of `complete_ring`; `talk` is what the recursive
call prints, `rec` its result. -/
def tryWaysSays (rec : List WayInfo → Int → Res Found) (talk : List WayInfo → Int → List RingMsg) (ring last : Int)
    (seq : Nat) : List Nat → List WayInfo → List RingMsg
  | [], _ => []
  | i :: is, ways =>
    match ways[i]? with
    | none => []
    | some w =>
      if w.used ≥ 0 then tryWaysSays rec talk ring last seq is ways
      else if w.firstnode = last then
        let ways1 := ways.set i { w with used := ring, sequence := seq, invert := false }
        talk ways1 w.lastnode ++
          match rec ways1 w.lastnode with
          | .ok (ways', none) =>
            tryWaysSays rec talk ring last seq is (ways'.modify i fun x => { x with used := w.used })
          | _ => []
      else if w.lastnode = last then
        let ways1 := ways.set i { w with used := ring, sequence := seq, invert := true }
        talk ways1 w.firstnode ++
          match rec ways1 w.firstnode with
          | .ok (ways', none) =>
            tryWaysSays rec talk ring last seq is (ways'.modify i fun x => { x with used := w.used })
          | _ => []
      else tryWaysSays rec talk ring last seq is ways

/-- multipolygon/builder.hpp 484-526 `complete_ring`: what is printed. -/
def completeRingSays (chk : List (Way × Bool) → Bool) (say : List (Way × Bool) → List RingMsg) (ring first : Int) :
    (fuel : Nat) → (seq : Nat) → List WayInfo → (last : Int) → List RingMsg
  | 0, _, _, _ => []
  | fuel + 1, seq, ways, last =>
    if first = last then completeSays say ways ring seq
    else
      tryWaysSays (completeRing chk ring first fuel (seq + 1)) (completeRingSays chk say ring first fuel (seq + 1))
        ring last seq (List.range ways.length) ways

/-- multipolygon/builder.hpp 533-549 `make_one_ring`: what is printed. -/
def oneRingSays (chk : List (Way × Bool) → Bool) (say : List (Way × Bool) → List RingMsg) (s : RingState) : List RingMsg :=
  match s.ways.findIdx? (fun w => w.used = -1) with
  | none => []
  | some i =>
    match s.ways[i]? with
    | none => []
    | some w =>
      let ring : Int := s.rings.length
      let ways1 := s.ways.set i { w with used := ring, sequence := 0, invert := false }
      completeRingSays chk say ring w.firstnode (ringFuel ways1) 1 ways1 w.lastnode

/-- multipolygon/builder.hpp 668-669 and 681-682: what is printed by the loop around `make_one_ring`. -/
def ringLoopSays (chk : List (Way × Bool) → Bool) (say : List (Way × Bool) → List RingMsg) : Nat → RingState → List RingMsg
  | 0, _ => []
  | fuel + 1, s =>
    oneRingSays chk say s ++
      match makeOneRing chk s with
      | .ok (s', true) => ringLoopSays chk say fuel s'
      | _ => []

/-- multipolygon/builder.hpp 613-634: what is printed by the loop that joins the dangling nodes. -/
def gapSays (closer : WayNode → WayNode → WayNode → Bool) : (fuel : Nat) → List WayNode → List RingMsg
  | 0, _ => []
  | fuel + 1, nodes =>
    match nodes.getLast? with
    | none => []
    | some wn =>
      match nodes.dropLast with
      | [] => []
      | x :: rest =>
        let (k, c) := closestIdx closer wn rest 1 (0, x)
        .gap c.ref wn.ref :: gapSays closer fuel ((x :: rest).eraseIdx k)

/-- multipolygon/builder.hpp 562-637 `find_and_repair_holes_in_rings`: what is printed. -/
def holesSay (env : RingEnv) (ways : List WayInfo) : List RingMsg :=
  match endNodes ways with
  | none => []
  | some ends =>
    let dangling := danglingOf (env.sort ends)
    if dangling.length % 2 ≠ 0 then []
    else if !env.repair && !dangling.isEmpty then []
    else gapSays env.closer (dangling.length + 1) dangling

/-- multipolygon/builder.hpp 667-687 `make_rings`: what is printed. -/
def makeRingsSays (env : RingEnv) (say : List (Way × Bool) → List RingMsg) (ways : List WayInfo) : List RingMsg :=
  ringLoopSays env.chk say (loopFuel ways) ⟨ways, []⟩ ++
    match ringLoop env.chk (loopFuel ways) ⟨ways, []⟩ with
    | .error _ => []
    | .ok s =>
      holesSay env s.ways ++
        match repairHoles env s.ways with
        | .ok (some ways') => ringLoopSays env.chk say (loopFuel ways') ⟨ways', s.rings⟩
        | _ => []

/-- What the builder of a relation prints about its rings. (multipolygon/builder.hpp 310-314) -/
def WholeEnv.said (env : WholeEnv) (ways : List WayInfo) : List RingMsg :=
  makeRingsSays env.ringEnv (fun path => ringSays env.geos env.repair (ringCoords path)) ways

namespace Spec

/-- GEOS accepts the ring as it is. (specification, no counterpart in /repo) -/
def Accepted (g : Geos) (cs : List Position) : Prop := g.simpleRing cs = some true ∧ g.validRing cs = some true

instance (g : Geos) (cs : List Position) : Decidable (Accepted g cs) := by unfold Accepted; infer_instance

/-- The corners one comes by walking the ways of the ring, none twice in a row. (specification, no counterpart in /repo) -/
def cornersOf (s : RingState) (r : List Nat) : List Position := (walk (ringPath s.ways r)).destutter (· ≠ ·)

/-- The gaps that are announced. (specification, no counterpart in /repo) -/
def gapsIn (said : List RingMsg) : List (Int × Int) := said.filterMap fun | .gap a b => some (a, b) | _ => none

end Spec

/-! ### One ring -/

/-- What is printed about a ring that is made: nothing if it is as it was, otherwise that it was repaired. -/
theorem says_made (g : Geos) (repair : Bool) (path : List (Way × Bool)) (ring : List Position) (ccw : Bool)
    (h : ringGeometry g repair path = .ok (some (ring, ccw))) :
    (ringSays g repair (ringCoords path) = [] ∧ ring = ringCoords path ∧ Accepted g (ringCoords path)) ∨
    (ringSays g repair (ringCoords path) = [.repaired] ∧ repair = true ∧ ¬ Accepted g (ringCoords path)) := by
  unfold ringGeometry ringBody at h
  unfold ringSays
  cases hm : ringMakes (ringCoords path) with
  | false => simp [hm] at h
  | true =>
    cases hs : g.simpleRing (ringCoords path) with
    | none => simp [hm, hs] at h
    | some simple =>
      cases hg : (if simple then g.validRing (ringCoords path) else some false) with
      | none => simp [hm, hs, hg] at h
      | some good =>
        cases good with
        | true =>
          left
          cases simple with
          | false => simp at hg
          | true =>
            simp only [if_true] at hg
            cases hc : g.ccw (ringCoords path) with
            | none => simp [hm, hs, hg, hc] at h
            | some b =>
              simp [hm, hs, hg, hc] at h
              exact ⟨by simp [hg], h.1.symm, hs, hg⟩
        | false =>
          right
          have hna : ¬ Accepted g (ringCoords path) := by
            rintro ⟨a1, a2⟩
            rw [hs] at a1
            cases a1
            rw [if_pos rfl, a2] at hg
            cases hg
          cases repair with
          | false => simp [hm, hs, hg] at h
          | true =>
            cases hr : repairRing g (ringCoords path) with
            | error e => simp [hm, hs, hg, hr] at h; split at h <;> cases h
            | ok o =>
              cases o with
              | none => simp [hm, hs, hg, hr] at h
              | some out =>
                cases hc : g.ccw out with
                | none => simp [hm, hs, hg, hr, hc] at h
                | some b => exact ⟨by simp [hg, hc], rfl, hna⟩

/-- If no ring is made, none is announced, unless GEOS throws when asked for its direction. -/
theorem says_not_made (g : Geos) (hccw : ∀ c, g.ccw c ≠ none) (repair : Bool) (path : List (Way × Bool))
    (h : geosCheck g repair path = false) : RingMsg.repaired ∉ ringSays g repair (ringCoords path) := by
  unfold geosCheck ringGeometry ringBody at h
  unfold ringSays
  cases hm : ringMakes (ringCoords path) with
  | false => simp
  | true =>
    cases hs : g.simpleRing (ringCoords path) with
    | none => simp
    | some simple =>
      cases hg : (if simple then g.validRing (ringCoords path) else some false) with
      | none => simp [hg]
      | some good =>
        cases good with
        | true =>
          simp only [hg]
          cases hc : g.ccw (ringCoords path) <;> simp
        | false =>
          simp only [hg]
          cases repair with
          | false => simp
          | true =>
            cases hr : repairRing g (ringCoords path) with
            | error e => simp only [if_true]; split <;> simp
            | ok o =>
              cases o with
              | none => simp
              | some out =>
                cases hc : g.ccw out with
                | none => exact absurd hc (hccw out)
                | some b => simp [hm, hs, hg, hr, hc] at h

/-- No gaps are announced for a ring, and without repair no repair. -/
theorem says_kind (g : Geos) (repair : Bool) (cs : List Position) :
    ∀ m ∈ ringSays g repair cs, (∀ a b, m ≠ .gap a b) ∧ (repair = false → m ≠ .repaired) := by
  unfold ringSays
  split
  · simp
  · split
    · simp
    · split
      · simp
      · split <;> simp
      · split
        · rename_i hrep
          split
          · split <;> simp
          · simp
          · split <;> simp [hrep]
        · simp

/-! ### The search -/

/-- All of this is printed for chains of which no ring is made. (helper for proofs, no counterpart in /repo) -/
def InVain (chk : List (Way × Bool) → Bool) (say : List (Way × Bool) → List RingMsg) (l : List RingMsg) : Prop :=
  ∀ m ∈ l, ∃ path, chk path = false ∧ m ∈ say path

theorem inVain_append {chk : List (Way × Bool) → Bool} {say : List (Way × Bool) → List RingMsg} {a b : List RingMsg}
    (ha : InVain chk say a) (hb : InVain chk say b) : InVain chk say (a ++ b) :=
  fun m hm => (List.mem_append.1 hm).elim (ha m) (hb m)

/-- What a search prints, by its result: in vain, but for what is printed for the ring it finds.
(helper for proofs, no counterpart in /repo) -/
def SaidFor (chk : List (Way × Bool) → Bool) (say : List (Way × Bool) → List RingMsg) (ring : Int) (seq : Nat)
    (r : Res Found) (l : List RingMsg) : Prop :=
  match r with
  | .error _ => True
  | .ok (_, none) => InVain chk say l
  | .ok (ways', some rs) => ∃ pre, l = pre ++ completeSays say ways' ring (seq + rs.length) ∧ InVain chk say pre

theorem saidFor_after {chk : List (Way × Bool) → Bool} {say : List (Way × Bool) → List RingMsg} {ring : Int} {seq : Nat}
    {r : Res Found} {l a : List RingMsg} (ha : InVain chk say a) (h : SaidFor chk say ring seq r l) :
    SaidFor chk say ring seq r (a ++ l) := by
  unfold SaidFor at *
  split
  · trivial
  · exact inVain_append ha h
  · obtain ⟨pre, rfl, hp⟩ := h
    exact ⟨a ++ pre, by simp, inVain_append ha hp⟩

theorem tryWays_says (chk : List (Way × Bool) → Bool) (say : List (Way × Bool) → List RingMsg) (ring last : Int) (seq : Nat)
    (rec : List WayInfo → Int → Res Found) (talk : List WayInfo → Int → List RingMsg)
    (h : ∀ ways l, SaidFor chk say ring (seq + 1) (rec ways l) (talk ways l)) :
    ∀ (is : List Nat) (ways : List WayInfo),
      SaidFor chk say ring seq (tryWays rec ring last seq is ways) (tryWaysSays rec talk ring last seq is ways)
  | [], ways => by
    simp only [tryWays, tryWaysSays, SaidFor]
    intro m hm
    cases hm
  | i :: is, ways => by
    rw [tryWays, tryWaysSays]
    cases hw : ways[i]? with
    | none => simp only [SaidFor]
    | some w =>
      simp only
      have ih := tryWays_says chk say ring last seq rec talk h is
      have step : ∀ ways1 l,
          SaidFor chk say ring seq
            (match rec ways1 l with
              | .error e => .error e
              | .ok (ways', some r) => .ok (ways', some (r ++ [i]))
              | .ok (ways', none) =>
                tryWays rec ring last seq is (ways'.modify i fun x => { x with used := w.used }))
            (talk ways1 l ++
              match rec ways1 l with
              | .ok (ways', none) =>
                tryWaysSays rec talk ring last seq is (ways'.modify i fun x => { x with used := w.used })
              | _ => []) := by
        intro ways1 l
        have hr := h ways1 l
        cases hres : rec ways1 l with
        | error e => simp only [SaidFor]
        | ok q =>
          obtain ⟨ways', o⟩ := q
          rw [hres] at hr
          cases o with
          | none => exact saidFor_after hr (ih _)
          | some r =>
            obtain ⟨pre, e, hp⟩ := hr
            simp only [SaidFor, List.append_nil]
            refine ⟨pre, ?_, hp⟩
            rw [e]
            congr 2
            simp only [List.length_append, List.length_singleton]
            omega
      split
      · exact ih ways
      · split
        · exact step _ _
        · split
          · exact step _ _
          · exact ih ways

theorem completeRing_says (chk : List (Way × Bool) → Bool) (say : List (Way × Bool) → List RingMsg) (ring first : Int) :
    ∀ (fuel seq : Nat) (ways : List WayInfo) (last : Int),
      SaidFor chk say ring seq (completeRing chk ring first fuel seq ways last)
        (completeRingSays chk say ring first fuel seq ways last)
  | 0, seq, ways, last => by simp only [completeRing, SaidFor]
  | fuel + 1, seq, ways, last => by
    rw [completeRing, completeRingSays]
    split
    · unfold ringIsComplete completeSays
      cases hsw : sortedWays ways ring seq with
      | none => simp only [bind, Except.bind, SaidFor]
      | some l =>
        simp only
        cases hl : l.mapM id with
        | none => simp only [bind, Except.bind, SaidFor]
        | some l' =>
          simp only [bind, Except.bind, pure, Except.pure]
          cases hc : chk (l'.map fun w => (w.way, w.invert)) with
          | false =>
            simp only [SaidFor]
            exact fun m hm => ⟨_, hc, hm⟩
          | true =>
            simp only [SaidFor, if_true]
            refine ⟨[], ?_, fun m hm => by cases hm⟩
            simp only [completeSays, List.length_nil, Nat.add_zero, List.nil_append, hsw, hl]
    · exact tryWays_says chk say ring last seq _ _ (completeRing_says chk say ring first fuel (seq + 1)) _ _

theorem completeSays_eq (say : List (Way × Bool) → List RingMsg) {ways : List WayInfo} {ring : Int}
    {pre : List (Nat × Bool)} (h : ChainMarks ways ring pre) :
    completeSays say ways ring pre.length = say (preWays ways pre) := by
  classical
  have key := ringIsComplete_eq (fun p => decide (p = preWays ways pre)) h
  unfold ringIsComplete at key
  unfold completeSays
  cases hsw : sortedWays ways ring pre.length with
  | none => rw [hsw] at key; cases key
  | some l =>
    rw [hsw] at key
    simp only at key ⊢
    cases hl : l.mapM id with
    | none => rw [hl] at key; cases key
    | some l' =>
      rw [hl] at key
      simp only [Except.ok.injEq, decide_true, decide_eq_true_eq] at key
      simp only [key]

theorem ringPath_marks {ways : List WayInfo} {ring : Int} {pre : List (Nat × Bool)} (h : ChainMarks ways ring pre) :
    ringPath ways (pre.map Prod.fst).reverse = preWays ways pre := by
  unfold ringPath preWays
  rw [List.reverse_reverse, List.filterMap_map]
  apply List.filterMap_congr
  intro p hp
  obtain ⟨j, hj⟩ := List.mem_iff_getElem?.1 hp
  obtain ⟨w, q, -, -, q2⟩ := h.each j p.1 p.2 (by simpa using hj)
  simp [Function.comp, q, q2]

/-- What one search prints: in vain, but for the ring it finds. -/
theorem oneRing_says (chk : List (Way × Bool) → Bool) (say : List (Way × Bool) → List RingMsg) (s : RingState)
    (hs : RingInv chk s) (s' : RingState) (b : Bool) (h : makeOneRing chk s = .ok (s', b)) :
    (b = true ∧ ∃ r pre, s'.rings = s.rings ++ [r] ∧ oneRingSays chk say s = pre ++ say (ringPath s'.ways r) ∧
      InVain chk say pre) ∨
    (b = false ∧ s'.rings = s.rings ∧ InVain chk say (oneRingSays chk say s)) := by
  unfold makeOneRing at h
  unfold oneRingSays
  cases hf : s.ways.findIdx? (fun w => w.used = -1) with
  | none =>
    simp only [hf, Except.ok.injEq, Prod.mk.injEq] at h
    exact .inr ⟨h.2.symm, by rw [h.1], fun m hm => by cases hm⟩
  | some i =>
    simp only [hf] at h ⊢
    cases hw : s.ways[i]? with
    | none => simp [hw] at h
    | some w =>
      simp only [hw] at h ⊢
      have hcm := chainMarks_start (ring := s.rings.length) hw (by omega) (fun v hv => hs.bound v hv)
      generalize s.ways.set i { w with used := (s.rings.length : Int), sequence := 0, invert := false } = ways1 at h hcm ⊢
      obtain ⟨⟨ways', o⟩, hr, hres⟩ := completeRing_spec chk s.rings.length w.firstnode
        (ringFuel ways1) ways1 [(i, false)] w.lastnode hcm (by simp [ringFuel, freeWays])
      have hr' : completeRing chk s.rings.length w.firstnode (ringFuel ways1) 1 ways1 w.lastnode = .ok (ways', o) := hr
      have hsaid := completeRing_says chk say s.rings.length w.firstnode (ringFuel ways1) 1 ways1 w.lastnode
      rw [hr'] at h hsaid
      cases o with
      | none =>
        simp only [Except.ok.injEq, Prod.mk.injEq] at h
        exact .inr ⟨h.2.symm, by rw [← h.1], hsaid⟩
      | some rs =>
        simp only [Except.ok.injEq, Prod.mk.injEq] at h
        obtain ⟨e1, e2⟩ := h
        obtain ⟨pre, hl, hv⟩ := hsaid
        obtain ⟨is, path, h1, h2, h3, h4, h5, h6, h7⟩ := hres
        refine .inl ⟨e2.symm, rs ++ [i], pre, by rw [← e1], ?_, hv⟩
        rw [hl, ← e1]
        have hlen : is.length = path.length := by
          have := congrArg List.length (closingChain_ways h1).1
          simpa using this.symm
        have hfst : ([(i, false)] ++ is.zip (path.map Prod.snd)).map Prod.fst = i :: is := by
          rw [List.map_append, List.map_fst_zip (by simp [hlen])]
          rfl
        have c1 := completeSays_eq say h6
        have c2 := ringPath_marks h6
        rw [hfst] at c2
        have hn : ([(i, false)] ++ is.zip (path.map Prod.snd)).length = 1 + rs.length := by
          rw [h4]; simp [hlen]; omega
        rw [hn] at c1
        rw [c1, ← c2, h4]
        simp

/-- What is printed in the order of the rings: before each ring what was tried in vain, then about the ring.
(helper for proofs, no counterpart in /repo) -/
inductive SaidOf (chk : List (Way × Bool) → Bool) (say : List (Way × Bool) → List RingMsg) (ways : List WayInfo) :
    List (List Nat) → List RingMsg → Prop
  | nil {l} : InVain chk say l → SaidOf chk say ways [] l
  | cons {r rs pre l} : InVain chk say pre → SaidOf chk say ways rs l →
      SaidOf chk say ways (r :: rs) (pre ++ say (ringPath ways r) ++ l)

theorem makeOneRing_kept (chk : List (Way × Bool) → Bool) (s : RingState) (hs : RingInv chk s) (s' : RingState) (b : Bool)
    (h : makeOneRing chk s = .ok (s', b)) : Kept s.ways s'.ways := by
  rcases makeOneRing_spec chk s hs with ⟨-, q⟩ | ⟨i, w, -, -, -, ⟨is, path, ways', -, -, -, hk, q⟩ | ⟨-, ways', -, hk, q⟩⟩ <;>
    rw [q] at h <;> simp only [Except.ok.injEq, Prod.mk.injEq] at h <;> rw [← h.1]
  · exact fun _ _ h _ => h
  · exact hk
  · exact hk

/-- What the loop prints, ring by ring. -/
theorem ringLoop_says (chk : List (Way × Bool) → Bool) (say : List (Way × Bool) → List RingMsg) :
    ∀ (fuel : Nat) (s : RingState), RingInv chk s → ∀ s', ringLoop chk fuel s = .ok s' →
      RingInv chk s' ∧ Kept s.ways s'.ways ∧ s'.ways.map (·.way) = s.ways.map (·.way) ∧
      ∃ new, s'.rings = s.rings ++ new ∧ SaidOf chk say s'.ways new (ringLoopSays chk say fuel s)
  | 0, s, _, s', h => by simp [ringLoop] at h
  | fuel + 1, s, hs, s', h => by
    obtain ⟨s1, b, h1, h2, h3, -, -⟩ := makeOneRing_inv chk s hs
    have hk := makeOneRing_kept chk s hs s1 b h1
    rw [ringLoop, h1] at h
    rw [ringLoopSays, h1]
    rcases oneRing_says chk say s hs s1 b h1 with ⟨rfl, r, pre, e1, e2, e3⟩ | ⟨rfl, e1, e2⟩
    · obtain ⟨q1, q2, q3, new, q4, q5⟩ := ringLoop_says chk say fuel s1 h2 s' h
      refine ⟨q1, hk.trans q2, q3.trans h3, r :: new, by rw [q4, e1]; simp, ?_⟩
      have hp : ringPath s'.ways r = ringPath s1.ways r := ringPath_kept q2 (h2.inUse (by rw [e1]; simp))
      simp only
      rw [e2, ← hp]
      exact .cons e3 q5
    · simp only [Except.ok.injEq] at h
      subst h
      refine ⟨h2, hk, h3, [], by simp [e1], .nil ?_⟩
      simpa using e2

/-! ### The gaps -/

theorem gapSays_spec (closer : WayNode → WayNode → WayNode → Bool) :
    ∀ (fuel : Nat) (nodes : List WayNode) (ways ways' : List WayInfo), joinDangling closer fuel nodes ways = .ok ways' →
      ∃ fill : List (WayNode × WayNode),
        ways' = ways ++ (fill.map fun p => WayInfo.new { Way.new with nodes := [p.1, p.2] }) ∧
        gapSays closer fuel nodes = fill.map fun p => .gap p.1.ref p.2.ref
  | 0, nodes, ways, ways', h => by simp [joinDangling] at h
  | fuel + 1, nodes, ways, ways', h => by
    unfold joinDangling at h
    unfold gapSays
    cases hl : nodes.getLast? with
    | none =>
      simp only [hl, Except.ok.injEq] at h
      exact ⟨[], by simp [h], rfl⟩
    | some wn =>
      simp only [hl] at h ⊢
      cases hd : nodes.dropLast with
      | nil => simp [hd] at h
      | cons x rest =>
        simp only [hd] at h ⊢
        generalize closestIdx closer wn rest 1 (0, x) = kc at h ⊢
        obtain ⟨k, c⟩ := kc
        obtain ⟨fill, q1, q2⟩ := gapSays_spec closer fuel _ _ _ h
        exact ⟨(c, wn) :: fill, by rw [q1]; simp, by simp [q2]⟩

/-- The ways that are added are announced, one by one; none is without repair. -/
theorem holes_say (env : RingEnv) (ways ways' : List WayInfo) (h : repairHoles env ways = .ok (some ways')) :
    ∃ fill : List (WayNode × WayNode),
      ways' = resetWays ways ++ (fill.map fun p => WayInfo.new { Way.new with nodes := [p.1, p.2] }) ∧
      holesSay env ways = (fill.map fun p => .gap p.1.ref p.2.ref) ∧ (env.repair = false → fill = []) := by
  unfold repairHoles at h
  unfold holesSay
  cases he : endNodes ways with
  | none => simp [he] at h
  | some ends =>
    simp only [he] at h ⊢
    split at h
    · simp at h
    · rename_i h2
      rw [if_neg h2]
      split at h
      · simp at h
      · rename_i h3
        rw [if_neg h3]
        cases hj : joinDangling env.closer ((danglingOf (env.sort ends)).length + 1) (danglingOf (env.sort ends))
            (resetWays ways) with
        | error e => simp [hj, Except.map] at h
        | ok w2 =>
          simp only [hj, Except.map, Except.ok.injEq, Option.some.injEq] at h
          subst h
          obtain ⟨fill, q1, q2⟩ := gapSays_spec _ _ _ _ _ hj
          refine ⟨fill, q1, q2, fun hr => ?_⟩
          have e : danglingOf (env.sort ends) = [] := by simpa [hr] using h3
          rw [e] at q2
          simp only [gapSays, List.getLast?_nil] at q2
          simpa using q2.symm

/-! ### All of it -/

theorem saidOf_mem {chk : List (Way × Bool) → Bool} {say : List (Way × Bool) → List RingMsg} {ways : List WayInfo}
    {rs : List (List Nat)} {l : List RingMsg} (h : SaidOf chk say ways rs l) : ∀ m ∈ l, ∃ path, m ∈ say path := by
  induction h with
  | nil h =>
    intro m hm
    obtain ⟨p, -, q⟩ := h m hm
    exact ⟨p, q⟩
  | cons h _ ih =>
    intro m hm
    simp only [List.mem_append] at hm
    rcases hm with (hm | hm) | hm
    · obtain ⟨p, -, q⟩ := h m hm
      exact ⟨p, q⟩
    · exact ⟨_, hm⟩
    · exact ih m hm

theorem saidOf_count {chk : List (Way × Bool) → Bool} {say : List (Way × Bool) → List RingMsg} {ways : List WayInfo}
    {rs : List (List Nat)} {l : List RingMsg} (h : SaidOf chk say ways rs l) (x : RingMsg) :
    (rs.map fun r => (say (ringPath ways r)).count x).sum ≤ l.count x ∧
    ((∀ path, chk path = false → x ∉ say path) → l.count x = (rs.map fun r => (say (ringPath ways r)).count x).sum) := by
  have vain : ∀ pre, InVain chk say pre → (∀ path, chk path = false → x ∉ say path) → pre.count x = 0 := by
    intro pre hp hq
    rw [List.count_eq_zero]
    intro hm
    obtain ⟨p, a, b⟩ := hp x hm
    exact hq p a b
  induction h with
  | nil h => exact ⟨by simp, fun hq => by rw [vain _ h hq]; simp⟩
  | cons h _ ih =>
    simp only [List.map_cons, List.sum_cons, List.count_append]
    refine ⟨by have := ih.1; omega, fun hq => ?_⟩
    rw [vain _ h hq, ih.2 hq]
    omega

theorem saidOf_kept {chk : List (Way × Bool) → Bool} {say : List (Way × Bool) → List RingMsg} {ways ways' : List WayInfo}
    {rs : List (List Nat)} {l : List RingMsg} (h : SaidOf chk say ways rs l)
    (hk : ∀ r ∈ rs, ringPath ways' r = ringPath ways r) : SaidOf chk say ways' rs l := by
  induction h with
  | nil h => exact .nil h
  | cons h _ ih =>
    rw [← hk _ (by simp)]
    exact .cons h (ih fun r hr => hk r (by simp [hr]))

theorem gapsIn_append (a b : List RingMsg) : gapsIn (a ++ b) = gapsIn a ++ gapsIn b := List.filterMap_append

theorem gapsIn_none {l : List RingMsg} (h : ∀ m ∈ l, ∀ a b, m ≠ .gap a b) : gapsIn l = [] := by
  unfold gapsIn
  rw [List.filterMap_eq_nil_iff]
  intro m hm
  cases m with
  | gap a b => exact absurd rfl (h _ hm a b)
  | repaired => rfl
  | caught => rfl

theorem gapsIn_gaps (fill : List (WayNode × WayNode)) :
    gapsIn (fill.map fun p => .gap p.1.ref p.2.ref) = fill.map fun p => (p.1.ref, p.2.ref) := by
  unfold gapsIn
  rw [List.filterMap_map]
  induction fill with
  | nil => rfl
  | cons p l ih => simp

/-- What is printed on the way to the rings: first about rings, then the gaps, then about rings again. -/
theorem makeRings_says (env : RingEnv) (say : List (Way × Bool) → List RingMsg) (ws : List Way)
    (hne : ∀ w ∈ ws, w.nodes ≠ []) (s : RingState) (h : makeRings env (ws.map WayInfo.new) = .ok s) :
    ∃ fill rs1 rs2 l1 l2, s.ways.map (·.way) = ws ++ fillWays fill ∧ (env.repair = false → fill = []) ∧
      s.rings = rs1 ++ rs2 ∧ SaidOf env.chk say s.ways rs1 l1 ∧ SaidOf env.chk say s.ways rs2 l2 ∧
      (∀ r ∈ s.rings, env.chk (ringPath s.ways r) = true) ∧
      makeRingsSays env say (ws.map WayInfo.new) = l1 ++ (fill.map fun p => .gap p.1.ref p.2.ref) ++ l2 := by
  have h0 : RingInv env.chk ⟨ws.map WayInfo.new, []⟩ := by
    refine ⟨?_, by simp, ?_, ?_, by simp, by simp⟩
    · intro w hw
      obtain ⟨v, hv, rfl⟩ := List.mem_map.1 hw
      exact hne v hv
    · intro i w hw
      obtain ⟨v, -, rfl⟩ := List.mem_map.1 (List.mem_of_getElem? hw)
      simp [WayInfo.new]
    · intro w hw
      obtain ⟨v, -, rfl⟩ := List.mem_map.1 hw
      simp [WayInfo.new]
  have hw0 : (ws.map WayInfo.new).map (·.way) = ws := by
    simp [List.map_map, Function.comp_def, WayInfo.new]
  unfold makeRings at h
  unfold makeRingsSays
  cases hl : ringLoop env.chk (loopFuel (ws.map WayInfo.new)) ⟨ws.map WayInfo.new, []⟩ with
  | error e => simp [hl] at h
  | ok s1 =>
    obtain ⟨a1, -, a3, rs1, a4, a5⟩ := ringLoop_says env.chk say _ _ h0 s1 hl
    simp only [hl] at h ⊢
    cases hr : repairHoles env s1.ways with
    | error e => simp [hr] at h
    | ok o =>
      cases o with
      | none => simp [hr] at h
      | some ways' =>
        simp only [hr] at h ⊢
        obtain ⟨fill, f1, f2, f3⟩ := holes_say env s1.ways ways' hr
        have b0 := ringInv_reset a1 fill
        rw [← f1] at b0
        cases hl2 : ringLoop env.chk (loopFuel ways') ⟨ways', s1.rings⟩ with
        | error e => simp [hl2] at h
        | ok s2 =>
          simp only [hl2] at h
          split at h
          · simp at h
          · simp only [Except.ok.injEq] at h
            subst h
            obtain ⟨b1, b2, b3, rs2, b4, b5⟩ := ringLoop_says env.chk say _ _ b0 s2 hl2
            have hkept : Kept s1.ways ways' := by
              intro k v hv hu
              have hk := (List.getElem?_eq_some_iff.1 hv).1
              rw [f1, List.getElem?_append_left (by simpa [resetWays] using hk), resetWays, List.getElem?_map, hv,
                Option.map_some, if_neg (by omega)]
            have a4' : s1.rings = rs1 := by simpa using a4
            refine ⟨fill, rs1, rs2, _, _, ?_, f3, by rw [b4]; simp only [a4'], saidOf_kept a5 ?_, b5,
              fun r hr => (b1.path r hr).2, ?_⟩
            · rw [b3, f1]
              simp only [List.map_append, (resetWays_ways s1.ways).1, a3, hw0]
              simp [fillWays, List.map_map, Function.comp_def, WayInfo.new]
            · intro r hr
              exact ringPath_kept (hkept.trans b2) (a1.inUse (by rw [a4']; exact hr))
            · rw [f2, List.append_assoc]

/-- C126: what the repair invents is announced.  Whenever rings are made from ways with nodes: the ways they are made of are
those of the relation and one for each announced gap, between the two announced nodes, in this order.  Each ring that GEOS
accepts has the corners one comes by on its ways; for each one that GEOS does not accept there is an announcement of a
repair, and there are no others if GEOS always knows the direction of a ring.  Without repair nothing is announced but
exceptions, no way is added and GEOS accepts all rings. -/
theorem repairs_announced_partial (env : WholeEnv) (ws : List Way) (hne : ∀ w ∈ ws, w.nodes ≠ []) (s : RingState)
    (h : makeRings env.ringEnv (ws.map WayInfo.new) = .ok s) :
    ∃ fill : List (WayNode × WayNode),
      s.ways.map (·.way) = ws ++ fillWays fill ∧
      gapsIn (env.said (ws.map WayInfo.new)) = fill.map (fun p => (p.1.ref, p.2.ref)) ∧
      (∀ r ∈ s.rings, Accepted env.geos (cornersOf s r) → env.coords s r = cornersOf s r) ∧
      s.rings.countP (fun r => ¬ Accepted env.geos (cornersOf s r)) ≤ (env.said (ws.map WayInfo.new)).count .repaired ∧
      ((∀ c, env.geos.ccw c ≠ none) →
        (env.said (ws.map WayInfo.new)).count .repaired =
          s.rings.countP (fun r => ¬ Accepted env.geos (cornersOf s r))) ∧
      (env.repair = false → fill = [] ∧ (∀ r ∈ s.rings, Accepted env.geos (cornersOf s r)) ∧
        ∀ m ∈ env.said (ws.map WayInfo.new), m = .caught) := by
  obtain ⟨fill, rs1, rs2, l1, l2, q1, q2, q3, q4, q5, q6, q7⟩ := makeRings_says env.ringEnv
    (fun path => ringSays env.geos env.repair (ringCoords path)) ws hne s h
  have hcorner : ∀ r, cornersOf s r = ringCoords (ringPath s.ways r) := fun r => (ring_coords _).symm
  have hring : ∀ r ∈ s.rings,
      (ringSays env.geos env.repair (ringCoords (ringPath s.ways r)) = [] ∧ env.coords s r = cornersOf s r ∧
        Accepted env.geos (cornersOf s r)) ∨
      (ringSays env.geos env.repair (ringCoords (ringPath s.ways r)) = [.repaired] ∧ env.repair = true ∧
        ¬ Accepted env.geos (cornersOf s r)) := by
    intro r hr
    have hc : geosCheck env.geos env.repair (ringPath s.ways r) = true := q6 r hr
    unfold geosCheck at hc
    rw [hcorner]
    cases hg : ringGeometry env.geos env.repair (ringPath s.ways r) with
    | error e => simp [hg] at hc
    | ok o =>
      cases o with
      | none => simp [hg] at hc
      | some p =>
        rcases says_made env.geos env.repair _ p.1 p.2 hg with ⟨a, b, c⟩ | ⟨a, b, c⟩
        · exact .inl ⟨a, by simp [WholeEnv.coords, hg, b], c⟩
        · exact .inr ⟨a, b, c⟩
  have hsum : ∀ rs : List (List Nat), (∀ r ∈ rs, r ∈ s.rings) →
      (rs.map fun r => (ringSays env.geos env.repair (ringCoords (ringPath s.ways r))).count .repaired).sum =
        rs.countP (fun r => ¬ Accepted env.geos (cornersOf s r)) := by
    intro rs
    induction rs with
    | nil => intro _; rfl
    | cons r rs ih =>
      intro hm
      rw [List.map_cons, List.sum_cons, ih (fun r hr => hm r (by simp [hr])), List.countP_cons]
      rcases hring r (hm r (by simp)) with ⟨a, -, c⟩ | ⟨a, -, c⟩
      · simp [a, c]
      · simp [a, c]; omega
  have hs1 := hsum rs1 (fun r hr => by rw [q3]; simp [hr])
  have hs2 := hsum rs2 (fun r hr => by rw [q3]; simp [hr])
  obtain ⟨c1, c2⟩ := saidOf_count q4 .repaired
  obtain ⟨d1, d2⟩ := saidOf_count q5 .repaired
  have hgap : (fill.map fun p => RingMsg.gap p.1.ref p.2.ref).count .repaired = 0 := by
    rw [List.count_eq_zero]; simp
  have hkind : ∀ m, m ∈ l1 ∨ m ∈ l2 → (∀ a b, m ≠ .gap a b) ∧ (env.repair = false → m ≠ .repaired) := by
    rintro m (hm | hm)
    · obtain ⟨p, hp⟩ := saidOf_mem q4 m hm
      exact says_kind _ _ _ m hp
    · obtain ⟨p, hp⟩ := saidOf_mem q5 m hm
      exact says_kind _ _ _ m hp
  refine ⟨fill, q1, ?_, ?_, ?_, ?_, ?_⟩
  · unfold WholeEnv.said
    rw [q7, gapsIn_append, gapsIn_append, gapsIn_gaps, gapsIn_none fun m hm => (hkind m (.inl hm)).1,
      gapsIn_none fun m hm => (hkind m (.inr hm)).1]
    simp
  · intro r hr ha
    rcases hring r hr with ⟨-, b, -⟩ | ⟨-, -, c⟩
    · exact b
    · exact absurd ha c
  · unfold WholeEnv.said
    rw [q7, List.count_append, List.count_append, hgap, q3, List.countP_append, ← hs1, ← hs2]
    omega
  · intro hccw
    unfold WholeEnv.said
    have hq : ∀ path, geosCheck env.geos env.repair path = false →
        RingMsg.repaired ∉ ringSays env.geos env.repair (ringCoords path) :=
      fun path hp => says_not_made env.geos hccw env.repair path hp
    rw [q7, List.count_append, List.count_append, hgap, q3, List.countP_append, ← hs1, ← hs2, c2 hq, d2 hq]
    omega
  · intro hrep
    have hf := q2 hrep
    refine ⟨hf, ?_, ?_⟩
    · intro r hr
      rcases hring r hr with ⟨-, -, c⟩ | ⟨-, b, -⟩
      · exact c
      · rw [hrep] at b; cases b
    · intro m hm
      unfold WholeEnv.said at hm
      rw [q7, hf] at hm
      have := hkind m (by simpa using hm)
      cases m with
      | caught => rfl
      | repaired => exact absurd rfl (this.2 hrep)
      | gap a b => exact absurd rfl (this.1 a b)

/-- C126: if neither a gap nor a repair is announced, the rings are made of the ways of the relation and have the corners one
comes by on these. -/
theorem unannounced_unchanged (env : WholeEnv) (ws : List Way) (hne : ∀ w ∈ ws, w.nodes ≠ []) (s : RingState)
    (h : makeRings env.ringEnv (ws.map WayInfo.new) = .ok s)
    (hquiet : ∀ m ∈ env.said (ws.map WayInfo.new), m = .caught) :
    s.ways.map (·.way) = ws ∧ ∀ r ∈ s.rings, env.coords s r = cornersOf s r := by
  obtain ⟨fill, q1, q2, q3, q4, -, -⟩ := repairs_announced_partial env ws hne s h
  rw [gapsIn_none fun m hm a b => by rw [hquiet m hm]; simp] at q2
  have hf : fill = [] := by simpa using q2.symm
  refine ⟨by simpa [hf, fillWays] using q1, fun r hr => q3 r hr ?_⟩
  have h0 : (env.said (ws.map WayInfo.new)).count .repaired = 0 := by
    rw [List.count_eq_zero]
    intro hm
    cases hquiet _ hm
  rw [h0, Nat.le_zero, List.countP_eq_zero] at q4
  simpa using q4 r hr

/-- For examples: the environment of `squareEnv`, in repair mode. -/
def repairEnv : WholeEnv := { squareEnv with repair := true }

/-- For examples: two ways that meet at node 7, with a point that comes twice; their other ends are not connected. -/
def gapWays : List Way :=
  [{ Way.new with nodes := [⟨1, ⟨0, 0⟩⟩, ⟨2, ⟨1, 0⟩⟩, ⟨3, ⟨2, 0⟩⟩, ⟨4, ⟨3, 0⟩⟩, ⟨5, ⟨4, 0⟩⟩, ⟨6, ⟨5, 0⟩⟩, ⟨7, ⟨2, 0⟩⟩] },
   { Way.new with nodes := [⟨10, ⟨9, 0⟩⟩, ⟨8, ⟨7, 0⟩⟩, ⟨7, ⟨2, 0⟩⟩] }]

/-- The hypotheses of `repairs_announced_partial` are met: the gap is filled, the ring is repaired, both are announced. -/
example : (∀ w ∈ gapWays, w.nodes ≠ []) ∧
    (makeRings repairEnv.ringEnv (gapWays.map WayInfo.new)).toOption.map (fun s => (s.rings, s.rings.map (repairEnv.coords s))) =
      some ([[2, 1, 0]], [points [0, 1, 2, 2, 7, 9, 0]]) ∧
    (repairEnv.said (gapWays.map WayInfo.new)).map (RingMsg.line (txt "")) =
      [txt "fill gap between nodes 1 and 10", txt "Successfully repaired an invalid ring"] := by
  decide +kernel

/-- And those of `unannounced_unchanged`: with the ends connected and without the point that comes twice. -/
example : (makeRings repairEnv.ringEnv ([{ Way.new with nodes := [⟨1, ⟨0, 0⟩⟩, ⟨2, ⟨1, 0⟩⟩, ⟨3, ⟨2, 0⟩⟩] },
      { Way.new with nodes := [⟨1, ⟨0, 0⟩⟩, ⟨4, ⟨3, 0⟩⟩, ⟨3, ⟨2, 0⟩⟩] }].map WayInfo.new)).toOption.map (·.rings) =
        some [[1, 0]] ∧
    repairEnv.said ([{ Way.new with nodes := [⟨1, ⟨0, 0⟩⟩, ⟨2, ⟨1, 0⟩⟩, ⟨3, ⟨2, 0⟩⟩] },
      { Way.new with nodes := [⟨1, ⟨0, 0⟩⟩, ⟨4, ⟨3, 0⟩⟩, ⟨3, ⟨2, 0⟩⟩] }].map WayInfo.new) = [] := by
  decide +kernel

/-- C126: the repair of a ring can be announced although there is no such ring: when GEOS throws on being asked for the
direction of the repaired one, the builder goes on without it. -/
theorem repair_announced_in_vain : ∃ (g : Geos) (path : List (Way × Bool)),
    ringGeometry g true path = .ok none ∧
    ringSays g true (ringCoords path) = [.repaired, .caught] :=
  ⟨{ pointGeos with ccw := fun _ => none }, eightWays, by decide +kernel, by decide +kernel⟩

end Osmium

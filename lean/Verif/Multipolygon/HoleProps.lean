import Verif.Multipolygon.RingProps
import Mathlib.Data.List.Sort

/-
C46: dangling ends; C44, C45 for `make_rings` as a whole.
-/
namespace Osmium

open Spec

/-- How often a node is in a list. -/
abbrev refCount (l : List WayNode) (ref : Int) : Nat := l.countP (fun n => n.ref = ref)

theorem refCount_zero {x y : WayNode} {rest : List WayNode} (hlt : x.ref < y.ref)
    (h : (y :: rest).Pairwise (fun a b => a.ref ≤ b.ref)) : refCount (y :: rest) x.ref = 0 := by
  rw [refCount, List.countP_eq_zero]
  intro n hn
  have : y.ref ≤ n.ref := by
    simp only [List.mem_cons] at hn
    rcases hn with rfl | hn
    · omega
    · exact (List.pairwise_cons.1 h).1 n hn
  simp; omega

/-- What is left of a sorted list when equal neighbours cancel: each node that occurs an odd number
of times, once. -/
theorem danglingOf_count (l : List WayNode) (h : l.Pairwise (fun a b => a.ref ≤ b.ref)) (ref : Int) :
    refCount (danglingOf l) ref = refCount l ref % 2 := by
  induction l using danglingOf.induct with
  | case1 => rfl
  | case2 x => by_cases e : x.ref = ref <;> simp [danglingOf, refCount, e]
  | case3 x y rest hne ih =>
    have hxy : x.ref ≠ y.ref := by simpa [WayNode.eq] using hne
    have h' := List.pairwise_cons.1 h
    have hlt : x.ref < y.ref := by have := h'.1 y (by simp); omega
    have i := ih h'.2
    rw [danglingOf, if_pos hne]
    simp only [refCount] at i
    by_cases e : x.ref = ref
    · subst e
      have z := refCount_zero hlt h'.2
      simp only [refCount] at z
      rw [z] at i
      rw [refCount, refCount, List.countP_cons, List.countP_cons (a := x), i, z]
      simp
    · rw [refCount, refCount, List.countP_cons, List.countP_cons (a := x), i]
      simp [e]
  | case4 x y rest hne ih =>
    have hxy : x.ref = y.ref := by simpa [WayNode.eq] using hne
    have h' := List.pairwise_cons.1 (List.pairwise_cons.1 h).2
    have i := ih h'.2
    rw [danglingOf, if_neg hne, i]
    simp only [refCount, List.countP_cons]
    by_cases e : x.ref = ref
    · have : y.ref = ref := by rw [← hxy]; exact e
      simp [e, this]; omega
    · have : ¬ y.ref = ref := by rw [← hxy]; exact e
      simp [e, this]

theorem danglingOf_parity (l : List WayNode) : (danglingOf l).length % 2 = l.length % 2 := by
  induction l using danglingOf.induct with
  | case1 => rfl
  | case2 x => rfl
  | case3 x y rest hne ih =>
    rw [danglingOf, if_pos hne]
    simp only [List.length_cons] at ih ⊢
    omega
  | case4 x y rest hne ih =>
    rw [danglingOf, if_neg hne]
    simp only [List.length_cons] at ih ⊢
    omega

theorem danglingOf_sublist (l : List WayNode) : (danglingOf l).Sublist l := by
  induction l using danglingOf.induct with
  | case1 => exact .refl _
  | case2 x => exact .refl _
  | case3 x y rest hne ih =>
    rw [danglingOf, if_pos hne]
    exact ih.cons_cons x
  | case4 x y rest hne ih =>
    rw [danglingOf, if_neg hne]
    exact (ih.cons y).cons x

theorem endNodes_mem (ways : List WayInfo) :
    ∀ l, endNodes ways = some l → ∀ n ∈ l, IsEndNode ((ways.filter fun w => w.used < 0).map (·.way)) n := by
  induction ways with
  | nil => intro l h; cases h; simp
  | cons w ws ih =>
    intro l h n hn
    unfold endNodes at h
    by_cases hu : w.used < 0
    · rw [if_pos hu] at h
      rw [List.filter_cons_of_pos (by simpa using hu), List.map_cons]
      split at h
      · rename_i f b l' h1 h2 h3
        cases h
        simp only [List.mem_cons] at hn
        rcases hn with rfl | rfl | hn
        · exact ⟨w.way, by simp, .inl h1⟩
        · exact ⟨w.way, by simp, .inr h2⟩
        · obtain ⟨v, hv, hh⟩ := ih l' h3 n hn
          exact ⟨v, by simp [hv], hh⟩
      · cases h
    · rw [if_neg hu] at h
      rw [List.filter_cons_of_neg (by simpa using hu)]
      exact ih l h n hn

theorem endNodes_spec (ways : List WayInfo) (hne : ∀ w ∈ ways, w.way.nodes ≠ []) :
    ∃ l, endNodes ways = some l ∧ l.length % 2 = 0 ∧ ∀ ref, refCount l ref = endCount ways ref := by
  induction ways with
  | nil => exact ⟨[], rfl, rfl, fun _ => rfl⟩
  | cons w ws ih =>
    obtain ⟨l, h1, h2, h3⟩ := ih (fun v hv => hne v (by simp [hv]))
    unfold endNodes
    by_cases hu : w.used < 0
    · rw [if_pos hu]
      have hn := hne w (by simp)
      obtain ⟨f, hf⟩ : ∃ f, w.way.nodes.head? = some f := by
        cases hh : w.way.nodes with
        | nil => exact absurd hh hn
        | cons x xs => exact ⟨x, rfl⟩
      obtain ⟨b, hb⟩ : ∃ b, w.way.nodes.getLast? = some b := by
        cases hh : w.way.nodes.getLast? with
        | none => simp at hh; exact absurd hh hn
        | some x => exact ⟨x, rfl⟩
      rw [hf, hb, h1]
      refine ⟨_, rfl, by simp only [List.length_cons]; omega, fun ref => ?_⟩
      have := h3 ref
      simp only [refCount, endCount] at this ⊢
      rw [List.filter_cons_of_pos (by simpa using hu), List.map_cons, List.sum_cons, ← this, hf, hb]
      simp only [List.countP_cons, Option.map_some, Option.some.injEq, decide_eq_true_eq]
      omega
    · rw [if_neg hu]
      refine ⟨l, h1, h2, fun ref => ?_⟩
      rw [h3 ref, endCount, endCount, List.filter_cons_of_neg (by simpa using hu)]

theorem closestIdx_mem (closer : WayNode → WayNode → WayNode → Bool) (wn : WayNode)
    (all : List WayNode) (rest : List WayNode) :
    ∀ i best, all.drop i = rest → all[best.1]? = some best.2 →
      all[(closestIdx closer wn rest i best).1]? = some (closestIdx closer wn rest i best).2 := by
  induction rest with
  | nil => intro i best _ h; exact h
  | cons x rest ih =>
    intro i best hd hb
    unfold closestIdx
    apply ih (i + 1)
    · rw [← List.drop_drop, hd]; rfl
    · split
      · have : (all.drop i)[0]? = some x := by rw [hd]; rfl
        simpa using this
      · exact hb

theorem joinDangling_spec (closer : WayNode → WayNode → WayNode → Bool) (fuel : Nat) :
    ∀ (nodes : List WayNode) (ways : List WayInfo), nodes.length % 2 = 0 → nodes.length < fuel →
      ∃ fill : List (WayNode × WayNode),
        joinDangling closer fuel nodes ways = .ok (ways ++ fill.map fun p =>
          WayInfo.new { Way.new with nodes := [p.1, p.2] }) ∧
        (fill.flatMap fun p => [p.1, p.2]).Perm nodes := by
  induction fuel with
  | zero => intro nodes ways _ h; omega
  | succ fuel ih =>
    intro nodes ways hev hf
    unfold joinDangling
    cases hl : nodes.getLast? with
    | none =>
      simp only [List.getLast?_eq_none_iff] at hl
      subst hl
      exact ⟨[], by simp, by simp⟩
    | some wn =>
      have hne : nodes ≠ [] := by rintro rfl; simp at hl
      have hsplit : nodes = nodes.dropLast ++ [wn] := by
        have := List.dropLast_append_getLast hne
        rw [List.getLast?_eq_getLast_of_ne_nil hne] at hl
        simp only [Option.some.injEq] at hl
        rw [hl] at this
        exact this.symm
      cases hd : nodes.dropLast with
      | nil =>
        rw [hd] at hsplit
        rw [hsplit] at hev
        simp at hev
      | cons x rest =>
        simp only
        have hm := closestIdx_mem closer wn (x :: rest) rest 1 (0, x) rfl rfl
        generalize closestIdx closer wn rest 1 (0, x) = kc at hm ⊢
        obtain ⟨k, c⟩ := kc
        simp only at hm ⊢
        have hk := (List.getElem?_eq_some_iff.1 hm).1
        have hlen : nodes.length = rest.length + 2 := by
          rw [hsplit, hd]; simp
        have hle : ((x :: rest).eraseIdx k).length = rest.length := by
          rw [List.length_eraseIdx_of_lt hk]; simp
        obtain ⟨fill, q1, q2⟩ := ih ((x :: rest).eraseIdx k)
          (ways ++ [WayInfo.new { Way.new with nodes := [c, wn] }]) (by omega) (by omega)
        refine ⟨(c, wn) :: fill, ?_, ?_⟩
        · rw [q1]; simp
        · rw [hsplit, hd]
          have hck : (x :: rest)[k] = c := (List.getElem?_eq_some_iff.1 hm).2
          have e : (x :: rest).Perm (c :: (x :: rest).eraseIdx k) := by
            rw [← hck]; exact (List.getElem_cons_eraseIdx_perm hk).symm
          have : (List.flatMap (fun p : WayNode × WayNode => [p.1, p.2]) ((c, wn) :: fill)) =
              c :: wn :: fill.flatMap fun p => [p.1, p.2] := by simp
          rw [this]
          calc c :: wn :: (fill.flatMap fun p => [p.1, p.2])
              |>.Perm (c :: wn :: (x :: rest).eraseIdx k) := (q2.cons wn).cons c
            _ |>.Perm (wn :: c :: (x :: rest).eraseIdx k) := List.Perm.swap _ _ _
            _ |>.Perm (wn :: x :: rest) := e.symm.cons wn
            _ |>.Perm (x :: rest ++ [wn]) := (List.perm_append_singleton wn (x :: rest)).symm

theorem resetWays_ways (ways : List WayInfo) :
    (resetWays ways).map (·.way) = ways.map (·.way) ∧ ∀ ref, endCount (resetWays ways) ref = endCount ways ref := by
  refine ⟨?_, fun ref => ?_⟩
  · simp only [resetWays, List.map_map]
    congr 1
    funext w
    simp only [Function.comp]
    split <;> rfl
  · induction ways with
    | nil => rfl
    | cons w ws ih =>
      have e : resetWays (w :: ws) = (if w.used < 0 then { w with used := -1 } else w) :: resetWays ws := rfl
      rw [e]
      unfold endCount at ih ⊢
      by_cases hu : w.used < 0
      · rw [if_pos hu, List.filter_cons_of_pos (by simp), List.filter_cons_of_pos (by simpa using hu)]
        simp only [List.map_cons, List.sum_cons, ih]
      · rw [if_neg hu, List.filter_cons_of_neg (by simpa using hu), List.filter_cons_of_neg (by simpa using hu)]
        exact ih

theorem endCount_append (a b : List WayInfo) (ref : Int) :
    endCount (a ++ b) ref = endCount a ref + endCount b ref := by
  simp [endCount]

theorem endCount_fill (fill : List (WayNode × WayNode)) (ref : Int) :
    endCount (fill.map fun p => WayInfo.new { Way.new with nodes := [p.1, p.2] }) ref =
      refCount (fill.flatMap fun p => [p.1, p.2]) ref := by
  induction fill with
  | nil => rfl
  | cons p fill ih =>
    rw [List.map_cons]
    unfold endCount refCount at ih ⊢
    rw [List.filter_cons_of_pos (by simp [WayInfo.new]), List.map_cons, List.sum_cons, ih]
    simp only [List.flatMap_cons, List.cons_append, List.nil_append, List.countP_cons]
    simp only [WayInfo.new, List.head?_cons, List.getLast?_cons_cons, List.getLast?_singleton,
      Option.map_some, Option.some.injEq, decide_eq_true_eq]
    omega

/-- C46: dangling ends.  For ways with nodes, in every state of the marks: the nodes reported as
dangling are the end nodes occurring an odd number of times among the unused ways, each once (with
the position it has there); their
number is even, so neither the assertion fails nor does the pairing run out of partners.  Without
repair the result is failure iff there is a dangling node.  With repair, ways between pairs of
dangling nodes are added, each dangling node is used in one of them, and afterwards no unused way has
a dangling end. -/
theorem dangling_exact (env : RingEnv) (hsort : env.SortOk) (ways : List WayInfo)
    (hne : ∀ w ∈ ways, w.way.nodes ≠ []) :
    ∃ dangling : List WayNode,
      (∀ ref, dangling.countP (fun n => n.ref = ref) = endCount ways ref % 2) ∧
      (∀ n ∈ dangling, IsEndNode ((ways.filter fun w => w.used < 0).map (·.way)) n) ∧
      dangling.length % 2 = 0 ∧
      (env.repair = false →
        repairHoles env ways = .ok (if dangling = [] then some (resetWays ways) else none)) ∧
      (env.repair = true →
        ∃ fill : List (WayNode × WayNode),
          repairHoles env ways = .ok (some (resetWays ways ++ fill.map fun p =>
            WayInfo.new { Way.new with nodes := [p.1, p.2] })) ∧
          (fill.flatMap fun p => [p.1, p.2]).Perm dangling ∧
          ∀ ref, endCount (resetWays ways ++ fill.map fun p =>
            WayInfo.new { Way.new with nodes := [p.1, p.2] }) ref % 2 = 0) := by
  obtain ⟨ends, h1, h2, h3⟩ := endNodes_spec ways hne
  obtain ⟨hp, hs⟩ := hsort ends
  have hs' : (env.sort ends).Pairwise (fun a b => a.ref ≤ b.ref) :=
    hs.imp (by intro a b h; simpa [WayNode.lt] using h)
  have hcount : ∀ ref, refCount (danglingOf (env.sort ends)) ref = endCount ways ref % 2 := by
    intro ref
    rw [danglingOf_count _ hs', ← h3 ref]
    simp only [refCount]
    rw [hp.countP_eq]
  have hev : (danglingOf (env.sort ends)).length % 2 = 0 := by
    rw [danglingOf_parity, hp.length_eq, h2]
  refine ⟨danglingOf (env.sort ends), hcount,
    fun n hn => endNodes_mem ways ends h1 n (hp.subset ((danglingOf_sublist _).subset hn)), hev, fun hr => ?_, fun hr => ?_⟩
  · unfold repairHoles
    rw [h1]
    simp only [hev, hr, ne_eq, not_true, if_false, Bool.not_false, Bool.true_and]
    by_cases e : danglingOf (env.sort ends) = []
    · rw [e]; simp [joinDangling, Except.map]
    · have : (danglingOf (env.sort ends)).isEmpty = false := by simpa using e
      simp [this, e]
  · obtain ⟨fill, q1, q2⟩ := joinDangling_spec env.closer ((danglingOf (env.sort ends)).length + 1)
      (danglingOf (env.sort ends)) (resetWays ways) hev (by omega)
    refine ⟨fill, ?_, q2, fun ref => ?_⟩
    · unfold repairHoles
      rw [h1]
      simp only [hev, hr, ne_eq, not_true, if_false, Bool.not_true, Bool.false_and, q1, Except.map]
      rfl
    · rw [endCount_append, (resetWays_ways ways).2, endCount_fill]
      have e1 : refCount (fill.flatMap fun p => [p.1, p.2]) ref = endCount ways ref % 2 := by
        rw [← hcount ref]; exact q2.countP_eq _
      rw [e1]; omega

theorem goodRing_append {chk : List (Way × Bool) → Bool} {ws : List Way} (ws' : List Way)
    {r : List Nat} (h : GoodRing chk ws r) : GoodRing chk (ws ++ ws') r := by
  obtain ⟨path, h1, h2, h3⟩ := h
  refine ⟨path, ?_, h2, h3⟩
  rw [h1]
  apply List.map_congr_left
  intro i hi
  have hm : ws[i]? ∈ path.map (fun p => some p.1) := by
    rw [h1]; exact List.mem_map.2 ⟨i, hi, rfl⟩
  obtain ⟨p, -, hp⟩ := List.mem_map.1 hm
  have : i < ws.length := by
    have := hp.symm
    exact (List.getElem?_eq_some_iff.1 this).1
  rw [List.getElem?_append_left this]

theorem ringInv_reset {chk : List (Way × Bool) → Bool} {s : RingState} (hs : RingInv chk s)
    (fill : List (WayNode × WayNode)) :
    RingInv chk ⟨resetWays s.ways ++ fill.map fun p =>
      WayInfo.new { Way.new with nodes := [p.1, p.2] }, s.rings⟩ := by
  have hl : (resetWays s.ways).length = s.ways.length := by simp [resetWays]
  have hlt : ∀ i ∈ s.rings.flatten, i < s.ways.length := by
    intro i hi
    obtain ⟨r, hr, hir⟩ := List.mem_flatten.1 hi
    obtain ⟨path, h1, -⟩ := hs.good r hr
    have hm : (s.ways.map (·.way))[i]? ∈ path.map (fun p => some p.1) := by
      rw [h1]; exact List.mem_map.2 ⟨i, by simpa using hir, rfl⟩
    obtain ⟨p, -, hp⟩ := List.mem_map.1 hm
    have := (List.getElem?_eq_some_iff.1 hp.symm).1
    simpa using this
  have get : ∀ (i : Nat) w, (resetWays s.ways)[i]? = some w → ∃ v, s.ways[i]? = some v ∧
      w.way = v.way ∧ (0 ≤ w.used ↔ 0 ≤ v.used) ∧ (w.used = -1 ∨ w.used = v.used) := by
    intro i w hw
    simp only [resetWays, List.getElem?_map, Option.map_eq_some_iff] at hw
    obtain ⟨v, q1, q2⟩ := hw
    refine ⟨v, q1, ?_⟩
    split at q2
    · subst q2; simp; omega
    · subst q2; simp
  refine ⟨?_, hs.once, ?_, ?_, ?_, ?_⟩
  · intro w hw
    rcases List.mem_append.1 hw with hw | hw
    · obtain ⟨i, hi⟩ := List.mem_iff_getElem?.1 hw
      obtain ⟨v, q1, q2, -⟩ := get i w hi
      rw [q2]; exact hs.nodes v (List.mem_of_getElem? q1)
    · obtain ⟨p, -, rfl⟩ := List.mem_map.1 hw
      simp [WayInfo.new]
  · intro i w hw
    simp only at hw ⊢
    rw [List.getElem?_append] at hw
    split at hw
    · obtain ⟨v, q1, q2, q3, -⟩ := get i w hw
      rw [q3]; exact hs.marks i v q1
    · rename_i hge
      obtain ⟨p, -, rfl⟩ := List.mem_map.1 (List.mem_of_getElem? hw)
      constructor
      · intro h; simp [WayInfo.new] at h
      · intro h; have := hlt i h; omega
  · intro w hw
    simp only at hw ⊢
    rcases List.mem_append.1 hw with hw | hw
    · obtain ⟨i, hi⟩ := List.mem_iff_getElem?.1 hw
      obtain ⟨v, q1, q2, -, q3⟩ := get i w hi
      have := hs.bound v (List.mem_of_getElem? q1)
      omega
    · obtain ⟨p, -, rfl⟩ := List.mem_map.1 hw
      simp only [WayInfo.new]; omega
  · intro r hr
    show GoodRing chk ((resetWays s.ways ++ _).map (·.way)) r
    rw [List.map_append, (resetWays_ways s.ways).1]
    exact goodRing_append _ (hs.good r hr)
  · intro r hr
    simp only
    rw [ringPath_kept (a := s.ways) ?_ (hs.inUse hr)]
    · exact hs.path r hr
    · intro k v hv hu
      have hk := (List.getElem?_eq_some_iff.1 hv).1
      rw [List.getElem?_append_left (by rw [hl]; exact hk), resetWays, List.getElem?_map, hv,
        Option.map_some, if_neg (by omega)]

/-- The ways added by the repair. -/
def fillWays (fill : List (WayNode × WayNode)) : List Way :=
  fill.map fun p => { Way.new with nodes := [p.1, p.2] }

/-- C44, C45: for all ways with nodes, and whatever GEOS and the distances say, building the rings
terminates without undefined behaviour or failed assertion: it gives rings, or one of the two
exceptions.  The rings are cyclic chains
(with the directions recorded for the ways), each way (including those added to fill gaps, which there
are only in repair mode and which go from one end of a way to another one) is in at most one ring and at most once in it, and there is at least one
ring. -/
theorem makeRings_spec (env : RingEnv) (hsort : env.SortOk) (ws : List Way)
    (hne : ∀ w ∈ ws, w.nodes ≠ []) :
    makeRings env (ws.map WayInfo.new) = .error (.exn "un-connectable dangling ends") ∧ env.repair = false ∨
    makeRings env (ws.map WayInfo.new) = .error (.exn "no rings") ∨
    ∃ s fill, makeRings env (ws.map WayInfo.new) = .ok s ∧
      s.ways.map (·.way) = ws ++ fillWays fill ∧ (env.repair = false → fill = []) ∧
      (∀ p ∈ fill, IsEndNode ws p.1 ∧ IsEndNode ws p.2) ∧
      s.rings ≠ [] ∧ s.rings.flatten.Nodup ∧
      ∀ r ∈ s.rings, GoodRing env.chk (ws ++ fillWays fill) r ∧
        CyclicChain (ringPath s.ways r) ∧ env.chk (ringPath s.ways r) = true := by
  have h0 : RingInv env.chk ⟨ws.map WayInfo.new, []⟩ := by
    refine ⟨?_, by simp, ?_, ?_, by simp, by simp⟩
    · intro w hw
      obtain ⟨v, hv, rfl⟩ := List.mem_map.1 hw
      exact hne v hv
    · intro i w hw
      obtain ⟨v, -, rfl⟩ := List.mem_map.1 (List.mem_of_getElem? hw)
      simp [WayInfo.new]
    · intro w hw
      obtain ⟨v, -, rfl⟩ := List.mem_map.1 hw
      simp [WayInfo.new]
  have hw0 : (ws.map WayInfo.new).map (·.way) = ws := by
    simp [List.map_map, Function.comp_def, WayInfo.new]
  obtain ⟨s, a1, a2, a3, a4⟩ := ringLoop_inv env.chk (loopFuel (ws.map WayInfo.new)) _ h0 (Nat.le_refl _)
  -- the second loop
  have second : ∀ fill : List (WayNode × WayNode), (env.repair = false → fill = []) →
      (∀ p ∈ fill, IsEndNode ws p.1 ∧ IsEndNode ws p.2) →
      repairHoles env s.ways = .ok (some (resetWays s.ways ++ fill.map fun p =>
        WayInfo.new { Way.new with nodes := [p.1, p.2] })) →
      makeRings env (ws.map WayInfo.new) = .error (.exn "no rings") ∨
      ∃ s fill, makeRings env (ws.map WayInfo.new) = .ok s ∧
        s.ways.map (·.way) = ws ++ fillWays fill ∧ (env.repair = false → fill = []) ∧
        (∀ p ∈ fill, IsEndNode ws p.1 ∧ IsEndNode ws p.2) ∧
        s.rings ≠ [] ∧ s.rings.flatten.Nodup ∧
        ∀ r ∈ s.rings, GoodRing env.chk (ws ++ fillWays fill) r ∧
          CyclicChain (ringPath s.ways r) ∧ env.chk (ringPath s.ways r) = true := by
    intro fill hfill hends hrep
    obtain ⟨s', b1, b2, b3, b4⟩ := ringLoop_inv env.chk _ _ (ringInv_reset a2 fill) (Nat.le_refl _)
    have hways : s'.ways.map (·.way) = ws ++ fillWays fill := by
      rw [b3]
      simp only [List.map_append, (resetWays_ways s.ways).1, a3, hw0]
      simp [fillWays, List.map_map, Function.comp_def, WayInfo.new]
    have hm : makeRings env (ws.map WayInfo.new) =
        if s'.rings.isEmpty then .error (.exn "no rings") else .ok s' := by
      unfold makeRings
      rw [a1]
      simp only [hrep, b1]
    rw [hm]
    by_cases e : s'.rings.isEmpty = true
    · left; rw [if_pos e]
    · right
      rw [if_neg e]
      refine ⟨s', fill, rfl, hways, hfill, hends, by simpa using e, b2.once, fun r hr => ⟨?_, b2.path r hr⟩⟩
      rw [← hways]; exact b2.good r hr
  obtain ⟨dangling, -, d0, -, d3, d4⟩ := dangling_exact env hsort s.ways a2.nodes
  cases hr : env.repair with
  | false =>
    have d3 := d3 hr
    by_cases e : dangling = []
    · right
      rw [if_pos e] at d3
      have := second [] (fun _ => rfl) (by simp) (by simpa using d3)
      rw [hr] at this
      exact this
    · left
      rw [if_neg e] at d3
      refine ⟨?_, rfl⟩
      unfold makeRings
      rw [a1]
      simp only [d3]
  | true =>
    obtain ⟨fill, q1, q2, -⟩ := d4 hr
    right
    have hmem : ∀ n ∈ dangling, IsEndNode ws n := by
      intro n hn
      obtain ⟨w, hw, hh⟩ := d0 n hn
      refine ⟨w, ?_, hh⟩
      have : w ∈ s.ways.map (·.way) := by
        obtain ⟨v, hv, rfl⟩ := List.mem_map.1 hw
        exact List.mem_map.2 ⟨v, (List.mem_filter.1 hv).1, rfl⟩
      rw [a3, hw0] at this
      exact this
    have hf : ∀ p ∈ fill, IsEndNode ws p.1 ∧ IsEndNode ws p.2 := by
      intro p hp
      exact ⟨hmem _ (q2.subset (List.mem_flatMap.2 ⟨p, hp, by simp⟩)),
        hmem _ (q2.subset (List.mem_flatMap.2 ⟨p, hp, by simp⟩))⟩
    have := second fill (by simp [hr]) hf q1
    rw [hr] at this
    exact this

/-- A way through these nodes. -/
def wayThrough (refs : List Int) : Way := { Way.new with nodes := refs.map fun r => ⟨r, Position.undef⟩ }

/-- GEOS refuses rings of fewer than three edges; for the examples this is the only check. -/
def fewEdges (path : List (Way × Bool)) : Bool :=
  decide (3 ≤ (path.map fun p => p.1.nodes.length - 1).sum)

/-- An environment for examples, in which all distances are the same. -/
def exampleEnv (repair : Bool) : RingEnv :=
  ⟨repair, fewEdges, fun _ _ _ => false, fun l => l.insertionSort (fun a b => a.ref ≤ b.ref)⟩

theorem exampleEnv_sort (repair : Bool) : (exampleEnv repair).SortOk := by
  intro l
  have : Std.Total (fun a b : WayNode => a.ref ≤ b.ref) := ⟨fun a b => by omega⟩
  have : IsTrans WayNode (fun a b : WayNode => a.ref ≤ b.ref) := ⟨fun a b c h1 h2 => by omega⟩
  refine ⟨List.perm_insertionSort _ _, ?_⟩
  exact (List.pairwise_insertionSort (fun a b : WayNode => a.ref ≤ b.ref) l).imp
    (by intro a b h; simpa [WayNode.lt] using h)

/-- The hypotheses of `makeRings_spec` can be met with every outcome: two rings, one of them of two
ways, of which one is turned around; dangling ends; a gap that is filled. -/
example : (makeRings (exampleEnv false)
      ([wayThrough [1, 2, 3], wayThrough [7, 8, 9, 7], wayThrough [1, 4, 3]].map WayInfo.new)).map
        RingState.rings = .ok [[2, 0], [1]] ∧
    makeRings (exampleEnv false) ([wayThrough [1, 2, 3, 4]].map WayInfo.new) =
      .error (.exn "un-connectable dangling ends") ∧
    (makeRings (exampleEnv true) ([wayThrough [1, 2, 3, 4]].map WayInfo.new)).map
        (fun s => (s.rings, s.ways.map fun w => w.way.nodes.map WayNode.ref)) =
      .ok ([[1, 0]], [[1, 2, 3, 4], [1, 4]]) := by decide +kernel

/-- The hypotheses of `makeOneRing_spec` can be met by a state with a ring, a failed way and a way
to try. -/
example : RingInv fewEdges ⟨[⟨wayThrough [1, 2, 3, 1], 0, 0, false⟩, ⟨wayThrough [4, 5], -2, 0, false⟩,
    ⟨wayThrough [6, 7, 8, 6], -1, 0, false⟩], [[0]]⟩ := by
  refine ⟨by decide, by decide, ?_, by decide, ?_, ?_⟩
  · intro i w h
    match i with
    | 0 => simp at h; subst h; simp
    | 1 => simp at h; subst h; simp
    | 2 => simp at h; subst h; simp
    | n + 3 => simp at h
  · intro r hr
    simp only [List.mem_singleton] at hr
    subst hr
    exact ⟨[(wayThrough [1, 2, 3, 1], false)], by decide, ⟨by decide, by simp, by decide⟩, by decide⟩
  · intro r hr
    simp only [List.mem_singleton] at hr
    subst hr
    exact ⟨⟨by decide, by simp [ringPath], by decide⟩, by decide⟩

/-- The search gives up all other ways when the first one tried cannot be closed: here a closed way
that is a ring of its own is never tried, in neither mode, since the way before it has an open end
(and no ring with the pseudo-way that fills the gap is possible). -/
theorem makeRings_stops_early :
    GoodRing fewEdges [wayThrough [1, 2], wayThrough [7, 8, 9, 7]] [1] ∧
    makeRings (exampleEnv false) ([wayThrough [1, 2], wayThrough [7, 8, 9, 7]].map WayInfo.new) =
      .error (.exn "un-connectable dangling ends") ∧
    makeRings (exampleEnv true) ([wayThrough [1, 2], wayThrough [7, 8, 9, 7]].map WayInfo.new) =
      .error (.exn "no rings") := by
  refine ⟨⟨[(wayThrough [7, 8, 9, 7], false)], by decide, ⟨by decide, by simp, by decide⟩, by decide⟩, ?_, ?_⟩ <;>
    decide +kernel

/-- assemble_ways, 644-660: the ways are the members that are there and have nodes, in order; in
repair mode only the first with each id.  So none is without nodes, as `makeRings_spec` needs. -/
theorem assembleWays_ways (repair : Bool) (ms : List (Option Way)) (added : List Int) (ts : Int) :
    (∃ ws : List Way, (assembleWays repair ms added ts).1 = ws.map WayInfo.new ∧
      ws.Sublist (ms.filterMap id) ∧ (∀ w ∈ ws, w.nodes ≠ []) ∧
      (repair = false → ws = (ms.filterMap id).filter fun w => !w.nodes.isEmpty) ∧
      (repair = true → (ws.map fun w => w.obj.id).Nodup ∧ (∀ w ∈ ws, w.obj.id ∉ added) ∧
        ∀ w ∈ ms.filterMap id, w.nodes ≠ [] → w.obj.id ∈ added ∨ ∃ v ∈ ws, v.obj.id = w.obj.id)) := by
  induction ms generalizing added ts with
  | nil => exact ⟨[], rfl, by simp, by simp, by simp, by simp⟩
  | cons m ms ih =>
    cases m with
    | none =>
      obtain ⟨ws, h1, h2, h3, h4, h5⟩ := ih added ts
      exact ⟨ws, h1, by simpa using h2, h3, by simpa using h4, by simpa using h5⟩
    | some w =>
      unfold assembleWays
      by_cases hc : (!w.nodes.isEmpty && (!repair || !added.contains w.obj.id)) = true
      · obtain ⟨ws, h1, h2, h3, h4, h5⟩ := ih (w.obj.id :: added)
          (if w.obj.timestamp > ts then w.obj.timestamp else ts)
        rw [if_pos hc]
        simp only [Bool.and_eq_true, Bool.not_eq_true', Bool.or_eq_true] at hc
        refine ⟨w :: ws, by simp [h1], by simpa using h2, ?_, ?_, ?_⟩
        · intro v hv
          simp only [List.mem_cons] at hv
          rcases hv with rfl | hv
          · simpa using hc.1
          · exact h3 v hv
        · intro hr
          simp [h4 hr, hc.1]
        · intro hr
          obtain ⟨k1, k2, k3⟩ := h5 hr
          have hna : w.obj.id ∉ added := by
            rcases hc.2 with h | h
            · simp [hr] at h
            · simpa using h
          refine ⟨?_, ?_, ?_⟩
          · rw [List.map_cons, List.nodup_cons]
            refine ⟨?_, k1⟩
            intro hm
            obtain ⟨v, hv, he⟩ := List.mem_map.1 hm
            exact k2 v hv (by simp [he])
          · intro v hv
            simp only [List.mem_cons] at hv
            rcases hv with rfl | hv
            · exact hna
            · have := k2 v hv
              simp only [List.mem_cons, not_or] at this
              exact this.2
          · intro v hv hn
            simp only [id_eq, List.filterMap_cons, List.mem_cons] at hv
            rcases hv with rfl | hv
            · exact Or.inr ⟨v, by simp, rfl⟩
            · rcases k3 v hv hn with h | ⟨u, hu, he⟩
              · simp only [List.mem_cons] at h
                rcases h with h | h
                · exact Or.inr ⟨w, by simp, h.symm⟩
                · exact Or.inl h
              · exact Or.inr ⟨u, by simp [hu], he⟩
      · obtain ⟨ws, h1, h2, h3, h4, h5⟩ := ih added ts
        rw [if_neg hc]
        refine ⟨ws, h1, ?_, h3, ?_, ?_⟩
        · simpa using h2.cons w
        · intro hr
          rw [h4 hr]
          have : w.nodes.isEmpty = true := by
            simp only [hr, Bool.not_false, Bool.true_or, Bool.and_true, Bool.not_eq_true,
              Bool.not_eq_false'] at hc
            exact hc
          simp [this]
        · intro hr
          obtain ⟨k1, k2, k3⟩ := h5 hr
          refine ⟨k1, k2, ?_⟩
          intro v hv hn
          simp only [id_eq, List.filterMap_cons, List.mem_cons] at hv
          rcases hv with rfl | hv
          · left
            have hn' : v.nodes.isEmpty = false := by simpa using hn
            simpa [hr, hn'] using hc
          · exact k3 v hv hn

/-- assemble_ways: the new timestamp of the area is the latest of its own and those of the ways. -/
theorem assembleWays_timestamp (repair : Bool) (ms : List (Option Way)) (added : List Int) (ts : Int) :
    let r := assembleWays repair ms added ts
    ts ≤ r.2 ∧ (∀ w ∈ r.1, w.way.obj.timestamp ≤ r.2) ∧
      (r.2 = ts ∨ ∃ w ∈ r.1, w.way.obj.timestamp = r.2) := by
  induction ms generalizing added ts with
  | nil => simp [assembleWays]
  | cons m ms ih =>
    cases m with
    | none => exact ih added ts
    | some w =>
      simp only
      unfold assembleWays
      split
      · obtain ⟨h1, h2, h3⟩ := ih (w.obj.id :: added) (if w.obj.timestamp > ts then w.obj.timestamp else ts)
        generalize assembleWays repair ms (w.obj.id :: added)
          (if w.obj.timestamp > ts then w.obj.timestamp else ts) = r at h1 h2 h3
        simp only [List.mem_cons]
        split at h1
        · refine ⟨by omega, ?_, ?_⟩
          · rintro v (rfl | hv)
            · exact h1
            · exact h2 v hv
          · right
            rename_i hgt
            rw [if_pos hgt] at h3
            rcases h3 with h | ⟨v, hv, he⟩
            · exact ⟨WayInfo.new w, Or.inl rfl, h.symm⟩
            · exact ⟨v, Or.inr hv, he⟩
        · rename_i hgt
          refine ⟨by omega, ?_, ?_⟩
          · rintro v (rfl | hv)
            · show w.obj.timestamp ≤ r.2; omega
            · exact h2 v hv
          · rw [if_neg hgt] at h3
            rcases h3 with h | ⟨v, hv, he⟩
            · exact Or.inl h
            · exact Or.inr ⟨v, Or.inr hv, he⟩
      · exact ih added ts

end Osmium

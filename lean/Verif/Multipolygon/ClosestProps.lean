import Verif.Multipolygon.HoleProps

/-
C46: how dangling ends are paired.
-/
namespace Osmium
open Spec

namespace Spec

/-- Pairs made from a list of nodes, always for the last node of what is left: its partner is one of the other
nodes, and none of them is closer to it than the partner. -/
inductive ClosestPairs {α : Type} [LinearOrder α] (dist : WayNode → WayNode → α) :
    List WayNode → List (WayNode × WayNode) → Prop
  | nil : ClosestPairs dist [] []
  | pair (left right : List WayNode) (c n : WayNode) (fill : List (WayNode × WayNode))
      (closest : ∀ x ∈ left ++ right, dist n c ≤ dist n x)
      (rest : ClosestPairs dist (left ++ right) fill) :
      ClosestPairs dist (left ++ c :: right ++ [n]) ((c, n) :: fill)

end Spec

variable {α : Type} [LinearOrder α]

theorem closestIdx_min (dist : WayNode → WayNode → α) (closer : WayNode → WayNode → WayNode → Bool)
    (hc : ∀ n a b, closer n a b = true ↔ dist n a < dist n b) (n : WayNode) (rest : List WayNode) :
    ∀ i best, dist n (closestIdx closer n rest i best).2 ≤ dist n best.2 ∧
      ∀ x ∈ rest, dist n (closestIdx closer n rest i best).2 ≤ dist n x := by
  induction rest with
  | nil => intro i best; exact ⟨le_refl _, by simp⟩
  | cons x rest ih =>
    intro i best
    unfold closestIdx
    obtain ⟨h1, h2⟩ := ih (i + 1) (if closer n x best.2 then (i, x) else best)
    by_cases h : closer n x best.2
    · rw [if_pos h] at h1 h2 ⊢
      have hlt := (hc _ _ _).mp h
      refine ⟨h1.trans hlt.le, fun y hy => ?_⟩
      simp only [List.mem_cons] at hy
      rcases hy with rfl | hy
      · exact h1
      · exact h2 y hy
    · rw [if_neg h] at h1 h2 ⊢
      have hlt : dist n best.2 ≤ dist n x := by
        rw [← not_lt]
        exact fun g => h ((hc _ _ _).mpr g)
      refine ⟨h1, fun y hy => ?_⟩
      simp only [List.mem_cons] at hy
      rcases hy with rfl | hy
      · exact h1.trans hlt
      · exact h2 y hy

theorem joinDangling_closest (dist : WayNode → WayNode → α) (closer : WayNode → WayNode → WayNode → Bool)
    (hc : ∀ n a b, closer n a b = true ↔ dist n a < dist n b) (fuel : Nat) :
    ∀ (nodes : List WayNode) (ways : List WayInfo), nodes.length % 2 = 0 → nodes.length < fuel →
      ∃ fill : List (WayNode × WayNode),
        joinDangling closer fuel nodes ways = .ok (ways ++ fill.map fun p =>
          WayInfo.new { Way.new with nodes := [p.1, p.2] }) ∧ ClosestPairs dist nodes fill := by
  induction fuel with
  | zero => intro nodes ways _ h; omega
  | succ fuel ih =>
    intro nodes ways hev hf
    unfold joinDangling
    cases hl : nodes.getLast? with
    | none =>
      simp only [List.getLast?_eq_none_iff] at hl
      subst hl
      exact ⟨[], by simp, .nil⟩
    | some wn =>
      have hne : nodes ≠ [] := by rintro rfl; simp at hl
      have hsplit : nodes = nodes.dropLast ++ [wn] := by
        have := List.dropLast_append_getLast hne
        rw [List.getLast?_eq_getLast_of_ne_nil hne] at hl
        simp only [Option.some.injEq] at hl
        rw [hl] at this
        exact this.symm
      cases hd : nodes.dropLast with
      | nil =>
        rw [hd] at hsplit
        rw [hsplit] at hev
        simp at hev
      | cons x rest =>
        simp only
        have hm := closestIdx_mem closer wn (x :: rest) rest 1 (0, x) rfl rfl
        obtain ⟨hmin1, hmin2⟩ := closestIdx_min dist closer hc wn rest 1 (0, x)
        generalize closestIdx closer wn rest 1 (0, x) = kc at hm hmin1 hmin2 ⊢
        obtain ⟨k, c⟩ := kc
        simp only at hm hmin1 hmin2 ⊢
        have hk := (List.getElem?_eq_some_iff.1 hm).1
        have hck : (x :: rest)[k] = c := (List.getElem?_eq_some_iff.1 hm).2
        have hlen : nodes.length = rest.length + 2 := by
          rw [hsplit, hd]; simp
        have hle : ((x :: rest).eraseIdx k).length = rest.length := by
          rw [List.length_eraseIdx_of_lt hk]; simp
        obtain ⟨fill, q1, q2⟩ := ih ((x :: rest).eraseIdx k)
          (ways ++ [WayInfo.new { Way.new with nodes := [c, wn] }]) (by omega) (by omega)
        refine ⟨(c, wn) :: fill, ?_, ?_⟩
        · rw [q1]; simp
        · rw [hsplit, hd]
          have e1 : x :: rest = (x :: rest).take k ++ c :: (x :: rest).drop (k + 1) := by
            rw [← hck, ← List.drop_eq_getElem_cons hk, List.take_append_drop]
          have e2 : (x :: rest).eraseIdx k = (x :: rest).take k ++ (x :: rest).drop (k + 1) :=
            List.eraseIdx_eq_take_drop_succ ..
          rw [e1]
          refine .pair _ _ _ _ _ ?_ (by rw [← e2]; exact q2)
          intro y hy
          have : y ∈ x :: rest := by
            rw [← e2] at hy
            exact List.mem_of_mem_eraseIdx hy
          simp only [List.mem_cons] at this
          rcases this with rfl | h
          · exact hmin1
          · exact hmin2 y h

theorem strict_of_once {l : List WayNode} (h : l.Pairwise (fun a b => a.ref ≤ b.ref))
    (h1 : ∀ ref, refCount l ref ≤ 1) : l.Pairwise (fun a b => a.ref < b.ref) := by
  induction l with
  | nil => exact .nil
  | cons x l ih =>
    obtain ⟨hx, hl⟩ := List.pairwise_cons.1 h
    refine List.pairwise_cons.2 ⟨fun y hy => ?_, ih hl fun ref => ?_⟩
    · have hle := hx y hy
      have hc := h1 x.ref
      rw [refCount, List.countP_cons, if_pos (by simp)] at hc
      have hz : l.countP (fun n => decide (n.ref = x.ref)) = 0 := by omega
      rw [List.countP_eq_zero] at hz
      have := hz y hy
      simp only [decide_eq_true_eq] at this
      omega
    · have := h1 ref
      rw [refCount, List.countP_cons] at this
      rw [refCount]
      omega

/-- **C46**: with repair, the gaps are closed by ways from each dangling node to the closest one among those that
are left, beginning with the node with the largest id.  For all ways with nodes, all distances (of which only
the order matters; the program compares `Haversine::distance`, none of which may be NaN) and every sorted
permutation `std::sort` may produce. -/
theorem dangling_closest (env : RingEnv) (hsort : env.SortOk) (hrep : env.repair = true)
    (dist : WayNode → WayNode → α) (hc : ∀ n a b, env.closer n a b = true ↔ dist n a < dist n b)
    (ways : List WayInfo) (hne : ∀ w ∈ ways, w.way.nodes ≠ []) :
    ∃ (dangling : List WayNode) (fill : List (WayNode × WayNode)),
      (∀ ref, dangling.countP (fun n => n.ref = ref) = endCount ways ref % 2) ∧
      dangling.Pairwise (fun a b => a.ref < b.ref) ∧
      ClosestPairs dist dangling fill ∧
      repairHoles env ways = .ok (some (resetWays ways ++ fill.map fun p =>
        WayInfo.new { Way.new with nodes := [p.1, p.2] })) := by
  obtain ⟨ends, h1, h2, h3⟩ := endNodes_spec ways hne
  obtain ⟨hp, hs⟩ := hsort ends
  have hs' : (env.sort ends).Pairwise (fun a b => a.ref ≤ b.ref) :=
    hs.imp (by intro a b h; simpa [WayNode.lt] using h)
  have hcount : ∀ ref, refCount (danglingOf (env.sort ends)) ref = endCount ways ref % 2 := by
    intro ref
    rw [danglingOf_count _ hs', ← h3 ref]
    simp only [refCount]
    rw [hp.countP_eq]
  have hev : (danglingOf (env.sort ends)).length % 2 = 0 := by
    rw [danglingOf_parity, hp.length_eq, h2]
  obtain ⟨fill, q1, q2⟩ := joinDangling_closest dist env.closer hc ((danglingOf (env.sort ends)).length + 1)
    (danglingOf (env.sort ends)) (resetWays ways) hev (by omega)
  refine ⟨danglingOf (env.sort ends), fill, hcount, ?_, q2, ?_⟩
  · have hsub : (danglingOf (env.sort ends)).Pairwise (fun a b => a.ref ≤ b.ref) :=
      hs'.sublist (danglingOf_sublist _)
    refine strict_of_once hsub fun ref => ?_
    rw [hcount ref]
    omega
  · unfold repairHoles
    rw [h1]
    simp only [hev, hrep, ne_eq, not_true, if_false, Bool.not_true, Bool.false_and, q1, Except.map]
    rfl

/-- A concrete case: four ends on a line; the end with the largest id goes to its neighbour. -/
example :
    ClosestPairs (fun a b : WayNode => (a.position.x - b.position.x).natAbs)
      [⟨1, ⟨0, 0⟩⟩, ⟨2, ⟨100, 0⟩⟩, ⟨3, ⟨10, 0⟩⟩, ⟨4, ⟨95, 0⟩⟩]
      [(⟨2, ⟨100, 0⟩⟩, ⟨4, ⟨95, 0⟩⟩), (⟨1, ⟨0, 0⟩⟩, ⟨3, ⟨10, 0⟩⟩)] :=
  .pair [⟨1, ⟨0, 0⟩⟩] [⟨3, ⟨10, 0⟩⟩] _ _ _ (by decide) (.pair [] [] _ _ _ (by decide) .nil)

end Osmium

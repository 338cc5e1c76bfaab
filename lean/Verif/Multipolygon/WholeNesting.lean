import Verif.Multipolygon.WholeProps
import Mathlib.Data.Set.Card
import Mathlib.Tactic.IntervalCases
namespace Osmium
open Spec

namespace Spec

/-- The ring number `i` contains the ring number `j`, as GEOS says. (specification, no counterpart in /repo) -/
def RingContains (contains : Coords → Coords → Bool) (rings : List Coords) (i j : Nat) : Prop :=
  i ≠ j ∧ ∃ a b, rings[i]? = some a ∧ rings[j]? = some b ∧ contains a b = true

/-- What GEOS says about the rings is a nesting: no two contain each other, containment is transitive, of two
rings around the same ring one contains the other. (specification, no counterpart in /repo) -/
structure RingsNested (contains : Coords → Coords → Bool) (rings : List Coords) : Prop where
  asymm : ∀ i j, RingContains contains rings i j → ¬ RingContains contains rings j i
  trans : ∀ i j k, RingContains contains rings i j → RingContains contains rings j k → RingContains contains rings i k
  chain : ∀ i j k, RingContains contains rings i k → RingContains contains rings j k →
    i = j ∨ RingContains contains rings i j ∨ RingContains contains rings j i

/-- The number of rings around ring `j`. (specification, no counterpart in /repo) -/
noncomputable def ringsAround (contains : Coords → Coords → Bool) (rings : List Coords) (j : Nat) : Nat :=
  Set.ncard { i | RingContains contains rings i j }

end Spec

theorem bits_contains (env : WholeEnv) (rings : List Coords) (i j : Nat) :
    Contains (env.bits rings) i j ↔ RingContains env.contains rings i j := by
  unfold Contains RingContains WholeEnv.bits
  cases h1 : rings[i]? <;> cases h2 : rings[j]? <;> simp

theorem ringContains_lt {contains : Coords → Coords → Bool} {rings : List Coords} {i j : Nat}
    (h : RingContains contains rings i j) : i < rings.length ∧ j < rings.length := by
  obtain ⟨-, a, b, h1, h2, -⟩ := h
  exact ⟨(List.getElem?_eq_some_iff.1 h1).1, (List.getElem?_eq_some_iff.1 h2).1⟩

theorem depth_around (env : WholeEnv) (rings : List Coords) (j : Nat) :
    depth rings.length (env.bits rings) j = ringsAround env.contains rings j := by
  unfold depth ringsAround
  have e : { i | RingContains env.contains rings i j } =
      (((List.range rings.length).filter fun i => decide (Contains (env.bits rings) i j)).toFinset : Set Nat) := by
    ext i
    simp only [Set.mem_setOf_eq, List.coe_toFinset, List.mem_filter, List.mem_range, decide_eq_true_eq, bits_contains]
    exact ⟨fun h => ⟨(ringContains_lt h).1, h⟩, fun h => h.2⟩
  rw [e, Set.ncard_coe_finset, List.toFinset_card_of_nodup (List.nodup_range.filter _), List.countP_eq_length_filter]

/-- C78: the outer rings are those that lie within an even number of other rings, as GEOS sees them; a ring
within an odd number is an inner ring of a ring that contains it, and of the innermost one in particular. -/
theorem whole_nesting (env : WholeEnv) (rings : List Coords) (h : RingsNested env.contains rings) :
    let t := determineRings rings.length (env.bits rings)
    (∀ j < rings.length, j ∈ outerRings rings.length t ↔ ringsAround env.contains rings j % 2 = 0) ∧
    (∀ i < rings.length, ∀ j ∈ t.inner i, RingContains env.contains rings i j ∧ ringsAround env.contains rings j % 2 = 1) ∧
    (∀ i j, RingContains env.contains rings i j → ringsAround env.contains rings j % 2 = 1 →
      (¬ ∃ k, RingContains env.contains rings i k ∧ RingContains env.contains rings k j) → j ∈ t.inner i) := by
  have hn : IsNesting rings.length (env.bits rings) := by
    refine ⟨fun i _ j _ h1 h2 => ?_, fun i _ j _ k _ h1 h2 => ?_, fun i _ j _ k _ h1 h2 => ?_⟩
    · rw [bits_contains] at h1 h2; exact h.asymm i j h1 h2
    · rw [bits_contains] at *; exact h.trans i j k h1 h2
    · simp only [bits_contains] at *; exact h.chain i j k h1 h2
  obtain ⟨p1, p2, p3, -, -⟩ := rings_inner_outer_partial _ _ hn
  intro t
  refine ⟨fun j hj => ?_, fun i hi j hj => ?_, fun i j hc ho hd => ?_⟩
  · have := p1 j hj
    rw [depth_around] at this
    simp only [outerRings, List.mem_filter, List.mem_range, Bool.not_eq_true']
    change _ ∧ (determineRings _ _).isInner j = false ↔ _
    rw [this]
    simp only [hj, true_and, decide_eq_false_iff_not]
    omega
  · obtain ⟨q1, q2, q3⟩ := p3 i hi j hj
    rw [depth_around] at q3
    exact ⟨(bits_contains env rings i j).1 q2, q3⟩
  · obtain ⟨hi, hj⟩ := ringContains_lt hc
    refine p2 i hi j hj ⟨(bits_contains env rings i j).2 hc, ?_⟩ (by rw [depth_around]; exact ho)
    rintro ⟨k, _, h1, h2⟩
    exact hd ⟨k, (bits_contains env rings i k).1 h1, (bits_contains env rings k j).1 h2⟩

/-- A square within another and one beside are a nesting. -/
example : ∃ rings : List Coords, rings.length = 3 ∧ RingsNested squareEnv.contains rings ∧
    RingContains squareEnv.contains rings 0 2 := by
  refine ⟨[square 0 0 100, square 200 0 10, square 10 10 2], rfl, ?_, ?_⟩
  · have key : ∀ i j, RingContains squareEnv.contains [square 0 0 100, square 200 0 10, square 10 10 2] i j →
        i = 0 ∧ j = 2 := by
      intro i j h
      obtain ⟨hi, hj⟩ := ringContains_lt h
      obtain ⟨hne, a, b, h1, h2, h3⟩ := h
      simp only [List.length_cons, List.length_nil] at hi hj
      interval_cases i <;> interval_cases j <;> simp at h1 h2 <;> subst h1 <;> subst h2 <;> first
        | exact ⟨rfl, rfl⟩
        | (revert h3; decide)
    refine ⟨?_, ?_, ?_⟩
    · intro i j h1 h2
      have := key _ _ h1; have := key _ _ h2; omega
    · intro i j k h1 h2
      have := key _ _ h1; have := key _ _ h2; omega
    · intro i j k h1 h2
      have := key _ _ h1; have := key _ _ h2; left; omega
  · exact ⟨by decide, _, _, rfl, rfl, by decide⟩

end Osmium

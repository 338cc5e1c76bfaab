import Verif.Multipolygon.Nesting

/-
C47, C76: inner and outer rings if GEOS may throw when it is asked whether a ring contains another one,
multipolygon/builder.hpp 694-752.
-/
namespace Osmium

/-- multipolygon/builder.hpp 706-714: body of the loop that builds the relation; `geo i j` is the answer of GEOS, `throws i j`
whether it throws an exception instead, which ends the loop. -/
def nestTryStep (geo throws : Bits) (i j : Nat) (s : Bits × (Nat → Bool)) : Option (Bits × (Nat → Bool)) :=
  if i = j then some s
  else if s.1 j i then some s
  else if throws i j then none
  else
    let c := s.1.set i j (geo i j)
    some (c, fun k => if k = j then s.2 k ^^ c i j else s.2 k)

/-- multipolygon/builder.hpp 697-714: bits `contains` and `contained_by_even_number` for `n` rings, or the exception. -/
def nestTry (n : Nat) (geo throws : Bits) : Option (Bits × (Nat → Bool)) :=
  (List.range n).foldl (fun s i => (List.range n).foldl (fun s j => s.bind (nestTryStep geo throws i j)) s)
    (some (fun _ _ => false, fun _ => true))

/-- multipolygon/builder.hpp 694-752 `determine_inner_outer_rings`; `none` is the exception of GEOS. -/
def tryRings (n : Nat) (geo throws : Bits) : Option RingTree :=
  match nestTry n geo throws with
  | none => none
  | some (c0, even) =>
    let c := nestThin n c0
    some ((List.range n).foldl (fun t i => (List.range n).foldl (fun t j => nestFillStep c even i j t) t)
      ⟨fun _ => [], fun _ => none⟩)

namespace Spec

/-- GEOS is asked whether ring `i` contains ring `j`: always for different rings, but not if the earlier ring `j` is known
to contain ring `i`. (specification, no counterpart in /repo) -/
def Asked (geo : Bits) (i j : Nat) : Prop := i ≠ j ∧ (j < i → geo j i = false)

/-- GEOS throws an exception at one of the questions it is asked about `n` rings. (specification, no counterpart in /repo) -/
def ThrowsAsked (n : Nat) (geo throws : Bits) : Prop := ∃ i < n, ∃ j < n, Asked geo i j ∧ throws i j = true

instance (geo : Bits) (i j : Nat) : Decidable (Asked geo i j) := by unfold Asked; infer_instance
instance (n : Nat) (geo throws : Bits) : Decidable (ThrowsAsked n geo throws) := by unfold ThrowsAsked; infer_instance

end Spec
open Spec

theorem nestTry_loop (n : Nat) (geo throws : Bits) :
    match nestTry n geo throws with
    | none => ThrowsAsked n geo throws
    | some s => ¬ ThrowsAsked n geo throws ∧ s = nestBuild n geo := by
  have key := loop_induct (n := n) (fun i j (s : Option (Bits × (Nat → Bool))) => s.bind (nestTryStep geo throws i j))
    (fun pre o => match o with
      | none => ∃ p ∈ pre, Asked geo p.1 p.2 ∧ throws p.1 p.2 = true
      | some s => (∀ i j, s.1 i j = if (i, j) ∈ pre then recorded geo i j else false) ∧
          (∀ p ∈ pre, Asked geo p.1 p.2 → throws p.1 p.2 = false) ∧
          s = pre.foldl (fun s p => nestBuildStep geo p.1 p.2 s) (fun _ _ => false, fun _ => true))
    (some (fun _ _ => false, fun _ => true)) (by simp) (by
      intro pre p post o h hI
      obtain ⟨hpre, hp1, hp2⟩ := pairs_split h
      obtain ⟨i, j⟩ := p
      simp only at hp1 hp2 hpre hI ⊢
      cases o with
      | none =>
        obtain ⟨p, hp, h3⟩ := hI
        exact ⟨p, by simp [hp], h3⟩
      | some s =>
        obtain ⟨h1, h2, h3⟩ := hI
        have hcur : (i, j) ∉ pre := by
          rw [hpre]; rintro ⟨-, -, hb⟩; unfold Before at hb; omega
        have hrec : s.1 j i = (decide (j < i) && recorded geo j i) := by
          rw [h1 j i]
          by_cases hlt : j < i
          · rw [if_pos ((hpre _).2 ⟨hp2, hp1, Or.inl hlt⟩)]; simp [hlt]
          · rw [if_neg]
            · simp [hlt]
            · rw [hpre]; rintro ⟨-, -, hb⟩; unfold Before at hb; simp only at hb; omega
        have hasked : Asked geo i j ↔ i ≠ j ∧ s.1 j i = false := by
          unfold Asked
          rw [hrec]
          constructor
          · rintro ⟨e, q⟩
            refine ⟨e, ?_⟩
            by_cases hlt : j < i
            · simp [recorded, q hlt]
            · simp [hlt]
          · rintro ⟨e, q⟩
            refine ⟨e, fun hlt => ?_⟩
            have hne : ¬ i < j := by omega
            have hne' : j ≠ i := by omega
            simpa [recorded, hlt, hne, hne'] using q
        simp only [Option.bind_some]
        by_cases e : i = j
        · have e1 : nestTryStep geo throws i j s = some s := by unfold nestTryStep; rw [if_pos e]
          have e2 : nestBuildStep geo i j s = s := by unfold nestBuildStep; rw [if_pos e]
          rw [e1]
          refine ⟨fun a b => ?_, ?_, ?_⟩
          · rw [h1]
            by_cases hab : (a, b) = (i, j)
            · cases hab
              simp [recorded, e]
            · simp [hab]
          · intro q hq ha
            rcases List.mem_append.1 hq with hq | hq
            · exact h2 q hq ha
            · rw [List.mem_singleton.1 hq] at ha
              exact absurd e ha.1
          · rw [List.foldl_append, ← h3]
            simp only [List.foldl_cons, List.foldl_nil]
            rw [e2]
        by_cases hji : s.1 j i = true
        · have e1 : nestTryStep geo throws i j s = some s := by unfold nestTryStep; rw [if_neg e, if_pos hji]
          have e2 : nestBuildStep geo i j s = s := by unfold nestBuildStep; rw [if_neg e, if_pos hji]
          have hrec0 : recorded geo i j = false := by
            rw [hrec] at hji
            simp only [recorded, Bool.and_eq_true, decide_eq_true_eq, bne_iff_ne, ne_eq] at hji
            simp [recorded, hji.1, hji.2.1.2]
          rw [e1]
          refine ⟨fun a b => ?_, ?_, ?_⟩
          · rw [h1]
            by_cases hab : (a, b) = (i, j)
            · cases hab; simp [hcur, hrec0]
            · simp [hab]
          · intro q hq ha
            rcases List.mem_append.1 hq with hq | hq
            · exact h2 q hq ha
            · rw [List.mem_singleton.1 hq] at ha
              have := (hasked.1 ha).2
              rw [hji] at this
              cases this
          · rw [List.foldl_append, ← h3]
            simp only [List.foldl_cons, List.foldl_nil]
            rw [e2]
        have hji' : s.1 j i = false := by simpa using hji
        by_cases ht : throws i j = true
        · have e1 : nestTryStep geo throws i j s = none := by unfold nestTryStep; rw [if_neg e, if_neg hji, if_pos ht]
          rw [e1]
          exact ⟨(i, j), by simp, hasked.2 ⟨e, hji'⟩, ht⟩
        · have e2 : nestTryStep geo throws i j s = some (nestBuildStep geo i j s) := by
            unfold nestTryStep nestBuildStep
            rw [if_neg e, if_neg hji, if_neg ht, if_neg e, if_neg hji]
          have hrec1 : recorded geo i j = geo i j := by
            rw [hrec] at hji'
            by_cases hlt : j < i
            · have : geo j i = false := by
                have hne : ¬ i < j := by omega
                have hne' : j ≠ i := by omega
                simpa [recorded, hlt, hne, hne'] using hji'
              simp [recorded, hlt, this, e]
            · simp [recorded, hlt, e]
          rw [e2]
          refine ⟨fun a b => ?_, ?_, ?_⟩
          · unfold nestBuildStep
            rw [if_neg e, if_neg hji]
            simp only [Bits.set]
            by_cases hab : a = i ∧ b = j
            · obtain ⟨rfl, rfl⟩ := hab
              simp [hrec1]
            · rw [if_neg hab, h1]
              have : ¬ (a, b) = (i, j) := by
                intro he; cases he; exact hab ⟨rfl, rfl⟩
              simp [this]
          · intro q hq ha
            rcases List.mem_append.1 hq with hq | hq
            · exact h2 q hq ha
            · rw [List.mem_singleton.1 hq]
              simpa using ht
          · rw [List.foldl_append, ← h3]
            rfl)
  have hfold : nestTry n geo throws = (pairs n).foldl
      (fun s p => s.bind (nestTryStep geo throws p.1 p.2)) (some (fun _ _ => false, fun _ => true)) := by
    unfold nestTry
    exact foldl_pairs n (fun i j (s : Option (Bits × (Nat → Bool))) => s.bind (nestTryStep geo throws i j)) _
  rw [← hfold] at key
  cases hc : nestTry n geo throws with
  | none =>
    rw [hc] at key
    obtain ⟨p, hp, h1, h2⟩ := key
    have := mem_pairs.1 hp
    exact ⟨p.1, this.1, p.2, this.2, h1, h2⟩
  | some s =>
    rw [hc] at key
    obtain ⟨-, h2, h3⟩ := key
    refine ⟨?_, ?_⟩
    · rintro ⟨i, hi, j, hj, h4, h5⟩
      have := h2 (i, j) (mem_pairs.2 ⟨hi, hj⟩) h4
      rw [h5] at this
      cases this
    · rw [h3]
      unfold nestBuild
      rw [foldl_pairs n (fun i j s => nestBuildStep geo i j s)]

/-- **C47.**  An exception ends the search for inner and outer rings exactly if GEOS throws one at a question it is asked:
whether a ring contains another one, for all pairs of different rings, except that it is not asked whether a ring contains
an earlier one that contains it.  Otherwise the result is the one for the answers. -/
theorem tryRings_spec (n : Nat) (geo throws : Bits) :
    tryRings n geo throws = if ThrowsAsked n geo throws then none else some (determineRings n geo) := by
  have h := nestTry_loop n geo throws
  unfold tryRings determineRings
  cases hc : nestTry n geo throws with
  | none =>
    rw [hc] at h
    rw [if_pos h]
  | some s =>
    rw [hc] at h
    rw [if_neg h.1, ← h.2]

/-- Ring 0 contains ring 1: it is never asked whether ring 1 contains ring 0, so an exception there does no harm; one at
the question about rings 1 and 2 does. -/
example : (tryRings 3 (fun i j => i == 0 && j == 1) (fun i j => i == 1 && j == 0)).map (fun t => t.inner 0) = some [1] ∧
    (tryRings 3 (fun i j => i == 0 && j == 1) (fun i j => i == 1 && j == 2)).isNone = true := by
  decide

end Osmium

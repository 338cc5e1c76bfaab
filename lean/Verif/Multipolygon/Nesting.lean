import Verif.Common.Res
import Mathlib.Data.List.Basic
import Mathlib.Data.List.Nodup
import Mathlib.Data.List.Range

/-
C47: inner and outer rings, multipolygon/builder.hpp 694-752.
-/
namespace Osmium

/-- The bits `contains[i][j]`. (multipolygon/builder.hpp 697) -/
abbrev Bits := Nat → Nat → Bool

/-- Setting a bit. (multipolygon/builder.hpp 711 and 732) -/
def Bits.set (c : Bits) (i j : Nat) (b : Bool) : Bits :=
  fun i' j' => if i' = i ∧ j' = j then b else c i' j'

/-- multipolygon/builder.hpp 706-714: body of the loop that builds the relation; `geo i j` is the
answer of GEOS to whether polygon `i` contains polygon `j`. -/
def nestBuildStep (geo : Bits) (i j : Nat) (s : Bits × (Nat → Bool)) : Bits × (Nat → Bool) :=
  if i = j then s
  else if s.1 j i then s
  else
    let c := s.1.set i j (geo i j)
    (c, fun k => if k = j then s.2 k ^^ c i j else s.2 k)

/-- multipolygon/builder.hpp 697-714: bits `contains` and `contained_by_even_number` for `n` rings. -/
def nestBuild (n : Nat) (geo : Bits) : Bits × (Nat → Bool) :=
  (List.range n).foldl (fun s i => (List.range n).foldl (fun s j => nestBuildStep geo i j s) s)
    (fun _ _ => false, fun _ => true)

/-- multipolygon/builder.hpp 724-737: body of the loop that removes indirect relations. -/
def nestThinStep (n : Nat) (i j : Nat) (c : Bits) : Bits :=
  if c i j then
    if (List.range n).any (fun k => k != i && k != j && c i k && c k j) then c.set i j false else c
  else c

/-- multipolygon/builder.hpp 722-739. -/
def nestThin (n : Nat) (c : Bits) : Bits :=
  (List.range n).foldl (fun c i => (List.range n).foldl (fun c j => nestThinStep n i j c) c) c

/-- The fields `inner_rings` and `contained_by` of the rings, by number.
(multipolygon/builder.hpp 126-141) -/
structure RingTree where
  inner : Nat → List Nat
  containedBy : Nat → Option Nat

/-- multipolygon/builder.hpp 747-750. -/
def nestFillStep (c : Bits) (even : Nat → Bool) (i j : Nat) (t : RingTree) : RingTree :=
  if c i j && !even j then
    ⟨fun k => if k = i then t.inner k ++ [j] else t.inner k,
     fun k => if k = j then some i else t.containedBy k⟩
  else t

/-- multipolygon/builder.hpp 694-752 `determine_inner_outer_rings`. -/
def determineRings (n : Nat) (geo : Bits) : RingTree :=
  let (c0, even) := nestBuild n geo
  let c := nestThin n c0
  (List.range n).foldl (fun t i => (List.range n).foldl (fun t j => nestFillStep c even i j t) t)
    ⟨fun _ => [], fun _ => none⟩

/-- multipolygon/builder.hpp 149-151 `is_inner`. -/
def RingTree.isInner (t : RingTree) (j : Nat) : Bool := (t.containedBy j).isSome

namespace Spec

/-- Ring `i` contains the other ring `j`. (specification, no counterpart in /repo) -/
def Contains (geo : Bits) (i j : Nat) : Prop := i ≠ j ∧ geo i j = true

instance (geo : Bits) (i j : Nat) : Decidable (Contains geo i j) := by unfold Contains; infer_instance

/-- The relation between `n` rings is a nesting: no two contain each other, containment is
transitive, of two rings around the same ring one contains the other. (specification, no counterpart in /repo) -/
structure IsNesting (n : Nat) (geo : Bits) : Prop where
  asymm : ∀ i < n, ∀ j < n, Contains geo i j → ¬ Contains geo j i
  trans : ∀ i < n, ∀ j < n, ∀ k < n, Contains geo i j → Contains geo j k → Contains geo i k
  chain : ∀ i < n, ∀ j < n, ∀ k < n, Contains geo i k → Contains geo j k →
    i = j ∨ Contains geo i j ∨ Contains geo j i

/-- The number of rings that contain ring `j`. (specification, no counterpart in /repo) -/
def depth (n : Nat) (geo : Bits) (j : Nat) : Nat :=
  (List.range n).countP fun i => decide (Contains geo i j)

/-- Ring `i` contains ring `j` and there is no ring in between. (specification, no counterpart in /repo) -/
def DirectlyContains (n : Nat) (geo : Bits) (i j : Nat) : Prop :=
  Contains geo i j ∧ ¬ ∃ k < n, Contains geo i k ∧ Contains geo k j

instance (n : Nat) (geo : Bits) (i j : Nat) : Decidable (DirectlyContains n geo i j) := by
  unfold DirectlyContains; infer_instance

/-- The rings are numbered in such a way that for each ring `j` inside `i`, but not directly, there
is one in between that tells it in spite of what has been removed before. (specification, no counterpart in /repo) -/
def GoodOrder (n : Nat) (geo : Bits) : Prop :=
  ∀ i < n, ∀ j < n, Contains geo i j → ¬ DirectlyContains n geo i j →
    ∃ k < n, Contains geo i k ∧ Contains geo k j ∧
      (DirectlyContains n geo i k ∨ j < k) ∧ (DirectlyContains n geo k j ∨ i < k)

end Spec

open Spec

/-! The loops as one loop over pairs. -/

/-- The pairs in the order of the loops. (helper for statements and proofs, no counterpart in /repo) -/
def pairs (n : Nat) : List (Nat × Nat) :=
  (List.range n).flatMap fun i => (List.range n).map fun j => (i, j)

theorem foldl_pairs {σ : Type} (n : Nat) (f : Nat → Nat → σ → σ) (s : σ) :
    (List.range n).foldl (fun s i => (List.range n).foldl (fun s j => f i j s) s) s =
      (pairs n).foldl (fun s p => f p.1 p.2 s) s := by
  unfold pairs
  rw [List.foldl_flatMap]
  simp only [List.foldl_map]

theorem mem_pairs {n : Nat} {p : Nat × Nat} : p ∈ pairs n ↔ p.1 < n ∧ p.2 < n := by
  obtain ⟨a, b⟩ := p
  simp [pairs]

/-- Order of the loops. (helper for statements and proofs, no counterpart in /repo) -/
def Before (p q : Nat × Nat) : Prop := p.1 < q.1 ∨ (p.1 = q.1 ∧ p.2 < q.2)

theorem pairs_sorted (n : Nat) : (pairs n).Pairwise Before := by
  unfold pairs
  rw [List.pairwise_flatMap]
  refine ⟨?_, ?_⟩
  · intro i _
    rw [List.pairwise_map]
    exact (List.pairwise_lt_range).imp (fun h => Or.inr ⟨rfl, h⟩)
  · refine (List.pairwise_lt_range).imp ?_
    intro a b h x hx y hy
    simp only [List.mem_map] at hx hy
    obtain ⟨_, -, rfl⟩ := hx
    obtain ⟨_, -, rfl⟩ := hy
    exact Or.inl h

/-- At any point of the loop the pairs done are those before the current one. -/
theorem pairs_split {n : Nat} {pre post : List (Nat × Nat)} {p : Nat × Nat}
    (h : pairs n = pre ++ p :: post) :
    (∀ q, q ∈ pre ↔ q.1 < n ∧ q.2 < n ∧ Before q p) ∧ p.1 < n ∧ p.2 < n := by
  have hs := pairs_sorted n
  rw [h, List.pairwise_append, List.pairwise_cons] at hs
  obtain ⟨-, ⟨s1, -⟩, s2⟩ := hs
  have hp : p ∈ pairs n := by rw [h]; simp
  refine ⟨fun q => ⟨fun hq => ?_, fun ⟨h1, h2, h3⟩ => ?_⟩, mem_pairs.1 hp⟩
  · have : q ∈ pairs n := by rw [h]; simp [hq]
    exact ⟨(mem_pairs.1 this).1, (mem_pairs.1 this).2, s2 q hq p (by simp)⟩
  · have : q ∈ pairs n := mem_pairs.2 ⟨h1, h2⟩
    rw [h] at this
    simp only [List.mem_append, List.mem_cons] at this
    rcases this with hq | rfl | hq
    · exact hq
    · unfold Before at h3; omega
    · have := s1 q hq
      unfold Before at h3 this; omega

/-- Induction along a loop over pairs. -/
theorem loop_induct {σ : Type} {n : Nat} (f : Nat → Nat → σ → σ)
    (I : List (Nat × Nat) → σ → Prop) (s : σ) (h0 : I [] s)
    (hstep : ∀ pre p post s, pairs n = pre ++ p :: post → I pre s → I (pre ++ [p]) (f p.1 p.2 s)) :
    I (pairs n) ((pairs n).foldl (fun s p => f p.1 p.2 s) s) := by
  have gen : ∀ (post pre : List (Nat × Nat)) (s : σ), pairs n = pre ++ post → I pre s →
      I (pairs n) (post.foldl (fun s p => f p.1 p.2 s) s) := by
    intro post
    induction post with
    | nil => intro pre s h hI; rw [h]; simpa using hI
    | cons p post ih =>
      intro pre s h hI
      exact ih (pre ++ [p]) _ (by rw [h]; simp) (hstep pre p post s h hI)
  exact gen (pairs n) [] s rfl h0

/-- What is recorded: of two rings containing each other only the first counts. (helper for
statements and proofs, no counterpart in /repo) -/
def recorded (geo : Bits) (i j : Nat) : Bool := i != j && geo i j && !(decide (j < i) && geo j i)

/-- The first loop. -/
theorem nestBuild_spec (n : Nat) (geo : Bits) :
    (∀ i < n, ∀ j < n, (nestBuild n geo).1 i j = recorded geo i j) ∧
    (∀ i j, ¬ (i < n ∧ j < n) → (nestBuild n geo).1 i j = false) ∧
    ∀ j < n, (nestBuild n geo).2 j = decide (((List.range n).countP fun i => recorded geo i j) % 2 = 0) := by
  unfold nestBuild
  rw [foldl_pairs n (fun i j s => nestBuildStep geo i j s)]
  have key := loop_induct (n := n) (fun i j s => nestBuildStep geo i j s)
    (fun pre s => (∀ i j, s.1 i j = if (i, j) ∈ pre then recorded geo i j else false) ∧
      ∀ j, s.2 j = decide ((pre.countP fun p => p.2 = j && recorded geo p.1 j) % 2 = 0))
    (fun _ _ => false, fun _ => true) (by simp) (by
      intro pre p post s h ⟨h1, h2⟩
      obtain ⟨hpre, hp1, hp2⟩ := pairs_split h
      obtain ⟨i, j⟩ := p
      simp only at hp1 hp2 hpre ⊢
      have hcur : (i, j) ∉ pre := by
        rw [hpre]; rintro ⟨-, -, hb⟩; unfold Before at hb; omega
      have hrec : s.1 j i = (decide (j < i) && recorded geo j i) := by
        rw [h1 j i]
        by_cases hlt : j < i
        · rw [if_pos ((hpre _).2 ⟨hp2, hp1, Or.inl hlt⟩)]; simp [hlt]
        · rw [if_neg]
          · simp [hlt]
          · rw [hpre]; rintro ⟨-, -, hb⟩; unfold Before at hb; simp only at hb; omega
      unfold nestBuildStep
      by_cases e : i = j
      · subst e
        rw [if_pos rfl]
        refine ⟨fun a b => ?_, fun b => ?_⟩
        · rw [h1]
          by_cases hab : (a, b) = (i, i)
          · cases hab; simp [hcur, recorded]
          · simp [hab]
        · rw [h2]
          simp [List.countP_append, List.countP_cons, recorded]
          by_cases hb : i = b <;> simp [hb]
      · rw [if_neg e]
        by_cases hji : s.1 j i = true
        · rw [if_pos hji]
          have hrec0 : recorded geo i j = false := by
            rw [hrec] at hji
            simp only [recorded, Bool.and_eq_true, decide_eq_true_eq, bne_iff_ne, ne_eq] at hji
            simp [recorded, hji.1, hji.2.1.2]
          refine ⟨fun a b => ?_, fun b => ?_⟩
          · rw [h1]
            by_cases hab : (a, b) = (i, j)
            · cases hab; simp [hcur, hrec0]
            · simp [hab]
          · rw [h2]
            simp only [List.countP_append, List.countP_cons, List.countP_nil]
            by_cases hb : j = b
            · subst hb; simp [hrec0]
            · simp [hb]
        · rw [if_neg hji]
          have hrec1 : recorded geo i j = geo i j := by
            have hji' : s.1 j i = false := by simpa using hji
            rw [hrec] at hji'
            by_cases hlt : j < i
            · have : geo j i = false := by
                have hne : ¬ i < j := by omega
                have hne' : j ≠ i := by omega
                simpa [recorded, hlt, hne, hne'] using hji'
              simp [recorded, hlt, this, e]
            · simp [recorded, hlt, e]
          refine ⟨fun a b => ?_, fun b => ?_⟩
          · simp only [Bits.set]
            by_cases hab : a = i ∧ b = j
            · obtain ⟨rfl, rfl⟩ := hab
              simp [hrec1]
            · rw [if_neg hab, h1]
              have : ¬ (a, b) = (i, j) := by
                intro he; cases he; exact hab ⟨rfl, rfl⟩
              simp [this]
          · simp only [Bits.set]
            by_cases hb : b = j
            · subst hb
              rw [if_pos rfl, h2]
              simp only [List.countP_append, List.countP_cons, List.countP_nil, hrec1]
              simp only [and_self, if_true, decide_true, Bool.true_and, Nat.zero_add]
              generalize List.countP _ pre = m
              cases geo i b
              · simp
              · simp only [if_true]
                rcases Nat.mod_two_eq_zero_or_one m with hm | hm
                · have : (m + 1) % 2 = 1 := by omega
                  simp [hm, this]
                · have : (m + 1) % 2 = 0 := by omega
                  simp [hm, this]
            · rw [if_neg hb, h2]
              have : ¬ j = b := fun h => hb h.symm
              simp [List.countP_append, List.countP_cons, this])
  obtain ⟨k1, k2⟩ := key
  refine ⟨?_, ?_, ?_⟩
  · intro i hi j hj
    rw [k1, if_pos (mem_pairs.2 ⟨hi, hj⟩)]
  · intro i j hn
    rw [k1, if_neg (by rw [mem_pairs]; exact hn)]
  · intro j hj
    rw [k2]
    congr 3
    unfold pairs
    rw [List.countP_flatMap]
    have : ∀ l : List Nat, (l.map (fun a => ((List.range n).map fun j => (a, j)).countP
        fun p => decide (p.2 = j) && recorded geo p.1 j)).sum = l.countP fun i => recorded geo i j := by
      intro l
      induction l with
      | nil => rfl
      | cons a l ih =>
        rw [List.map_cons, List.sum_cons, ih, List.countP_cons, List.countP_map]
        have e : ((List.range n).countP ((fun p : Nat × Nat => decide (p.2 = j) && recorded geo p.1 j) ∘
            fun j => (a, j))) = if recorded geo a j = true then 1 else 0 := by
          cases hr : recorded geo a j
          · simp only [Bool.false_eq_true, if_false, List.countP_eq_zero]
            intro x _
            simp only [Function.comp, Bool.and_eq_true, decide_eq_true_eq, not_and]
            rintro rfl; simp [hr]
          · simp only [if_true]
            have : ((fun p : Nat × Nat => decide (p.2 = j) && recorded geo p.1 j) ∘ fun j => (a, j)) =
                fun x => x == j := by
              funext x
              simp only [Function.comp]
              by_cases hx : x = j
              · subst hx; simp [hr]
              · simp [hx]
            rw [this, ← List.count, List.count_eq_one_of_mem List.nodup_range (by simpa using hj)]
        rw [e]; omega
    simpa [Function.comp_def] using this (List.range n)

end Osmium

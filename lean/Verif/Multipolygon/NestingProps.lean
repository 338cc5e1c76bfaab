import Verif.Multipolygon.Nesting

/-
C47: inner and outer rings.
-/
namespace Osmium

open Spec

theorem recorded_iff {n : Nat} {geo : Bits} (h : IsNesting n geo) {i j : Nat} (hi : i < n) (hj : j < n) :
    recorded geo i j = true ↔ Contains geo i j := by
  have ha := h.asymm i hi j hj
  unfold Contains at ha ⊢
  simp only [recorded, Bool.and_eq_true, bne_iff_ne, ne_eq, Bool.not_eq_true', Bool.and_eq_false_iff,
    decide_eq_false_iff_not]
  constructor
  · rintro ⟨h1, -⟩; exact h1
  · rintro h1
    refine ⟨h1, ?_⟩
    by_cases hg : geo j i = true
    · exact absurd ⟨fun e => h1.1 e.symm, hg⟩ (ha h1)
    · right; simpa using hg

/-- The bit is not for a direct relation and the code can tell. -/
def GoodPair (n : Nat) (geo : Bits) (i j : Nat) : Prop :=
  Contains geo i j → ¬ DirectlyContains n geo i j →
    ∃ k < n, Contains geo i k ∧ Contains geo k j ∧
      (DirectlyContains n geo i k ∨ j < k) ∧ (DirectlyContains n geo k j ∨ i < k)

theorem thin_any {n : Nat} {c : Bits} {i j : Nat} :
    (List.range n).any (fun k => k != i && k != j && c i k && c k j) = true ↔
      ∃ k < n, k ≠ i ∧ k ≠ j ∧ c i k = true ∧ c k j = true := by
  simp [and_assoc]

/-- Bits only for pairs where one ring contains the other, and for all that do directly. -/
theorem nestThin_between (n : Nat) (geo : Bits) (c0 : Bits)
    (hc : ∀ i < n, ∀ j < n, c0 i j = decide (Contains geo i j)) :
    ∀ i < n, ∀ j < n, (DirectlyContains n geo i j → nestThin n c0 i j = true) ∧
      (nestThin n c0 i j = true → Contains geo i j) := by
  unfold nestThin
  rw [foldl_pairs n (fun i j c => nestThinStep n i j c)]
  have key := loop_induct (n := n) (fun i j c => nestThinStep n i j c)
    (fun _ c => ∀ i < n, ∀ j < n, (DirectlyContains n geo i j → c i j = true) ∧
      (c i j = true → Contains geo i j)) c0
    (by
      intro i hi j hj
      rw [hc i hi j hj]
      simp only [decide_eq_true_eq]
      exact ⟨fun h => h.1, id⟩)
    (by
      intro pre p post c h hI
      obtain ⟨-, hp1, hp2⟩ := pairs_split h
      obtain ⟨i, j⟩ := p
      simp only at hp1 hp2 ⊢
      unfold nestThinStep
      by_cases h1 : c i j = true
      · rw [if_pos h1]
        by_cases h2 : (List.range n).any (fun k => k != i && k != j && c i k && c k j) = true
        · rw [if_pos h2]
          obtain ⟨k, hk, -, -, hik, hkj⟩ := thin_any.1 h2
          intro a ha b hb
          simp only [Bits.set]
          by_cases hab : a = i ∧ b = j
          · obtain ⟨rfl, rfl⟩ := hab
            rw [if_pos ⟨rfl, rfl⟩]
            refine ⟨fun hd => ?_, by simp⟩
            exact absurd ⟨k, hk, (hI a ha k hk).2 hik, (hI k hk b hb).2 hkj⟩ hd.2
          · rw [if_neg hab]; exact hI a ha b hb
        · rw [if_neg h2]; exact hI
      · rw [if_neg h1]; exact hI)
  exact key

/-- The bits are exactly the direct relations iff the order of the rings is good. -/
theorem nestThin_exact_iff (n : Nat) (geo : Bits) (hn : IsNesting n geo) (c0 : Bits)
    (hc : ∀ i < n, ∀ j < n, c0 i j = decide (Contains geo i j)) :
    (∀ i < n, ∀ j < n, nestThin n c0 i j = decide (DirectlyContains n geo i j)) ↔ GoodOrder n geo := by
  unfold nestThin
  rw [foldl_pairs n (fun i j c => nestThinStep n i j c)]
  have key := loop_induct (n := n) (fun i j c => nestThinStep n i j c)
    (fun pre c => (∃ q ∈ pre, c q.1 q.2 = true ∧ ¬ DirectlyContains n geo q.1 q.2 ∧ ¬ GoodPair n geo q.1 q.2) ∨
      ((∀ i < n, ∀ j < n, c i j = if (i, j) ∈ pre then decide (DirectlyContains n geo i j)
          else decide (Contains geo i j)) ∧ ∀ q ∈ pre, GoodPair n geo q.1 q.2)) c0
    (by right; simpa using hc)
    (by
      intro pre p post c h hI
      obtain ⟨hpre, hp1, hp2⟩ := pairs_split h
      obtain ⟨i, j⟩ := p
      simp only at hp1 hp2 hpre ⊢
      have hcur : (i, j) ∉ pre := by
        rw [hpre]; rintro ⟨-, -, hb⟩; unfold Before at hb; omega
      have hother : ∀ a b, ¬ (a = i ∧ b = j) → nestThinStep n i j c a b = c a b := by
        intro a b hab
        unfold nestThinStep
        split
        · split
          · simp only [Bits.set]; rw [if_neg hab]
          · rfl
        · rfl
      rcases hI with ⟨q, hq, h1, h2, h3⟩ | ⟨hI, hgood⟩
      · left
        refine ⟨q, by simp [hq], ?_, h2, h3⟩
        rw [hother _ _ (by rintro ⟨e1, e2⟩; apply hcur; rw [← e1, ← e2]; exact hq)]
        exact h1
      · have hcij : c i j = decide (Contains geo i j) := by
          rw [hI i hp1 j hp2, if_neg hcur]
        have hik : ∀ k < n, c i k = true ↔ (if k < j then DirectlyContains n geo i k else Contains geo i k) := by
          intro k hk
          rw [hI i hp1 k hk]
          by_cases hlt : k < j
          · rw [if_pos ((hpre (i, k)).2 ⟨hp1, hk, Or.inr ⟨rfl, hlt⟩⟩), if_pos hlt]; simp
          · rw [if_neg (by rw [hpre]; rintro ⟨-, -, hb⟩; unfold Before at hb; simp only at hb; omega),
              if_neg hlt]; simp
        have hkj : ∀ k < n, c k j = true ↔ (if k < i then DirectlyContains n geo k j else Contains geo k j) := by
          intro k hk
          rw [hI k hk j hp2]
          by_cases hlt : k < i
          · rw [if_pos ((hpre (k, j)).2 ⟨hk, hp2, Or.inl hlt⟩), if_pos hlt]; simp
          · rw [if_neg (by rw [hpre]; rintro ⟨-, -, hb⟩; unfold Before at hb; simp only at hb; omega),
              if_neg hlt]; simp
        have hany : (List.range n).any (fun k => k != i && k != j && c i k && c k j) = true ↔
            ∃ k < n, Contains geo i k ∧ Contains geo k j ∧
              (DirectlyContains n geo i k ∨ j < k) ∧ (DirectlyContains n geo k j ∨ i < k) := by
          rw [thin_any]
          constructor
          · rintro ⟨k, hk, n1, n2, h1, h2⟩
            rw [hik k hk] at h1
            rw [hkj k hk] at h2
            refine ⟨k, hk, ?_, ?_, ?_, ?_⟩
            · split at h1
              · exact h1.1
              · exact h1
            · split at h2
              · exact h2.1
              · exact h2
            · split at h1
              · exact Or.inl h1
              · exact Or.inr (by omega)
            · split at h2
              · exact Or.inl h2
              · exact Or.inr (by omega)
          · rintro ⟨k, hk, h1, h2, h3, h4⟩
            refine ⟨k, hk, fun e => h1.1 e.symm, fun e => h2.1 e, ?_, ?_⟩
            · rw [hik k hk]
              split
              · rcases h3 with h3 | h3
                · exact h3
                · omega
              · exact h1
            · rw [hkj k hk]
              split
              · rcases h4 with h4 | h4
                · exact h4
                · omega
              · exact h2
        -- the new bit
        have hnew : nestThinStep n i j c i j =
            (decide (Contains geo i j) && !((List.range n).any (fun k => k != i && k != j && c i k && c k j))) := by
          unfold nestThinStep
          rw [hcij]
          by_cases h1 : Contains geo i j
          · simp only [h1, decide_true, if_true, Bool.true_and]
            by_cases h2 : (List.range n).any (fun k => k != i && k != j && c i k && c k j) = true
            · rw [if_pos h2, h2]; simp [Bits.set]
            · rw [if_neg h2, hcij]; simp only [Bool.not_eq_true] at h2; simp [h2, h1]
          · simp [h1, hcij]
        by_cases hg : GoodPair n geo i j
        · right
          refine ⟨fun a ha b hb => ?_, ?_⟩
          · by_cases hab : a = i ∧ b = j
            · obtain ⟨rfl, rfl⟩ := hab
              rw [hnew, if_pos (by simp)]
              by_cases h1 : Contains geo a b
              · by_cases h2 : DirectlyContains n geo a b
                · have : ¬ (List.range n).any (fun k => k != a && k != b && c a k && c k b) = true := by
                    rw [hany]
                    rintro ⟨k, hk, q1, q2, -⟩
                    exact h2.2 ⟨k, hk, q1, q2⟩
                  simp only [Bool.not_eq_true] at this
                  rw [this]; simp [h1, h2]
                · have := hany.2 (hg h1 h2)
                  rw [this]; simp [h2]
              · have : ¬ DirectlyContains n geo a b := fun h => h1 h.1
                simp [h1, this]
            · rw [hother a b hab, hI a ha b hb]
              have : ¬ (a, b) = (i, j) := by rintro e; cases e; exact hab ⟨rfl, rfl⟩
              simp [this]
          · intro q hq
            simp only [List.mem_append, List.mem_singleton] at hq
            rcases hq with hq | rfl
            · exact hgood q hq
            · exact hg
        · left
          refine ⟨(i, j), by simp, ?_, ?_, hg⟩
          · rw [hnew]
            have h1 : Contains geo i j := by
              by_contra h; exact hg (fun h' => absurd h' h)
            have h2 : ¬ (List.range n).any (fun k => k != i && k != j && c i k && c k j) = true := by
              intro h; exact hg (fun _ _ => hany.1 h)
            simp only [Bool.not_eq_true] at h2
            rw [h2]; simp [h1]
          · intro h; exact hg (fun _ h' => absurd h h'))
  constructor
  · intro hex
    rcases key with ⟨q, hq, h1, h2, -⟩ | ⟨-, hg⟩
    · obtain ⟨q1, q2⟩ := mem_pairs.1 hq
      rw [hex q.1 q1 q.2 q2] at h1
      exact absurd (by simpa using h1) h2
    · intro i hi j hj
      exact hg (i, j) (mem_pairs.2 ⟨hi, hj⟩)
  · intro hgo i hi j hj
    rcases key with ⟨q, hq, -, -, h3⟩ | ⟨h, -⟩
    · obtain ⟨q1, q2⟩ := mem_pairs.1 hq
      exact absurd (hgo q.1 q1 q.2 q2) h3
    · rw [h i hi j hj, if_pos (mem_pairs.2 ⟨hi, hj⟩)]

/-- The last loop. -/
theorem nestFill_spec (n : Nat) (c : Bits) (even : Nat → Bool) :
    let t := (List.range n).foldl (fun t i => (List.range n).foldl (fun t j => nestFillStep c even i j t) t)
      (⟨fun _ => [], fun _ => none⟩ : RingTree)
    (∀ i < n, t.inner i = (List.range n).filter fun j => c i j && !even j) ∧
    (∀ j i, t.containedBy j = some i → i < n ∧ j < n ∧ c i j = true ∧ even j = false) ∧
    ∀ i < n, ∀ j < n, c i j = true → even j = false → ∃ k, t.containedBy j = some k ∧ i ≤ k := by
  simp only
  rw [foldl_pairs n (fun i j t => nestFillStep c even i j t)]
  have key := loop_induct (n := n) (fun i j t => nestFillStep c even i j t)
    (fun pre t => (∀ i, t.inner i = (pre.filter fun p => p.1 == i && (c i p.2 && !even p.2)).map Prod.snd) ∧
      (∀ j i, t.containedBy j = some i → i < n ∧ j < n ∧ c i j = true ∧ even j = false) ∧
      (∀ q ∈ pre, c q.1 q.2 = true → even q.2 = false → ∃ k, t.containedBy q.2 = some k ∧ q.1 ≤ k))
    (⟨fun _ => [], fun _ => none⟩ : RingTree) (by simp) (by
      intro pre p post t h ⟨h1, h2, h3⟩
      obtain ⟨hpre, hp1, hp2⟩ := pairs_split h
      obtain ⟨i, j⟩ := p
      simp only at hp1 hp2 hpre ⊢
      unfold nestFillStep
      by_cases hc : (c i j && !even j) = true
      · rw [if_pos hc]
        refine ⟨fun a => ?_, fun b a hb => ?_, fun q hq q1 q2 => ?_⟩
        · simp only [List.filter_append, List.map_append, ← h1 a]
          by_cases ha : a = i
          · subst ha
            simp [hc]
          · have : ¬ i = a := fun e => ha e.symm
            simp [ha, this]
        · simp only at hb
          split at hb
          · rename_i e
            simp only [Option.some.injEq] at hb
            subst e; subst hb
            simp only [Bool.and_eq_true, Bool.not_eq_true'] at hc
            exact ⟨hp1, hp2, hc.1, hc.2⟩
          · exact h2 b a hb
        · simp only
          simp only [List.mem_append, List.mem_singleton] at hq
          by_cases e : q.2 = j
          · rw [if_pos e]
            refine ⟨i, rfl, ?_⟩
            rcases hq with hq | rfl
            · have := ((hpre q).1 hq).2.2
              unfold Before at this; simp only at this; omega
            · exact Nat.le_refl _
          · rw [if_neg e]
            rcases hq with hq | rfl
            · exact h3 q hq q1 q2
            · exact absurd rfl e
      · rw [if_neg hc]
        refine ⟨fun a => ?_, h2, fun q hq q1 q2 => ?_⟩
        · simp only [List.filter_append, List.map_append, ← h1 a]
          have : (i == a && (c a j && !even j)) = false := by
            by_cases e : i = a
            · subst e; simpa using hc
            · simp [e]
          simp only [List.filter_cons, this, Bool.false_eq_true, if_false, List.filter_nil, List.map_nil,
            List.append_nil]
        · simp only [List.mem_append, List.mem_singleton] at hq
          rcases hq with hq | rfl
          · exact h3 q hq q1 q2
          · simp only at q1 q2; simp [q1, q2] at hc)
  obtain ⟨k1, k2, k3⟩ := key
  refine ⟨fun i hi => ?_, k2, fun i hi j hj h1 h2 => k3 (i, j) (mem_pairs.2 ⟨hi, hj⟩) h1 h2⟩
  rw [k1 i]
  unfold pairs
  rw [List.filter_flatMap, List.map_flatMap]
  have gen : ∀ l : List Nat, l.Nodup → (l.flatMap fun a =>
      (((List.range n).map fun j => (a, j)).filter fun p : Nat × Nat => p.1 == i && (c i p.2 && !even p.2)).map Prod.snd) =
        if i ∈ l then (List.range n).filter fun j => c i j && !even j else [] := by
    intro l hl
    induction l with
    | nil => rfl
    | cons a l ih =>
      have hl' := List.nodup_cons.1 hl
      rw [List.flatMap_cons, ih hl'.2, List.filter_map, List.map_map]
      by_cases e : a = i
      · subst e
        rw [if_neg hl'.1, if_pos (by simp)]
        simp only [Function.comp_def, beq_self_eq_true, Bool.true_and, List.append_nil, List.map_id']
      · have hne : ¬ i = a := fun h => e h.symm
        have : (List.range n).filter ((fun p : Nat × Nat => p.1 == i && (c i p.2 && !even p.2)) ∘ fun j => (a, j)) = [] := by
          rw [List.filter_eq_nil_iff]; intro x _; simp [e]
        rw [this]
        simp [hne]
  rw [gen _ List.nodup_range, if_pos (by simpa using hi)]

theorem nestBuild_nesting {n : Nat} {geo : Bits} (h : IsNesting n geo) :
    (∀ i < n, ∀ j < n, (nestBuild n geo).1 i j = decide (Contains geo i j)) ∧
    ∀ j < n, (nestBuild n geo).2 j = decide (depth n geo j % 2 = 0) := by
  obtain ⟨h1, -, h3⟩ := nestBuild_spec n geo
  refine ⟨fun i hi j hj => ?_, fun j hj => ?_⟩
  · rw [h1 i hi j hj]
    have := recorded_iff h hi hj
    by_cases hc : Contains geo i j
    · simp [hc, this.2 hc]
    · have : ¬ recorded geo i j = true := fun h => hc (this.1 h)
      simp only [Bool.not_eq_true] at this
      simp [hc, this]
  · rw [h3 j hj]
    congr 3
    unfold depth
    apply List.countP_congr
    intro i hi
    simp only [List.mem_range] at hi
    simp [recorded_iff h hi hj]

theorem countP_succ {l : List Nat} {p q : Nat → Bool} {i : Nat} (hl : l.Nodup) (hi : i ∈ l)
    (h : ∀ k ∈ l, q k = true ↔ (k = i ∨ p k = true)) (hp : p i = false) :
    l.countP q = l.countP p + 1 := by
  induction l with
  | nil => simp at hi
  | cons a l ih =>
    have hl' := List.nodup_cons.1 hl
    rw [List.countP_cons, List.countP_cons]
    by_cases e : a = i
    · subst e
      have e1 : l.countP q = l.countP p := by
        apply List.countP_congr
        intro k hk
        rw [h k (by simp [hk])]
        have : k ≠ a := by rintro rfl; exact hl'.1 hk
        simp [this]
      have e2 : q a = true := (h a (by simp)).2 (Or.inl rfl)
      rw [e1, e2, hp]; simp
    · have hi' : i ∈ l := by
        rcases List.mem_cons.1 hi with h | h
        · exact absurd h.symm e
        · exact h
      have := ih hl'.2 hi' (fun k hk => h k (by simp [hk]))
      have e2 : q a = p a := by
        have := h a (by simp)
        simp only [e, false_or] at this
        cases hq : q a <;> cases hpa : p a <;> simp_all
      rw [this, e2]; omega

/-- A ring lies one deeper than the ring around it. -/
theorem depth_direct {n : Nat} {geo : Bits} (h : IsNesting n geo) {i j : Nat} (hi : i < n) (hj : j < n)
    (hd : DirectlyContains n geo i j) : depth n geo j = depth n geo i + 1 := by
  unfold depth
  apply countP_succ (i := i) List.nodup_range (by simpa using hi)
  · intro k hk
    simp only [List.mem_range] at hk
    simp only [decide_eq_true_eq]
    constructor
    · intro hkj
      rcases h.chain k hk i hi j hj hkj hd.1 with e | e | e
      · exact Or.inl e
      · exact Or.inr e
      · exact absurd ⟨k, hk, e, hkj⟩ hd.2
    · rintro (rfl | hki)
      · exact hd.1
      · exact h.trans k hk i hi j hj hki hd.1
  · simp [Contains]

/-- Only one ring contains a ring directly. -/
theorem direct_unique {n : Nat} {geo : Bits} (h : IsNesting n geo) {a b j : Nat} (ha : a < n) (hb : b < n)
    (hj : j < n) (h1 : DirectlyContains n geo a j) (h2 : DirectlyContains n geo b j) : a = b := by
  rcases h.chain a ha b hb j hj h1.1 h2.1 with e | e | e
  · exact e
  · exact absurd ⟨b, hb, e, h2.1⟩ h1.2
  · exact absurd ⟨a, ha, e, h1.1⟩ h2.2

/-- A ring inside another one is directly inside some ring, which is the other one or inside it. -/
theorem direct_exists {n : Nat} {geo : Bits} (h : IsNesting n geo) {i j : Nat} (hi : i < n) (hj : j < n)
    (hc : Contains geo i j) : ∃ k < n, DirectlyContains n geo k j ∧ (k = i ∨ Contains geo i k) := by
  -- by induction on how many rings lie between
  have gen : ∀ (m : Nat) (i : Nat), i < n → Contains geo i j →
      (List.range n).countP (fun k => decide (Contains geo i k ∧ Contains geo k j)) ≤ m →
      ∃ k < n, DirectlyContains n geo k j ∧ (k = i ∨ Contains geo i k) := by
    intro m
    induction m with
    | zero =>
      intro i hi hc hm
      refine ⟨i, hi, ⟨hc, ?_⟩, Or.inl rfl⟩
      rintro ⟨k, hk, h1, h2⟩
      have := List.countP_eq_zero.1 (Nat.le_zero.1 hm) k (by simpa using hk)
      simp [h1, h2] at this
    | succ m ih =>
      intro i hi hc hm
      by_cases hd : DirectlyContains n geo i j
      · exact ⟨i, hi, hd, Or.inl rfl⟩
      · have : ∃ k < n, Contains geo i k ∧ Contains geo k j := by
          by_contra hne; exact hd ⟨hc, hne⟩
        obtain ⟨k, hk, h1, h2⟩ := this
        have hlt : (List.range n).countP (fun x => decide (Contains geo k x ∧ Contains geo x j)) <
            (List.range n).countP (fun x => decide (Contains geo i x ∧ Contains geo x j)) := by
          have e1 : ∀ l : List Nat, (∀ x ∈ l, x < n) →
              l.countP (fun x => decide (Contains geo k x ∧ Contains geo x j)) ≤
                l.countP (fun x => decide (Contains geo i x ∧ Contains geo x j)) ∧
              (k ∈ l → l.countP (fun x => decide (Contains geo k x ∧ Contains geo x j)) <
                l.countP (fun x => decide (Contains geo i x ∧ Contains geo x j))) := by
            intro l hl
            induction l with
            | nil => simp
            | cons a l ihl =>
              obtain ⟨i1, i2⟩ := ihl (fun x hx => hl x (by simp [hx]))
              have han := hl a (by simp)
              simp only [List.countP_cons, decide_eq_true_eq]
              have himp : (Contains geo k a ∧ Contains geo a j) → (Contains geo i a ∧ Contains geo a j) :=
                fun hh => ⟨h.trans i hi k hk a han h1 hh.1, hh.2⟩
              refine ⟨?_, ?_⟩
              · split
                · rename_i hh; rw [if_pos (himp hh)]; omega
                · split <;> omega
              · intro hm
                simp only [List.mem_cons] at hm
                rcases hm with rfl | hm
                · have : ¬ (Contains geo k k ∧ Contains geo k j) := fun hh => hh.1.1 rfl
                  rw [if_neg this, if_pos ⟨h1, h2⟩]; omega
                · have := i2 hm
                  split
                  · rename_i hh; rw [if_pos (himp hh)]; omega
                  · split <;> omega
          exact (e1 (List.range n) (by simp)).2 (by simpa using hk)
        obtain ⟨k', q1, q2, q3⟩ := ih k hk h2 (by omega)
        refine ⟨k', q1, q2, Or.inr ?_⟩
        rcases q3 with rfl | q3
        · exact h1
        · exact h.trans i hi k hk k' q1 h1 q3
  exact gen _ i hi hc (Nat.le_refl _)

/-- A ring at odd depth is directly inside a ring at even depth. -/
theorem odd_direct {n : Nat} {geo : Bits} (h : IsNesting n geo) {j : Nat} (hj : j < n)
    (ho : depth n geo j % 2 = 1) : ∃ i < n, DirectlyContains n geo i j ∧ depth n geo i % 2 = 0 := by
  have : ∃ i < n, Contains geo i j := by
    by_contra hne
    have : depth n geo j = 0 := by
      unfold depth
      rw [List.countP_eq_zero]
      intro i hi hc
      simp only [List.mem_range] at hi
      exact hne ⟨i, hi, by simpa using hc⟩
    omega
  obtain ⟨i, hi, hc⟩ := this
  obtain ⟨k, hk, hd, -⟩ := direct_exists h hi hj hc
  exact ⟨k, hk, hd, by have := depth_direct h hk hj hd; omega⟩

/-- C47 (the part that holds for all nestings and all orders of rings): a ring becomes an inner
ring iff it is contained in an odd number of others; it is then an inner ring of the ring that
directly contains it; and it is made an inner ring only of rings that contain it. -/
theorem rings_inner_outer_partial (n : Nat) (geo : Bits) (h : IsNesting n geo) :
    (∀ j < n, (determineRings n geo).isInner j = decide (depth n geo j % 2 = 1)) ∧
    (∀ i < n, ∀ j < n, DirectlyContains n geo i j → depth n geo j % 2 = 1 →
      j ∈ (determineRings n geo).inner i) ∧
    (∀ i < n, ∀ j ∈ (determineRings n geo).inner i, j < n ∧ Contains geo i j ∧ depth n geo j % 2 = 1) ∧
    (∀ i < n, ((determineRings n geo).inner i).Nodup) ∧
    ∀ i j, (determineRings n geo).containedBy j = some i → i < n ∧ Contains geo i j := by
  obtain ⟨b1, b2⟩ := nestBuild_nesting h
  have ht := nestThin_between n geo (nestBuild n geo).1 b1
  obtain ⟨f1, f2, f3⟩ := nestFill_spec n (nestThin n (nestBuild n geo).1) (nestBuild n geo).2
  have hdef : determineRings n geo = (List.range n).foldl (fun t i => (List.range n).foldl
      (fun t j => nestFillStep (nestThin n (nestBuild n geo).1) (nestBuild n geo).2 i j t) t)
      ⟨fun _ => [], fun _ => none⟩ := rfl
  rw [← hdef] at f1 f2 f3
  have hodd : ∀ j < n, (nestBuild n geo).2 j = false ↔ depth n geo j % 2 = 1 := by
    intro j hj
    rw [b2 j hj]; simp
  refine ⟨fun j hj => ?_, fun i hi j hj hd ho => ?_, fun i hi j hm => ?_, fun i hi => ?_, fun i j hb => ?_⟩
  · by_cases ho : depth n geo j % 2 = 1
    · obtain ⟨i, hi, hd, -⟩ := odd_direct h hj ho
      obtain ⟨k, hk, -⟩ := f3 i hi j hj ((ht i hi j hj).1 hd) ((hodd j hj).2 ho)
      simp [RingTree.isInner, hk, ho]
    · simp only [ho, decide_false, RingTree.isInner, Option.isSome_eq_false_iff, Option.isNone_iff_eq_none]
      cases hb : (determineRings n geo).containedBy j with
      | none => rfl
      | some i => exact absurd ((hodd j hj).1 (f2 j i hb).2.2.2) ho
  · rw [f1 i hi]
    simp only [List.mem_filter, List.mem_range, Bool.and_eq_true, Bool.not_eq_true']
    exact ⟨hj, (ht i hi j hj).1 hd, (hodd j hj).2 ho⟩
  · rw [f1 i hi] at hm
    simp only [List.mem_filter, List.mem_range, Bool.and_eq_true, Bool.not_eq_true'] at hm
    exact ⟨hm.1, (ht i hi j hm.1).2 hm.2.1, (hodd j hm.1).1 hm.2.2⟩
  · rw [f1 i hi]; exact List.nodup_range.filter _
  · obtain ⟨q1, q2, q3, q4⟩ := f2 j i hb
    exact ⟨q1, (ht i q1 j q2).2 q3⟩

/-- C47 (complete, for the orders of rings in which the code works): the inner rings of a ring are
exactly the rings at odd depth that it directly contains, each inner ring points to the ring that
directly contains it, and that is an outer ring. -/
theorem rings_exact_partial (n : Nat) (geo : Bits) (h : IsNesting n geo) (hg : GoodOrder n geo) :
    (∀ i < n, (determineRings n geo).inner i =
      (List.range n).filter fun j => decide (DirectlyContains n geo i j ∧ depth n geo j % 2 = 1)) ∧
    ∀ j < n, depth n geo j % 2 = 1 → ∃ i < n, (determineRings n geo).containedBy j = some i ∧
      DirectlyContains n geo i j ∧ (determineRings n geo).isInner i = false := by
  obtain ⟨b1, b2⟩ := nestBuild_nesting h
  have ht := (nestThin_exact_iff n geo h (nestBuild n geo).1 b1).2 hg
  obtain ⟨p1, p2, p3, p4, p5⟩ := rings_inner_outer_partial n geo h
  obtain ⟨f1, f2, f3⟩ := nestFill_spec n (nestThin n (nestBuild n geo).1) (nestBuild n geo).2
  have hdef : determineRings n geo = (List.range n).foldl (fun t i => (List.range n).foldl
      (fun t j => nestFillStep (nestThin n (nestBuild n geo).1) (nestBuild n geo).2 i j t) t)
      ⟨fun _ => [], fun _ => none⟩ := rfl
  rw [← hdef] at f1 f2 f3
  refine ⟨fun i hi => ?_, fun j hj ho => ?_⟩
  · rw [f1 i hi]
    apply List.filter_congr
    intro j hj
    simp only [List.mem_range] at hj
    rw [ht i hi j hj, b2 j hj, Bool.decide_and]
    congr 1
    rcases Nat.mod_two_eq_zero_or_one (depth n geo j) with e | e <;> simp [e]
  · obtain ⟨i, hi, hd, he⟩ := odd_direct h hj ho
    have hin := p1 j hj
    simp only [ho, decide_true, RingTree.isInner] at hin
    obtain ⟨k, hk⟩ := Option.isSome_iff_exists.1 hin
    obtain ⟨q1, q2, q3, q4⟩ := f2 j k hk
    rw [ht k q1 j q2] at q3
    have := direct_unique h q1 hi hj (by simpa using q3) hd
    subst this
    refine ⟨k, hi, hk, hd, ?_⟩
    rw [p1 k hi, he]; simp

/-- For other orders the result is wrong: the bits that are left are exactly the direct relations
only in a good order. -/
theorem rings_order_needed (n : Nat) (geo : Bits) (h : IsNesting n geo) :
    (∀ i < n, ∀ j < n, nestThin n (nestBuild n geo).1 i j = decide (DirectlyContains n geo i j)) ↔
      GoodOrder n geo :=
  nestThin_exact_iff n geo h _ (nestBuild_nesting h).1

/-- Rings each of which comes after the rings around it are in a good order. -/
theorem goodOrder_outer_first (n : Nat) (geo : Bits) (h : IsNesting n geo)
    (ho : ∀ i < n, ∀ j < n, Contains geo i j → i < j) : GoodOrder n geo := by
  -- every ring inside i is inside a ring directly inside i
  have down : ∀ (m i j : Nat), j ≤ i + m → i < n → j < n → Contains geo i j →
      DirectlyContains n geo i j ∨ ∃ k < n, DirectlyContains n geo i k ∧ Contains geo k j := by
    intro m
    induction m with
    | zero => intro i j hm hi hj hc; have := ho i hi j hj hc; omega
    | succ m ih =>
      intro i j hm hi hj hc
      by_cases hd : DirectlyContains n geo i j
      · exact Or.inl hd
      · have : ∃ k < n, Contains geo i k ∧ Contains geo k j := by
          by_contra hne; exact hd ⟨hc, hne⟩
        obtain ⟨k, hk, h1, h2⟩ := this
        have hkj := ho k hk j hj h2
        rcases ih i k (by omega) hi hk h1 with q | ⟨k', q1, q2, q3⟩
        · exact Or.inr ⟨k, hk, q, h2⟩
        · exact Or.inr ⟨k', q1, q2, h.trans k' q1 k hk j hj q3 h2⟩
  intro i hi j hj hc hnd
  rcases down n i j (by omega) hi hj hc with hd | ⟨k, hk, h1, h2⟩
  · exact absurd hd hnd
  · exact ⟨k, hk, h1.1, h2, Or.inl h1, Or.inr (ho i hi k hk h1.1)⟩

/-- Rings each of which comes before the rings around it are in a good order. -/
theorem goodOrder_inner_first (n : Nat) (geo : Bits) (h : IsNesting n geo)
    (ho : ∀ i < n, ∀ j < n, Contains geo i j → j < i) : GoodOrder n geo := by
  intro i hi j hj hc hnd
  obtain ⟨k, hk, hd, e⟩ := direct_exists h hi hj hc
  rcases e with rfl | e
  · exact absurd hd hnd
  · exact ⟨k, hk, e, hd.1, Or.inr (ho k hk j hj hd.1), Or.inl hd⟩

/-- With at most three rings nested in each other every order is good. -/
theorem goodOrder_shallow (n : Nat) (geo : Bits)
    (ho : ∀ a < n, ∀ b < n, ∀ c < n, ∀ d < n, ¬ (Contains geo a b ∧ Contains geo b c ∧ Contains geo c d)) :
    GoodOrder n geo := by
  intro i hi j hj hc hnd
  have : ∃ k < n, Contains geo i k ∧ Contains geo k j := by
    by_contra hne; exact hnd ⟨hc, hne⟩
  obtain ⟨k, hk, h1, h2⟩ := this
  refine ⟨k, hk, h1, h2, Or.inl ⟨h1, ?_⟩, Or.inl ⟨h2, ?_⟩⟩
  · rintro ⟨x, hx, q1, q2⟩; exact ho i hi x hx k hk j hj ⟨q1, q2, h2⟩
  · rintro ⟨x, hx, q1, q2⟩; exact ho i hi k hk x hx j hj ⟨h1, q1, q2⟩

/-- Four rings nested in each other, in the order 1, 0, 2, 3 from outside to inside. -/
def fourRings : Bits := fun i j =>
  (i, j) ∈ [(1, 0), (1, 2), (1, 3), (0, 2), (0, 3), (2, 3), (0, 0), (1, 1), (2, 2), (3, 3)]

set_option synthInstance.maxSize 1000 in
/-- C47 does not hold for all orders: ring 3 is directly inside ring 2, but is made an inner ring of
the outermost ring 1 as well. -/
theorem rings_wrong_parent :
    IsNesting 4 fourRings ∧ DirectlyContains 4 fourRings 2 3 ∧ ¬ DirectlyContains 4 fourRings 1 3 ∧
    (determineRings 4 fourRings).inner 1 = [0, 3] ∧ (determineRings 4 fourRings).inner 2 = [3] := by
  refine ⟨⟨by decide +kernel, by decide +kernel, by decide +kernel⟩, by decide +kernel, by decide +kernel,
    by decide +kernel, by decide +kernel⟩

set_option synthInstance.maxSize 1000 in
/-- The hypotheses of `rings_exact_partial` can be met: ring 0 contains ring 1, which contains rings
2 and 3; ring 4 is outside. -/
example : ∃ geo : Bits, IsNesting 5 geo ∧ GoodOrder 5 geo ∧
    (List.range 5).map (determineRings 5 geo).inner = [[1], [], [], [], []] ∧
    (List.range 5).map (determineRings 5 geo).containedBy = [none, some 0, none, none, none] := by
  let geo : Bits := fun i j => (i, j) ∈ [(0, 1), (0, 2), (0, 3), (1, 2), (1, 3)]
  have h : IsNesting 5 geo := ⟨by decide +kernel, by decide +kernel, by decide +kernel⟩
  exact ⟨geo, h, goodOrder_outer_first 5 geo h (by decide +kernel), by decide +kernel, by decide +kernel⟩

end Osmium

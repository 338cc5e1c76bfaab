import Verif.Multipolygon.Repair
import Verif.Multipolygon.HoleProps

/-
C75: the geometry of a ring.
-/
namespace Osmium
open Spec

theorem addCoord_fold (ns : List WayNode) : ∀ (pre : List Position) (x : Position),
    ns.foldl addCoord (pre ++ [x]) = pre ++ (ns.map (·.position)).destutter' (· ≠ ·) x := by
  induction ns with
  | nil => intro pre x; simp
  | cons n ns ih =>
    intro pre x
    simp only [List.foldl_cons, List.map_cons]
    by_cases h : x = n.position
    · have : addCoord (pre ++ [x]) n = pre ++ [x] := by simp [addCoord, h]
      rw [this, ih, List.destutter'_cons_neg]
      simpa using h
    · have : addCoord (pre ++ [x]) n = pre ++ [x] ++ [n.position] := by simp [addCoord, h]
      rw [this, ih, List.destutter'_cons_pos _ h]
      simp

theorem ringCoords_fold (path : List (Way × Bool)) (cs : List Position) :
    path.foldl (fun cs s =>
      if s.2 then s.1.nodes.reverse.foldl addCoord cs else s.1.nodes.foldl addCoord cs) cs =
    (path.flatMap fun s => if s.2 then s.1.nodes.reverse else s.1.nodes).foldl addCoord cs := by
  induction path generalizing cs with
  | nil => rfl
  | cons s path ih =>
    simp only [List.foldl_cons, List.flatMap_cons, List.foldl_append, ih]
    split <;> rfl

/-- C75: the coordinates of a ring are the positions of the nodes one comes by walking the ways in
order and direction, without those that repeat the one before. -/
theorem ring_coords (path : List (Way × Bool)) :
    ringCoords path = (walk path).destutter (· ≠ ·) := by
  unfold ringCoords
  rw [ringCoords_fold]
  have hw : walk path = (path.flatMap fun s => if s.2 then s.1.nodes.reverse else s.1.nodes).map
      (·.position) := by
    simp only [walk, List.map_flatMap]
  rw [hw]
  cases path.flatMap fun s => if s.2 then s.1.nodes.reverse else s.1.nodes with
  | nil => rfl
  | cons n ns =>
    simp only [List.foldl_cons, List.map_cons, List.destutter_cons']
    have : addCoord [] n = [] ++ [n.position] := by simp [addCoord]
    rw [this, addCoord_fold]; rfl

/-- The first loop: it ends at the end of a simple stretch that is not simple with one more
coordinate (or has all but one of them). -/
theorem bisect_prefix (g : Geos) (n : Nat) (stretch : Nat → List Position) (hn : 4 ≤ n)
    (hb : n ≤ 1073741824) (h1 : (stretch 1).length = 1) :
    ∀ (fuel : Nat) (inv val : Nat), val < inv → inv ≤ n → inv < val + fuel →
      (val = 0 ∨ g.lineSimple (stretch val) = some true) →
      (inv = n ∨ g.lineSimple (stretch inv) = some false) →
      bisect g n stretch fuel inv val ((inv + val) / 2 : Nat) = .error geosError ∨
      ∃ p : Nat, bisect g n stretch fuel inv val ((inv + val) / 2 : Nat) = .ok (p, true) ∧ 2 ≤ p ∧ p < n ∧
        g.lineSimple (stretch p) = some true ∧
        (p + 1 = n ∨ g.lineSimple (stretch (p + 1)) = some false) := by
  intro fuel
  have hone : g.lineSimple (stretch 1) = none := by simp [Geos.lineSimple, h1]
  induction fuel with
  | zero => intro inv val h1 _ h3; omega
  | succ fuel ih =>
    intro inv val hvi hin hf hval hinv
    generalize hc : (inv + val) / 2 = c
    unfold bisect
    rw [if_neg (by omega)]
    simp only [Int.toNat_natCast]
    match ht : g.lineSimple (stretch c) with
    | none => left; rfl
    | some true =>
      simp only [if_true]
      rw [if_neg (by omega)]
      have e : ((inv : Int) + (c : Int)).tdiv 2 = ((inv + c) / 2 : Nat) := by
        rw [Int.tdiv_eq_ediv_of_nonneg (by omega)]; omega
      rw [e]
      by_cases hbr : c = (inv + c) / 2
      · right
        rw [if_pos (by omega)]
        refine ⟨c, rfl, ?_, by omega, ht, ?_⟩
        · rcases Nat.lt_or_ge c 2 with h | h
          · have : c = 0 ∨ c = 1 := by omega
            rcases this with rfl | rfl
            · have : inv = 1 := by omega
              subst this
              rcases hinv with h | h
              · omega
              · rw [hone] at h; cases h
            · rw [hone] at ht; cases ht
          · exact h
        · have : inv = c + 1 := by omega
          subst this
          exact hinv
      · rw [if_neg (by omega)]
        exact ih inv c (by omega) hin (by omega) (.inr ht) hinv
    | some false =>
      simp only [Bool.false_eq_true, if_false]
      rw [if_neg (by omega)]
      have e : ((c : Int) + (val : Int)).tdiv 2 = ((c + val) / 2 : Nat) := by
        rw [Int.tdiv_eq_ediv_of_nonneg (by omega)]; omega
      rw [e]
      have hvc : val < c := by
        rcases Nat.lt_or_ge val c with h | h
        · exact h
        · have hcv : c = val := by omega
          subst hcv
          rcases hval with h | h
          · subst h
            have : inv = 1 := by omega
            subst this
            rcases hinv with h | h
            · omega
            · rw [hone] at h; cases h
          · rw [ht] at h; cases h
      rw [if_neg (by omega)]
      exact ih c val hvc (by omega) (by omega) hval (.inr ht)

/-- The second loop: it ends at the beginning of a simple stretch that is not simple with one more
coordinate (or has all of them). -/
theorem bisect_suffix (g : Geos) (n : Nat) (stretch : Nat → List Position) (hn : 4 ≤ n)
    (hb : n ≤ 1073741824) (h1 : (stretch (n - 1)).length = 1) :
    ∀ (fuel : Nat) (inv val : Nat), inv < val → val ≤ n → val < inv + fuel →
      (val = n ∨ g.lineSimple (stretch val) = some true) →
      (inv = 0 ∨ g.lineSimple (stretch inv) = some false) →
      bisect g n stretch fuel inv val ((inv + val) / 2 : Nat) = .error geosError ∨
      ∃ (q : Nat) (c : Nat) (simple : Bool),
        bisect g n stretch fuel inv val ((inv + val) / 2 : Nat) = .ok (c, simple) ∧
        q = (if simple then c else c + 1) ∧ q + 2 ≤ n ∧
        g.lineSimple (stretch q) = some true ∧
        (q = 0 ∨ g.lineSimple (stretch (q - 1)) = some false) := by
  intro fuel
  have hone : g.lineSimple (stretch (n - 1)) = none := by simp [Geos.lineSimple, h1]
  induction fuel with
  | zero => intro inv val h1 _ h3; omega
  | succ fuel ih =>
    intro inv val hvi hin hf hval hinv
    generalize hc : (inv + val) / 2 = c
    unfold bisect
    rw [if_neg (by omega)]
    simp only [Int.toNat_natCast]
    match ht : g.lineSimple (stretch c) with
    | none => left; rfl
    | some true =>
      simp only [if_true]
      rw [if_neg (by omega)]
      have e : ((inv : Int) + (c : Int)).tdiv 2 = ((inv + c) / 2 : Nat) := by
        rw [Int.tdiv_eq_ediv_of_nonneg (by omega)]; omega
      rw [e]
      by_cases hic : inv = c
      · subst hic
        rcases hinv with h | h
        · subst h
          right
          rw [if_pos (by omega)]
          exact ⟨0, 0, true, rfl, rfl, by omega, ht, .inl rfl⟩
        · rw [ht] at h; cases h
      · rw [if_neg (by omega)]
        exact ih inv c (by omega) (by omega) (by omega) (.inr ht) hinv
    | some false =>
      simp only [Bool.false_eq_true, if_false]
      rw [if_neg (by omega)]
      have e : ((c : Int) + (val : Int)).tdiv 2 = ((c + val) / 2 : Nat) := by
        rw [Int.tdiv_eq_ediv_of_nonneg (by omega)]; omega
      rw [e]
      by_cases hbr : c = (c + val) / 2
      · right
        rw [if_pos (by omega)]
        have hv : val = c + 1 := by omega
        subst hv
        have hlt : c + 1 ≠ n := by
          intro h
          have : c = n - 1 := by omega
          subst this
          rw [hone] at ht; cases ht
        have hs : g.lineSimple (stretch (c + 1)) = some true := by
          rcases hval with h | h
          · exact absurd h hlt
          · exact h
        refine ⟨c + 1, c, false, rfl, rfl, ?_, hs, .inr (by simpa using ht)⟩
        rcases Nat.lt_or_ge (c + 2) n with h | h
        · omega
        · exfalso
          have : c + 1 = n - 1 := by omega
          rw [this, hone] at hs; cases hs
      · rw [if_neg (by omega)]
        exact ih c val (by omega) hin (by omega) hval (.inr ht)

/-- `cutOut` with `cutoutstart` and `cutoutend` in the sequence: no undefined behaviour, the vector
`vv` is not empty when its first element is read. -/
theorem cutOut_spec (cs : List Position) (p q : Nat) (hp : p ≤ cs.length) (hq : q ≤ cs.length) :
    cutOut cs p q = .ok
      (if max p q - min p q > cs.length / 2 then
        (cs.take (max p q)).drop (min p q) ++ ((cs.take (max p q)).drop (min p q)).take 1
       else cs.take (min p q) ++ cs.drop (max p q)) := by
  unfold cutOut
  have hhi : (if (p : Int) < (q : Int) then (q : Int) else p) = ((max p q : Nat) : Int) := by
    split <;> omega
  have hlo : (if (p : Int) < (q : Int) then (p : Int) else q) = ((min p q : Nat) : Int) := by
    split <;> omega
  simp only [hhi, hlo, Int.toNat_natCast]
  rw [if_neg (by omega)]
  by_cases h : max p q - min p q > cs.length / 2
  · rw [if_pos (by omega), if_pos h]
    have hl : ((cs.take (max p q)).drop (min p q)).length = max p q - min p q := by
      simp only [List.length_drop, List.length_take]; omega
    cases hc : (cs.take (max p q)).drop (min p q) with
    | nil => rw [hc] at hl; simp at hl; omega
    | cons c l => simp
  · rw [if_neg (by omega), if_neg h]

/-- The coordinates kept by the repair are the sequence without a stretch, or a stretch of it. -/
theorem cutFrom_between (cs : List Position) (lo hi : Nat) (h1 : lo ≤ hi) (h2 : hi ≤ cs.length) :
    CutFrom cs (if hi - lo > cs.length / 2 then
        (cs.take hi).drop lo ++ ((cs.take hi).drop lo).take 1
       else cs.take lo ++ cs.drop hi) := by
  refine ⟨cs.take lo, (cs.take hi).drop lo, cs.drop hi, ?_, ?_⟩
  · have : cs.take lo = (cs.take hi).take lo := by rw [List.take_take, Nat.min_eq_left h1]
    rw [this, List.take_append_drop, List.take_append_drop]
  · have hl : ((cs.take hi).drop lo).length = hi - lo := by
      simp only [List.length_drop, List.length_take]; omega
    rw [hl]
    by_cases h : hi - lo > cs.length / 2
    · right; exact ⟨h, if_pos h⟩
    · left; exact ⟨by omega, if_neg h⟩

/-- What happens with the new ring: it is made and checked. -/
def ringOutcome (g : Geos) (ring : List Position) : Res (Option (List Position)) :=
  if !ringMakes ring then .error geosError
  else
    match g.validRing ring with
    | none => .error geosError
    | some true => .ok (some ring)
    | some false => .ok none

theorem wrapU32_nat (p : Nat) (h : p ≤ 1073741824) : wrapU32 (p : Int) = p := by
  unfold wrapU32; omega

/-- The repair finds the ends of two stretches, or GEOS throws. -/
theorem repairRing_ends (g : Geos) (cs : List Position) (h4 : 4 ≤ cs.length)
    (hb : cs.length ≤ 1073741824) :
    (bisect g cs.length (fun k => cs.take k) (cs.length + 1) cs.length 0 (cs.length / 2 : Nat) =
        .error geosError ∨
      bisect g cs.length (fun k => cs.drop k) (cs.length + 1) 0 cs.length (cs.length / 2 : Nat) =
        .error geosError) ∧ repairRing g cs = .error geosError ∨
    ∃ p q : Nat, 2 ≤ p ∧ p < cs.length ∧ q + 2 ≤ cs.length ∧
      g.lineSimple (cs.take p) = some true ∧
      (p + 1 = cs.length ∨ g.lineSimple (cs.take (p + 1)) = some false) ∧
      g.lineSimple (cs.drop q) = some true ∧
      (q = 0 ∨ g.lineSimple (cs.drop (q - 1)) = some false) ∧
      repairRing g cs = ringOutcome g
        (if max p q - min p q > cs.length / 2 then
          (cs.take (max p q)).drop (min p q) ++ ((cs.take (max p q)).drop (min p q)).take 1
         else cs.take (min p q) ++ cs.drop (max p q)) := by
  unfold repairRing
  have b1 := bisect_prefix g cs.length (fun k => cs.take k) h4 hb (by simp; omega) (cs.length + 1)
    cs.length 0 (by omega) (Nat.le_refl _) (by omega) (.inl rfl) (.inl rfl)
  have b2 := bisect_suffix g cs.length (fun k => cs.drop k) h4 hb (by simp; omega) (cs.length + 1)
    0 cs.length (by omega) (Nat.le_refl _) (by omega) (.inl rfl) (.inl rfl)
  simp only [Nat.add_zero, Nat.zero_add, Int.ofNat_zero] at b1 b2
  rcases b1 with b1 | ⟨p, b1, p2, pn, ps, pl⟩
  · left; refine ⟨.inl b1, ?_⟩; simp only [b1]
  · simp only [b1, if_true]
    rcases b2 with b2 | ⟨q, c, simple, b2, hq, qn, qs, ql⟩
    · left; refine ⟨.inr b2, ?_⟩; simp only [b2]
    · simp only [b2]
      right
      refine ⟨p, q, p2, pn, qn, ps, pl, qs, ql, ?_⟩
      have hqc : wrapU32 (if simple then (c : Int) else (c : Int) + 1) = (q : Int) := by
        rw [hq]
        cases simple
        · have := wrapU32_nat (c + 1) (by simp at hq; omega)
          simpa using this
        · have := wrapU32_nat c (by simp at hq; omega)
          simpa using this
      rw [hqc, wrapU32_nat p (by omega), cutOut_spec cs p q (by omega) (by omega)]
      rfl

theorem ringMakes_iff {l : List Position} (h : l ≠ []) : ringMakes l = true ↔ IsRing l := by
  cases l with
  | nil => simp at h
  | cons a l => simp [ringMakes, IsRing]

/-- C75: repairing a ring terminates without undefined behaviour, whatever GEOS answers.  Either no
ring is made (or GEOS throws), or the result is a valid ring that is the original sequence of
coordinates without one stretch that is at most half of it, or one longer stretch closed. -/
theorem repair_cuts (g : Geos) (cs : List Position) (h4 : 4 ≤ cs.length)
    (hb : cs.length ≤ 1073741824) :
    repairRing g cs = .error geosError ∨ repairRing g cs = .ok none ∨
    ∃ out, repairRing g cs = .ok (some out) ∧ IsRing out ∧ g.validRing out = some true ∧
      CutFrom cs out := by
  rcases repairRing_ends g cs h4 hb with h | ⟨p, q, p2, pn, qn, -, -, -, -, h⟩
  · exact .inl h.2
  · have hcut := cutFrom_between cs (min p q) (max p q) (by omega) (by omega)
    rw [h]
    generalize (if max p q - min p q > cs.length / 2 then _ else _ : List Position) = out at hcut ⊢
    have hne : out ≠ [] := by
      obtain ⟨a, b, c, e, h | h⟩ := hcut
      · intro hn
        rw [h.2] at hn
        simp only [List.append_eq_nil_iff] at hn
        rw [e] at h h4
        simp [hn.1, hn.2] at h h4
        omega
      · intro hn
        rw [h.2] at hn
        simp only [List.append_eq_nil_iff] at hn
        rw [hn.1] at h
        simp at h
    unfold ringOutcome
    by_cases hm : ringMakes out = true
    · rw [hm]
      simp only [Bool.not_true, Bool.false_eq_true, if_false]
      match hv : g.validRing out with
      | none => left; rfl
      | some true => right; right; exact ⟨out, rfl, (ringMakes_iff hne).1 hm, hv, hcut⟩
      | some false => right; left; rfl
    · left
      simp only [Bool.not_eq_true] at hm
      rw [hm]; rfl

/-- Whether a line is simple is a property of its coordinates that passes on to the stretches at its
beginning and end. -/
structure Spec.SimpleLines (g : Geos) (S : List Position → Prop) : Prop where
  line : ∀ l, g.simpleLine l = some true ↔ S l
  total : ∀ l, g.simpleLine l ≠ none
  front : ∀ l l', S (l ++ l') → S l
  back : ∀ l l', S (l ++ l') → S l'

theorem SimpleLines.false_iff {g : Geos} {S : List Position → Prop} (h : SimpleLines g S)
    (l : List Position) : g.simpleLine l = some false ↔ ¬ S l := by
  rw [← h.line]
  have := h.total l
  match hg : g.simpleLine l with
  | none => exact absurd hg this
  | some true => simp
  | some false => simp

/-- If the loop throws, the stretch of one coordinate was looked at. -/
theorem bisect_prefix_ok (g : Geos) (n : Nat) (stretch : Nat → List Position) (hn : 4 ≤ n)
    (hb : n ≤ 1073741824) (hl : ∀ k, k ≤ n → (stretch k).length = k)
    (ht : ∀ l, g.simpleLine l ≠ none)
    (h2 : g.simpleLine (stretch 2) = some true) (h3 : g.simpleLine (stretch 3) = some true) :
    ∀ (fuel : Nat) (inv val : Nat), val < inv → inv ≤ n → inv < val + fuel → 4 ≤ inv →
      (val = 0 ∨ 2 ≤ val ∧ g.lineSimple (stretch val) = some true) →
      (inv = n ∨ g.lineSimple (stretch inv) = some false) →
      bisect g n stretch fuel inv val ((inv + val) / 2 : Nat) ≠ .error geosError := by
  intro fuel
  induction fuel with
  | zero => intro inv val h1 _ h3; omega
  | succ fuel ih =>
    intro inv val hvi hin hf h4 hval hinv
    generalize hc : (inv + val) / 2 = c
    unfold bisect
    rw [if_neg (by omega)]
    simp only [Int.toNat_natCast]
    have hc2 : 2 ≤ c := by omega
    have hcl : (stretch c).length ≠ 1 := by rw [hl c (by omega)]; omega
    have hls : g.lineSimple (stretch c) = g.simpleLine (stretch c) := by simp [Geos.lineSimple, hcl]
    match ht' : g.lineSimple (stretch c) with
    | none => exact absurd (hls ▸ ht') (ht _)
    | some true =>
      simp only [if_true]
      rw [if_neg (by omega)]
      have e : ((inv : Int) + (c : Int)).tdiv 2 = ((inv + c) / 2 : Nat) := by
        rw [Int.tdiv_eq_ediv_of_nonneg (by omega)]; omega
      rw [e]
      by_cases hbr : c = (inv + c) / 2
      · rw [if_pos (by omega)]; intro h; cases h
      · rw [if_neg (by omega)]
        exact ih inv c (by omega) hin (by omega) h4 (.inr ⟨hc2, ht'⟩) hinv
    | some false =>
      simp only [Bool.false_eq_true, if_false]
      rw [if_neg (by omega)]
      have e : ((c : Int) + (val : Int)).tdiv 2 = ((c + val) / 2 : Nat) := by
        rw [Int.tdiv_eq_ediv_of_nonneg (by omega)]; omega
      rw [e]
      have hc4 : 4 ≤ c := by
        rcases Nat.lt_or_ge c 4 with h | h
        · have : c = 2 ∨ c = 3 := by omega
          rcases this with rfl | rfl
          · rw [hls, h2] at ht'; cases ht'
          · rw [hls, h3] at ht'; cases ht'
        · exact h
      have hvc : val < c := by
        rcases Nat.lt_or_ge val c with h | h
        · exact h
        · have hcv : c = val := by omega
          subst hcv
          rcases hval with h | h
          · omega
          · rw [ht'] at h; cases h.2
      rw [if_neg (by omega)]
      exact ih c val hvc (by omega) (by omega) hc4 hval (.inr ht')

/-- The second loop does not throw if two coordinates always make a simple line. -/
theorem bisect_suffix_ok (g : Geos) (n : Nat) (stretch : Nat → List Position) (hn : 4 ≤ n)
    (hb : n ≤ 1073741824) (hl : ∀ k, k ≤ n → (stretch k).length = n - k)
    (ht : ∀ l, g.simpleLine l ≠ none) (h2 : g.simpleLine (stretch (n - 2)) = some true) :
    ∀ (fuel : Nat) (inv val : Nat), inv < val → val ≤ n → val < inv + fuel → inv + 2 < n →
      (val = n ∨ val + 2 ≤ n ∧ g.lineSimple (stretch val) = some true) →
      (inv = 0 ∨ g.lineSimple (stretch inv) = some false) →
      bisect g n stretch fuel inv val ((inv + val) / 2 : Nat) ≠ .error geosError := by
  intro fuel
  induction fuel with
  | zero => intro inv val h1 _ h3; omega
  | succ fuel ih =>
    intro inv val hvi hin hf h4 hval hinv
    generalize hc : (inv + val) / 2 = c
    unfold bisect
    rw [if_neg (by omega)]
    simp only [Int.toNat_natCast]
    have hc2 : c + 2 ≤ n := by omega
    have hcl : (stretch c).length ≠ 1 := by rw [hl c (by omega)]; omega
    have hls : g.lineSimple (stretch c) = g.simpleLine (stretch c) := by simp [Geos.lineSimple, hcl]
    match ht' : g.lineSimple (stretch c) with
    | none => exact absurd (hls ▸ ht') (ht _)
    | some true =>
      simp only [if_true]
      rw [if_neg (by omega)]
      have e : ((inv : Int) + (c : Int)).tdiv 2 = ((inv + c) / 2 : Nat) := by
        rw [Int.tdiv_eq_ediv_of_nonneg (by omega)]; omega
      rw [e]
      by_cases hbr : c = (inv + c) / 2
      · rw [if_pos (by omega)]; intro h; cases h
      · rw [if_neg (by omega)]
        exact ih inv c (by omega) (by omega) (by omega) h4 (.inr ⟨hc2, ht'⟩) hinv
    | some false =>
      simp only [Bool.false_eq_true, if_false]
      rw [if_neg (by omega)]
      have e : ((c : Int) + (val : Int)).tdiv 2 = ((c + val) / 2 : Nat) := by
        rw [Int.tdiv_eq_ediv_of_nonneg (by omega)]; omega
      rw [e]
      by_cases hbr : c = (c + val) / 2
      · rw [if_pos (by omega)]; intro h; cases h
      · rw [if_neg (by omega)]
        have hcn : c + 2 < n := by
          rcases Nat.lt_or_ge (c + 2) n with h | h
          · exact h
          · have : c = n - 2 := by omega
            subst this
            rw [hls, h2] at ht'; cases ht'
        exact ih c val (by omega) hin (by omega) hcn hval (.inr ht')

/-- C75: when lines of two coordinates and the first three coordinates of the ring are simple lines
and the ring taken as a line is not, the repair looks at the longest simple stretches at the
beginning (`p` coordinates) and at the end (all but `q` coordinates) of the ring, and the new ring is
what is outside of the section between the two numbers, or, when this section is longer than half the
ring, the section itself, closed. -/
theorem repair_longest (g : Geos) (S : List Position → Prop) (hS : SimpleLines g S)
    (cs : List Position) (h4 : 4 ≤ cs.length) (hb : cs.length ≤ 1073741824) (hns : ¬ S cs)
    (h3 : S (cs.take 3)) (h2 : S (cs.drop (cs.length - 2))) :
    ∃ p q : Nat, p < cs.length ∧ q < cs.length ∧
      (∀ k ≤ cs.length, S (cs.take k) ↔ k ≤ p) ∧ (∀ k ≤ cs.length, S (cs.drop k) ↔ q ≤ k) ∧
      repairRing g cs = ringOutcome g
        (if max p q - min p q > cs.length / 2 then
          (cs.take (max p q)).drop (min p q) ++ ((cs.take (max p q)).drop (min p q)).take 1
         else cs.take (min p q) ++ cs.drop (max p q)) := by
  have mono : ∀ a b, a ≤ b → S (cs.take b) → S (cs.take a) := by
    intro a b hab h
    have : cs.take b = cs.take a ++ (cs.take b).drop a := by
      have e : cs.take a = (cs.take b).take a := by rw [List.take_take, Nat.min_eq_left hab]
      rw [e, List.take_append_drop]
    exact hS.front _ _ (this ▸ h)
  have mono' : ∀ a b, a ≤ b → S (cs.drop a) → S (cs.drop b) := by
    intro a b hab h
    have : cs.drop a = (cs.drop a).take (b - a) ++ cs.drop b := by
      have e : cs.drop b = (cs.drop a).drop (b - a) := by rw [List.drop_drop]; congr 1; omega
      rw [e, List.take_append_drop]
    exact hS.back _ _ (this ▸ h)
  have hlt : ∀ k ≤ cs.length, (cs.take k).length = k := by
    intro k hk; simp only [List.length_take]; omega
  have hld : ∀ k ≤ cs.length, (cs.drop k).length = cs.length - k := by
    intro k _; simp
  rcases repairRing_ends g cs h4 hb with h | ⟨p, q, p2, pn, qn, ps, pl, qs, ql, h⟩
  · exfalso
    have b1 := bisect_prefix_ok g cs.length (fun k => cs.take k) h4 hb hlt hS.total
      ((hS.line _).2 (mono 2 3 (by omega) h3)) ((hS.line _).2 h3) (cs.length + 1)
      cs.length 0 (by omega) (Nat.le_refl _) (by omega) h4 (.inl rfl) (.inl rfl)
    have b2 := bisect_suffix_ok g cs.length (fun k => cs.drop k) h4 hb hld hS.total
      ((hS.line _).2 h2) (cs.length + 1)
      0 cs.length (by omega) (Nat.le_refl _) (by omega) (by omega) (.inl rfl) (.inl rfl)
    simp only [Nat.add_zero, Nat.zero_add, Int.ofNat_zero] at b1 b2
    rcases h.1 with h | h
    · exact b1 h
    · exact b2 h
  · have l1 : ∀ k, 2 ≤ k → k ≤ cs.length → g.lineSimple (cs.take k) = g.simpleLine (cs.take k) := by
      intro k hk hk'
      have := hlt k hk'
      simp only [Geos.lineSimple]; rw [if_neg (by omega)]
    have l2 : ∀ k, k + 2 ≤ cs.length → g.lineSimple (cs.drop k) = g.simpleLine (cs.drop k) := by
      intro k hk
      have := hld k (by omega)
      simp only [Geos.lineSimple]; rw [if_neg (by omega)]
    rw [l1 p p2 (by omega), hS.line] at ps
    rw [l1 (p + 1) (by omega) (by omega), SimpleLines.false_iff hS] at pl
    rw [l2 q qn, hS.line] at qs
    rw [l2 (q - 1) (by omega), SimpleLines.false_iff hS] at ql
    refine ⟨p, q, pn, by omega, ?_, ?_, h⟩
    · intro k hk
      constructor
      · intro hk'
        by_contra hpk
        have := mono (p + 1) k (by omega) hk'
        rcases pl with pl | pl
        · have e : k = cs.length := by omega
          rw [e, List.take_length] at hk'
          exact hns hk'
        · exact pl this
      · exact fun hk' => mono k p hk' ps
    · intro k hk
      constructor
      · intro hk'
        by_contra hpk
        have := mono' k (q - 1) (by omega) hk'
        rcases ql with ql | ql
        · omega
        · exact ql this
      · exact fun hk' => mono' q k hk' qs

/-- C75, the repair gives up without need: when the first three coordinates of a ring of six or seven
are not a simple line (a way that begins by going there and back), GEOS is asked to make a line of
one coordinate, which it refuses. -/
theorem repair_gives_up (g : Geos) (cs : List Position) (hl : cs.length = 6 ∨ cs.length = 7)
    (h3 : g.simpleLine (cs.take 3) = some false) : repairRing g cs = .error geosError := by
  have e1 : g.lineSimple (cs.take 3) = some false := by
    simp only [Geos.lineSimple, List.length_take]; rw [if_neg (by omega)]; exact h3
  have e2 : g.lineSimple (cs.take 1) = none := by
    simp only [Geos.lineSimple, List.length_take]; rw [if_pos (by omega)]
  have hb : bisect g cs.length (fun k => cs.take k) (cs.length + 1) cs.length 0 (cs.length / 2 : Nat) =
      .error geosError := by
    rcases hl with hl | hl <;>
    · rw [hl]
      simp [bisect, e1, e2]
  unfold repairRing
  simp only [hb]

/-- C75: a ring is made if and only if GEOS finds the coordinates along the ways to be a simple and
valid ring, or (in repair mode) the repair succeeds; a GEOSException means that no ring is made.
There is no undefined behaviour, and the ring has the coordinates along the ways, except when
repaired. -/
theorem ring_geometry (g : Geos) (repair : Bool) (path : List (Way × Bool)) (hne : walk path ≠ [])
    (hb : (walk path).length ≤ 1073741824) :
    ringGeometry g repair path = .ok none ∨
    ∃ ring ccw, ringGeometry g repair path = .ok (some (ring, ccw)) ∧
      IsRing ring ∧ g.validRing ring = some true ∧ g.ccw ring = some ccw ∧
      (ring = ringCoords path ∧ g.simpleRing ring = some true ∨
       repair = true ∧ CutFrom (ringCoords path) ring ∧
        (g.simpleRing (ringCoords path) = some false ∨ g.validRing (ringCoords path) = some false)) := by
  have hcs : ringCoords path ≠ [] := by
    rw [ring_coords]; simpa [List.destutter_eq_nil] using hne
  have hlen : (ringCoords path).length ≤ 1073741824 := by
    rw [ring_coords]
    exact Nat.le_trans (List.destutter_sublist _ _).length_le hb
  unfold ringGeometry
  generalize ringCoords path = cs at *
  unfold ringBody
  by_cases hm : ringMakes cs = true
  swap
  · simp only [Bool.not_eq_true] at hm
    left; simp [hm]
  have hring := (ringMakes_iff hcs).1 hm
  simp only [hm, Bool.not_true, Bool.false_eq_true, if_false]
  match hs : g.simpleRing cs with
  | none => left; rfl
  | some simple =>
    dsimp only
    match hv : (if simple then g.validRing cs else some false) with
    | none => left; rfl
    | some true =>
      have hst : simple = true := by cases simple <;> simp_all
      subst hst
      simp only [if_true] at hv ⊢
      match hc : g.ccw cs with
      | none => left; rfl
      | some ccw => right; exact ⟨cs, ccw, rfl, hring, hv, hc, .inl ⟨rfl, hs⟩⟩
    | some false =>
      have hbad : some simple = some false ∨ g.validRing cs = some false := by
        cases simple
        · exact .inl rfl
        · exact .inr (by simpa using hv)
      simp only [Bool.false_eq_true, if_false]
      cases repair with
      | false => left; rfl
      | true =>
        simp only [if_true]
        rcases repair_cuts g cs hring.1 hlen with h | h | ⟨out, h, hr, hval, hcut⟩
        · left; rw [h]; rfl
        · left; rw [h]
        · rw [h]
          dsimp only
          match hc : g.ccw out with
          | none => left; rfl
          | some ccw =>
            right
            exact ⟨out, ccw, rfl, hr, hval, hc, .inr ⟨trivial, hcut, hbad⟩⟩

/-- C75: a closed chain that GEOS finds simple and valid always gives a ring with exactly the
coordinates along the ways, in both modes. -/
theorem ring_geometry_valid (g : Geos) (repair : Bool) (path : List (Way × Bool)) (ccw : Bool)
    (hr : IsRing (ringCoords path)) (hs : g.simpleRing (ringCoords path) = some true)
    (hv : g.validRing (ringCoords path) = some true) (hc : g.ccw (ringCoords path) = some ccw) :
    ringGeometry g repair path = .ok (some ((walk path).destutter (· ≠ ·), ccw)) := by
  have hm : ringMakes (ringCoords path) = true := by
    rw [ringMakes_iff]
    · exact hr
    · intro h; rw [h] at hr; simp [IsRing] at hr
  rw [← ring_coords]
  simp [ringGeometry, ringBody, hm, hs, hv, hc]

/-- C75, C44: the rings of an area when the geometric check is the one of the builder.  Each ring is
a cyclic chain of distinct ways (walked in the directions recorded by the search) and has a valid
geometry: the coordinates along the chain, or in repair mode a cut version of these. -/
theorem rings_have_geometry (env : RingEnv) (hsort : env.SortOk) (g : Geos)
    (hchk : env.chk = geosCheck g env.repair) (ws : List Way) (hne : ∀ w ∈ ws, w.nodes ≠ [])
    (s : RingState) (hs : makeRings env (ws.map WayInfo.new) = .ok s) :
    s.rings ≠ [] ∧ s.rings.flatten.Nodup ∧
    ∀ r ∈ s.rings,
      (ringPath s.ways r).map (fun p => some p.1) = r.reverse.map (fun i => (s.ways.map (·.way))[i]?) ∧
      CyclicChain (ringPath s.ways r) ∧
      ∃ ring ccw, ringGeometry g env.repair (ringPath s.ways r) = .ok (some (ring, ccw)) ∧
        ((walk (ringPath s.ways r)).length ≤ 1073741824 →
        IsRing ring ∧ g.validRing ring = some true ∧ g.ccw ring = some ccw ∧
        (ring = (walk (ringPath s.ways r)).destutter (· ≠ ·) ∨
          env.repair = true ∧ CutFrom ((walk (ringPath s.ways r)).destutter (· ≠ ·)) ring)) := by
  rcases makeRings_spec env hsort ws hne with ⟨h, -⟩ | h | ⟨s', fill, h, hw, hf, -, h1, h2, h3⟩
  · rw [h] at hs; cases hs
  · rw [h] at hs; cases hs
  · rw [h] at hs
    obtain rfl := Except.ok.inj hs
    refine ⟨h1, h2, fun r hr => ?_⟩
    obtain ⟨⟨path', p1', -⟩, p2, p3⟩ := h3 r hr
    have p1 : (ringPath s'.ways r).map (fun p => some p.1) = r.reverse.map (fun i => (s'.ways.map (·.way))[i]?) := by
      have hin : ∀ k ∈ r.reverse, ∃ w, s'.ways[k]? = some w := by
        intro k hk
        have hm : (ws ++ fillWays fill)[k]? ∈ path'.map (fun p => some p.1) := by
          rw [p1']; exact List.mem_map.2 ⟨k, hk, rfl⟩
        obtain ⟨p, -, hp⟩ := List.mem_map.1 hm
        rw [← hw, List.getElem?_map] at hp
        obtain ⟨v, hv, -⟩ := Option.map_eq_some_iff.1 hp.symm
        exact ⟨v, hv⟩
      unfold ringPath
      generalize r.reverse = l at hin
      induction l with
      | nil => rfl
      | cons k l ih =>
        obtain ⟨w, hkw⟩ := hin k (by simp)
        rw [List.filterMap_cons, hkw]
        simp only [Option.map_some, List.map_cons, ih (fun k hk => hin k (by simp [hk])), List.getElem?_map, hkw]
    generalize ringPath s'.ways r = path at p1 p2 p3
    refine ⟨p1, p2, ?_⟩
    rw [hw] at p1
    have hfill : ∀ w ∈ ws ++ fillWays fill, w.nodes ≠ [] := by
      intro w hw'
      rcases List.mem_append.1 hw' with h | h
      · exact hne w h
      · obtain ⟨p, -, rfl⟩ := List.mem_map.1 h
        simp
    have hwalk : walk path ≠ [] := by
      cases path with
      | nil => exact absurd rfl p2.1
      | cons a path =>
        have ha : a.1 ∈ ws ++ fillWays fill := by
          have : some a.1 ∈ r.reverse.map (fun i => (ws ++ fillWays fill)[i]?) := by
            rw [← p1]; simp
          obtain ⟨i, -, hi⟩ := List.mem_map.1 this
          exact List.mem_of_getElem? hi
        have := hfill _ ha
        simp only [walk, List.flatMap_cons]
        intro hn
        have := (List.append_eq_nil_iff.1 hn).1
        split at this <;> simp_all
    rw [hchk] at p3
    have hex : ∃ x, ringGeometry g env.repair path = .ok (some x) := by
      unfold geosCheck at p3
      split at p3
      · exact ⟨_, by assumption⟩
      · cases p3
    obtain ⟨⟨ring, ccw⟩, hx⟩ := hex
    refine ⟨ring, ccw, hx, fun hb => ?_⟩
    rcases ring_geometry g env.repair path hwalk hb with h | ⟨ring', ccw', e, h4, h5, h6, h7⟩
    · rw [h] at hx; cases hx
    · rw [hx] at e; cases e
      refine ⟨h4, h5, h6, ?_⟩
      rw [← ring_coords]
      rcases h7 with h7 | h7
      · exact .inl h7.1
      · exact .inr ⟨h7.1, h7.2.1⟩

/-- For examples: a line is simple when no point comes twice, a ring when this is so except for its
ends (after leaving out repeated points). -/
def pointGeos : Geos where
  simpleLine l := some (decide l.Nodup)
  simpleRing l := some (decide (l.destutter (· ≠ ·)).dropLast.Nodup)
  validRing l := some (decide (l.destutter (· ≠ ·)).dropLast.Nodup)
  ccw _ := some true

/-- The points with these numbers. -/
def points (l : List Int) : List Position := l.map fun i => ⟨i, 0⟩

/-- `pointGeos` meets the hypothesis of `repair_longest`. -/
theorem pointGeos_simple : SimpleLines pointGeos List.Nodup where
  line l := by simp [pointGeos]
  total l := by simp [pointGeos]
  front l l' h := (List.nodup_append.1 h).1
  back l l' h := (List.nodup_append.1 h).2.1

/-- The example from the comment (builder.hpp 388-390): a ring of ten nodes of which 3 and 7 are the
same; it meets the hypotheses of `repair_longest` and is repaired. -/
example : repairRing pointGeos (points [0, 1, 2, 3, 4, 5, 6, 3, 8, 0]) =
      .ok (some (points [0, 1, 2, 3, 3, 8, 0])) ∧
    ¬ (points [0, 1, 2, 3, 4, 5, 6, 3, 8, 0]).Nodup ∧
    ((points [0, 1, 2, 3, 4, 5, 6, 3, 8, 0]).take 3).Nodup ∧
    ((points [0, 1, 2, 3, 4, 5, 6, 3, 8, 0]).drop 8).Nodup := by
  refine ⟨rfl, ?_, ?_, ?_⟩ <;> decide

/-- A case where the middle section is longer than half of the ring: it is kept instead. -/
example : repairRing pointGeos (points [0, 1, 2, 3, 4, 5, 6, 7, 1, 0]) =
      .ok (some (points [2, 3, 4, 5, 6, 7, 2])) := rfl

/-- The hypotheses of `repair_gives_up` can be met by a ring that would be valid without the second
and third coordinates. -/
example : pointGeos.simpleLine ((points [0, 1, 0, 2, 3, 0]).take 3) = some false ∧
    pointGeos.validRing (points [0, 2, 3, 0]) = some true ∧
    CutFrom (points [0, 1, 0, 2, 3, 0]) (points [0, 2, 3, 0]) := by
  refine ⟨by decide, by decide, points [0], points [1, 0], points [2, 3, 0], rfl, .inl ⟨by decide, rfl⟩⟩

/-- A way with a figure of eight, closed by a second way walked backwards. -/
def eightWays : List (Way × Bool) :=
  [({ Way.new with nodes := [⟨1, ⟨0, 0⟩⟩, ⟨2, ⟨1, 0⟩⟩, ⟨3, ⟨2, 0⟩⟩, ⟨4, ⟨3, 0⟩⟩, ⟨5, ⟨4, 0⟩⟩, ⟨6, ⟨5, 0⟩⟩, ⟨7, ⟨2, 0⟩⟩] }, false),
   ({ Way.new with nodes := [⟨1, ⟨0, 0⟩⟩, ⟨8, ⟨7, 0⟩⟩, ⟨9, ⟨7, 0⟩⟩, ⟨7, ⟨2, 0⟩⟩] }, true)]

/-- The hypotheses of `ring_geometry` and both outcomes: without repair there is no ring, with repair
there is one. -/
example : walk eightWays ≠ [] ∧ ringCoords eightWays = points [0, 1, 2, 3, 4, 5, 2, 7, 0] ∧
    ringGeometry pointGeos false eightWays = .ok none ∧
    ringGeometry pointGeos true eightWays = .ok (some (points [0, 1, 2, 2, 7, 0], true)) := by
  refine ⟨by decide, by decide, rfl, rfl⟩

/-- The hypotheses of `rings_have_geometry` can be met: a square of two ways. -/
example : ∃ s, makeRings ⟨true, geosCheck pointGeos true, fun _ _ _ => false,
      fun l => l.insertionSort (fun a b => a.ref ≤ b.ref)⟩
    ([({ Way.new with nodes := [⟨1, ⟨0, 0⟩⟩, ⟨2, ⟨1, 0⟩⟩, ⟨3, ⟨2, 0⟩⟩] } : Way),
      { Way.new with nodes := [⟨1, ⟨0, 0⟩⟩, ⟨4, ⟨3, 0⟩⟩, ⟨3, ⟨2, 0⟩⟩] }].map WayInfo.new) = .ok s ∧
    s.rings = [[1, 0]] := ⟨_, rfl, rfl⟩

end Osmium

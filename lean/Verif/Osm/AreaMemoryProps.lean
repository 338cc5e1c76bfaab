import Verif.Osm.AreaMemory
import Verif.Multipolygon.BuildProps
import Mathlib.Data.List.Nodup
import Mathlib.Tactic.ByContra
import Mathlib.Tactic.IntervalCases

/-
Property C96: what happens to the geometries of areas.
-/
namespace Osmium
open Spec

variable {G : Type}

/-- (helper) Between the program and the values: which areas have which geometry, no geometry belongs to two areas,
and `lost` are those that belong to none. -/
structure AreaInv (w : AreaWorld G) (s : AreaValues G) (lost : List Nat) : Prop where
  agree : ∀ i, match s i with
    | none => w.areas i = none
    | some (a, none) => w.areas i = some ⟨a, none⟩
    | some (a, some g) => ∃ p, w.areas i = some ⟨a, some p⟩ ∧ w.live p = some g
  own : ∀ i j c d p, w.areas i = some c → w.areas j = some d → c.geom = some p → d.geom = some p → i = j
  bound : ∀ p, w.live p ≠ none → p < w.next
  nodup : lost.Nodup
  lost : ∀ p, p ∈ lost ↔ w.live p ≠ none ∧ ∀ i c, w.areas i = some c → c.geom ≠ some p

theorem AreaInv.absent {w : AreaWorld G} {s : AreaValues G} {l : List Nat} (h : AreaInv w s l) {i : Nat}
    (hs : s i = none) : w.areas i = none := by
  have := h.agree i
  rw [hs] at this
  exact this

theorem AreaInv.plain {w : AreaWorld G} {s : AreaValues G} {l : List Nat} (h : AreaInv w s l) {i : Nat} {a : Area}
    (hs : s i = some (a, none)) : w.areas i = some ⟨a, none⟩ := by
  have := h.agree i
  rw [hs] at this
  exact this

theorem AreaInv.geom {w : AreaWorld G} {s : AreaValues G} {l : List Nat} (h : AreaInv w s l) {i : Nat} {a : Area}
    {g : G} (hs : s i = some (a, some g)) : ∃ p, w.areas i = some ⟨a, some p⟩ ∧ w.live p = some g := by
  have := h.agree i
  rw [hs] at this
  exact this

/-- An area that exists has a geometry that exists, if it has one. -/
theorem AreaInv.live {w : AreaWorld G} {s : AreaValues G} {l : List Nat} (h : AreaInv w s l) {i p : Nat}
    {c : AreaCell} (hc : w.areas i = some c) (hp : c.geom = some p) : w.live p ≠ none := by
  have := h.agree i
  cases hs : s i with
  | none => rw [hs] at this; simp only at this; rw [hc] at this; cases this
  | some v =>
    obtain ⟨a, g⟩ := v
    rw [hs] at this
    cases g with
    | none =>
      simp only at this
      rw [hc] at this
      cases this
      cases hp
    | some g =>
      obtain ⟨q, h1, h2⟩ := this
      rw [hc] at h1
      cases h1
      simp only [Option.some.injEq] at hp
      subst hp
      rw [h2]; simp

/-- An area without geometry is made. -/
theorem AreaInv.make {w : AreaWorld G} {s : AreaValues G} {l : List Nat} (h : AreaInv w s l) {i : Nat} (a : Area)
    (hs : s i = none) :
    AreaInv { w with areas := Function.update w.areas i (some ⟨a, none⟩) } (Function.update s i (some (a, none))) l := by
  have hn := h.absent hs
  refine ⟨fun j => ?_, ?_, h.bound, h.nodup, fun p => ?_⟩
  · by_cases hj : j = i
    · subst hj; simp
    · have := h.agree j
      simp only [Function.update_of_ne hj]
      exact this
  · intro j k c d p hc hd hp hq
    simp only [Function.update_apply] at hc hd
    split at hc
    · cases hc; cases hp
    · split at hd
      · cases hd; cases hq
      · exact h.own j k c d p hc hd hp hq
  · rw [h.lost p]
    refine and_congr_right fun _ => ⟨fun hl j c hc => ?_, fun hl j c hc => ?_⟩
    · simp only [Function.update_apply] at hc
      split at hc
      · cases hc; simp
      · exact hl j c hc
    · refine hl j c ?_
      simp only [Function.update_apply]
      rw [if_neg (by rintro rfl; rw [hn] at hc; cases hc)]
      exact hc

/-- (helper) The geometry an area loses. -/
def oldGeom (w : AreaWorld G) (i : Nat) : List Nat := ((w.areas i).bind (·.geom)).toList

/-- An area is given a new geometry. -/
theorem AreaInv.give {w : AreaWorld G} {s : AreaValues G} {l : List Nat} (h : AreaInv w s l) (i : Nat) (a : Area)
    (g : G) : AreaInv (w.give i a g) (Function.update s i (some (a, some g))) (oldGeom w i ++ l) := by
  have fresh : w.live w.next = none := by
    by_contra hc
    exact absurd (h.bound _ hc) (lt_irrefl _)
  have notnext : ∀ {j c p}, w.areas j = some c → c.geom = some p → p ≠ w.next := by
    intro j c p hc hp e
    subst e
    exact h.live hc hp fresh
  have hold : ∀ p, p ∈ oldGeom w i ↔ ∃ c, w.areas i = some c ∧ c.geom = some p := by
    intro p
    unfold oldGeom
    cases w.areas i with
    | none => simp
    | some c => simp [Option.mem_toList]
  refine ⟨fun j => ?_, ?_, ?_, ?_, fun p => ?_⟩
  · by_cases hj : j = i
    · subst hj
      simp only [AreaWorld.give, Function.update_self]
      exact ⟨_, rfl, Function.update_self ..⟩
    · have := h.agree j
      simp only [AreaWorld.give, Function.update_of_ne hj]
      cases hsj : s j with
      | none => rw [hsj] at this; exact this
      | some v =>
        obtain ⟨b, o⟩ := v
        cases o with
        | none => rw [hsj] at this; exact this
        | some g' =>
          rw [hsj] at this
          obtain ⟨p, h1, h2⟩ := this
          refine ⟨p, h1, ?_⟩
          rw [Function.update_of_ne (notnext h1 rfl)]
          exact h2
  · intro j k c d p hc hd hp hq
    simp only [AreaWorld.give, Function.update_apply] at hc hd
    split at hc <;> split at hd
    · subst_vars; rfl
    · cases hc; cases hp
      exact absurd rfl (notnext hd hq)
    · cases hd; cases hq
      exact absurd rfl (notnext hc hp)
    · exact h.own j k c d p hc hd hp hq
  · intro p hp
    simp only [AreaWorld.give] at hp ⊢
    by_cases e : p = w.next
    · omega
    · rw [Function.update_of_ne e] at hp
      have := h.bound p hp
      omega
  · refine List.Nodup.append ?_ h.nodup ?_
    · unfold oldGeom
      cases (w.areas i).bind (·.geom) <;> simp
    · intro p hp hl
      obtain ⟨c, hc, hg⟩ := (hold p).1 hp
      exact ((h.lost p).1 hl).2 i c hc hg
  · rw [List.mem_append, hold, h.lost]
    simp only [AreaWorld.give]
    constructor
    · rintro (⟨c, hc, hg⟩ | ⟨hl, hn⟩)
      · have hne := notnext hc hg
        refine ⟨by rw [Function.update_of_ne hne]; exact h.live hc hg, fun j d hd e => ?_⟩
        simp only [Function.update_apply] at hd
        split at hd
        · cases hd
          simp only [Option.some.injEq] at e
          exact hne e.symm
        · rename_i hj
          exact hj (h.own j i d c p hd hc e hg)
      · have hne : p ≠ w.next := by rintro rfl; exact hl fresh
        refine ⟨by rw [Function.update_of_ne hne]; exact hl, fun j d hd e => ?_⟩
        simp only [Function.update_apply] at hd
        split at hd
        · cases hd
          simp only [Option.some.injEq] at e
          exact hne e.symm
        · exact hn j d hd e
    · rintro ⟨hl, hn⟩
      have hne : p ≠ w.next := by
        rintro rfl
        exact hn i ⟨a, some w.next⟩ (by simp) rfl
      rw [Function.update_of_ne hne] at hl
      by_cases ho : ∃ c, w.areas i = some c ∧ c.geom = some p
      · exact .inl ho
      · refine .inr ⟨hl, fun j d hd e => ?_⟩
        by_cases hj : j = i
        · subst hj; exact ho ⟨d, hd, e⟩
        · exact hn j d (by rw [Function.update_of_ne hj]; exact hd) e

/-- An area ceases to exist. -/
theorem AreaInv.destroy {w : AreaWorld G} {s : AreaValues G} {l : List Nat} (h : AreaInv w s l) {i : Nat}
    {v : Area × Option G} (hs : s i = some v) (make : List WayNode → Res G) :
    ∃ w', w.step make (.destroy i) = some (w', .done) ∧ AreaInv w' (Function.update s i none) l := by
  obtain ⟨a, o⟩ := v
  cases o with
  | none =>
    have hw := h.plain hs
    refine ⟨{ w with areas := Function.update w.areas i none }, by simp only [AreaWorld.step, hw],
      fun j => ?_, ?_, h.bound, h.nodup, fun p => ?_⟩
    · by_cases hj : j = i
      · subst hj; simp
      · have := h.agree j
        simp only [Function.update_of_ne hj]
        exact this
    · intro j k c d p hc hd hp hq
      simp only [Function.update_apply] at hc hd
      split at hc
      · cases hc
      · split at hd
        · cases hd
        · exact h.own j k c d p hc hd hp hq
    · rw [h.lost p]
      refine and_congr_right fun _ => ⟨fun hl j c hc => ?_, fun hl j c hc => ?_⟩
      · simp only [Function.update_apply] at hc
        split at hc
        · cases hc
        · exact hl j c hc
      · by_cases hj : j = i
        · subst hj; rw [hw] at hc; cases hc; simp
        · exact hl j c (by simp only [Function.update_of_ne hj]; exact hc)
  | some g =>
    obtain ⟨q, hw, hq⟩ := h.geom hs
    refine ⟨{ w with areas := Function.update w.areas i none, live := Function.update w.live q none },
      by simp only [AreaWorld.step, hw, hq], fun j => ?_, ?_, ?_, h.nodup, fun p => ?_⟩
    · by_cases hj : j = i
      · subst hj; simp
      · have := h.agree j
        simp only [Function.update_of_ne hj]
        cases hsj : s j with
        | none => rw [hsj] at this; exact this
        | some v =>
          obtain ⟨b, o⟩ := v
          cases o with
          | none => rw [hsj] at this; exact this
          | some g' =>
            rw [hsj] at this
            obtain ⟨p, h1, h2⟩ := this
            refine ⟨p, h1, ?_⟩
            have : p ≠ q := by
              rintro rfl
              exact hj (h.own j i _ _ p h1 hw rfl rfl)
            rw [Function.update_of_ne this]
            exact h2
    · intro j k c d p hc hd hp hq
      simp only [Function.update_apply] at hc hd
      split at hc
      · cases hc
      · split at hd
        · cases hd
        · exact h.own j k c d p hc hd hp hq
    · intro p hp
      simp only [Function.update_apply] at hp
      split at hp
      · exact absurd rfl hp
      · exact h.bound p hp
    · rw [h.lost p]
      simp only
      by_cases e : p = q
      · subst e
        simp only [Function.update_self, ne_eq, not_true_eq_false, false_and, iff_false, not_and]
        intro _ hn
        exact hn i _ hw rfl
      · rw [Function.update_of_ne e]
        refine and_congr_right fun _ => ⟨fun hl j c hc => ?_, fun hl j c hc => ?_⟩
        · simp only [Function.update_apply] at hc
          split at hc
          · cases hc
          · exact hl j c hc
        · by_cases hj : j = i
          · subst hj; rw [hw] at hc; cases hc
            simp only [ne_eq, Option.some.injEq]
            exact fun x => e x.symm
          · exact hl j c (by simp only [Function.update_of_ne hj]; exact hc)

theorem oldGeom_length {w : AreaWorld G} {s : AreaValues G} {l : List Nat} (h : AreaInv w s l) (i : Nat) :
    (oldGeom w i).length = if ((s i).bind (·.2)).isSome then 1 else 0 := by
  have := h.agree i
  unfold oldGeom
  cases hs : s i with
  | none => rw [hs] at this; simp only at this; rw [this]; rfl
  | some v =>
    obtain ⟨a, o⟩ := v
    rw [hs] at this
    cases o with
    | none => simp only at this; rw [this]; rfl
    | some g =>
      obtain ⟨p, h1, -⟩ := this
      rw [h1]; rfl

/-- One operation. -/
theorem AreaInv.step {w : AreaWorld G} {s s' : AreaValues G} {l : List Nat} (h : AreaInv w s l)
    (make : List WayNode → Res G) (op : AreaOp G) (r : AreaResult G)
    (hs : AreaValues.step make s op = some (s', r))
    (hc : ∀ i j, op = .copy i j ∨ op = .assign i j → HasGeometry s j) :
    ∃ w' l', w.step make op = some (w', r) ∧ AreaInv w' s' l' ∧
      l'.length = (if replaces s op then 1 else 0) + l.length := by
  cases op with
  | fromWay i way =>
    simp only [AreaValues.step] at hs
    split at hs
    · rename_i a hn ha
      cases hs
      refine ⟨_, l, ?_, h.make a hn, by simp [replaces]⟩
      simp only [AreaWorld.step, h.absent hn, ha]
    · cases hs
  | fromRelation i rel =>
    simp only [AreaValues.step] at hs
    split at hs
    · rename_i a hn ha
      cases hs
      refine ⟨_, l, ?_, h.make a hn, by simp [replaces]⟩
      simp only [AreaWorld.step, h.absent hn, ha]
    · cases hs
  | copy i j =>
    obtain ⟨a, g, hj⟩ := hc i j (.inl rfl)
    simp only [AreaValues.step] at hs
    split at hs
    · rename_i v hn hv
      rw [hj] at hv
      cases hv
      cases hs
      obtain ⟨p, h1, h2⟩ := h.geom hj
      refine ⟨w.give i a g, _, ?_, h.give i a g, ?_⟩
      · simp only [AreaWorld.step, h.absent hn, h1, Option.bind_some, h2]
      · rw [List.length_append, oldGeom_length h, hn]
        simp [replaces]
    · cases hs
  | assign i j =>
    obtain ⟨a, g, hj⟩ := hc i j (.inr rfl)
    simp only [AreaValues.step] at hs
    split at hs
    · rename_i u v hn hv
      rw [hj] at hv
      cases hv
      cases hs
      obtain ⟨p, h1, h2⟩ := h.geom hj
      refine ⟨w.give i a g, _, ?_, h.give i a g, ?_⟩
      · have : ∃ c, w.areas i = some c := by
          obtain ⟨b, o⟩ := u
          cases o with
          | none => exact ⟨_, h.plain hn⟩
          | some g' => obtain ⟨q, h3, -⟩ := h.geom hn; exact ⟨_, h3⟩
        obtain ⟨c, h3⟩ := this
        simp only [AreaWorld.step, h3, h1, Option.bind_some, h2]
      · rw [List.length_append, oldGeom_length h]
        rfl
    · cases hs
  | set i g =>
    simp only [AreaValues.step] at hs
    split at hs
    · cases hs
    · rename_i v hn
      cases hs
      obtain ⟨b, o⟩ := v
      refine ⟨w.give i b g, _, ?_, h.give i b g, ?_⟩
      · have : ∃ q, w.areas i = some ⟨b, q⟩ := by
          cases o with
          | none => exact ⟨_, h.plain hn⟩
          | some g' => obtain ⟨q, h3, -⟩ := h.geom hn; exact ⟨_, h3⟩
        obtain ⟨q, h3⟩ := this
        simp only [AreaWorld.step, h3]
      · rw [List.length_append, oldGeom_length h]
        rfl
  | look i =>
    simp only [AreaValues.step] at hs
    split at hs
    · cases hs
    · rename_i a g hn
      cases hs
      obtain ⟨q, h3, h4⟩ := h.geom hn
      exact ⟨w, l, by simp only [AreaWorld.step, h3, h4], h, by simp [replaces]⟩
    · rename_i a hn
      have h3 := h.plain hn
      split at hs
      · rename_i g hm
        cases hs
        refine ⟨w.give i a g, _, by simp only [AreaWorld.step, h3, hm], h.give i a g, ?_⟩
        rw [List.length_append, oldGeom_length h, hn]
        simp [replaces]
      · rename_i m hm
        cases hs
        exact ⟨w, l, by simp only [AreaWorld.step, h3, hm], h, by simp [replaces]⟩
      · cases hs
  | destroy i =>
    simp only [AreaValues.step] at hs
    split at hs
    · cases hs
    · rename_i v hn
      cases hs
      obtain ⟨w', h1, h2⟩ := h.destroy hn make
      exact ⟨w', l, h1, h2, by simp [replaces]⟩

/-- A whole history. -/
theorem AreaInv.run {w : AreaWorld G} {s s' : AreaValues G} {l : List Nat} (h : AreaInv w s l)
    (make : List WayNode → Res G) (ops : List (AreaOp G)) (rs : List (AreaResult G))
    (hs : AreaValues.run make s ops = some (s', rs)) (hc : CopiesGeometries make s ops) :
    ∃ w' l', w.run make ops = some (w', rs) ∧ AreaInv w' s' l' ∧ l'.length = replacements make s ops + l.length := by
  induction ops generalizing w s l rs with
  | nil =>
    simp only [AreaValues.run, Option.some.injEq, Prod.mk.injEq] at hs
    obtain ⟨rfl, rfl⟩ := hs
    exact ⟨w, l, rfl, h, by simp [replacements]⟩
  | cons op ops ih =>
    unfold AreaValues.run at hs
    cases h1 : AreaValues.step make s op with
    | none => rw [h1] at hs; simp at hs
    | some x =>
      obtain ⟨s1, r⟩ := x
      rw [h1] at hs
      cases h2 : AreaValues.run make s1 ops with
      | none => simp [h2] at hs
      | some y =>
        obtain ⟨s2, rs'⟩ := y
        simp [h2] at hs
        obtain ⟨rfl, rfl⟩ := hs
        obtain ⟨w1, l1, e1, i1, n1⟩ := h.step make op r h1
          (fun i j ho => hc [] ops i j s [] (by rcases ho with rfl | rfl <;> simp) rfl)
        obtain ⟨w2, l2, e2, i2, n2⟩ := ih i1 rs' h2 (by
          intro before after i j s'' rs'' ho hr
          refine hc (op :: before) after i j s'' (r :: rs'') ?_ ?_
          · rcases ho with ho | ho
            · left; rw [ho]; rfl
            · right; rw [ho]; rfl
          · unfold AreaValues.run
            rw [h1]
            simp [hr])
        refine ⟨w2, l2, by simp only [AreaWorld.run, e1, e2], i2, ?_⟩
        rw [n2, n1, replacements, h1]
        simp only
        omega

theorem areaInv_init : AreaInv (AreaWorld.init : AreaWorld G) (fun _ => none) [] where
  agree := fun i => rfl
  own := fun i j c d p h => by cases h
  bound := fun p h => absurd rfl h
  nodup := List.nodup_nil
  lost := fun p => by simp [AreaWorld.init]

/-- C96: in every history of a program in which only areas with a geometry are copied: no geometry is used after it was
deleted or deleted twice (there is always a result), what the program sees is what it would see if every area had its
own geometry as a value, and the geometries that exist afterwards are those of the areas, each with its own, and one
for each time a geometry was replaced.
(Partial: areas without geometry cannot be copied, see `area_copy_undefined`; and geometries that are replaced are
never deleted, see `area_replaced_leaks`.) -/
theorem area_geometries_partial (make : List WayNode → Res G) (ops : List (AreaOp G)) (s : AreaValues G)
    (rs : List (AreaResult G)) (hs : AreaValues.run make (fun _ => none) ops = some (s, rs))
    (hc : CopiesGeometries make (fun _ => none) ops) :
    ∃ w, AreaWorld.init.run make ops = some (w, rs) ∧
      (∀ i, (w.areas i).map (fun c => (c.area, c.geom.bind w.live)) = s i) ∧
      (∀ i j p c d, w.areas i = some c → w.areas j = some d → c.geom = some p → d.geom = some p → i = j) ∧
      ∃ lost : List Nat, lost.Nodup ∧ lost.length = replacements make (fun _ => none) ops ∧
        ∀ p, p ∈ lost ↔ w.live p ≠ none ∧ ∀ i c, w.areas i = some c → c.geom ≠ some p := by
  obtain ⟨w, l, h1, h2, h3⟩ := areaInv_init.run make ops rs hs hc
  refine ⟨w, h1, fun i => ?_, fun i j p c d => h2.own i j c d p, l, h2.nodup, by simpa using h3, h2.lost⟩
  cases hsi : s i with
  | none => rw [h2.absent hsi]; rfl
  | some v =>
    obtain ⟨a, o⟩ := v
    cases o with
    | none => rw [h2.plain hsi]; rfl
    | some g =>
      obtain ⟨p, e1, e2⟩ := h2.geom hsi
      rw [e1]
      simp [e2]

/-- Nothing is left over: if no geometry was replaced, then after the last area is gone there are no geometries. -/
theorem area_geometries_freed (make : List WayNode → Res G) (ops : List (AreaOp G)) (s : AreaValues G)
    (rs : List (AreaResult G)) (hs : AreaValues.run make (fun _ => none) ops = some (s, rs))
    (hc : CopiesGeometries make (fun _ => none) ops) (hr : replacements make (fun _ => none) ops = 0)
    (hn : ∀ i, s i = none) : ∃ w, AreaWorld.init.run make ops = some (w, rs) ∧ ∀ p, w.live p = none := by
  obtain ⟨w, l, h1, h2, h3⟩ := areaInv_init.run make ops rs hs hc
  refine ⟨w, h1, fun p => ?_⟩
  by_contra hp
  have : p ∈ l := (h2.lost p).2 ⟨hp, fun i c hi => by rw [h2.absent (hn i)] at hi; cases hi⟩
  have h0 : l = [] := List.length_eq_zero_iff.1 (by simpa [hr] using h3)
  rw [h0] at this
  cases this

/-- (data for the examples, no counterpart in /repo) -/
def amWay : Way := ⟨{ Obj.new with id := 7 }, [{ ref := 1 }, { ref := 2 }, { ref := 3 }, { ref := 1 }]⟩

/-- (data for the examples, no counterpart in /repo) The geometry of an area is the number of its nodes. -/
def amMake (ns : List WayNode) : Res Nat := if ns = [] then .error .ub else .ok ns.length

/-- (data for the examples, no counterpart in /repo) -/
def amOps : List (AreaOp Nat) :=
  [.fromWay 1 amWay, .look 1, .copy 2 1, .set 2 5, .look 1, .assign 1 2, .destroy 2, .look 1, .destroy 1]

/-- A history that meets the hypotheses of `area_geometries_partial`, with two replaced geometries. -/
example : ((AreaValues.run amMake (fun _ => none) amOps).map (·.2) =
      some [.done, .value 4, .done, .done, .value 4, .done, .done, .value 5, .done]) ∧
    CopiesGeometries amMake (fun _ => none) amOps ∧ replacements amMake (fun _ => none) amOps = 2 := by
  refine ⟨by decide +kernel, ?_, by decide +kernel⟩
  intro before after i j s' rs ho hr
  have hl : before.length < 9 := by
    have : amOps.length = 9 := rfl
    rcases ho with ho | ho <;> (rw [ho] at this; simp at this; omega)
  have hb : before = amOps.take before.length := by
    rcases ho with ho | ho <;> (rw [ho]; simp)
  have hx : amOps[before.length]? = some (.copy i j) ∨ amOps[before.length]? = some (.assign i j) := by
    rcases ho with ho | ho
    · left; rw [ho]; simp
    · right; rw [ho]; simp
  have key : ∀ n j, n < 9 → (∃ i, amOps[n]? = some (.copy i j) ∨ amOps[n]? = some (.assign i j)) →
      ∃ a g, (AreaValues.run amMake (fun _ => none) (amOps.take n)).map (fun x => x.1 j) = some (some (a, some g)) := by
    intro n j hn hi
    obtain ⟨i, hi⟩ := hi
    have : (n = 2 ∧ j = 1) ∨ (n = 5 ∧ j = 2) := by
      interval_cases n <;> rcases hi with hi | hi <;> simp [amOps] at hi <;> omega
    rcases this with ⟨rfl, rfl⟩ | ⟨rfl, rfl⟩
    · exact ⟨⟨{ Obj.new with id := 14 }, amWay.nodes⟩, 4, by decide +kernel⟩
    · exact ⟨⟨{ Obj.new with id := 14 }, amWay.nodes⟩, 5, by decide +kernel⟩
  obtain ⟨a, g, hk⟩ := key before.length j hl ⟨i, hx⟩
  rw [← hb, hr] at hk
  exact ⟨a, g, by simpa using hk⟩

/-- What is missing: to copy an area that has no geometry (yet) is undefined behaviour ... -/
theorem area_copy_undefined (make : List WayNode → Res G) (w : Way) (hid : SmallId w.obj.id) :
    (AreaWorld.init : AreaWorld G).run make [.fromWay 1 w, .copy 2 1] = none ∧
    ∃ s, AreaValues.run make (fun _ => none) [.fromWay 1 w, .copy 2 1] = some (s, [.done, .done]) := by
  have h : Area.ofWay w = .ok ⟨{ w.obj with id := w.obj.id * 2 }, w.nodes⟩ := areaOfWay_small hid
  constructor
  · simp [AreaWorld.run, AreaWorld.step, AreaWorld.init, h]
  · simp [AreaValues.run, AreaValues.step, h]

/-- ... and a geometry that is replaced is still there when all areas are gone. -/
theorem area_replaced_leaks (make : List WayNode → Res G) (g g' : G) (w : Way) (hid : SmallId w.obj.id) :
    ∃ w', (AreaWorld.init : AreaWorld G).run make [.fromWay 1 w, .set 1 g, .set 1 g', .destroy 1] =
        some (w', [.done, .done, .done, .done]) ∧ (∀ i, w'.areas i = none) ∧ ∃ p, w'.live p = some g := by
  have h : Area.ofWay w = .ok ⟨{ w.obj with id := w.obj.id * 2 }, w.nodes⟩ := areaOfWay_small hid
  refine ⟨⟨fun _ => none, fun p => if p = 0 then some g else none, 2⟩, ?_, fun i => rfl, 0, rfl⟩
  simp only [AreaWorld.run, AreaWorld.step, AreaWorld.init, AreaWorld.give, h, Function.update_self,
    Function.update_idem]
  refine congrArg some (Prod.ext ?_ rfl)
  simp only [AreaWorld.mk.injEq, and_true]
  constructor
  · funext i; simp only [Function.update_apply]; split <;> rfl
  · funext p
    simp only [Function.update_apply]
    split
    · subst_vars; rfl
    · rfl

end Osmium

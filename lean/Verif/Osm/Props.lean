import Verif.Osm.Model
import Verif.Osm.Spec
/-
Properties C01 - C06 and C09 of the basic data types.
-/
namespace Osmium
open Spec

/-! ### C01 Positions are totally ordered -/

/-- `==` on positions is equality of both coordinates. -/
theorem position_eq_iff (p q : Position) : p.eq q = true ↔ p = q := by
  cases p; cases q; simp [Position.eq]

/-- **C01**: `<` on positions is a strict total order (with respect to the equality computed
by `==`, see `position_eq_iff`), undefined positions included. -/
theorem position_lt_strictTotalOrder :
    StrictTotalOrder (fun p q : Position => p.lt q = true) := by
  constructor
  · intro a; simp [Position.lt]
  · intro a b c; simp only [Position.lt]; grind
  · intro a b; cases a; cases b; simp only [Position.lt, Position.mk.injEq]; grind

/-- C01, one-line form: exactly one of `p<q`, `p==q`, `q<p` holds. -/
theorem position_trichotomy (p q : Position) :
    (p.lt q = true ∧ p.eq q = false ∧ q.lt p = false) ∨
    (p.lt q = false ∧ p.eq q = true ∧ q.lt p = false) ∨
    (p.lt q = false ∧ p.eq q = false ∧ q.lt p = true) := by
  simp only [Position.lt, Position.eq]; grind

/-- C01: the order is "by x, then by y". -/
theorem position_lt_iff (p q : Position) :
    p.lt q = true ↔ p.x < q.x ∨ (p.x = q.x ∧ p.y < q.y) := by
  simp only [Position.lt]; grind

example : (Position.mk 1 2).lt ⟨1, 3⟩ = true ∧ (Position.mk 1 9).lt ⟨2, 3⟩ = true ∧
    (Position.mk 1 2).lt Position.undef = true := by decide

/-! ### C02 Bounds are the exact hull -/

/-- Invariant used for C02: after extending by the non-empty list `ps` of defined positions. -/
theorem bounds_extendAll_aux (ps : List Position) (q : Position) (done : List Position)
    (b : Bounds)
    (hq : q ∈ done) (hd : ∀ p ∈ done ++ ps, p.defined = true)
    (h1 : IsMinOf Position.x done b.bottomLeft.x) (h2 : IsMinOf Position.y done b.bottomLeft.y)
    (h3 : IsMaxOf Position.x done b.topRight.x) (h4 : IsMaxOf Position.y done b.topRight.y) :
    let r := b.extendAll ps
    IsMinOf Position.x (done ++ ps) r.bottomLeft.x ∧
    IsMinOf Position.y (done ++ ps) r.bottomLeft.y ∧
    IsMaxOf Position.x (done ++ ps) r.topRight.x ∧
    IsMaxOf Position.y (done ++ ps) r.topRight.y := by
  induction ps generalizing done b with
  | nil => simpa [Bounds.extendAll] using ⟨h1, h2, h3, h4⟩
  | cons p ps ih =>
    have hb : b.bottomLeft.defined = true := by
      obtain ⟨a, ha, hax⟩ := h1.1
      obtain ⟨a', ha', hax'⟩ := h2.1
      have da := hd a (by simp [ha])
      have da' := hd a' (by simp [ha'])
      simp only [Position.defined, bne_iff_ne, ne_eq, Bool.and_eq_true] at *
      exact ⟨hax ▸ da.1, hax' ▸ da'.2⟩
    have := ih (done ++ [p]) (b.extend p) (by simp [hq]) (by simpa using hd)
    simp only [List.append_assoc, List.cons_append, List.nil_append] at this
    simp only [Bounds.extendAll, List.foldl_cons] at *
    simp only [Bounds.extend, hb, if_true] at *
    apply this
    all_goals
      simp only [IsMinOf, IsMaxOf, List.mem_append, List.mem_singleton] at *
      grind

/-- **C02** (hull): after extending an empty `Bounds` with a non-empty sequence of defined
positions, the bounds are defined, the bottom left corner is the coordinate-wise minimum and the
top right corner the coordinate-wise maximum of the sequence. -/
theorem bounds_extend_hull (ps : List Position) (hne : ps ≠ [])
    (hd : ∀ p ∈ ps, p.defined = true) :
    let r := Bounds.empty.extendAll ps
    r.defined = true ∧
    IsMinOf Position.x ps r.bottomLeft.x ∧ IsMinOf Position.y ps r.bottomLeft.y ∧
    IsMaxOf Position.x ps r.topRight.x ∧ IsMaxOf Position.y ps r.topRight.y := by
  cases ps with
  | nil => exact absurd rfl hne
  | cons p ps =>
    have key := bounds_extendAll_aux ps p [p] ⟨p, p⟩ (by simp) (by simpa using hd)
      (by simp [IsMinOf]) (by simp [IsMinOf]) (by simp [IsMaxOf])
      (by simp [IsMaxOf])
    have he : Bounds.empty.extendAll (p :: ps) = Bounds.extendAll ⟨p, p⟩ ps := by
      simp [Bounds.extendAll, Bounds.extend, Bounds.empty, Position.undef, Position.defined]
    simp only [he, List.singleton_append] at *
    refine ⟨?_, key⟩
    obtain ⟨k1, k2, _, _⟩ := key
    obtain ⟨a, ha, hax⟩ := k1.1
    obtain ⟨a', ha', hax'⟩ := k2.1
    have da := hd a ha
    have da' := hd a' ha'
    simp only [Bounds.defined, Position.defined, bne_iff_ne, ne_eq, Bool.and_eq_true] at *
    exact ⟨hax ▸ da.1, hax' ▸ da'.2⟩

theorem isMinOf_unique {α} {f : α → Int} {l l' : List α} {m m' : Int}
    (hl : ∀ a, a ∈ l ↔ a ∈ l') (h : IsMinOf f l m) (h' : IsMinOf f l' m') : m = m' := by
  obtain ⟨⟨a, ha, e⟩, b⟩ := h; obtain ⟨⟨a', ha', e'⟩, b'⟩ := h'
  have := b a' ((hl _).2 ha'); have := b' a ((hl _).1 ha); omega

theorem isMaxOf_unique {α} {f : α → Int} {l l' : List α} {m m' : Int}
    (hl : ∀ a, a ∈ l ↔ a ∈ l') (h : IsMaxOf f l m) (h' : IsMaxOf f l' m') : m = m' := by
  obtain ⟨⟨a, ha, e⟩, b⟩ := h; obtain ⟨⟨a', ha', e'⟩, b'⟩ := h'
  have := b a' ((hl _).2 ha'); have := b' a ((hl _).1 ha); omega

/-- **C02** (order independence): two sequences of defined positions with the same elements,
in any order and multiplicity, give the same bounds. -/
theorem bounds_order_independent (ps qs : List Position) (h : ∀ p, p ∈ ps ↔ p ∈ qs)
    (hd : ∀ p ∈ ps, p.defined = true) :
    Bounds.empty.extendAll ps = Bounds.empty.extendAll qs := by
  by_cases hne : ps = []
  · subst hne
    have : qs = [] := by
      cases qs with
      | nil => rfl
      | cons q _ => have := (h q).2 (by simp); simp at this
    rw [this]
  · have hne' : qs ≠ [] := by
      intro e; subst e
      cases ps with
      | nil => exact hne rfl
      | cons p _ => have := (h p).1 (by simp); simp at this
    have a := bounds_extend_hull ps hne hd
    have b := bounds_extend_hull qs hne' (fun p hp => hd p ((h p).2 hp))
    simp only at a b
    have e1 := isMinOf_unique h a.2.1 b.2.1
    have e2 := isMinOf_unique h a.2.2.1 b.2.2.1
    have e3 := isMaxOf_unique h a.2.2.2.1 b.2.2.2.1
    have e4 := isMaxOf_unique h a.2.2.2.2 b.2.2.2.2
    generalize Bounds.empty.extendAll ps = x at *
    generalize Bounds.empty.extendAll qs = y at *
    obtain ⟨⟨_, _⟩, ⟨_, _⟩⟩ := x; obtain ⟨⟨_, _⟩, ⟨_, _⟩⟩ := y
    simp_all

/-- **C02** (definedness): bounds are defined iff at least one (defined) position was added. -/
theorem bounds_defined_iff (ps : List Position) (hd : ∀ p ∈ ps, p.defined = true) :
    (Bounds.empty.extendAll ps).defined = true ↔ ps ≠ [] := by
  constructor
  · intro h e; subst e; revert h; decide
  · intro h; exact (bounds_extend_hull ps h hd).1

/-- C02 does not extend to undefined positions: extending defined bounds by an undefined
position moves the top right corner to INT32_MAX, so the corner is no longer a corner of the
hull of the defined positions (and is itself undefined). -/
theorem bounds_undefined_position_pollutes (p : Position) (hp : p.defined = true) (hWF : p.WF) :
    (Bounds.empty.extendAll [p, Position.undef]).topRight = Position.undef := by
  simp only [Position.defined, Position.WF, InS32, Position.invalid, bne_iff_ne, ne_eq,
    Bool.and_eq_true] at hp hWF
  simp [Bounds.extendAll, Bounds.extend, Bounds.empty, Position.undef, Position.defined,
    Position.invalid, hp.1, hp.2]
  omega

example : (∀ p ∈ [Position.mk 3 (-4), ⟨-7, 9⟩, ⟨0, 0⟩], p.defined = true) ∧
    Bounds.empty.extendAll [⟨3, -4⟩, ⟨-7, 9⟩, ⟨0, 0⟩] = ⟨⟨-7, -4⟩, ⟨3, 9⟩⟩ := by decide

/-! ### C03 Sorting objects by id and version -/

/-- The comparison is defined for the object: `std::abs(id)` does not overflow. -/
def Obj.absOk (o : Obj) : Prop := -9223372036854775808 < o.id ∧ o.id ≤ 9223372036854775807

theorem absI64_ok (x : Int) (h : -9223372036854775808 < x ∧ x ≤ 9223372036854775807) :
    absI64 x = some (x.natAbs : Int) := by
  unfold absI64 chk64
  have : InS64 (if x < 0 then -x else x) := by unfold InS64; split <;> omega
  rw [if_pos this]; congr 1; split <;> omega

/-- **C03**: where no undefined behaviour is involved, `<` compares absolute ids, and the
versions if the ids are the same. -/
theorem objLt_eq (a b : Obj) (ha : a.absOk) (hb : b.absOk) :
    objLt a b = some (decide
      (if a.id = b.id then a.version < b.version else a.id.natAbs < b.id.natAbs)) := by
  unfold objLt
  by_cases h : a.id = b.id
  · simp [h]
  · simp only [beq_iff_eq, h, if_false, absI64_ok _ ha, absI64_ok _ hb]; simp

/-- C03: the comparison of two different ids one of which is INT64_MIN is undefined behaviour. -/
theorem objLt_ub (a b : Obj) (h : a.id ≠ b.id) (ha : a.id = -9223372036854775808) :
    objLt a b = none := by
  unfold objLt absI64 chk64 InS64; rw [ha] at h; simp [h, ha]

/-- **C03** (always): `<` is irreflexive, asymmetric and transitive. -/
theorem objLt_strict_partial_order (a b c : Obj) (ha : a.absOk) (hb : b.absOk) (hc : c.absOk) :
    objLt a a = some false ∧
    (objLt a b = some true → objLt b a = some false) ∧
    (objLt a b = some true → objLt b c = some true → objLt a c = some true) := by
  rw [objLt_eq a a ha ha, objLt_eq a b ha hb, objLt_eq b a hb ha, objLt_eq b c hb hc,
    objLt_eq a c ha hc]
  simp only [Option.some.injEq, decide_eq_true_eq, decide_eq_false_iff_not]
  refine ⟨?_, ?_, ?_⟩ <;> grind

/-- **C03** (partial: `S` must not contain an id together with its negation): `<` is a strict
weak ordering, equal to the lexicographic order on (absolute id, version). -/
theorem objLt_strictWeakOrder_partial (S : Obj → Prop) (hS : ∀ a, S a → a.absOk)
    (hno : ∀ a b, S a → S b → a.id = -b.id → a.id = b.id) :
    StrictWeakOrderOn S (fun a b => objLt a b = some true) ∧
    ∀ a b, S a → S b → (objLt a b = some true ↔
      a.id.natAbs < b.id.natAbs ∨ (a.id.natAbs = b.id.natAbs ∧ a.version < b.version)) := by
  have key : ∀ a b, S a → S b → (objLt a b = some true ↔
      a.id.natAbs < b.id.natAbs ∨ (a.id.natAbs = b.id.natAbs ∧ a.version < b.version)) := by
    intro a b ha hb
    rw [objLt_eq a b (hS a ha) (hS b hb)]
    have := hno a b ha hb
    simp only [Option.some.injEq, decide_eq_true_eq]
    split <;> omega
  refine ⟨⟨?_, ?_, ?_⟩, key⟩
  · intro a ha; simp only [key a a ha ha]; omega
  · intro a b c ha hb hc; simp only [key a b ha hb, key b c hb hc, key a c ha hc]; omega
  · intro a b c ha hb hc
    simp only [key a b ha hb, key b c hb hc, key a c ha hc, key b a hb ha, key c b hc hb,
      key c a hc ha]
    omega

/-- C03 is false in general: two versions of an object `n ≠ 0` together with an object `-n`
violate the strict weak ordering (the object `-n` is equivalent to both versions although
they are not equivalent to each other). -/
theorem objLt_not_strictWeakOrder (n : Int) (hn : n ≠ 0) (hr : -9223372036854775808 < n)
    (hr' : n ≤ 9223372036854775807) (v1 v2 v : Int) (hv : v1 < v2) :
    ¬ StrictWeakOrderOn
        (fun o => o = { Obj.new with id := n, version := v1 } ∨
                  o = { Obj.new with id := n, version := v2 } ∨
                  o = { Obj.new with id := -n, version := v })
        (fun a b => objLt a b = some true) := by
  intro h
  generalize ha : ({ Obj.new with id := n, version := v1 } : Obj) = a at h
  generalize hb : ({ Obj.new with id := n, version := v2 } : Obj) = b at h
  generalize hc : ({ Obj.new with id := -n, version := v } : Obj) = c at h
  have ia : a.id = n ∧ a.version = v1 := by subst ha; simp
  have ib : b.id = n ∧ b.version = v2 := by subst hb; simp
  have ic : c.id = -n := by subst hc; simp
  have oa : a.absOk := by unfold Obj.absOk; omega
  have ob : b.absOk := by unfold Obj.absOk; omega
  have oc : c.absOk := by unfold Obj.absOk; omega
  have := h.incomp_trans a c b (by simp) (by simp) (by simp)
  simp only [objLt_eq a c oa oc, objLt_eq c a oc oa, objLt_eq c b oc ob, objLt_eq b c ob oc,
    objLt_eq a b oa ob, objLt_eq b a ob oa] at this
  have h1 : ¬ n = -n := by omega
  have h2 : ¬ -n = n := by omega
  simp [ia, ib, ic, h1, h2] at this
  omega

example : ∃ a b : Obj, a.absOk ∧ b.absOk ∧ a ≠ b ∧ objLt a b = some true :=
  ⟨{ Obj.new with id := -3, version := 7 }, { Obj.new with id := 4, version := 1 },
    ⟨by decide, by decide⟩, ⟨by decide, by decide⟩, by decide, by decide⟩

/-! ### C04 Area ids identify their origin -/

/-- **C04** (ways): the area made from way `id` reports that it is from a way and the
original id. -/
theorem area_from_way_origin (id a : Int) (h : areaIdOfWay id = some a) :
    areaFromWay a = true ∧ areaOrigId a = id := by
  simp only [areaIdOfWay, chk64_eq_some] at h
  obtain ⟨_, rfl⟩ := h
  simp only [areaFromWay, areaOrigId, beq_iff_eq]
  constructor
  · rw [Int.mul_comm]; exact Int.mul_tmod_right 2 id
  · exact Int.mul_tdiv_cancel id (by decide)

theorem areaIdOfRelation_eq_some (id a : Int) :
    areaIdOfRelation id = some a ↔ InS64 (id * 2) ∧ InS64 a ∧ a = id * 2 + sgn id := by
  unfold areaIdOfRelation
  simp only [bind, Option.bind_eq_some_iff, chk64_eq_some]
  constructor
  · rintro ⟨d, ⟨h1, rfl⟩, h2, rfl⟩; exact ⟨h1, h2, rfl⟩
  · rintro ⟨h1, h2, rfl⟩; exact ⟨_, ⟨h1, rfl⟩, h2, rfl⟩

/-- **C04** (relations; partial: ids different from 0): the area made from relation `id`
reports that it is not from a way and the original id, for positive and negative ids. -/
theorem area_from_relation_origin_partial (id a : Int) (h0 : id ≠ 0)
    (h : areaIdOfRelation id = some a) :
    areaFromWay a = false ∧ areaOrigId a = id := by
  obtain ⟨_, _, rfl⟩ := (areaIdOfRelation_eq_some id a).1 h
  simp only [areaFromWay, areaOrigId, sgn]
  constructor
  · rw [beq_eq_false_iff_ne]
    intro e
    have := Int.dvd_of_tmod_eq_zero e
    split at this <;> split at this <;> omega
  · split <;> split
    · omega
    · rw [show id * 2 + (1 - 0) = 2 * id + 1 by omega]
      rw [Int.tdiv_eq_ediv_of_nonneg (by omega)]; omega
    · rw [show id * 2 + (0 - 1) = -(2 * (-id) + 1) by omega, Int.neg_tdiv]
      rw [Int.tdiv_eq_ediv_of_nonneg (by omega)]; omega
    · omega

/-- C04 fails for relation id 0: its area claims to come from a way. -/
theorem area_from_relation_zero :
    areaIdOfRelation 0 = some 0 ∧ areaFromWay 0 = true ∧ areaIdOfWay 0 = areaIdOfRelation 0 := by
  decide

/-- **C04** (uniqueness): area ids of ways and of relations (ids ≠ 0) are pairwise different. -/
theorem area_ids_unique :
    (∀ i j a, areaIdOfWay i = some a → areaIdOfWay j = some a → i = j) ∧
    (∀ i j a, areaIdOfRelation i = some a → areaIdOfRelation j = some a → i = j) ∧
    (∀ i j a, j ≠ 0 → areaIdOfWay i = some a → areaIdOfRelation j = some a → False) := by
  refine ⟨?_, ?_, ?_⟩
  · intro i j a hi hj
    rw [← (area_from_way_origin i a hi).2, ← (area_from_way_origin j a hj).2]
  · intro i j a hi hj
    obtain ⟨_, _, e1⟩ := (areaIdOfRelation_eq_some i a).1 hi
    obtain ⟨_, _, e2⟩ := (areaIdOfRelation_eq_some j a).1 hj
    rw [e1] at e2; simp only [sgn] at e2
    split at e2 <;> split at e2 <;> split at e2 <;> split at e2 <;> omega
  · intro i j a h0 hi hj
    have := (area_from_way_origin i a hi).1
    have := (area_from_relation_origin_partial j a h0 hj).1
    simp_all

/-- **C04** (range): the ids are computed without overflow exactly if the doubled id (plus
sign) fits into 64 bits, in particular for all ids below 2^62 in absolute value. -/
theorem area_ids_no_overflow (id : Int) (h : -4611686018427387904 < id)
    (h' : id < 4611686018427387904) :
    areaIdOfWay id = some (2 * id) ∧ areaIdOfRelation id = some (2 * id + sgn id) := by
  have hs : -1 ≤ sgn id ∧ sgn id ≤ 1 := by unfold sgn; split <;> split <;> omega
  constructor
  · simp only [areaIdOfWay, chk64_eq_some, InS64]; omega
  · rw [areaIdOfRelation_eq_some]; simp only [InS64]; omega

example : areaIdOfRelation (-17) = some (-35) ∧ areaIdOfWay (-17) = some (-34) := by decide

/-! ### C05 Undirected segments -/

/-- `==` on segments is equality of the end points. -/
theorem segment_eq_iff (a b : Segment) : a.eq b = true ↔ a = b := by
  cases a; cases b; simp [Segment.eq, position_eq_iff]

/-- **C05**: the segment does not depend on the order of the end points. -/
theorem undirected_symm (p q : Position) :
    Segment.mkUndirected p q = Segment.mkUndirected q p := by
  have := position_trichotomy p q
  unfold Segment.mkUndirected
  rcases this with h | h | h
  · simp [h.1, h.2.2]
  · have := (position_eq_iff p q).1 h.2.1; subst this; simp
  · simp [h.1, h.2.2]

/-- **C05**: the first position is never greater than the second, and the end points are the
given ones (as an unordered pair). -/
theorem undirected_sorted (p q : Position) :
    let s := Segment.mkUndirected p q
    s.second.lt s.first = false ∧ ((s.first = p ∧ s.second = q) ∨ (s.first = q ∧ s.second = p)) := by
  have := position_trichotomy p q
  unfold Segment.mkUndirected
  rcases this with h | h | h <;> simp [h.1, h.2.2]

/-- **C05**: two undirected segments are equal iff they have the same two end points. -/
theorem undirected_eq_iff (p q p' q' : Position) :
    (Segment.mkUndirected p q).eq (Segment.mkUndirected p' q') = true ↔
      (p = p' ∧ q = q') ∨ (p = q' ∧ q = p') := by
  rw [segment_eq_iff]
  constructor
  · intro h
    have a := (undirected_sorted p q).2
    have b := (undirected_sorted p' q').2
    rw [h] at a
    generalize Segment.mkUndirected p' q' = s at a b
    grind
  · rintro (⟨rfl, rfl⟩ | ⟨rfl, rfl⟩)
    · rfl
    · exact undirected_symm _ _

/-- **C05**: `<` on segments is a strict total order agreeing with `==`. -/
theorem segment_lt_strictTotalOrder :
    StrictTotalOrder (fun a b : Segment => a.lt b = true) := by
  have P := position_lt_strictTotalOrder
  constructor
  · intro a; simp [Segment.lt, (position_eq_iff a.first a.first).2 rfl]; simpa using P.irrefl a.second
  · intro a b c
    simp only [Segment.lt, Position.lt, Position.eq]; grind
  · intro a b; obtain ⟨⟨_, _⟩, ⟨_, _⟩⟩ := a; obtain ⟨⟨_, _⟩, ⟨_, _⟩⟩ := b
    simp only [Segment.lt, Position.lt, Position.eq, Segment.mk.injEq, Position.mk.injEq]; grind

example : Segment.mkUndirected ⟨5, 1⟩ ⟨2, 9⟩ = ⟨⟨2, 9⟩, ⟨5, 1⟩⟩ := by decide

/-! ### C06 Tag lists -/

/-- Operations on a tag list. -/
inductive TagOp
  | add (k v : String)
  | clear
deriving DecidableEq

/-- Effect of an operation (model functions `TagList.add`, `TagList.clear`). -/
def TagOp.run (l : TagList) : TagOp → TagList
  | .add k v => TagList.add l k v
  | .clear => TagList.clear l

/-- The tags that are in the list after a history, in order: those added since the last
`clear`. -/
def tagsAfter : List TagOp → List (String × String)
  | [] => []
  | .clear :: ops => tagsAfter ops
  | .add k v :: ops => if TagOp.clear ∈ ops then tagsAfter ops else (k, v) :: tagsAfter ops

theorem tag_history_aux (ops : List TagOp) (l : TagList) :
    (ops.foldl TagOp.run l).map (fun t => (t.key, t.value)) =
      (if TagOp.clear ∈ ops then [] else l.map (fun t => (t.key, t.value))) ++ tagsAfter ops := by
  induction ops generalizing l with
  | nil => simp [tagsAfter]
  | cons op ops ih =>
    cases op with
    | clear => simp [ih, TagOp.run, TagList.clear, tagsAfter]
    | add k v =>
      simp only [List.foldl_cons, ih, TagOp.run, TagList.add, tagsAfter]
      by_cases h : TagOp.clear ∈ ops <;> simp [h]

/-- **C06** (sequence): after any history of operations iteration yields exactly the tags added
since the last `clear`, in the order they were added. -/
theorem tag_history (ops : List TagOp) :
    (ops.foldl TagOp.run []).map (fun t => (t.key, t.value)) = tagsAfter ops := by
  rw [tag_history_aux]; split <;> simp

/-- **C06** (lookup): looking up a key yields `v` iff the list splits at the first tag with that
key, whose value is `v`. -/
theorem tag_lookup_first (l : TagList) (k v : String) :
    TagList.getValueByKey l k = some v ↔
      ∃ pre post, l = pre ++ ⟨k, v⟩ :: post ∧ ∀ t ∈ pre, t.key ≠ k := by
  induction l with
  | nil => simp [TagList.getValueByKey]
  | cons t ts ih =>
    simp only [TagList.getValueByKey]
    by_cases h : t.key = k
    · simp only [h, beq_self_eq_true, if_true, Option.some.injEq]
      constructor
      · rintro rfl; exact ⟨[], ts, by subst h; simp, by simp⟩
      · rintro ⟨pre, post, e, hp⟩
        cases pre with
        | nil => simp at e; rw [e.1]
        | cons p pre => simp at e; exact absurd h (e.1 ▸ hp p (by simp))
    · simp only [beq_iff_eq, h, if_false, ih]
      constructor
      · rintro ⟨pre, post, rfl, hp⟩
        exact ⟨t :: pre, post, by simp, by simpa [h] using hp⟩
      · rintro ⟨pre, post, e, hp⟩
        cases pre with
        | nil => simp at e; rw [e.1] at h; simp at h
        | cons p pre => simp at e; exact ⟨pre, post, e.2, fun t ht => hp t (by simp [ht])⟩

/-- **C06** (null): the lookup fails exactly if no tag has the key. -/
theorem tag_lookup_none (l : TagList) (k : String) :
    TagList.getValueByKey l k = none ↔ ∀ t ∈ l, t.key ≠ k := by
  induction l with
  | nil => simp [TagList.getValueByKey]
  | cons t ts ih =>
    simp only [TagList.getValueByKey]
    by_cases h : t.key = k <;> simp [h, ih]

/-- **C06** (stability): adding tags never changes the result of a successful lookup. -/
theorem tag_lookup_stable (l : TagList) (k v k' v' : String)
    (h : TagList.getValueByKey l k = some v) :
    TagList.getValueByKey (TagList.add l k' v') k = some v := by
  obtain ⟨pre, post, rfl, hp⟩ := (tag_lookup_first l k v).1 h
  exact (tag_lookup_first _ k v).2 ⟨pre, post ++ [⟨k', v'⟩], by simp [TagList.add], hp⟩

example : TagList.getValueByKey (([.add "a" "1", .clear, .add "k" "x", .add "k" "y"] :
    List TagOp).foldl TagOp.run []) "k" = some "x" := by decide

/-! ### C09 Adding relation members -/

/-- **C09** (success): if the role is not too long, exactly the new member is appended. -/
theorem addMember_appends (l : List Member) (type : Char) (ref : Int) (role : String)
    (h : role.utf8ByteSize ≤ 1021) :
    addMember l type ref role = (l ++ [⟨type, ref, role⟩], false) := by
  have h' : ¬ role.utf8ByteSize > maxLength := by simp only [maxLength]; omega
  simp [addMember, Member.setRole, h', Member.new]

/-- **C09** (failure, partial): if the role is too long an exception is thrown and the existing
members are unchanged.  The full property ("the member list is unchanged") is false, see
`addMember_not_atomic`. -/
theorem addMember_throws_partial (l : List Member) (type : Char) (ref : Int) (role : String)
    (h : 1021 < role.utf8ByteSize) :
    (addMember l type ref role).2 = true ∧
    (addMember l type ref role).1.take l.length = l := by
  have h' : role.utf8ByteSize > maxLength := by simp only [maxLength]; omega
  simp [addMember, Member.setRole, h', Member.new]

/-- C09 is false in general: the exception leaves an additional member without role behind. -/
theorem addMember_not_atomic (l : List Member) (type : Char) (ref : Int) (role : String)
    (h : 1021 < role.utf8ByteSize) :
    addMember l type ref role = (l ++ [⟨type, ref, ""⟩], true) := by
  have h' : role.utf8ByteSize > maxLength := by simp only [maxLength]; omega
  simp [addMember, Member.setRole, h', Member.new]

/-- C09: after any number of successful additions, `get_member(i)` is the i-th member added, and
the null pointer for indexes out of range. -/
theorem getMember_spec (o : Obj) (ms : List Member) (h : ∀ m ∈ ms, m.role.utf8ByteSize ≤ 1021)
    (i : Nat) :
    (Relation.mk o (ms.foldl (fun l m => (addMember l m.type m.ref m.role).1) [])).getMember i
      = ms[i]? := by
  have key : ∀ l : List Member,
      ms.foldl (fun l m => (addMember l m.type m.ref m.role).1) l = l ++ ms := by
    clear i
    induction ms with
    | nil => simp
    | cons m ms ih =>
      intro l
      simp only [List.foldl_cons, addMember_appends l m.type m.ref m.role (h m (by simp))]
      rw [ih (fun m' hm => h m' (by simp [hm]))]; simp
  simp only [Relation.getMember, key, List.nil_append]
  split
  · rfl
  · rw [List.getElem?_eq_none (by omega)]

example : addMember [⟨'n', 5, "stop"⟩] 'w' 7 "outer" = ([⟨'n', 5, "stop"⟩, ⟨'w', 7, "outer"⟩], false) := by
  decide
example : ∃ s : String, 1021 < s.utf8ByteSize :=
  ⟨String.ofList (List.replicate 1022 'a'), by decide +kernel⟩

end Osmium

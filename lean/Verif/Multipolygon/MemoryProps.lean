import Verif.Multipolygon.MemorySpec

/-
C76, C77: the geometry of the areas, and the GEOS objects.
-/
namespace Osmium
open Spec

theorem Mem.bind_ok {α β : Type} {x : Mem α} {f : α → Mem β} {m m' : MpMem} {a : α}
    (h : x m = (.ok a, m')) : (x >>= f) m = f a m' := by
  show (match x m with | (.ok a, m') => f a m' | (.error e, m') => (.error e, m')) = _
  rw [h]

theorem Mem.bind_err {α β : Type} {x : Mem α} {f : α → Mem β} {m m' : MpMem} {e : Fail}
    (h : x m = (.error e, m')) : (x >>= f) m = (.error e, m') := by
  show (match x m with | (.ok a, m') => f a m' | (.error e, m') => (.error e, m')) = _
  rw [h]

/-- The objects that exist are exactly these (in some order). -/
structure Owns (m : MpMem) (F : List (Nat × Geom)) : Prop where
  perm : m.cells.Perm F
  nodup : (F.map Prod.fst).Nodup
  lt : ∀ c ∈ F, c.1 < m.next

theorem Owns.of_perm {m : MpMem} {F F' : List (Nat × Geom)} (h : Owns m F) (p : F.Perm F') : Owns m F' :=
  ⟨h.perm.trans p, (p.map _).nodup_iff.1 h.nodup, fun c hc => h.lt c (p.mem_iff.2 hc)⟩

theorem lookup_of_nodup {l : List (Nat × Geom)} (h : (l.map Prod.fst).Nodup) {i : Nat} {v : Geom}
    (hm : (i, v) ∈ l) : l.lookup i = some v := by
  induction l with
  | nil => cases hm
  | cons a l ih =>
    rw [List.map_cons, List.nodup_cons] at h
    rcases List.mem_cons.1 hm with rfl | hm
    · simp
    · have : i ≠ a.1 := by
        rintro rfl
        exact h.1 (List.mem_map.2 ⟨_, hm, rfl⟩)
      have hb : (i == a.1) = false := by simpa using this
      rw [List.lookup_cons, hb]
      exact ih h.2 hm

theorem Owns.lookup {m : MpMem} {F : List (Nat × Geom)} (h : Owns m F) {i : Nat} {v : Geom}
    (hm : (i, v) ∈ F) : m.cells.lookup i = some v :=
  lookup_of_nodup ((h.perm.map _).nodup_iff.2 h.nodup) (h.perm.mem_iff.2 hm)

theorem look_owns {m : MpMem} {F : List (Nat × Geom)} (h : Owns m F) {i : Nat} {v : Geom}
    (hm : (i, v) ∈ F) : Mem.look i m = (.ok v, m) := by
  simp [Mem.look, h.lookup hm]

theorem lookRing_owns {m : MpMem} {F : List (Nat × Geom)} (h : Owns m F) {i : Nat} {c : Coords}
    (hm : (i, .ring c) ∈ F) : Mem.lookRing i m = (.ok c, m) := by
  unfold Mem.lookRing; rw [Mem.bind_ok (look_owns h hm)]; rfl

theorem lookPoly_owns {m : MpMem} {F : List (Nat × Geom)} (h : Owns m F) {i : Nat} {s : Coords}
    {hs : List Coords} (hm : (i, .poly s hs) ∈ F) : Mem.lookPoly i m = (.ok (s, hs), m) := by
  unfold Mem.lookPoly; rw [Mem.bind_ok (look_owns h hm)]; rfl

theorem lookVec_owns {m : MpMem} {F : List (Nat × Geom)} (h : Owns m F) {i : Nat} {l : List Nat}
    (hm : (i, .vec l) ∈ F) : Mem.lookVec i m = (.ok l, m) := by
  unfold Mem.lookVec; rw [Mem.bind_ok (look_owns h hm)]; rfl

/-- Everything but the objects and the next address. -/
def MpMem.Rest (m m' : MpMem) : Prop := m'.rings = m.rings ∧ m'.areas = m.areas ∧ m'.result = m.result

theorem MpMem.Rest.refl (m : MpMem) : m.Rest m := ⟨rfl, rfl, rfl⟩
theorem MpMem.Rest.trans {a b c : MpMem} (h : a.Rest b) (h' : b.Rest c) : a.Rest c :=
  ⟨h'.1.trans h.1, h'.2.1.trans h.2.1, h'.2.2.trans h.2.2⟩

theorem alloc_owns {m : MpMem} {F : List (Nat × Geom)} (h : Owns m F) (v : Geom) :
    ∃ m' i, Mem.alloc v m = (.ok i, m') ∧ Owns m' ((i, v) :: F) ∧ m.Rest m' := by
  refine ⟨_, _, rfl, ⟨h.perm.cons _, ?_, ?_⟩, rfl, rfl, rfl⟩
  · rw [List.map_cons, List.nodup_cons]
    refine ⟨fun hm => ?_, h.nodup⟩
    obtain ⟨c, hc, e⟩ := List.mem_map.1 hm
    have := h.lt c hc
    omega
  · intro c hc
    rcases List.mem_cons.1 hc with rfl | hc
    · exact Nat.lt_succ_self _
    · exact Nat.lt_succ_of_lt (h.lt c hc)

theorem eraseP_perm {l : List (Nat × Geom)} {F : List (Nat × Geom)} {i : Nat} {v : Geom}
    (hp : l.Perm ((i, v) :: F)) (hn : (l.map Prod.fst).Nodup) :
    (l.eraseP fun c => c.1 == i).Perm F := by
  induction l generalizing F with
  | nil => exact absurd hp.length_eq (by simp)
  | cons a l ih =>
    rw [List.map_cons, List.nodup_cons] at hn
    by_cases ha : a.1 = i
    · have hav : a = (i, v) := by
        have hm : (i, v) ∈ a :: l := hp.mem_iff.2 (by simp)
        rcases List.mem_cons.1 hm with h | h
        · exact h.symm
        · exact absurd (List.mem_map.2 ⟨_, h, ha.symm⟩) hn.1
      rw [List.eraseP_cons_of_pos (by simpa using ha)]
      subst hav
      exact hp.cons_inv
    · rw [List.eraseP_cons_of_neg (by simpa using ha)]
      have hmem : a ∈ F := by
        have := hp.mem_iff.1 (List.mem_cons_self (a := a) (l := l))
        rcases List.mem_cons.1 this with h | h
        · exact absurd (by rw [h]) ha
        · exact h
      obtain ⟨s, t, rfl⟩ := List.append_of_mem hmem
      have h1 : (a :: l).Perm (a :: ((i, v) :: (s ++ t))) :=
        hp.trans (((List.perm_middle (a := a) (l₁ := s) (l₂ := t)).cons (i, v)).trans (List.Perm.swap ..))
      exact ((ih h1.cons_inv hn.2).cons a).trans List.perm_middle.symm

theorem take_owns {m : MpMem} {F : List (Nat × Geom)} {i : Nat} {v : Geom} (h : Owns m ((i, v) :: F)) :
    ∃ m', Mem.take i m = (.ok v, m') ∧ Owns m' F ∧ m.Rest m' := by
  have hl := h.lookup (List.mem_cons_self (a := (i, v)) (l := F))
  refine ⟨{ m with cells := m.cells.eraseP fun c => c.1 == i }, by simp [Mem.take, hl], ⟨?_, ?_, ?_⟩, rfl, rfl, rfl⟩
  · exact eraseP_perm h.perm ((h.perm.map _).nodup_iff.2 h.nodup)
  · exact (List.nodup_cons.1 h.nodup).2
  · exact fun c hc => h.lt c (List.mem_cons_of_mem _ hc)

theorem deleteAll_owns {cs : List (Nat × Geom)} : ∀ {m : MpMem} {F : List (Nat × Geom)},
    Owns m (cs ++ F) → ∃ m', Mem.deleteAll (cs.map Prod.fst) m = (.ok (), m') ∧ Owns m' F ∧ m.Rest m' := by
  induction cs with
  | nil => intro m F h; exact ⟨m, rfl, h, .refl m⟩
  | cons c cs ih =>
    intro m F h
    obtain ⟨m1, e1, h1, r1⟩ := take_owns (i := c.1) (v := c.2) h
    obtain ⟨m2, e2, h2, r2⟩ := ih h1
    refine ⟨m2, ?_, h2, r1.trans r2⟩
    show (Mem.take c.1 >>= fun _ => Mem.deleteAll (cs.map Prod.fst)) m = _
    rw [Mem.bind_ok e1, e2]

theorem map_vec_perm {l : List (Nat × Geom)} {F : List (Nat × Geom)} {i : Nat} {v w : Geom}
    (hp : l.Perm ((i, v) :: F)) (hn : (((i, v) :: F).map Prod.fst).Nodup) :
    (l.map fun c => if c.1 == i then (i, w) else c).Perm ((i, w) :: F) := by
  refine (hp.map _).trans ?_
  rw [List.map_cons]
  simp only [beq_self_eq_true, if_true]
  refine List.Perm.cons _ (List.Perm.of_eq ?_)
  rw [List.map_cons, List.nodup_cons] at hn
  have : ∀ c ∈ F, (if c.1 == i then (i, w) else c) = c := by
    intro c hc
    rw [if_neg]
    simp only [beq_iff_eq]
    rintro rfl
    exact hn.1 (List.mem_map.2 ⟨_, hc, rfl⟩)
  exact (List.map_congr_left this).trans (List.map_id' F)

theorem pushVec_owns {m : MpMem} {F : List (Nat × Geom)} {v i : Nat} {l : List Nat}
    (h : Owns m ((v, .vec l) :: F)) :
    ∃ m', Mem.pushVec v i m = (.ok (), m') ∧ Owns m' ((v, .vec (l ++ [i])) :: F) ∧ m.Rest m' := by
  unfold Mem.pushVec
  rw [Mem.bind_ok (lookVec_owns h (List.mem_cons_self ..))]
  refine ⟨_, rfl, ⟨map_vec_perm h.perm h.nodup, ?_, ?_⟩, rfl, rfl, rfl⟩
  · simpa using h.nodup
  · intro c hc
    rcases List.mem_cons.1 hc with rfl | hc
    · exact h.lt (v, .vec l) (List.mem_cons_self ..)
    · exact h.lt c (List.mem_cons_of_mem _ hc)

theorem lookRings_owns {m : MpMem} {F : List (Nat × Geom)} (h : Owns m F) (rs : List (Nat × Coords))
    (hm : ∀ r ∈ rs, (r.1, .ring r.2) ∈ F) : Mem.lookRings (rs.map Prod.fst) m = (.ok (rs.map Prod.snd), m) := by
  induction rs with
  | nil => rfl
  | cons r rs ih =>
    show (Mem.lookRing r.1 >>= fun c => Mem.lookRings (rs.map Prod.fst) >>= fun cs => pure (c :: cs)) m = _
    rw [Mem.bind_ok (lookRing_owns h (hm r (by simp))), Mem.bind_ok (ih fun x hx => hm x (by simp [hx]))]
    rfl

theorem lookPolys_owns {m : MpMem} {F : List (Nat × Geom)} (h : Owns m F)
    (rs : List (Nat × (Coords × List Coords)))
    (hm : ∀ r ∈ rs, (r.1, .poly r.2.1 r.2.2) ∈ F) : Mem.lookPolys (rs.map Prod.fst) m = (.ok (rs.map Prod.snd), m) := by
  induction rs with
  | nil => rfl
  | cons r rs ih =>
    show (Mem.lookPoly r.1 >>= fun c => Mem.lookPolys (rs.map Prod.fst) >>= fun cs => pure (c :: cs)) m = _
    rw [Mem.bind_ok (lookPoly_owns h (hm r (by simp))), Mem.bind_ok (ih fun x hx => hm x (by simp [hx]))]
    rfl

/-- A ring that has a polygon. -/
structure GRing where
  p : Nat
  c : Coords
  hs : List Coords

/-- The polygons of the rings, as objects. -/
def ringCells (R : List (Option GRing × Bool)) : List (Nat × Geom) :=
  R.filterMap fun x => x.1.map fun r => (r.p, .poly r.c r.hs)

/-- The outlines of the rings that have a polygon. -/
def curOf (R : List (Option GRing × Bool)) (k : Nat) : Option Coords :=
  (R[k]?).bind fun x => x.1.map (·.c)

/-- The state of the builder: the rings with their polygons, and other objects `F`. -/
structure MpInv (g : MpGeos) (m : MpMem) (R : List (Option GRing × Bool)) (F : List (Nat × Geom)) : Prop where
  rings : m.rings = R.map fun x => ⟨x.1.map (·.p), x.2⟩
  dir : ∀ x ∈ R, ∀ r, x.1 = some r → x.2 = g.ccw r.c
  owns : Owns m (ringCells R ++ F)

theorem MpInv.perm {g : MpGeos} {m : MpMem} {R : List (Option GRing × Bool)} {F F' : List (Nat × Geom)}
    (h : MpInv g m R F) (p : F.Perm F') : MpInv g m R F' :=
  ⟨h.rings, h.dir, h.owns.of_perm (p.append_left _)⟩

theorem MpInv.front {g : MpGeos} {m : MpMem} {R : List (Option GRing × Bool)} {F : List (Nat × Geom)}
    (h : MpInv g m R F) : Owns m (F ++ ringCells R) := h.owns.of_perm List.perm_append_comm

theorem MpInv.back {g : MpGeos} {m m' : MpMem} {R : List (Option GRing × Bool)} {F F' : List (Nat × Geom)}
    (h : MpInv g m R F) (r : m.Rest m') (o : Owns m' (F' ++ ringCells R)) : MpInv g m' R F' :=
  ⟨by rw [r.1, h.rings], h.dir, o.of_perm List.perm_append_comm⟩

theorem ringCell_mem {R : List (Option GRing × Bool)} {k : Nat} {r : GRing} {d : Bool}
    (h : R[k]? = some (some r, d)) : (r.p, Geom.poly r.c r.hs) ∈ ringCells R :=
  List.mem_filterMap.2 ⟨_, List.mem_of_getElem? h, rfl⟩

theorem getRing_inv {g : MpGeos} {m : MpMem} {R : List (Option GRing × Bool)} {F : List (Nat × Geom)}
    (h : MpInv g m R F) {k : Nat} {x : Option GRing × Bool} (hk : R[k]? = some x) :
    Mem.getRing k m = (.ok ⟨x.1.map (·.p), x.2⟩, m) := by
  have : m.rings[k]? = some ⟨x.1.map (·.p), x.2⟩ := by rw [h.rings, List.getElem?_map, hk]; rfl
  unfold Mem.getRing; rw [this]

theorem ringInDirection_inv {g : MpGeos} {m : MpMem} {R : List (Option GRing × Bool)} {F : List (Nat × Geom)}
    (h : MpInv g m R F) {k : Nat} {r : GRing} {d : Bool} (hk : R[k]? = some (some r, d)) (b : Bool) :
    ∃ m' i, ringInDirection ⟨some r.p, d⟩ b m = (.ok i, m') ∧
      MpInv g m' R ((i, .ring (turn g b r.c)) :: F) ∧ m.Rest m' := by
  have hd : d = g.ccw r.c := h.dir _ (List.mem_of_getElem? hk) r rfl
  have hmem : (r.p, Geom.poly r.c r.hs) ∈ ringCells R ++ F := List.mem_append_left _ (ringCell_mem hk)
  unfold ringInDirection
  simp only
  rw [Mem.bind_ok (lookPoly_owns h.owns hmem)]
  by_cases hb : d = b
  · rw [if_pos hb]
    obtain ⟨m', i, e, o, rr⟩ := alloc_owns h.front (.ring r.c)
    refine ⟨m', i, e, ?_, rr⟩
    have ht : turn g b r.c = r.c := by unfold turn; rw [← hd, if_pos hb]
    rw [ht]
    exact h.back rr o
  · rw [if_neg hb]
    obtain ⟨m1, tmp, e1, o1, r1⟩ := alloc_owns h.front (.line r.c.reverse)
    obtain ⟨m2, i, e2, o2, r2⟩ := alloc_owns o1 (.ring r.c.reverse)
    obtain ⟨m3, e3, o3, r3⟩ := take_owns (o2.of_perm (List.Perm.swap ..))
    rw [Mem.bind_ok e1, Mem.bind_ok e2, Mem.bind_ok e3]
    refine ⟨m3, i, rfl, ?_, (r1.trans r2).trans r3⟩
    have ht : turn g b r.c = r.c.reverse := by unfold turn; rw [← hd, if_neg hb]
    rw [ht]
    exact h.back ((r1.trans r2).trans r3) o3

/-! ### Touching inner rings -/

/-- The object of a ring with a polygon. -/
def GRing.cell (r : GRing) : Nat × Geom := (r.p, .poly r.c r.hs)

theorem ringCells_set {R : List (Option GRing × Bool)} {k : Nat} {x : Option GRing × Bool}
    (h : R[k]? = some x) : ∃ rest, (ringCells R).Perm ((x.1.map GRing.cell).toList ++ rest) ∧
      ∀ y : Option GRing × Bool, (ringCells (R.set k y)).Perm ((y.1.map GRing.cell).toList ++ rest) := by
  obtain ⟨hk, hx⟩ := List.getElem?_eq_some_iff.1 h
  have key : ∀ y : Option GRing × Bool, (ringCells (R.take k ++ y :: R.drop (k + 1))).Perm
      ((y.1.map GRing.cell).toList ++ (ringCells (R.take k) ++ ringCells (R.drop (k + 1)))) := by
    intro y
    have : ringCells (R.take k ++ y :: R.drop (k + 1)) =
        ringCells (R.take k) ++ ((y.1.map GRing.cell).toList ++ ringCells (R.drop (k + 1))) := by
      unfold ringCells
      rw [List.filterMap_append, List.filterMap_cons]
      cases hy : y.1 <;> simp [GRing.cell]
    rw [this]
    exact List.perm_append_comm_assoc ..
  refine ⟨ringCells (R.take k) ++ ringCells (R.drop (k + 1)), ?_, fun y => ?_⟩
  · have := key R[k]
    rw [List.getElem_cons_drop, List.take_append_drop, hx] at this
    exact this
  · rw [List.set_eq_take_append_cons_drop, if_pos hk]
    exact key y

theorem ringCells_merge {R : List (Option GRing × Bool)} {j k : Nat} {ra rb : GRing} {da db : Bool}
    (hj : R[j]? = some (some ra, da)) (hk : R[k]? = some (some rb, db)) (hne : j ≠ k) :
    ∃ rest, (ringCells R).Perm (ra.cell :: rb.cell :: rest) ∧
      ∀ (x : GRing) (d d' : Bool),
        (ringCells ((R.set j (some x, d)).set k (none, d'))).Perm (x.cell :: rest) := by
  obtain ⟨r1, p1, q1⟩ := ringCells_set hk
  have hj' : ∀ d', (R.set k (none, d'))[j]? = some (some ra, da) := by
    intro d'
    rw [List.getElem?_set_ne (by omega), hj]
  obtain ⟨r2, p2, q2⟩ := ringCells_set (hj' true)
  refine ⟨r2, ?_, ?_⟩
  · have a := q1 (none, true)
    simp only [Option.map_none, Option.toList_none, List.nil_append] at a
    have b := a.symm.trans p2
    simp only [Option.map_some, Option.toList_some, List.cons_append, List.nil_append] at b p1
    exact p1.trans ((b.cons _).trans (List.Perm.swap ..))
  · intro x d d'
    have e : ringCells ((R.set j (some x, d)).set k (none, d')) =
        ringCells ((R.set k (none, true)).set j (some x, d)) := by
      rw [List.set_comm (none, true) (some x, d) (by omega : k ≠ j)]
      unfold ringCells
      have : ∀ (L : List (Option GRing × Bool)) (b : Bool),
          (L.set k (none, b)).filterMap (fun x => x.1.map fun r => (r.p, Geom.poly r.c r.hs)) =
          (L.eraseIdx k).filterMap (fun x => x.1.map fun r => (r.p, Geom.poly r.c r.hs)) := by
        intro L b
        by_cases hl : k < L.length
        · rw [List.set_eq_take_append_cons_drop, if_pos hl, List.eraseIdx_eq_take_drop_succ]
          simp [List.filterMap_append, List.filterMap_cons]
        · rw [List.set_eq_of_length_le (by omega), List.eraseIdx_of_length_le (by omega)]
      rw [this, this]
    rw [e]
    simpa using q2 (some x, d)

theorem curOf_merge {R : List (Option GRing × Bool)} {j k : Nat} (hj : j < R.length) (hk : k < R.length)
    (x : GRing) (d d' : Bool) (hne : j ≠ k) :
    curOf ((R.set j (some x, d)).set k (none, d')) =
      fun i => if i = k then none else if i = j then some x.c else curOf R i := by
  funext i
  unfold curOf
  by_cases hik : i = k
  · subst hik
    rw [if_pos rfl, List.getElem?_set_self (by simpa using hk)]; rfl
  · rw [if_neg hik, List.getElem?_set_ne (by omega)]
    by_cases hij : i = j
    · subst hij
      rw [if_pos rfl, List.getElem?_set_self hj]; rfl
    · rw [if_neg hij, List.getElem?_set_ne (by omega)]

theorem curOf_some {R : List (Option GRing × Bool)} {k : Nat} {r : GRing} {d : Bool}
    (h : R[k]? = some (some r, d)) : curOf R k = some r.c := by simp [curOf, h]

theorem countP_lt' {l : List Nat} {p q : Nat → Bool} {k : Nat} (h : ∀ x ∈ l, q x = true → p x = true)
    (hk : k ∈ l) (hp : p k = true) (hq : q k = false) : l.countP q < l.countP p := by
  induction l with
  | nil => cases hk
  | cons a l ih =>
    have hmono : l.countP q ≤ l.countP p := List.countP_mono_left fun x hx => h x (by simp [hx])
    rw [List.countP_cons, List.countP_cons]
    rcases List.mem_cons.1 hk with rfl | hk
    · simp [hp, hq]; omega
    · have := ih (fun x hx => h x (by simp [hx])) hk
      have ha := h a (by simp)
      cases hqa : q a
      · split <;> simp_all <;> omega
      · simp [ha hqa]; omega

/-- How many of the rings have a polygon. -/
def liveCount (R : List (Option GRing × Bool)) (inner : List Nat) : Nat :=
  inner.countP fun j => (curOf R j).isSome

/-- No two of the rings touch along a line. -/
def Spec.Quiet (g : MpGeos) (inner : List Nat) (cur : Nat → Option Coords) : Prop :=
  ∀ j k x y, [j, k].Sublist inner → cur j = some x → cur k = some y → g.touch x y ≠ .line

/-- The outcome of looking for touching rings. -/
def TouchPost (g : MpGeos) (inner : List Nat) (m : MpMem) (R : List (Option GRing × Bool))
    (F : List (Nat × Geom)) (res : Except Fail Unit × MpMem) : Prop :=
  ∃ m' R' D, MpInv g m' R' (D ++ F) ∧ Diffs D ∧ Merges g inner (curOf R) (curOf R') ∧
    R'.length = R.length ∧ m'.areas = m.areas ∧ m'.result = m.result ∧
    (Quiet g inner (curOf R) → D = [] ∧ R' = R ∧ res = (.ok (), m')) ∧ (D = [] → Quiet g inner (curOf R)) ∧
    ((res = (.ok (), m') ∧ (AllMerged g inner (curOf R') ∨ NoUnion g inner (curOf R'))) ∨
      (res = (.error (.exn "GEOSException"), m') ∧ Throws g inner (curOf R')))

theorem TouchPost.more {g : MpGeos} {inner : List Nat} {m m1 : MpMem} {R : List (Option GRing × Bool)}
    {F : List (Nat × Geom)} {d : Nat × Geom} {res : Except Fail Unit × MpMem}
    (h : TouchPost g inner m1 R (d :: F) res) (hd : ∃ x y, d.2 = .diff x y) (hr : m.Rest m1)
    (hq : ¬ Quiet g inner (curOf R)) : TouchPost g inner m R F res := by
  obtain ⟨m', R', D, h1, h2, h3, h4, h5, h6, h7, h8, h9⟩ := h
  refine ⟨m', R', D ++ [d], by simpa using h1, ?_, h3, h4, h5.trans hr.2.1, h6.trans hr.2.2,
    fun h => absurd h hq, by simp, h9⟩
  intro c hc
  rcases List.mem_append.1 hc with hc | hc
  · exact h2 c hc
  · rw [List.mem_singleton.1 hc]; exact hd

theorem allocPolys_owns : ∀ (ps : List (Coords × List Coords)) {m : MpMem} {F : List (Nat × Geom)},
    Owns m F → ∃ m' cs, allocPolys ps m = (.ok (cs.map Prod.fst), m') ∧
      cs.map Prod.snd = ps.map (fun p => Geom.poly p.1 p.2) ∧ Owns m' (cs ++ F) ∧ m.Rest m' := by
  intro ps
  induction ps with
  | nil => intro m F h; exact ⟨m, [], rfl, rfl, h, .refl m⟩
  | cons p ps ih =>
    intro m F h
    obtain ⟨m1, i, e1, o1, r1⟩ := alloc_owns h (.poly p.1 p.2)
    obtain ⟨m2, cs, e2, c2, o2, r2⟩ := ih o1
    refine ⟨m2, (i, .poly p.1 p.2) :: cs, ?_, by simp [c2], o2.of_perm List.perm_middle, r1.trans r2⟩
    show (Mem.alloc (.poly p.1 p.2) >>= fun i => allocPolys ps >>= fun is => pure (i :: is)) m = _
    rw [Mem.bind_ok e1, Mem.bind_ok e2]
    rfl

theorem ringPairs_iff {j k : Nat} {inner : List Nat} :
    (j, k) ∈ ringPairs inner ↔ [j, k].Sublist inner := by
  induction inner with
  | nil => simp [ringPairs]
  | cons a l ih =>
    rw [ringPairs, List.mem_append, ih, List.mem_map]
    constructor
    · rintro (⟨b, hb, e⟩ | h)
      · cases e
        exact List.Sublist.cons_cons _ (List.singleton_sublist.2 hb)
      · exact h.cons _
    · intro h
      cases h with
      | cons _ h => exact .inr h
      | cons_cons _ h => exact .inl ⟨k, List.singleton_sublist.1 h, rfl⟩

theorem touchPairs_inv (g : MpGeos) (inner : List Nat) (hnd : inner.Nodup) (rec : Mem Unit) (n : Nat)
    (hrec : ∀ m R F, MpInv g m R F → (∀ j ∈ inner, j < R.length) → liveCount R inner < n →
      TouchPost g inner m R F (rec m)) :
    ∀ (ps : List (Nat × Nat)), (∀ q ∈ ps, [q.1, q.2].Sublist inner) →
    ∀ m R F, MpInv g m R F → (∀ j ∈ inner, j < R.length) → liveCount R inner ≤ n →
      (∃ m' D, touchPairs g rec ps m = (.ok (), m') ∧ MpInv g m' R (D ++ F) ∧ Diffs D ∧
        m'.areas = m.areas ∧ m'.result = m.result ∧ (Quiet g inner (curOf R) → D = []) ∧
        (D = [] → ∀ q ∈ ps, ∀ x y, curOf R q.1 = some x → curOf R q.2 = some y → g.touch x y ≠ .line) ∧
        ∀ q ∈ ps, ∀ p, ¬ UnionIs g (curOf R) q.1 q.2 p) ∨
      TouchPost g inner m R F (touchPairs g rec ps m) := by
  intro ps
  induction ps with
  | nil =>
    intro _ m R F h _ _
    exact .inl ⟨m, [], rfl, h, by simp [Diffs], rfl, rfl, fun _ => rfl, by simp, by simp⟩
  | cons q ps ih =>
    obtain ⟨j, k⟩ := q
    intro hps m R F h hlt hn
    have hsub : [j, k].Sublist inner := hps (j, k) (by simp)
    have hjk : j ≠ k := by
      have := hsub.nodup hnd
      simpa using this
    have hjm : j ∈ inner := hsub.subset (by simp)
    have hkm : k ∈ inner := hsub.subset (by simp)
    have hps' : ∀ q ∈ ps, [q.1, q.2].Sublist inner := fun q hq => hps q (by simp [hq])
    obtain ⟨⟨xj, dj⟩, hj⟩ : ∃ x, R[j]? = some x := ⟨_, List.getElem?_eq_getElem (hlt j hjm)⟩
    obtain ⟨⟨xk, dk⟩, hk⟩ : ∃ x, R[k]? = some x := ⟨_, List.getElem?_eq_getElem (hlt k hkm)⟩
    unfold touchPairs
    rw [Mem.bind_ok (getRing_inv h hj), Mem.bind_ok (getRing_inv h hk)]
    -- the pair is passed over
    have skip : ∀ m1 : MpMem, ∀ F1 : List (Nat × Geom), MpInv g m1 R F1 → m.Rest m1 →
        (∀ p, ¬ UnionIs g (curOf R) j k p) → (F1 = F ∧
          (∀ x y, curOf R j = some x → curOf R k = some y → g.touch x y ≠ .line) ∨ ¬ Quiet g inner (curOf R) ∧
          ∃ d, F1 = d :: F ∧ ∃ x y, d.2 = .diff x y) →
        (∃ m' D, touchPairs g rec ps m1 = (.ok (), m') ∧ MpInv g m' R (D ++ F) ∧ Diffs D ∧
          m'.areas = m.areas ∧ m'.result = m.result ∧ (Quiet g inner (curOf R) → D = []) ∧
          (D = [] → ∀ q ∈ (j, k) :: ps, ∀ x y, curOf R q.1 = some x → curOf R q.2 = some y →
            g.touch x y ≠ .line) ∧
          ∀ q ∈ (j, k) :: ps, ∀ p, ¬ UnionIs g (curOf R) q.1 q.2 p) ∨
        TouchPost g inner m R F (touchPairs g rec ps m1) := by
      intro m1 F1 h1 hr hu hF
      rcases ih hps' m1 R F1 h1 hlt hn with ⟨m', D, e, i, dd, a1, a2, qd, dq, un⟩ | tp
      · left
        have hall : ∀ q ∈ (j, k) :: ps, ∀ p, ¬ UnionIs g (curOf R) q.1 q.2 p := by
          intro q hq
          rcases List.mem_cons.1 hq with rfl | hq
          · exact hu
          · exact un q hq
        rcases hF with ⟨rfl, hnl⟩ | ⟨hq, d, rfl, hd⟩
        · refine ⟨m', D, e, i, dd, a1.trans hr.2.1, a2.trans hr.2.2, qd, fun h q hq => ?_, hall⟩
          rcases List.mem_cons.1 hq with rfl | hq
          · exact hnl
          · exact dq h q hq
        · refine ⟨m', D ++ [d], e, by simpa using i, ?_, a1.trans hr.2.1, a2.trans hr.2.2,
            fun h => absurd h hq, by simp, hall⟩
          intro c hc
          rcases List.mem_append.1 hc with hc | hc
          · exact dd c hc
          · rw [List.mem_singleton.1 hc]; exact hd
      · right
        rcases hF with ⟨rfl, -⟩ | ⟨hq, d, rfl, hd⟩
        · obtain ⟨m', R', D, t1, t2, t3, t4, t5, t6, t7, t8⟩ := tp
          exact ⟨m', R', D, t1, t2, t3, t4, t5.trans hr.2.1, t6.trans hr.2.2, t7, t8⟩
        · exact tp.more hd hr hq
    match xj, xk, hj, hk with
    | none, xk, hj, hk =>
      have hn : curOf R j = none := by simp [curOf, hj]
      refine skip m F h (.refl m) ?_ (.inl ⟨rfl, fun x y hx => by rw [hn] at hx; cases hx⟩)
      rintro p ⟨x, y, hs, hx, -⟩
      rw [hn] at hx; cases hx
    | some ra, none, hj, hk =>
      have hn : curOf R k = none := by simp [curOf, hk]
      refine skip m F h (.refl m) ?_ (.inl ⟨rfl, fun x y _ hx => by rw [hn] at hx; cases hx⟩)
      rintro p ⟨x, y, hs, -, hx, -⟩
      rw [hn] at hx; cases hx
    | some ra, some rb, hj, hk =>
      have cj := curOf_some hj
      have ck := curOf_some hk
      simp only [Option.map_some]
      have ma : (ra.p, Geom.poly ra.c ra.hs) ∈ ringCells R ++ F := List.mem_append_left _ (ringCell_mem hj)
      have mb : (rb.p, Geom.poly rb.c rb.hs) ∈ ringCells R ++ F := List.mem_append_left _ (ringCell_mem hk)
      rw [Mem.bind_ok (lookPoly_owns h.owns ma), Mem.bind_ok (lookPoly_owns h.owns mb)]
      have hno : g.touch ra.c rb.c ≠ .line → ∀ p, ¬ UnionIs g (curOf R) j k p := by
        rintro ht p ⟨x, y, hs, hx, hy, h1, -⟩
        rw [cj] at hx; rw [ck] at hy
        cases hx; cases hy
        exact ht h1
      have hnl : g.touch ra.c rb.c ≠ .line →
          ∀ x y, curOf R j = some x → curOf R k = some y → g.touch x y ≠ .line := by
        intro ht x y hx hy
        rw [cj] at hx; rw [ck] at hy
        cases hx; cases hy
        exact ht
      match ht : g.touch ra.c rb.c with
      | .apart => exact skip m F h (.refl m) (hno (by simp [ht])) (.inl ⟨rfl, hnl (by simp [ht])⟩)
      | .other =>
        simp only
        obtain ⟨m1, i, e1, o1, r1⟩ := alloc_owns h.front (.inter ra.c rb.c)
        obtain ⟨m2, e2, o2, r2⟩ := take_owns o1
        rw [Mem.bind_ok e1, Mem.bind_ok e2]
        exact skip m2 F (h.back (r1.trans r2) o2) (r1.trans r2) (hno (by simp [ht])) (.inl ⟨rfl, hnl (by simp [ht])⟩)
      | .line =>
        simp only
        have hq : ¬ Quiet g inner (curOf R) := fun hq => hq j k _ _ hsub cj ck ht
        obtain ⟨m1, i, e1, o1, r1⟩ := alloc_owns h.front (.inter ra.c rb.c)
        obtain ⟨m2, e2, o2, r2⟩ := take_owns o1
        obtain ⟨m3, d, e3, o3, r3⟩ := alloc_owns o2 (.diff ra.c rb.c)
        have r123 := (r1.trans r2).trans r3
        have h3 : MpInv g m3 R ((d, .diff ra.c rb.c) :: F) := h.back r123 o3
        rw [Mem.bind_ok e1, Mem.bind_ok e2, Mem.bind_ok e3]
        match hp : g.polygonize ra.c rb.c with
        | none =>
          right
          refine ⟨m3, R, [(d, .diff ra.c rb.c)], h3, ?_, .done _, rfl, r123.2.1, r123.2.2,
            fun h => absurd h hq, by simp, .inr ⟨rfl, j, k, _, _, hsub, cj, ck, ht, hp⟩⟩
          intro c hc
          rw [List.mem_singleton.1 hc]; exact ⟨_, _, rfl⟩
        | some none =>
          refine skip m3 _ h3 r123 ?_ (.inr ⟨hq, _, rfl, _, _, rfl⟩)
          rintro p ⟨x, y, hs, hx, hy, -, h2⟩
          rw [cj] at hx; rw [ck] at hy
          cases hx; cases hy
          rw [hp] at h2; cases h2
        | some (some polys) =>
          simp only
          right
          obtain ⟨m4, cs, e4, c4, o4, r4⟩ := allocPolys_owns polys h3.front
          obtain ⟨m5, v, e5, o5, r5⟩ := alloc_owns o4 (.vec (cs.map Prod.fst))
          rw [Mem.bind_ok e4, Mem.bind_ok e5]
          have r45 := r4.trans r5
          by_cases hlen : polys.length = 1
          · obtain ⟨P, rfl⟩ := List.length_eq_one_iff.1 hlen
            obtain ⟨c0, rfl⟩ : ∃ c0, cs = [c0] := by
              have : cs.length = 1 := by simpa using congrArg List.length c4
              exact List.length_eq_one_iff.1 this
            obtain ⟨p, v0⟩ := c0
            simp only [List.map_cons, List.map_nil, List.cons.injEq, and_true] at c4
            subst c4
            simp only [List.map_cons, List.map_nil]
            obtain ⟨rest, q1, q2⟩ := ringCells_merge hj hk hjk
            -- a is deleted
            have o5' : Owns m5 (ra.cell :: rb.cell :: (v, .vec [p]) :: (p, .poly P.1 P.2) :: (d, .diff ra.c rb.c) ::
                (rest ++ F)) := by
              refine o5.of_perm ?_
              refine (((q1.append_left _).cons _).cons _).trans ?_
              simp only [List.map_cons, List.map_nil, List.cons_append, List.nil_append]
              exact List.perm_iff_count.2 fun a => by
                simp only [List.count_cons, List.count_append]; omega
            obtain ⟨m6, e6, o6, r6⟩ := take_owns (i := ra.p) (v := .poly ra.c ra.hs) o5'
            have mp : (p, Geom.poly P.1 P.2) ∈ (rb.cell :: (v, .vec [p]) :: (p, .poly P.1 P.2) ::
                (d, .diff ra.c rb.c) :: (rest ++ F)) := by simp
            rw [Mem.bind_ok e6, Mem.bind_ok (lookPoly_owns o6 mp)]
            let m7 : MpMem := { m6 with rings := m6.rings.set j ⟨some p, g.ccw P.1⟩ }
            have e7 : Mem.setRing j ⟨some p, g.ccw P.1⟩ m6 = (.ok (), m7) := rfl
            have o7 : Owns m7 (rb.cell :: (v, .vec [p]) :: (p, .poly P.1 P.2) ::
                (d, .diff ra.c rb.c) :: (rest ++ F)) := ⟨o6.perm, o6.nodup, o6.lt⟩
            obtain ⟨m8, e8, o8, r8⟩ := take_owns (i := rb.p) (v := .poly rb.c rb.hs) o7
            rw [Mem.bind_ok e7, Mem.bind_ok e8]
            have hrings : m8.rings = (R.set j (some ⟨p, P.1, P.2⟩, g.ccw P.1)).map
                fun x => ⟨x.1.map (·.p), x.2⟩ := by
              rw [r8.1]
              show m6.rings.set j ⟨some p, g.ccw P.1⟩ = _
              rw [r6.1, r5.1, r4.1, h3.rings, List.map_set]
              rfl
            have hrk : (R.set j (some ⟨p, P.1, P.2⟩, g.ccw P.1))[k]? = some (some rb, dk) := by
              rw [List.getElem?_set_ne hjk, hk]
            have e9 : Mem.getRing k m8 = (.ok ⟨some rb.p, dk⟩, m8) := by
              have : m8.rings[k]? = some ⟨some rb.p, dk⟩ := by rw [hrings, List.getElem?_map, hrk]; rfl
              unfold Mem.getRing; rw [this]
            rw [Mem.bind_ok e9]
            let m10 : MpMem := { m8 with rings := m8.rings.set k ⟨none, dk⟩ }
            have e10 : Mem.setRing k { (⟨some rb.p, dk⟩ : RingPoly) with polygon := none } m8 = (.ok (), m10) := rfl
            have o10 : Owns m10 ((v, .vec [p]) :: (p, .poly P.1 P.2) ::
                (d, .diff ra.c rb.c) :: (rest ++ F)) := ⟨o8.perm, o8.nodup, o8.lt⟩
            obtain ⟨m11, e11, o11, r11⟩ := take_owns o10
            rw [Mem.bind_ok e10, Mem.bind_ok e11]
            -- the state for the recursive call
            let R1 := (R.set j (some ⟨p, P.1, P.2⟩, g.ccw P.1)).set k (none, dk)
            have hjl := hlt j hjm
            have hkl := hlt k hkm
            have hlen1 : R1.length = R.length := by simp [R1]
            have inv1 : MpInv g m11 R1 ((d, .diff ra.c rb.c) :: F) := by
              refine ⟨?_, ?_, ?_⟩
              · rw [r11.1]
                show m8.rings.set k ⟨none, dk⟩ = _
                rw [hrings]
                show _ = List.map _ ((R.set j (some ⟨p, P.1, P.2⟩, g.ccw P.1)).set k (none, dk))
                simp only [List.map_set]; rfl
              · intro x hx r hr
                obtain ⟨i, hi, hxi⟩ := List.getElem_of_mem hx
                have hx' : R1[i]? = some x := by rw [List.getElem?_eq_getElem hi, hxi]
                by_cases hik : i = k
                · subst hik
                  have : R1[i]? = some (none, dk) := List.getElem?_set_self (by simpa using hkl)
                  rw [this] at hx'
                  cases hx'; cases hr
                · by_cases hij : i = j
                  · subst hij
                    have : R1[i]? = some (some ⟨p, P.1, P.2⟩, g.ccw P.1) := by
                      show (((R.set i _).set k _)[i]?) = _
                      rw [List.getElem?_set_ne (by omega), List.getElem?_set_self hjl]
                    rw [this] at hx'
                    cases hx'; cases hr; rfl
                  · have : R1[i]? = R[i]? := by
                      show (((R.set j _).set k _)[i]?) = _
                      rw [List.getElem?_set_ne (by omega), List.getElem?_set_ne (by omega)]
                    rw [this] at hx'
                    exact h.dir x (List.mem_of_getElem? hx') r hr
              · refine o11.of_perm ?_
                refine List.Perm.trans ?_ ((q2 ⟨p, P.1, P.2⟩ (g.ccw P.1) dk).symm.append_right _)
                exact List.perm_iff_count.2 fun a => by
                  simp only [GRing.cell, List.count_cons, List.count_append, List.cons_append]; omega
            have hcur : curOf R1 = fun i => if i = k then none else if i = j then some P.1 else curOf R i :=
              curOf_merge hjl hkl ⟨p, P.1, P.2⟩ (g.ccw P.1) dk hjk
            have hstep : MergeStep g inner (curOf R) (curOf R1) :=
              ⟨j, k, P.1, hsub, ⟨ra.c, rb.c, P.2, cj, ck, ht, hp⟩, hcur⟩
            have hless : liveCount R1 inner < liveCount R inner := by
              unfold liveCount
              rw [hcur]
              refine countP_lt' (k := k) ?_ hkm (by simp [ck]) (by simp)
              intro x _ hx
              dsimp only at hx
              split at hx
              · cases hx
              · split at hx
                · next hxj => rw [hxj, cj]; rfl
                · exact hx
            obtain ⟨m', R', D, t1, t2, t3, t4, t5, t6, t7, t8⟩ :=
              hrec m11 R1 _ inv1 (fun i hi => by rw [hlen1]; exact hlt i hi) (by omega)
            refine ⟨m', R', D ++ [(d, .diff ra.c rb.c)], by simpa using t1, ?_, .step hstep t3,
              t4.trans hlen1, ?_, ?_, fun h => absurd h hq, by simp, t8.2⟩
            · intro c hc
              rcases List.mem_append.1 hc with hc | hc
              · exact t2 c hc
              · rw [List.mem_singleton.1 hc]; exact ⟨_, _, rfl⟩
            · rw [t5, r11.2.1]; show m8.areas = _
              rw [r8.2.1]; show m6.areas = _
              rw [r6.2.1, r45.2.1, r123.2.1]
            · rw [t6, r11.2.2]; show m8.result = _
              rw [r8.2.2]; show m6.result = _
              rw [r6.2.2, r45.2.2, r123.2.2]
          · -- the polygons are deleted
            have hcs : cs.length = polys.length := by simpa using congrArg List.length c4
            have key : TouchPost g inner m R F (Mem.deleteAll (cs.map Prod.fst ++ [v]) m5) := by
              have o5' : Owns m5 ((cs ++ [(v, .vec (cs.map Prod.fst))]) ++
                  ((d, .diff ra.c rb.c) :: F ++ ringCells R)) := by
                refine o5.of_perm ?_
                rw [List.append_assoc]
                exact List.perm_middle.symm
              obtain ⟨m6, e6, o6, r6⟩ := deleteAll_owns o5'
              have e6' : Mem.deleteAll (cs.map Prod.fst ++ [v]) m5 = (.ok (), m6) := by
                simpa using e6
              rw [e6']
              have rr := (r123.trans r45).trans r6
              refine ⟨m6, R, [(d, .diff ra.c rb.c)], h.back rr o6, ?_, .done _, rfl, rr.2.1, rr.2.2,
                fun h => absurd h hq, by simp, .inl ⟨rfl, .inr ⟨j, k, _, _, polys, hsub, cj, ck, ht, hp, hlen⟩⟩⟩
              intro c hc
              rw [List.mem_singleton.1 hc]; exact ⟨_, _, rfl⟩
            match cs, hcs, key with
            | [], _, key => exact key
            | [_], hcs, _ => simp at hcs; omega
            | _ :: _ :: _, _, key => exact key

/-- The recursion is deep enough, and the outcome is as specified. -/
theorem checkTouching_inv (g : MpGeos) (inner : List Nat) (hnd : inner.Nodup) (fuel : Nat) :
    ∀ m R F, MpInv g m R F → (∀ j ∈ inner, j < R.length) → liveCount R inner < fuel →
      TouchPost g inner m R F (checkTouching g inner fuel m) := by
  induction fuel with
  | zero => intro m R F _ _ h; omega
  | succ fuel ih =>
    intro m R F h hlt hf
    unfold checkTouching
    rcases touchPairs_inv g inner hnd (checkTouching g inner fuel) fuel ih (ringPairs inner)
      (fun q hq => ringPairs_iff.1 hq) m R F h hlt (by omega) with ⟨m', D, e, i, dd, a1, a2, qd, dq, un⟩ | tp
    · refine ⟨m', R, D, i, dd, .done _, rfl, a1, a2, fun hq => ⟨qd hq, rfl, e⟩,
        fun h j k x y hs => dq h (j, k) (ringPairs_iff.2 hs) x y, .inl ⟨e, .inl ?_⟩⟩
      intro j k p hs
      exact un (j, k) (ringPairs_iff.2 hs) p
    · exact tp

/-! ### Polygons -/

theorem Merges.keep {g : MpGeos} {inner : List Nat} {a b : Nat → Option Coords} (h : Merges g inner a b)
    {i : Nat} (hi : i ∉ inner) : b i = a i := by
  induction h with
  | done => rfl
  | step hs _ ih =>
    obtain ⟨j, k, p, hsub, -, rfl⟩ := hs
    rw [ih]
    have h1 : i ≠ k := fun e => hi (e ▸ hsub.subset (by simp))
    have h2 : i ≠ j := fun e => hi (e ▸ hsub.subset (by simp))
    simp [h1, h2]

/-- Linear rings as objects. -/
def ringObjs (hs : List (Nat × Coords)) : List (Nat × Geom) := hs.map fun h => (h.1, .ring h.2)

/-- Polygons as objects. -/
def polyObjs (ps : List (Nat × (Coords × List Coords))) : List (Nat × Geom) :=
  ps.map fun p => (p.1, .poly p.2.1 p.2.2)

theorem pushVec_inv {g : MpGeos} {m : MpMem} {R : List (Option GRing × Bool)} {F : List (Nat × Geom)}
    {v i : Nat} {l : List Nat} (h : MpInv g m R ((v, .vec l) :: F)) :
    ∃ m', Mem.pushVec v i m = (.ok (), m') ∧ MpInv g m' R ((v, .vec (l ++ [i])) :: F) ∧ m.Rest m' := by
  obtain ⟨m', e, o, r⟩ := pushVec_owns (i := i) h.front
  exact ⟨m', e, h.back r o, r⟩

theorem alloc_inv {g : MpGeos} {m : MpMem} {R : List (Option GRing × Bool)} {F : List (Nat × Geom)}
    (h : MpInv g m R F) (v : Geom) :
    ∃ m' i, Mem.alloc v m = (.ok i, m') ∧ MpInv g m' R ((i, v) :: F) ∧ m.Rest m' := by
  obtain ⟨m', i, e, o, r⟩ := alloc_owns h.front v
  exact ⟨m', i, e, h.back r o, r⟩

theorem take_inv {g : MpGeos} {m : MpMem} {R : List (Option GRing × Bool)} {F : List (Nat × Geom)}
    {i : Nat} {v : Geom} (h : MpInv g m R ((i, v) :: F)) :
    ∃ m', Mem.take i m = (.ok v, m') ∧ MpInv g m' R F ∧ m.Rest m' := by
  obtain ⟨m', e, o, r⟩ := take_owns (i := i) (v := v) h.front
  exact ⟨m', e, h.back r o, r⟩

theorem deleteAll_inv {g : MpGeos} {m : MpMem} {R : List (Option GRing × Bool)} {F : List (Nat × Geom)}
    {cs : List (Nat × Geom)} (h : MpInv g m R (cs ++ F)) :
    ∃ m', Mem.deleteAll (cs.map Prod.fst) m = (.ok (), m') ∧ MpInv g m' R F ∧ m.Rest m' := by
  have := h.front
  rw [List.append_assoc] at this
  obtain ⟨m', e, o, r⟩ := deleteAll_owns this
  exact ⟨m', e, h.back r o, r⟩

theorem curOf_get {R : List (Option GRing × Bool)} {j : Nat} (hj : j < R.length) :
    (∃ d, R[j]? = some (none, d) ∧ curOf R j = none) ∨
    ∃ r d, R[j]? = some (some r, d) ∧ curOf R j = some r.c := by
  obtain ⟨⟨x, d⟩, h⟩ : ∃ x, R[j]? = some x := ⟨_, List.getElem?_eq_getElem hj⟩
  cases x with
  | none => exact .inl ⟨d, h, by simp [curOf, h]⟩
  | some r => exact .inr ⟨r, d, h, curOf_some h⟩

theorem pushHoles_inv {g : MpGeos} {R : List (Option GRing × Bool)} {F : List (Nat × Geom)} {holes : Nat} :
    ∀ (js : List Nat), (∀ j ∈ js, j < R.length) → ∀ (m : MpMem) (hs : List (Nat × Coords)),
    MpInv g m R ((holes, .vec (hs.map Prod.fst)) :: (ringObjs hs ++ F)) →
    ∃ m' hs', pushHoles holes js m = (.ok (), m') ∧
      MpInv g m' R ((holes, .vec (hs'.map Prod.fst)) :: (ringObjs hs' ++ F)) ∧
      hs'.map Prod.snd = hs.map Prod.snd ++ (js.filterMap (curOf R)).map (turn g true) ∧ m.Rest m' := by
  intro js
  induction js with
  | nil => intro _ m hs h; exact ⟨m, hs, rfl, h, by simp, .refl m⟩
  | cons j js ih =>
    intro hlt m hs h
    have hlt' : ∀ j ∈ js, j < R.length := fun x hx => hlt x (by simp [hx])
    unfold pushHoles
    rcases curOf_get (hlt j (by simp)) with ⟨d, hj, cj⟩ | ⟨r, d, hj, cj⟩
    · rw [Mem.bind_ok (getRing_inv h hj)]
      obtain ⟨m', hs', e, i, q, rr⟩ := ih hlt' m hs h
      exact ⟨m', hs', by simpa using e, i, by simpa [cj] using q, rr⟩
    · rw [Mem.bind_ok (getRing_inv h hj)]
      obtain ⟨m1, hid, e1, i1, r1⟩ := ringInDirection_inv h hj true
      have i1' : MpInv g m1 R ((holes, .vec (hs.map Prod.fst)) ::
          (hid, .ring (turn g true r.c)) :: (ringObjs hs ++ F)) := i1.perm (List.Perm.swap ..)
      obtain ⟨m2, e2, i2, r2⟩ := pushVec_inv (i := hid) i1'
      have i2' : MpInv g m2 R ((holes, .vec ((hs ++ [(hid, turn g true r.c)]).map Prod.fst)) ::
          (ringObjs (hs ++ [(hid, turn g true r.c)]) ++ F)) := by
        have : ((hs ++ [(hid, turn g true r.c)]).map Prod.fst) = hs.map Prod.fst ++ [hid] := by simp
        rw [this]
        refine i2.perm (List.Perm.cons _ ?_)
        simp only [ringObjs, List.map_append, List.map_cons, List.map_nil, List.append_assoc, List.cons_append,
          List.nil_append]
        exact List.perm_middle.symm
      obtain ⟨m', hs', e, i, q, rr⟩ := ih hlt' m2 _ i2'
      refine ⟨m', hs', ?_, i, ?_, (r1.trans r2).trans rr⟩
      · show (if (Option.map (fun x : GRing => x.p) (some r)).isNone = true then pushHoles holes js else
          ringInDirection ⟨some r.p, d⟩ true >>= fun h => Mem.pushVec holes h >>= fun _ => pushHoles holes js) m = _
        rw [if_neg (by simp), Mem.bind_ok e1, Mem.bind_ok e2, e]
      · rw [q]; simp [cj]

theorem lookVec_inv {g : MpGeos} {m : MpMem} {R : List (Option GRing × Bool)} {F : List (Nat × Geom)}
    (h : MpInv g m R F) {i : Nat} {l : List Nat} (hm : (i, .vec l) ∈ F) : Mem.lookVec i m = (.ok l, m) :=
  lookVec_owns h.owns (List.mem_append_right _ hm)

theorem ringObjs_fst (hs : List (Nat × Coords)) : (ringObjs hs).map Prod.fst = hs.map Prod.fst := by
  simp [ringObjs, Function.comp_def]

theorem polyObjs_fst (ps : List (Nat × (Coords × List Coords))) :
    (polyObjs ps).map Prod.fst = ps.map Prod.fst := by
  simp [polyObjs, Function.comp_def]

theorem createPolygon_inv {g : MpGeos} {m : MpMem} {R : List (Option GRing × Bool)} {F : List (Nat × Geom)}
    {ring holes : Nat} {s : Coords} {hs : List (Nat × Coords)}
    (h : MpInv g m R ((ring, .ring s) :: (holes, .vec (hs.map Prod.fst)) :: (ringObjs hs ++ F))) :
    (g.polygonMakes s (hs.map Prod.snd) = true ∧ ∃ m' p, createPolygon g ring holes m = (.ok (some p), m') ∧
      MpInv g m' R ((p, .poly s (hs.map Prod.snd)) :: F) ∧ m.Rest m') ∨
    (g.polygonMakes s (hs.map Prod.snd) = false ∧ createPolygon g ring holes m = (.ok none, m)) := by
  have e1 : Mem.lookRing ring m = (.ok s, m) :=
    lookRing_owns h.owns (List.mem_append_right _ (by simp))
  have e2 := lookVec_inv h (i := holes) (l := hs.map Prod.fst) (by simp)
  have e3 : Mem.lookRings (hs.map Prod.fst) m = (.ok (hs.map Prod.snd), m) :=
    lookRings_owns h.owns hs fun r hr => List.mem_append_right _ (by
      simp only [List.mem_cons, List.mem_append]
      exact .inr (.inr (.inl (List.mem_map.2 ⟨r, hr, rfl⟩))))
  unfold createPolygon
  rw [Mem.bind_ok e1, Mem.bind_ok e2, Mem.bind_ok e3]
  cases hm : g.polygonMakes s (hs.map Prod.snd)
  · exact .inr ⟨rfl, rfl⟩
  · left
    refine ⟨rfl, ?_⟩
    have h' : MpInv g m R (((ring, .ring s) :: (holes, .vec (hs.map Prod.fst)) :: ringObjs hs) ++ F) := h
    obtain ⟨m1, d1, i1, r1⟩ := deleteAll_inv h'
    obtain ⟨m2, p, d2, i2, r2⟩ := alloc_inv i1 (.poly s (hs.map Prod.snd))
    refine ⟨m2, p, ?_, i2, r1.trans r2⟩
    simp only [Bool.not_true, Bool.false_eq_true, if_false]
    have d1' : Mem.deleteAll (ring :: holes :: hs.map Prod.fst) m = (.ok (), m1) := by
      have := d1
      rw [List.map_cons, List.map_cons, ringObjs_fst] at this
      exact this
    rw [Mem.bind_ok d1', Mem.bind_ok d2]; rfl

/-- The state during the loop over the outer rings: the vector of polygons and the polygons. -/
def loopObjs (v : Nat) (ps : List (Nat × (Coords × List Coords))) (F : List (Nat × Geom)) : List (Nat × Geom) :=
  (v, .vec (ps.map Prod.fst)) :: (polyObjs ps ++ F)

theorem loopObjs_perm {v : Nat} {ps : List (Nat × (Coords × List Coords))} {A F : List (Nat × Geom)} :
    (A ++ loopObjs v ps F).Perm (loopObjs v ps (A ++ F)) := by
  unfold loopObjs
  refine List.perm_middle.trans (List.Perm.cons _ ?_)
  rw [← List.append_assoc, ← List.append_assoc]
  exact List.perm_append_comm.append_right _

theorem dropLoop_inv {g : MpGeos} {m : MpMem} {R : List (Option GRing × Bool)} {F : List (Nat × Geom)}
    {v : Nat} {ps : List (Nat × (Coords × List Coords))} (h : MpInv g m R (loopObjs v ps F)) :
    Mem.lookVec v m = (.ok (ps.map Prod.fst), m) ∧
    ∃ m', Mem.deleteAll (ps.map Prod.fst ++ [v]) m = (.ok (), m') ∧ MpInv g m' R F ∧ m.Rest m' := by
  refine ⟨lookVec_inv h (by simp [loopObjs]), ?_⟩
  have h' : MpInv g m R ((polyObjs ps ++ [(v, .vec (ps.map Prod.fst))]) ++ F) := by
    refine h.perm ?_
    simp only [loopObjs, List.append_assoc, List.cons_append, List.nil_append]
    exact List.perm_middle.symm
  obtain ⟨m', e, i, r⟩ := deleteAll_inv h'
  rw [List.map_append, polyObjs_fst] at e
  exact ⟨m', e, i, r⟩

/-- The outcome for one outer ring. -/
def OuterPost (g : MpGeos) (v i : Nat) (inner : List Nat) (m : MpMem) (R : List (Option GRing × Bool))
    (ps : List (Nat × (Coords × List Coords))) (F : List (Nat × Geom)) (res : Except Fail Unit × MpMem) : Prop :=
  ∃ m' R' D, Diffs D ∧ R'.length = R.length ∧ m'.areas = m.areas ∧ m'.result = m.result ∧
    Merges g inner (curOf R) (curOf R') ∧
    (Quiet g inner (curOf R) → D = [] ∧ R' = R) ∧ (D = [] → Quiet g inner (curOf R)) ∧
    ((∃ p shell, res = (.ok (), m') ∧
        MpInv g m' R' (loopObjs v (ps ++ [(p, polygonOf g shell (inner.filterMap (curOf R')))]) (D ++ F)) ∧
        Merged g inner (curOf R) (curOf R') ∧ curOf R' i = some shell ∧
        Good g (polygonOf g shell (inner.filterMap (curOf R')))) ∨
     (∃ shell, res = (.error (.exn "invalid ring"), m') ∧ MpInv g m' R' (D ++ F) ∧
        Merged g inner (curOf R) (curOf R') ∧ curOf R' i = some shell ∧
        ¬ Good g (polygonOf g shell (inner.filterMap (curOf R')))) ∨
     (res = (.error (.exn "GEOSException"), m') ∧ MpInv g m' R' (loopObjs v ps (D ++ F)) ∧
        ¬ Quiet g inner (curOf R) ∧ Throws g inner (curOf R')))

theorem outerPolygon_inv {g : MpGeos} {v i : Nat} {inner : List Nat} {m : MpMem}
    {R : List (Option GRing × Bool)} {ps : List (Nat × (Coords × List Coords))} {F : List (Nat × Geom)}
    (h : MpInv g m R (loopObjs v ps F)) (hnd : inner.Nodup) (hlt : ∀ j ∈ inner, j < R.length)
    (hi : i < R.length) (hin : i ∉ inner) (hc : (curOf R i).isSome) :
    OuterPost g v i inner m R ps F (outerPolygon g v i inner m) := by
  have hfuel : liveCount R inner < inner.length + 1 := Nat.lt_succ_of_le List.countP_le_length
  obtain ⟨m1, R1, D, i1, hD, hM, hlen, ha, hr, hq, hdq, hres⟩ := checkTouching_inv g inner hnd _ m R _ h hlt hfuel
  have i1' := i1.perm (loopObjs_perm (v := v) (ps := ps))
  unfold outerPolygon
  rcases hres with ⟨e1, hmg⟩ | ⟨e1, ht⟩
  · rw [Mem.bind_ok e1]
    have hq' : Quiet g inner (curOf R) → D = [] ∧ R1 = R := fun h => ⟨(hq h).1, (hq h).2.1⟩
    obtain ⟨m2, holes, e2, i2, r2⟩ := alloc_inv i1' (.vec [])
    obtain ⟨m3, hs, e3, i3, q3, r3⟩ := pushHoles_inv (F := loopObjs v ps (D ++ F)) inner
      (fun j hj => by rw [hlen]; exact hlt j hj) m2 [] i2
    rw [Mem.bind_ok e2, Mem.bind_ok e3]
    have hcur : curOf R1 i = curOf R i := Merges.keep hM hin
    rcases curOf_get (R := R1) (j := i) (by omega) with ⟨d, hj, cj⟩ | ⟨r, d, hj, cj⟩
    · rw [← hcur, cj] at hc; cases hc
    · obtain ⟨m4, ring, e4, i4, r4⟩ := ringInDirection_inv i3 hj false
      rw [Mem.bind_ok (getRing_inv i3 hj)]
      simp only [Option.map_some]
      rw [Mem.bind_ok e4]
      have hpoly : polygonOf g r.c (inner.filterMap (curOf R1)) = (turn g false r.c, hs.map Prod.snd) := by
        rw [q3]; rfl
      have r1234 := (r2.trans r3).trans r4
      rcases createPolygon_inv i4 with ⟨hm, m5, p, e5, i5, r5⟩ | ⟨hm, e5⟩
      · rw [Mem.bind_ok e5]
        simp only
        have ep : Mem.lookPoly p m5 = (.ok (turn g false r.c, hs.map Prod.snd), m5) :=
          lookPoly_owns i5.owns (List.mem_append_right _ (by simp))
        rw [Mem.bind_ok ep]
        dsimp only
        by_cases hv : g.polygonValid (turn g false r.c) (hs.map Prod.snd) = some true
        · rw [if_pos hv]
          have i5' : MpInv g m5 R1 ((v, .vec (ps.map Prod.fst)) ::
              (p, .poly (turn g false r.c) (hs.map Prod.snd)) :: (polyObjs ps ++ (D ++ F))) :=
            i5.perm (List.Perm.swap ..)
          obtain ⟨m6, e6, i6, r6⟩ := pushVec_inv (i := p) i5'
          have rr := (r1234.trans r5).trans r6
          refine ⟨m6, R1, D, hD, hlen, rr.2.1.trans ha, rr.2.2.trans hr, hM, hq', hdq, .inl ⟨p, r.c, e6, ?_,
            ⟨hM, hmg⟩, cj, ?_⟩⟩
          · rw [hpoly]
            refine i6.perm ?_
            simp only [loopObjs, polyObjs, List.map_append, List.map_cons, List.map_nil, List.append_assoc,
              List.cons_append, List.nil_append]
            exact (List.perm_middle.symm).cons _
          · rw [hpoly]; exact ⟨hm, hv⟩
        · rw [if_neg hv]
          obtain ⟨m6, e6, i6, r6⟩ := take_inv i5
          obtain ⟨e7, m7, e8, i7, r7⟩ := dropLoop_inv i6
          rw [Mem.bind_ok e6, Mem.bind_ok e7, Mem.bind_ok e8]
          have rr := ((r1234.trans r5).trans r6).trans r7
          refine ⟨m7, R1, D, hD, hlen, rr.2.1.trans ha, rr.2.2.trans hr, hM, hq', hdq,
            .inr (.inl ⟨r.c, rfl, i7, ⟨hM, hmg⟩, cj, ?_⟩)⟩
          rw [hpoly]; exact fun h => hv h.2
      · rw [Mem.bind_ok e5]
        simp only
        have ev := lookVec_inv i4 (i := holes) (l := hs.map Prod.fst) (by simp)
        have i4' : MpInv g m4 R1 ((ringObjs hs ++ [(holes, .vec (hs.map Prod.fst)), (ring, .ring (turn g false r.c))]) ++
            loopObjs v ps (D ++ F)) := by
          refine i4.perm ?_
          exact List.perm_iff_count.2 fun a => by
            simp only [List.count_cons, List.count_append, List.count_nil]; omega
        obtain ⟨m5, e6, i5, r5⟩ := deleteAll_inv i4'
        rw [List.map_append, ringObjs_fst] at e6
        have e6' : Mem.deleteAll (hs.map Prod.fst ++ [holes, ring]) m4 = (.ok (), m5) := e6
        obtain ⟨e7, m7, e8, i7, r7⟩ := dropLoop_inv i5
        rw [Mem.bind_ok ev, Mem.bind_ok e6', Mem.bind_ok e7, Mem.bind_ok e8]
        have rr := (r1234.trans r5).trans r7
        refine ⟨m7, R1, D, hD, hlen, rr.2.1.trans ha, rr.2.2.trans hr, hM, hq', hdq,
          .inr (.inl ⟨r.c, rfl, i7, ⟨hM, hmg⟩, cj, ?_⟩)⟩
        rw [hpoly]
        exact fun h => Bool.false_ne_true (hm.symm.trans h.1)
  · rw [Mem.bind_err e1]
    refine ⟨m1, R1, D, hD, hlen, ha, hr, hM, fun h => ⟨(hq h).1, (hq h).2.1⟩, hdq,
      .inr (.inr ⟨rfl, i1', fun h => ?_, ht⟩)⟩
    have := (hq h).2.2
    rw [e1] at this
    cases this

/-- The outcome of the loop over the outer rings. -/
def LoopPost (g : MpGeos) (v : Nat) (inner : Nat → List Nat) (is : List Nat) (m : MpMem)
    (R : List (Option GRing × Bool)) (ps : List (Nat × (Coords × List Coords))) (F : List (Nat × Geom))
    (res : Except Fail Unit × MpMem) : Prop :=
  ∃ m' R' D, Diffs D ∧ m'.areas = m.areas ∧ m'.result = m.result ∧
    (AllQuiet g inner (curOf R) is → D = [] ∧ R' = R) ∧
    (res.1 = .ok () → D = [] → AllQuiet g inner (curOf R) is) ∧
    ((∃ new, res = (.ok (), m') ∧ MpInv g m' R' (loopObjs v (ps ++ new) (D ++ F)) ∧
        Polygons g inner (curOf R) is (new.map Prod.snd) (curOf R')) ∨
     (res = (.error (.exn "invalid ring"), m') ∧ MpInv g m' R' (D ++ F) ∧ BadPolygon g inner (curOf R) is) ∨
     (∃ new, res = (.error (.exn "GEOSException"), m') ∧ MpInv g m' R' (loopObjs v (ps ++ new) (D ++ F)) ∧
        ¬ AllQuiet g inner (curOf R) is ∧ ThrowsAt g inner (curOf R) is))

theorem outerPolygons_inv {g : MpGeos} {v : Nat} {inner : Nat → List Nat} :
    ∀ (is : List Nat) (m : MpMem) (R : List (Option GRing × Bool))
    (ps : List (Nat × (Coords × List Coords))) (F : List (Nat × Geom)),
    MpInv g m R (loopObjs v ps F) → (∀ i ∈ is, (inner i).Nodup) → (∀ i ∈ is, ∀ j ∈ inner i, j < R.length) →
    (∀ i ∈ is, i < R.length) → (∀ i ∈ is, ∀ i' ∈ is, i ∉ inner i') → (∀ i ∈ is, (curOf R i).isSome) →
    LoopPost g v inner is m R ps F (outerPolygons g v inner is m) := by
  intro is
  induction is with
  | nil =>
    intro m R ps F h _ _ _ _ _
    exact ⟨m, R, [], by simp [Diffs], rfl, rfl, fun _ => ⟨rfl, rfl⟩, by simp [AllQuiet],
      .inl ⟨[], rfl, by simpa using h, .nil _⟩⟩
  | cons i is ih =>
    intro m R ps F h hnd hin hlt hap hcur
    unfold outerPolygons
    obtain ⟨m1, R1, D, hD, hlen, ha, hr, hM, hq, hdq, hres⟩ := outerPolygon_inv h (hnd i (by simp)) (hin i (by simp))
      (hlt i (by simp)) (hap i (by simp) i (by simp)) (hcur i (by simp))
    have quiet : AllQuiet g inner (curOf R) (i :: is) → D = [] ∧ R1 = R := fun h => hq (h i (by simp))
    rcases hres with ⟨p, shell, e, i1, hmg, hs, hg⟩ | ⟨shell, e, i1, hmg, hs, hg⟩ | ⟨e, i1, hnq, ht⟩
    · rw [Mem.bind_ok e]
      have hcur1 : ∀ i' ∈ is, (curOf R1 i').isSome := by
        intro i' hi'
        rw [Merges.keep hM (hap i' (by simp [hi']) i (by simp))]
        exact hcur i' (by simp [hi'])
      obtain ⟨m2, R2, D2, hD2, ha2, hr2, hq2, hdq2, hres2⟩ := ih m1 R1 _ _ i1 (fun x hx => hnd x (by simp [hx]))
        (fun x hx => by rw [hlen]; exact hin x (by simp [hx])) (fun x hx => by rw [hlen]; exact hlt x (by simp [hx]))
        (fun x hx y hy => hap x (by simp [hx]) y (by simp [hy])) hcur1
      have quiet2 : AllQuiet g inner (curOf R) (i :: is) → D2 ++ D = [] ∧ R2 = R := by
        intro h
        obtain ⟨rfl, rfl⟩ := quiet h
        obtain ⟨rfl, rfl⟩ := hq2 fun x hx => h x (by simp [hx])
        exact ⟨rfl, rfl⟩
      have hDD : Diffs (D2 ++ D) := by
        intro c hc
        rcases List.mem_append.1 hc with hc | hc
        · exact hD2 c hc
        · exact hD c hc
      have quiet3 : (outerPolygons g v inner is m1).1 = .ok () → D2 ++ D = [] →
          AllQuiet g inner (curOf R) (i :: is) := by
        intro h1 h2
        obtain ⟨rfl, rfl⟩ := List.append_eq_nil_iff.1 h2
        have hqi := hdq rfl
        obtain ⟨-, rfl⟩ := hq hqi
        intro x hx
        rcases List.mem_cons.1 hx with rfl | hx
        · exact hqi
        · exact hdq2 h1 rfl x hx
      refine ⟨m2, R2, D2 ++ D, hDD, ha2.trans ha, hr2.trans hr, quiet2, quiet3, ?_⟩
      rcases hres2 with ⟨new, e2, i2, hp⟩ | ⟨e2, i2, hb⟩ | ⟨new, e2, i2, hnq, ht⟩
      · refine .inl ⟨(p, polygonOf g shell ((inner i).filterMap (curOf R1))) :: new, e2, ?_, ?_⟩
        · simpa using i2
        · exact .cons hmg hs hg hp
      · refine .inr (.inl ⟨e2, by simpa using i2, ?_⟩)
        obtain ⟨a, b, c, qs, c1, c2, sh, rfl, hp, hm, hb1, hb2⟩ := hb
        exact ⟨i :: a, b, c, _, c1, c2, sh, rfl, .cons hmg hs hg hp, hm, hb1, hb2⟩
      · refine .inr (.inr ⟨(p, polygonOf g shell ((inner i).filterMap (curOf R1))) :: new, e2, ?_, ?_, ?_⟩)
        · simpa using i2
        · intro h
          obtain ⟨rfl, rfl⟩ := quiet h
          exact hnq fun x hx => h x (by simp [hx])
        · obtain ⟨a, b, c, qs, c1, c2, rfl, hp, hm, hb⟩ := ht
          exact ⟨i :: a, b, c, _, c1, c2, rfl, .cons hmg hs hg hp, hm, hb⟩
    · rw [Mem.bind_err e]
      exact ⟨m1, R1, D, hD, ha, hr, quiet, nofun, .inr (.inl ⟨rfl, i1, [], i, is, [], _, _, shell, rfl, .nil _, hmg, hs, hg⟩)⟩
    · rw [Mem.bind_err e]
      refine ⟨m1, R1, D, hD, ha, hr, quiet, nofun, .inr (.inr ⟨[], rfl, by simpa using i1, ?_, ?_⟩)⟩
      · exact fun h => hnq (h i (by simp))
      · exact ⟨[], i, is, [], _, _, rfl, .nil _, hM, ht⟩

theorem createMulti_inv {g : MpGeos} {m : MpMem} {R : List (Option GRing × Bool)} {F : List (Nat × Geom)}
    {v : Nat} {ps : List (Nat × (Coords × List Coords))} (h : MpInv g m R (loopObjs v ps F)) :
    createMulti false v m = (.ok none, m) ∧
    ∃ m' mp, createMulti true v m = (.ok (some mp), m') ∧
      MpInv g m' R ((mp, .multi (ps.map Prod.snd)) :: F) ∧ m.Rest m' := by
  have e1 := lookVec_inv h (i := v) (l := ps.map Prod.fst) (by simp [loopObjs])
  have e2 : Mem.lookPolys (ps.map Prod.fst) m = (.ok (ps.map Prod.snd), m) :=
    lookPolys_owns h.owns ps fun r hr => List.mem_append_right _ (by
      simp only [loopObjs, List.mem_cons, List.mem_append]
      exact .inr (.inl (List.mem_map.2 ⟨r, hr, rfl⟩)))
  unfold createMulti
  constructor
  · rw [Mem.bind_ok e1, Mem.bind_ok e2]; rfl
  · rw [Mem.bind_ok e1, Mem.bind_ok e2]
    have h' : MpInv g m R (((v, .vec (ps.map Prod.fst)) :: polyObjs ps) ++ F) := h
    obtain ⟨m1, d1, i1, r1⟩ := deleteAll_inv h'
    obtain ⟨m2, mp, d2, i2, r2⟩ := alloc_inv i1 (.multi (ps.map Prod.snd))
    rw [List.map_cons, polyObjs_fst] at d1
    refine ⟨m2, mp, ?_, i2, r1.trans r2⟩
    simp only [Bool.not_true, Bool.false_eq_true, if_false]
    rw [Mem.bind_ok d1, Mem.bind_ok d2]; rfl

/-- The outcome of making the multipolygon. -/
def FinishPost (g : MpGeos) (m : MpMem) (R : List (Option GRing × Bool)) (ps : List (Coords × List Coords))
    (F : List (Nat × Geom)) (res : Except Fail Unit × MpMem) : Prop :=
  ∃ m', m'.areas = m.areas ∧
    ((∃ mp, res = (.ok (), m') ∧ MpInv g m' R ((mp, .multi ps) :: F) ∧ m'.result = some mp ∧ ps ≠ [] ∧
        g.multiMakes ps = true ∧ g.multiValid ps = some true) ∨
     (res = (.error (.exn "no rings"), m') ∧ MpInv g m' R F ∧ m'.result = m.result ∧ ps = []) ∨
     (res = (.error (.exn "multipolygon invalid"), m') ∧ MpInv g m' R F ∧ m'.result = m.result ∧ ps ≠ [] ∧
        (g.multiMakes ps = false ∨ g.multiValid ps = some false)) ∨
     (∃ mp, res = (.error (.exn "GEOSException"), m') ∧ MpInv g m' R ((mp, .multi ps) :: F) ∧
        m'.result = m.result ∧ ps ≠ [] ∧ g.multiMakes ps = true ∧ g.multiValid ps = none))

theorem finishMulti_inv {g : MpGeos} {m : MpMem} {R : List (Option GRing × Bool)} {F : List (Nat × Geom)}
    {v : Nat} {ps : List (Nat × (Coords × List Coords))} (h : MpInv g m R (loopObjs v ps F)) :
    FinishPost g m R (ps.map Prod.snd) F (finishMulti g v m) := by
  have e1 := lookVec_inv h (i := v) (l := ps.map Prod.fst) (by simp [loopObjs])
  unfold finishMulti
  rw [Mem.bind_ok e1]
  cases ps with
  | nil =>
    obtain ⟨m1, e2, i2, r2⟩ := take_inv h
    simp only [List.map_nil, List.isEmpty_nil, if_true]
    rw [Mem.bind_ok e2]
    exact ⟨m1, r2.2.1, .inr (.inl ⟨rfl, i2, r2.2.2, rfl⟩)⟩
  | cons q ps =>
    have hne : ((q :: ps).map Prod.snd) ≠ [] := by simp
    have e2 : Mem.lookPolys ((q :: ps).map Prod.fst) m = (.ok ((q :: ps).map Prod.snd), m) :=
      lookPolys_owns h.owns _ fun r hr => List.mem_append_right _ (by
        simp only [loopObjs, List.mem_cons, List.mem_append]
        exact .inr (.inl (List.mem_map.2 ⟨r, hr, rfl⟩)))
    rw [if_neg (by simp), Mem.bind_ok e2]
    generalize hcs : (q :: ps).map Prod.snd = cs at *
    obtain ⟨c1, m2, mp, c2, i2, r2⟩ := createMulti_inv h
    rw [hcs] at i2
    cases hm : g.multiMakes cs
    · rw [Mem.bind_ok c1]
      simp only
      obtain ⟨-, m3, e3, i3, r3⟩ := dropLoop_inv h
      rw [Mem.bind_ok e3]
      exact ⟨m3, r3.2.1, .inr (.inr (.inl ⟨rfl, i3, r3.2.2, hne, .inl hm⟩))⟩
    · rw [Mem.bind_ok c2]
      simp only
      match hv : g.multiValid cs with
      | none => exact ⟨m2, r2.2.1, .inr (.inr (.inr ⟨mp, rfl, i2, r2.2.2, hne, hm, hv⟩))⟩
      | some true =>
        exact ⟨{ m2 with result := some mp }, r2.2.1, .inl ⟨mp, rfl, ⟨i2.rings, i2.dir,
          ⟨i2.owns.perm, i2.owns.nodup, i2.owns.lt⟩⟩, rfl, hne, hm, hv⟩⟩
      | some false =>
        obtain ⟨m3, e3, i3, r3⟩ := take_inv i2
        simp only
        rw [Mem.bind_ok e3]
        exact ⟨m3, (r2.trans r3).2.1, .inr (.inr (.inl ⟨rfl, i3, (r2.trans r3).2.2, hne, .inr hv⟩))⟩

theorem extraArea_inv {g : MpGeos} {m : MpMem} {R : List (Option GRing × Bool)} {F : List (Nat × Geom)}
    (h : MpInv g m R F) {j : Nat} {c : Coords} (hj : curOf R j = some c) :
    ∃ m' mp, extraArea j m = (.ok (), m') ∧
      MpInv g m' R ((mp, .multi [polygonOf g c []]) :: F) ∧ m'.areas = m.areas ++ [mp] ∧ m'.result = m.result := by
  have hlt : j < R.length := by
    by_cases hl : j < R.length
    · exact hl
    · simp [curOf, List.getElem?_eq_none (Nat.le_of_not_lt hl)] at hj
  rcases curOf_get hlt with ⟨d, -, hn⟩ | ⟨r, d, hg, hc⟩
  · rw [hn] at hj; cases hj
  rw [hc] at hj
  cases hj
  unfold extraArea
  obtain ⟨m1, v, e1, i1, r1⟩ := alloc_inv h (.vec [])
  obtain ⟨m2, ring, e2, i2, r2⟩ := ringInDirection_inv i1 hg false
  have e3 : Mem.lookRing ring m2 = (.ok (turn g false r.c), m2) :=
    lookRing_owns i2.owns (List.mem_append_right _ (by simp))
  obtain ⟨m4, e4, i4, r4⟩ := take_inv i2
  obtain ⟨m5, p, e5, i5, r5⟩ := alloc_inv i4 (.poly (turn g false r.c) [])
  obtain ⟨m6, e6, i6, r6⟩ := pushVec_inv (i := p) (i5.perm (List.Perm.swap ..))
  have i6' : MpInv g m6 R (loopObjs v [(p, polygonOf g r.c [])] F) := i6
  obtain ⟨-, m7, mp, e7, i7, r7⟩ := createMulti_inv i6'
  rw [Mem.bind_ok e1, Mem.bind_ok (getRing_inv i1 hg)]
  simp only [Option.map_some]
  rw [Mem.bind_ok e2, Mem.bind_ok e3, Mem.bind_ok e4, Mem.bind_ok e5, Mem.bind_ok e6, Mem.bind_ok e7]
  have rr := ((((r1.trans r2).trans r4).trans r5).trans r6).trans r7
  refine ⟨{ m7 with areas := m7.areas ++ [mp] }, mp, rfl, ⟨i7.rings, i7.dir, ⟨i7.owns.perm, i7.owns.nodup, i7.owns.lt⟩⟩,
    ?_, rr.2.2⟩
  show m7.areas ++ [mp] = _
  rw [rr.2.1]

theorem extraAreas_inv {g : MpGeos} {R : List (Option GRing × Bool)} :
    ∀ (js : List Nat) (m : MpMem) (F : List (Nat × Geom)), MpInv g m R F → (∀ j ∈ js, (curOf R j).isSome) →
    ∃ m' A, extraAreas js m = (.ok (), m') ∧ MpInv g m' R (A ++ F) ∧ m'.areas = m.areas ++ A.map Prod.fst ∧
      m'.result = m.result ∧
      A.map Prod.snd = (js.filterMap (curOf R)).map fun c => Geom.multi [polygonOf g c []] := by
  intro js
  induction js with
  | nil => intro m F h _; exact ⟨m, [], rfl, h, by simp, rfl, rfl⟩
  | cons j js ih =>
    intro m F h hs
    obtain ⟨c, hc⟩ := Option.isSome_iff_exists.1 (hs j (by simp))
    obtain ⟨m1, mp, e1, i1, a1, r1⟩ := extraArea_inv h hc
    obtain ⟨m2, A, e2, i2, a2, r2, s2⟩ := ih m1 _ i1 fun x hx => hs x (by simp [hx])
    unfold extraAreas
    refine ⟨m2, (mp, .multi [polygonOf g c []]) :: A, ?_, i2.perm ?_, ?_, r2.trans r1, ?_⟩
    · rw [Mem.bind_ok e1, e2]
    · exact List.perm_middle
    · rw [a2, a1]; simp
    · simp [hc, s2]

theorem allocRings_inv {g : MpGeos} :
    ∀ (cs : List Coords) (m : MpMem) (R : List (Option GRing × Bool)) (F : List (Nat × Geom)), MpInv g m R F →
    ∃ m' new, allocRings g cs m = (.ok (), m') ∧ MpInv g m' (R ++ new) F ∧ m'.areas = m.areas ∧
      m'.result = m.result ∧ new.map (fun x => x.1.map (·.c)) = cs.map some := by
  intro cs
  induction cs with
  | nil => intro m R F h; exact ⟨m, [], rfl, by simpa using h, rfl, rfl, rfl⟩
  | cons c cs ih =>
    intro m R F h
    obtain ⟨m1, p, e1, i1, r1⟩ := alloc_inv h (.poly c [])
    let m2 : MpMem := { m1 with rings := m1.rings ++ [⟨some p, g.ccw c⟩] }
    have e2 : Mem.addRing ⟨some p, g.ccw c⟩ m1 = (.ok (), m2) := rfl
    have i2 : MpInv g m2 (R ++ [(some ⟨p, c, []⟩, g.ccw c)]) F := by
      refine ⟨?_, ?_, ?_⟩
      · show m1.rings ++ _ = _
        rw [i1.rings]; simp
      · intro x hx r hr
        rcases List.mem_append.1 hx with hx | hx
        · exact i1.dir x hx r hr
        · rw [List.mem_singleton.1 hx] at hr ⊢
          cases hr; rfl
      · have o : Owns m2 (ringCells R ++ (p, .poly c []) :: F) := ⟨i1.owns.perm, i1.owns.nodup, i1.owns.lt⟩
        refine o.of_perm (List.Perm.of_eq ?_)
        simp [ringCells, List.filterMap_append]
    obtain ⟨m3, new, e3, i3, a3, r3, c3⟩ := ih m2 _ _ i2
    refine ⟨m3, (some ⟨p, c, []⟩, g.ccw c) :: new, ?_, by simpa using i3, a3.trans r1.2.1, r3.trans r1.2.2, ?_⟩
    · unfold allocRings
      rw [Mem.bind_ok e1, Mem.bind_ok e2, e3]
    · simp [c3]

end Osmium

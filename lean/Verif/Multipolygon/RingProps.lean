import Verif.Multipolygon.RingSpec

/-
C44, C45: rings are closed chains, the search is exhaustive and terminates.
-/
namespace Osmium

open Spec

theorem traverse_ends {w : WayInfo} (hn : w.way.nodes ≠ []) {last next : Int} {inv : Bool}
    (h : traverse w last = some (next, inv)) :
    entryNode (w.way, inv) = some last ∧ exitNode (w.way, inv) = some next := by
  have h1 : w.way.nodes.head?.map WayNode.ref = some w.firstnode := by
    unfold WayInfo.firstnode
    cases hh : w.way.nodes with
    | nil => exact absurd hh hn
    | cons x xs => simp
  have h2 : w.way.nodes.getLast?.map WayNode.ref = some w.lastnode := by
    unfold WayInfo.lastnode
    cases hh : w.way.nodes.getLast? with
    | none => simp at hh; exact absurd hh hn
    | some x => simp
  unfold traverse at h
  split at h
  · rename_i hf
    simp only [Option.some.injEq, Prod.mk.injEq] at h
    obtain ⟨rfl, rfl⟩ := h
    simp [entryNode, exitNode, h1, h2, hf]
  · split at h
    · rename_i hf
      simp only [Option.some.injEq, Prod.mk.injEq] at h
      obtain ⟨rfl, rfl⟩ := h
      simp [entryNode, exitNode, h1, h2, hf]
    · simp at h

/-- A closing chain after a step that ends at `last`. -/
theorem closingChain_cyclic {ways : List WayInfo} {first last : Int} {is : List Nat}
    {path : List (Way × Bool)} (hne : ∀ w ∈ ways, w.way.nodes ≠ [])
    (h : ClosingChain ways first last is path) (a : Way × Bool) (ha : exitNode a = some last) :
    (a :: path).IsChain (fun a b => exitNode a = entryNode b) ∧
      ∀ z ∈ (a :: path).getLast?, exitNode z = some first := by
  induction h generalizing a with
  | done => simp [ha]
  | @step last i w next inv is path h1 h2 h3 h4 _ ih =>
    obtain ⟨e1, e2⟩ := traverse_ends (hne w (List.mem_of_getElem? h2)) h4
    obtain ⟨q1, q2⟩ := ih (w.way, inv) e2
    refine ⟨?_, ?_⟩
    · rw [List.isChain_cons_cons]
      exact ⟨ha.trans e1.symm, q1⟩
    · rw [List.getLast?_cons_cons]; exact q2

theorem closingChain_ways {ways : List WayInfo} {first last : Int} {is : List Nat}
    {path : List (Way × Bool)} (h : ClosingChain ways first last is path) :
    path.map (fun p => some p.1) = is.map (fun i => (ways.map (·.way))[i]?) ∧
      ∀ i ∈ is, ∃ w, ways[i]? = some w ∧ w.used < 0 := by
  induction h with
  | done => simp
  | @step last i w next inv is path h1 h2 h3 h4 _ ih =>
    refine ⟨?_, ?_⟩
    · simp only [List.map_cons, ih.1, List.getElem?_map, h2, Option.map_some]
    · intro k hk
      simp only [List.mem_cons] at hk
      rcases hk with rfl | hk
      · exact ⟨w, h2, h3⟩
      · exact ih.2 k hk

/-- What holds between the calls of `make_one_ring`. -/
structure RingInv (chk : List (Way × Bool) → Bool) (s : RingState) : Prop where
  nodes : ∀ w ∈ s.ways, w.way.nodes ≠ []
  once : s.rings.flatten.Nodup
  marks : ∀ (i : Nat) w, s.ways[i]? = some w → (0 ≤ w.used ↔ i ∈ s.rings.flatten)
  bound : ∀ w ∈ s.ways, w.used < s.rings.length
  good : ∀ r ∈ s.rings, GoodRing chk (s.ways.map (·.way)) r
  path : ∀ r ∈ s.rings, CyclicChain (ringPath s.ways r) ∧ chk (ringPath s.ways r) = true

theorem ringPath_marked {ways : List WayInfo} :
    ∀ {is : List Nat} {path : List (Way × Bool)},
      path.map (fun p => some p.1) = is.map (fun i => (ways.map (·.way))[i]?) →
      (∀ i b, (i, b) ∈ is.zip (path.map Prod.snd) → ∃ w, ways[i]? = some w ∧ w.invert = b) →
      ringPath ways is.reverse = path
  | [], path, h, _ => by
    cases path with
    | nil => rfl
    | cons a l => simp at h
  | i :: is, path, h, hm => by
    cases path with
    | nil => simp at h
    | cons a l =>
      simp only [List.map_cons, List.cons.injEq] at h
      obtain ⟨w, q1, q2⟩ := hm i a.2 (by simp)
      have ih := ringPath_marked (is := is) (path := l) h.2
        (fun i b hib => hm i b (by simp [hib]))
      simp only [ringPath, List.reverse_reverse] at ih ⊢
      have e := h.1
      simp only [List.getElem?_map, q1, Option.map_some, Option.some.injEq] at e
      rw [List.filterMap_cons, q1]
      simp only [Option.map_some, ih, q2, ← e]

theorem ringPath_kept {a b : List WayInfo} (h : Kept a b) {r : List Nat}
    (hr : ∀ k ∈ r, ∃ v, a[k]? = some v ∧ 0 ≤ v.used) : ringPath b r = ringPath a r := by
  unfold ringPath
  apply List.filterMap_congr
  intro k hk
  obtain ⟨v, q1, q2⟩ := hr k (by simpa using hk)
  rw [h k v q1 q2, q1]

/-- The ways of a ring are in use. -/
theorem RingInv.inUse {chk : List (Way × Bool) → Bool} {s : RingState} (hs : RingInv chk s)
    {r : List Nat} (hr : r ∈ s.rings) : ∀ k ∈ r, ∃ v, s.ways[k]? = some v ∧ 0 ≤ v.used := by
  intro k hk
  obtain ⟨path, h1, -⟩ := hs.good r hr
  have hm : (s.ways.map (·.way))[k]? ∈ path.map (fun p => some p.1) := by
    rw [h1]; exact List.mem_map.2 ⟨k, by simpa using hk, rfl⟩
  obtain ⟨p, -, hp⟩ := List.mem_map.1 hm
  rw [List.getElem?_map] at hp
  obtain ⟨v, hv, -⟩ := Option.map_eq_some_iff.1 hp.symm
  exact ⟨v, hv, (hs.marks k v hv).2 (List.mem_flatten.2 ⟨r, hr, hk⟩)⟩

theorem loopFuel_lt {a b : List WayInfo} (hl : b.length = a.length)
    (h : ∀ (i : Nat) x y, a[i]? = some x → b[i]? = some y → y.used = -1 → x.used = -1) :
    loopFuel b ≤ loopFuel a ∧
      ((∃ (i : Nat) (x y : WayInfo), a[i]? = some x ∧ b[i]? = some y ∧ x.used = -1 ∧ y.used ≠ -1) →
        loopFuel b < loopFuel a) := by
  induction a generalizing b with
  | nil =>
    cases b with
    | nil => simp
    | cons _ _ => simp at hl
  | cons x a ih =>
    cases b with
    | nil => simp at hl
    | cons y b =>
      have hl' : b.length = a.length := by simpa using hl
      obtain ⟨i1, i2⟩ := ih hl' (fun i u v q1 q2 => h (i + 1) u v (by simpa using q1) (by simpa using q2))
      have h0 := h 0 x y (by simp) (by simp)
      simp only [loopFuel, List.countP_cons] at i1 i2 ⊢
      refine ⟨?_, ?_⟩
      · by_cases e : y.used = -1
        · simp [e, h0 e]; omega
        · simp [e]; split <;> omega
      · rintro ⟨i, u, v, q1, q2, q3, q4⟩
        cases i with
        | zero =>
          simp only [List.getElem?_cons_zero, Option.some.injEq] at q1 q2
          subst q1; subst q2
          simp [q3, q4]; omega
        | succ i =>
          have := i2 ⟨i, u, v, by simpa using q1, by simpa using q2, q3, q4⟩
          by_cases e : y.used = -1
          · simp [e, h0 e]; omega
          · simp [e]; split <;> omega

/-- The call starts a chain with the first way still marked -1. -/
theorem chainMarks_start {ways : List WayInfo} {i : Nat} {w : WayInfo} {ring : Int}
    (hw : ways[i]? = some w) (h0 : 0 ≤ ring) (hb : ∀ v ∈ ways, v.used < ring) :
    ChainMarks (ways.set i { w with used := ring, sequence := 0, invert := false }) ring [(i, false)] := by
  have hlt := (List.getElem?_eq_some_iff.1 hw).1
  refine ⟨h0, by simp, ?_, ?_⟩
  · intro k v hk hv
    by_cases e : i = k
    · simp [e]
    · rw [List.getElem?_set_ne e] at hk
      have := hb v (List.mem_of_getElem? hk)
      omega
  · intro j k b hp
    cases j with
    | zero =>
      simp only [List.getElem?_cons_zero, Option.some.injEq, Prod.mk.injEq] at hp
      obtain ⟨rfl, rfl⟩ := hp
      exact ⟨_, List.getElem?_set_self hlt, rfl, rfl, rfl⟩
    | succ j => simp at hp

/-- The chains that the search for one ring can find when it starts with way number `i`. -/
def RingFrom (chk : List (Way × Bool) → Bool) (ways : List WayInfo) (i : Nat) (is : List Nat)
    (path : List (Way × Bool)) : Prop :=
  ∃ w, ways[i]? = some w ∧ ClosingChain ways w.firstnode w.lastnode is path ∧ (i :: is).Nodup ∧
    chk ((w.way, false) :: path) = true

/-- C45: what one search does, for every state that a builder can be in.  It starts with the first
way marked -1.  If some chain of unused ways closes the ring, it finds one, marks its ways and
records their directions; if not, all marks are as before, but for the way it started with, which is
marked -2.  Ways already in use are left as they are. -/
theorem makeOneRing_spec (chk : List (Way × Bool) → Bool) (s : RingState) (hs : RingInv chk s) :
    (∀ w ∈ s.ways, w.used ≠ -1) ∧ makeOneRing chk s = .ok (s, false) ∨
    ∃ i w, s.ways[i]? = some w ∧ w.used = -1 ∧ (∀ k < i, ∀ v ∈ s.ways[k]?, v.used ≠ -1) ∧
      ((∃ is path ways', RingFrom chk s.ways i is path ∧ MarkedBy s.ways ways' s.rings.length (i :: is) ∧
          ringPath ways' (i :: is).reverse = (w.way, false) :: path ∧ Kept s.ways ways' ∧
          makeOneRing chk s = .ok (⟨ways', s.rings ++ [(i :: is).reverse]⟩, true)) ∨
       ((∀ is path, ¬ RingFrom chk s.ways i is path) ∧
          ∃ ways', MarkedBy s.ways ways' (-2) [i] ∧ Kept s.ways ways' ∧ makeOneRing chk s = .ok (⟨ways', s.rings⟩, false))) := by
  cases hf : s.ways.findIdx? (fun w => w.used = -1) with
  | none =>
    left
    refine ⟨?_, by simp [makeOneRing, hf]⟩
    intro w hw
    have := List.findIdx?_eq_none_iff.1 hf w hw
    simpa using this
  | some i =>
    right
    rw [List.findIdx?_eq_some_iff_getElem] at hf
    obtain ⟨hlt, hu, hbefore⟩ := hf
    have hw := List.getElem?_eq_getElem hlt
    generalize s.ways[i] = w at hw hu
    have hu : w.used = -1 := by simpa using hu
    refine ⟨i, w, hw, hu, ?_, ?_⟩
    · intro k hk v hv
      have hk' : k < s.ways.length := by omega
      rw [List.getElem?_eq_getElem hk', Option.mem_some] at hv
      subst hv
      simpa using hbefore k hk
    have hf : s.ways.findIdx? (fun w => w.used = -1) = some i := by
      rw [List.findIdx?_eq_some_iff_getElem]
      refine ⟨hlt, ?_, hbefore⟩
      have := List.getElem?_eq_getElem hlt
      rw [hw] at this
      simp only [Option.some.injEq] at this
      rw [← this]; simpa using hu
    have hcm := chainMarks_start (ring := s.rings.length) hw (by omega) (fun v hv => hs.bound v hv)
    have hdef : makeOneRing chk s =
        match completeRing chk s.rings.length w.firstnode
          (ringFuel (s.ways.set i { w with used := s.rings.length, sequence := 0, invert := false })) 1
          (s.ways.set i { w with used := s.rings.length, sequence := 0, invert := false }) w.lastnode with
        | .error e => .error e
        | .ok (ways', some r) => .ok (⟨ways', s.rings ++ [r ++ [i]]⟩, true)
        | .ok (ways', none) =>
          .ok (⟨ways'.modify i fun x => { x with used := -2 }, s.rings⟩, false) := by
      simp only [makeOneRing, hf, hw]
      rfl
    have hmw : ({ w with used := s.rings.length, sequence := 0, invert := false } : WayInfo).way = w.way := rfl
    have hmu : ({ w with used := s.rings.length, sequence := 0, invert := false } : WayInfo).used = s.rings.length := rfl
    generalize ({ w with used := s.rings.length, sequence := 0, invert := false } : WayInfo) = m at hcm hdef hmw hmu
    have hm0 : 0 ≤ m.used := by omega
    obtain ⟨⟨ways', r⟩, hr, hres⟩ := completeRing_spec chk s.rings.length w.firstnode
      (ringFuel (s.ways.set i m)) (s.ways.set i m) [(i, false)] w.lastnode hcm
      (by simp [ringFuel, freeWays])
    have hr' : completeRing chk s.rings.length w.firstnode (ringFuel (s.ways.set i m)) 1
      (s.ways.set i m) w.lastnode = .ok (ways', r) := hr
    rw [hr'] at hdef
    have epre : ∀ path, preWays (s.ways.set i m) [(i, false)] ++ path = (w.way, false) :: path := by
      intro path
      rw [preWays_set hw hmw]
      simp [preWays, hw]
    cases r with
    | some rs =>
      left
      obtain ⟨is, path, h1, h2, h3, h4, h5, h6, h7⟩ := hres
      rw [closingChain_set hw hmw hm0] at h1
      refine ⟨is, path, ways', ⟨w, hw, h1.1, List.nodup_cons.2 ⟨h1.2, h2⟩, ?_⟩,
        markedBy_cons hw hmw hmu h5, ?_, (kept_set hw (by omega)).trans h7, ?_⟩
      · rw [← epre]; exact h3
      · apply ringPath_marked
        · rw [(markedBy_cons hw hmw hmu h5).1, List.map_cons, List.map_cons, (closingChain_ways h1.1).1]
          simp [hw]
        · intro k b hkb
          have hkb : (k, b) ∈ [(i, false)] ++ is.zip (path.map Prod.snd) := by simpa using hkb
          obtain ⟨j, hj⟩ := List.mem_iff_getElem?.1 hkb
          obtain ⟨v, q1, -, -, q2⟩ := h6.each j k b hj
          exact ⟨v, q1, q2⟩
      · rw [hdef, h4]; simp
    | none =>
      right
      obtain ⟨h1, h2⟩ := hres
      refine ⟨?_, _, ?_, ?_, hdef⟩
      rotate_right
      · intro k v hv hk
        have hne : i ≠ k := by rintro rfl; rw [hw] at hv; cases hv; omega
        rw [List.getElem?_modify, ((kept_set hw (by omega)).trans h1.kept) k v hv hk]
        simp [hne]
      · rintro is path ⟨w', q1, q2, q3, q4⟩
        rw [hw] at q1; cases q1
        have hn := List.nodup_cons.1 q3
        have := h2 is path ((closingChain_set hw hmw hm0).2 ⟨q2, hn.1⟩) hn.2 (by simp)
        rw [epre, q4] at this
        simp at this
      · have hlen : ways'.length = s.ways.length := by rw [h1.length]; simp
        have get : ∀ k, i ≠ k → ∀ (hk : k < s.ways.length), ∃ v, ways'[k]? = some v ∧
            v.way = s.ways[k].way ∧ v.used = s.ways[k].used := by
          intro k hne hk
          have e : (s.ways.set i m)[k]? = some s.ways[k] := by
            rw [List.getElem?_set_ne hne, List.getElem?_eq_getElem hk]
          have e' : ways'[k]? = some (ways'[k]'(by omega)) := List.getElem?_eq_getElem (by omega)
          exact ⟨_, e', h1.way k _ _ e e', h1.used k _ _ e e'⟩
        have geti : ∃ v, ways'[i]? = some v ∧ v.way = w.way := by
          have e : (s.ways.set i m)[i]? = some m := List.getElem?_set_self hlt
          have e' : ways'[i]? = some (ways'[i]'(by omega)) := List.getElem?_eq_getElem (by omega)
          exact ⟨_, e', (h1.way i _ _ e e').trans hmw⟩
        refine ⟨?_, ?_⟩
        · apply List.ext_getElem?
          intro k
          rw [List.getElem?_map, List.getElem?_map, List.getElem?_modify]
          by_cases e : i = k
          · subst e
            obtain ⟨v, q1, q2⟩ := geti
            rw [q1, hw]; simp [q2]
          · by_cases hk : k < s.ways.length
            · obtain ⟨v, q1, q2, -⟩ := get k e hk
              rw [q1, List.getElem?_eq_getElem hk]; simp [e, q2]
            · rw [List.getElem?_eq_none (by omega), List.getElem?_eq_none (by omega)]; simp
        · intro k
          rw [List.getElem?_modify]
          by_cases e : i = k
          · subst e
            obtain ⟨v, q1, q2⟩ := geti
            rw [q1, hw]; simp
          · have e' : ¬ k = i := fun h => e h.symm
            by_cases hk : k < s.ways.length
            · obtain ⟨v, q1, -, q2⟩ := get k e hk
              rw [q1, List.getElem?_eq_getElem hk]; simp [e, e', q2]
            · rw [List.getElem?_eq_none (by omega), List.getElem?_eq_none (by omega)]; simp

theorem cyclic_from {chk : List (Way × Bool) → Bool} {ways : List WayInfo}
    (hne : ∀ w ∈ ways, w.way.nodes ≠ []) {i : Nat} {is : List Nat} {path : List (Way × Bool)}
    (h : RingFrom chk ways i is path) {w : WayInfo} (hw : ways[i]? = some w) :
    CyclicChain ((w.way, false) :: path) := by
  obtain ⟨w', hw', hc, hn, hchk⟩ := h
  rw [hw] at hw'; cases hw'
  have hwn := hne w (List.mem_of_getElem? hw)
  have htr : traverse w w.firstnode = some (w.lastnode, false) := by simp [traverse]
  obtain ⟨e1, e2⟩ := traverse_ends hwn htr
  obtain ⟨c1, c2⟩ := closingChain_cyclic hne hc (w.way, false) e2
  refine ⟨by simp, c1, ?_⟩
  intro a ha b hb
  simp only [List.head?_cons, Option.mem_some] at hb
  subst hb
  rw [c2 a ha, e1]

theorem goodRing_from {chk : List (Way × Bool) → Bool} {ways : List WayInfo}
    (hne : ∀ w ∈ ways, w.way.nodes ≠ []) {i : Nat} {is : List Nat} {path : List (Way × Bool)}
    (h : RingFrom chk ways i is path) : GoodRing chk (ways.map (·.way)) (i :: is).reverse := by
  obtain ⟨w, hw, hc, hn, hchk⟩ := h
  refine ⟨(w.way, false) :: path, ?_, cyclic_from hne ⟨w, hw, hc, hn, hchk⟩ hw, hchk⟩
  rw [List.reverse_reverse]
  simp only [List.map_cons, (closingChain_ways hc).1, List.getElem?_map, hw, Option.map_some]

theorem markedBy_get {a b : List WayInfo} {ring : Int} {is : List Nat} (h : MarkedBy a b ring is) :
    b.length = a.length ∧ ∀ (i : Nat) w, b[i]? = some w → ∃ v, a[i]? = some v ∧ w.way = v.way ∧
      w.used = if i ∈ is then ring else v.used := by
  obtain ⟨h1, h2⟩ := h
  have hl : b.length = a.length := by simpa using congrArg List.length h1
  refine ⟨hl, fun i w hw => ?_⟩
  have hi : i < a.length := by rw [← hl]; exact (List.getElem?_eq_some_iff.1 hw).1
  refine ⟨a[i], List.getElem?_eq_getElem hi, ?_, ?_⟩
  · have := congrArg (fun l => l[i]?) h1
    simp only [List.getElem?_map, hw, List.getElem?_eq_getElem hi, Option.map_some,
      Option.some.injEq] at this
    exact this
  · have := h2 i
    rw [hw, List.getElem?_eq_getElem hi] at this
    split at this
    · rename_i hm; simpa [hm] using this
    · rename_i hm; simpa [hm] using this

/-- One step keeps the invariant, and a successful one uses up a way. -/
theorem makeOneRing_inv (chk : List (Way × Bool) → Bool) (s : RingState) (hs : RingInv chk s) :
    ∃ s' b, makeOneRing chk s = .ok (s', b) ∧ RingInv chk s' ∧
      s'.ways.map (·.way) = s.ways.map (·.way) ∧ s.rings <+: s'.rings ∧
      (b = true → loopFuel s'.ways < loopFuel s.ways) := by
  rcases makeOneRing_spec chk s hs with ⟨-, h⟩ | ⟨i, w, hw, hu, -, ⟨is, path, ways', hrf, hmk, hpath, hkept, h⟩ | ⟨-, ways', hmk, hkept, h⟩⟩
  · exact ⟨s, false, h, hs, rfl, List.prefix_refl _, by simp⟩
  · obtain ⟨hl, hget⟩ := markedBy_get hmk
    have hgood := goodRing_from hs.nodes hrf
    have hcyc := cyclic_from hs.nodes hrf hw
    obtain ⟨w', hw', hc, hn, hchk⟩ := hrf
    rw [hw] at hw'; cases hw'
    have hfree := (closingChain_ways hc).2
    have hfree' : ∀ k ∈ i :: is, k ∉ s.rings.flatten := by
      intro k hk hm
      simp only [List.mem_cons] at hk
      rcases hk with rfl | hk
      · have := (hs.marks k w hw).2 hm; omega
      · obtain ⟨v, q1, q2⟩ := hfree k hk
        have := (hs.marks k v q1).2 hm; omega
    have hl0 : (0 : Int) ≤ s.rings.length := by omega
    refine ⟨_, true, h, ⟨?_, ?_, ?_, ?_, ?_, ?_⟩, hmk.1, List.prefix_append _ _, fun _ => ?_⟩
    · intro v hv
      obtain ⟨k, hk⟩ := List.mem_iff_getElem?.1 hv
      obtain ⟨u, q1, q2, -⟩ := hget k v hk
      rw [q2]; exact hs.nodes u (List.mem_of_getElem? q1)
    · simp only [List.flatten_append, List.flatten_cons, List.flatten_nil, List.append_nil]
      rw [List.nodup_append]
      refine ⟨hs.once, List.nodup_reverse.2 hn, ?_⟩
      intro a ha b hb e
      subst e
      exact hfree' a (List.mem_reverse.1 hb) ha
    · intro k v hk
      obtain ⟨u, q1, q2, q3⟩ := hget k v hk
      rw [q3]
      simp only [List.flatten_append, List.flatten_cons, List.flatten_nil, List.append_nil,
        List.mem_append, List.mem_reverse]
      by_cases hm : k ∈ i :: is
      · rw [if_pos hm]; exact ⟨fun _ => Or.inr hm, fun _ => hl0⟩
      · rw [if_neg hm, hs.marks k u q1]
        constructor
        · exact Or.inl
        · rintro (h | h)
          · exact h
          · exact absurd h hm
    · intro v hv
      obtain ⟨k, hk⟩ := List.mem_iff_getElem?.1 hv
      obtain ⟨u, q1, q2, q3⟩ := hget k v hk
      have := hs.bound u (List.mem_of_getElem? q1)
      rw [q3]
      simp only [List.length_append, List.length_cons, List.length_nil]
      split <;> push_cast <;> omega
    · intro r hr
      show GoodRing chk (ways'.map (·.way)) r
      rw [hmk.1]
      simp only [List.mem_append, List.mem_singleton] at hr
      rcases hr with hr | rfl
      · exact hs.good r hr
      · exact hgood
    · intro r hr
      show CyclicChain (ringPath ways' r) ∧ chk (ringPath ways' r) = true
      simp only [List.mem_append, List.mem_singleton] at hr
      rcases hr with hr | rfl
      · rw [ringPath_kept hkept (hs.inUse hr)]
        exact hs.path r hr
      · rw [hpath]
        exact ⟨hcyc, hchk⟩
    · apply (loopFuel_lt hl ?_).2
      · have hi : i < ways'.length := by rw [hl]; exact (List.getElem?_eq_some_iff.1 hw).1
        refine ⟨i, w, _, hw, List.getElem?_eq_getElem hi, hu, ?_⟩
        obtain ⟨u, q1, q2, q3⟩ := hget i _ (List.getElem?_eq_getElem hi)
        simp at q3
        rw [q3]; omega
      · intro k x y hx hy hy1
        obtain ⟨u, q1, q2, q3⟩ := hget k y hy
        rw [hx] at q1; cases q1
        rw [q3] at hy1
        split at hy1
        · omega
        · exact hy1
  · obtain ⟨hl, hget⟩ := markedBy_get hmk
    refine ⟨_, false, h, ⟨?_, hs.once, ?_, ?_, ?_, ?_⟩, hmk.1, List.prefix_refl _, by simp⟩
    · intro v hv
      obtain ⟨k, hk⟩ := List.mem_iff_getElem?.1 hv
      obtain ⟨u, q1, q2, -⟩ := hget k v hk
      rw [q2]; exact hs.nodes u (List.mem_of_getElem? q1)
    · intro k v hk
      obtain ⟨u, q1, q2, q3⟩ := hget k v hk
      rw [← hs.marks k u q1, q3]
      by_cases e : k = i
      · subst e
        rw [hw] at q1; cases q1
        simp [hu]
      · simp [e]
    · intro v hv
      obtain ⟨k, hk⟩ := List.mem_iff_getElem?.1 hv
      obtain ⟨u, q1, q2, q3⟩ := hget k v hk
      have := hs.bound u (List.mem_of_getElem? q1)
      rw [q3]
      show (if k ∈ [i] then (-2 : Int) else u.used) < s.rings.length
      split <;> omega
    · intro r hr
      show GoodRing chk (ways'.map (·.way)) r
      rw [hmk.1]
      exact hs.good r hr
    · intro r hr
      show CyclicChain (ringPath ways' r) ∧ chk (ringPath ways' r) = true
      rw [ringPath_kept hkept (hs.inUse hr)]
      exact hs.path r hr

theorem ringLoop_inv (chk : List (Way × Bool) → Bool) (fuel : Nat) :
    ∀ s : RingState, RingInv chk s → loopFuel s.ways ≤ fuel →
      ∃ s', ringLoop chk fuel s = .ok s' ∧ RingInv chk s' ∧
        s'.ways.map (·.way) = s.ways.map (·.way) ∧ s.rings <+: s'.rings := by
  induction fuel with
  | zero => intro s _ h; simp [loopFuel] at h
  | succ fuel ih =>
    intro s hs hf
    obtain ⟨s', b, h1, h2, h3, h4, h5⟩ := makeOneRing_inv chk s hs
    unfold ringLoop
    rw [h1]
    cases b with
    | false => exact ⟨s', rfl, h2, h3, h4⟩
    | true =>
      have := h5 rfl
      obtain ⟨s'', q1, q2, q3, q4⟩ := ih s' h2 (by omega)
      exact ⟨s'', q1, q2, q3.trans h3, h4.trans q4⟩

end Osmium

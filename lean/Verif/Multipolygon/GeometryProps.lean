import Verif.Multipolygon.MemoryProps

/-
C76, C77: the theorems.
-/
namespace Osmium
open Spec

/-- What is left, and what the areas own, in any case. -/
structure BuildPost (g : MpGeos) (rings : List Coords) (extra outer : List Nat) (inner : Nat → List Nat)
    (res : Except Fail Unit) (m : MpMem) : Prop where
  ex : ∃ R A D L, MpInv g m R (A ++ (D ++ L)) ∧ Diffs D ∧ m.areas ++ m.result.toList = A.map Prod.fst ∧
    m.areas.map (fun i => m.cells.lookup i) =
      (extra.filterMap fun j => rings[j]?).map (fun c => some (Geom.multi [polygonOf g c []])) ∧
    (res ≠ .error (.exn "GEOSException") → L = []) ∧
    (AllQuiet g inner (fun k => rings[k]?) outer → D = []) ∧
    (res = .ok () → D = [] → AllQuiet g inner (fun k => rings[k]?) outer) ∧
    ((res = .ok () ∧ ∃ ps last mp, Polygons g inner (fun k => rings[k]?) outer ps last ∧ ps ≠ [] ∧
        g.multiMakes ps = true ∧ g.multiValid ps = some true ∧ m.result = some mp ∧
        m.cells.lookup mp = some (.multi ps)) ∨
     (m.result = none ∧
      ((res = .error (.exn "no rings") ∧ outer = []) ∨
       (res = .error (.exn "invalid ring") ∧ BadPolygon g inner (fun k => rings[k]?) outer) ∨
       (res = .error (.exn "multipolygon invalid") ∧ ∃ ps last,
          Polygons g inner (fun k => rings[k]?) outer ps last ∧ ps ≠ [] ∧
          (g.multiMakes ps = false ∨ g.multiValid ps = some false)) ∨
       (res = .error (.exn "GEOSException") ∧
          (¬ AllQuiet g inner (fun k => rings[k]?) outer ∧ ThrowsAt g inner (fun k => rings[k]?) outer ∨
           ∃ ps last, Polygons g inner (fun k => rings[k]?) outer ps last ∧ ps ≠ [] ∧
            g.multiMakes ps = true ∧ g.multiValid ps = none)))))

theorem Spec.Polygons.length {g : MpGeos} {inner : Nat → List Nat} {cur last : Nat → Option Coords} {is : List Nat}
    {ps : List (Coords × List Coords)} (h : Polygons g inner cur is ps last) : ps.length = is.length := by
  induction h with
  | nil => rfl
  | cons _ _ _ _ ih => simp [ih]

theorem lookups_owns {m : MpMem} {F : List (Nat × Geom)} (h : Owns m F) {A : List (Nat × Geom)}
    (hA : ∀ c ∈ A, c ∈ F) : (A.map Prod.fst).map (fun i => m.cells.lookup i) = A.map (some ·.2) := by
  rw [List.map_map]
  exact List.map_congr_left fun c hc => h.lookup (hA c hc)

theorem buildGeometry_post {g : MpGeos} {rings : List Coords} {extra outer : List Nat}
    {inner : Nat → List Nat} (ha : Arranged rings.length extra outer inner) :
    ∃ res m, buildGeometry g rings extra outer inner .start = (res, m) ∧
      BuildPost g rings extra outer inner res m := by
  have hstart : MpInv g .start [] [] := ⟨rfl, by simp, ⟨List.Perm.refl _, by simp [ringCells], by simp [ringCells]⟩⟩
  obtain ⟨m1, R, e1, i1, a1, r1, c1⟩ := allocRings_inv rings _ _ _ hstart
  rw [List.nil_append] at i1
  have hlen : R.length = rings.length := by simpa using congrArg List.length c1
  have hcur : curOf R = fun k => rings[k]? := by
    funext k
    have := congrArg (fun l => l[k]?) c1
    simp only [List.getElem?_map] at this
    unfold curOf
    cases hR : R[k]? <;> cases hr : rings[k]? <;> simp [hR, hr] at this ⊢
    exact this
  have hsome : ∀ k, k < rings.length → (curOf R k).isSome := by
    intro k hk
    rw [hcur]
    simp [hk]
  obtain ⟨m2, A, e2, i2, a2, r2, c2⟩ := extraAreas_inv extra m1 [] i1 fun j hj => hsome j (ha.extra_lt j hj)
  rw [List.append_nil] at i2
  obtain ⟨m3, v, e3, i3, r3⟩ := alloc_inv i2 (.vec [])
  obtain ⟨m4, R4, D, hD, a4, r4, q4, d4, h4⟩ := outerPolygons_inv (g := g) (v := v) (inner := inner) outer m3 R [] A i3
    ha.nodup (by rw [hlen]; exact ha.inner_lt) (by rw [hlen]; exact ha.outer_lt) ha.apart
    (fun i hi => hsome i (ha.outer_lt i hi))
  have hb : buildGeometry g rings extra outer inner .start =
      (outerPolygons g v inner outer >>= fun _ => finishMulti g v) m3 := by
    unfold buildGeometry buildMultipolygon
    rw [Mem.bind_ok e1, Mem.bind_ok e2, Mem.bind_ok e3]
  rw [hb]
  have hareas : m3.areas = A.map Prod.fst := by rw [r3.2.1, a2, a1]; rfl
  have hres : m3.result = none := by rw [r3.2.2, r2, r1]; rfl
  have look : ∀ {m : MpMem} {R' : List (Option GRing × Bool)} {F : List (Nat × Geom)}, MpInv g m R' F →
      (∀ c ∈ A, c ∈ F) → m.areas = A.map Prod.fst → m.areas.map (fun i => m.cells.lookup i) =
      (extra.filterMap fun j => rings[j]?).map (fun c => some (Geom.multi [polygonOf g c []])) := by
    intro m R' F hi hA hm
    rw [hm, lookups_owns hi.owns fun c hc => List.mem_append_right _ (hA c hc)]
    have := congrArg (List.map some) c2
    rw [List.map_map, List.map_map, hcur] at this
    exact this
  rw [hcur] at q4 d4
  rcases h4 with ⟨new, e, i, hp⟩ | ⟨e, i, hbad⟩ | ⟨new, e, i, hnq, ht⟩
  · rw [Mem.bind_ok e]
    rw [List.nil_append] at i
    rw [hcur] at hp
    obtain ⟨m5, a5, h5⟩ := finishMulti_inv i
    have d4' : D = [] → AllQuiet g inner (fun k => rings[k]?) outer := d4 (by rw [e])
    have areas5 : m5.areas = A.map Prod.fst := by rw [a5, a4, hareas]
    have q4' : AllQuiet g inner (fun k => rings[k]?) outer → D = [] := fun h => (q4 h).1
    rcases h5 with ⟨mp, e5, i5, r5, hne, hm, hv⟩ | ⟨e5, i5, r5, hnil⟩ | ⟨e5, i5, r5, hne, hm⟩ |
      ⟨mp, e5, i5, r5, hne, hm, hv⟩
    · refine ⟨_, _, e5, ⟨R4, A ++ [(mp, .multi (new.map Prod.snd))], D, [], i5.perm ?_, hD, ?_, ?_, fun _ => rfl, q4', fun _ => d4',
        .inl ⟨rfl, new.map Prod.snd, _, mp, hp, hne, hm, hv, r5, ?_⟩⟩⟩
      · exact List.perm_iff_count.2 fun a => by
          simp only [List.count_cons, List.count_append, List.count_nil]; omega
      · rw [areas5, r5]; simp
      · exact look i5 (fun c hc => by simp [hc]) areas5
      · exact i5.owns.lookup (List.mem_append_right _ (by simp))
    · refine ⟨_, _, e5, ⟨R4, A, D, [], i5.perm ?_, hD, ?_, ?_, fun _ => rfl, q4', fun _ => d4',
        .inr ⟨by rw [r5, r4, hres], .inl ⟨rfl, ?_⟩⟩⟩⟩
      · rw [List.append_nil]; exact List.perm_append_comm
      · rw [areas5, r5, r4, hres]; simp
      · exact look i5 (fun c hc => by simp [hc]) areas5
      · have hl := Polygons.length hp
        rw [hnil] at hl
        exact List.length_eq_zero_iff.1 hl.symm
    · refine ⟨_, _, e5, ⟨R4, A, D, [], i5.perm ?_, hD, ?_, ?_, fun _ => rfl, q4', fun _ => d4',
        .inr ⟨by rw [r5, r4, hres], .inr (.inr (.inl ⟨rfl, _, _, hp, hne, hm⟩))⟩⟩⟩
      · rw [List.append_nil]; exact List.perm_append_comm
      · rw [areas5, r5, r4, hres]; simp
      · exact look i5 (fun c hc => by simp [hc]) areas5
    · refine ⟨_, _, e5, ⟨R4, A, D, [(mp, .multi (new.map Prod.snd))], i5.perm ?_, hD, ?_, ?_, fun h => absurd rfl h, q4', nofun,
        .inr ⟨by rw [r5, r4, hres], .inr (.inr (.inr ⟨rfl, .inr ⟨_, _, hp, hne, hm, hv⟩⟩))⟩⟩⟩
      · exact List.perm_iff_count.2 fun a => by
          simp only [List.count_cons, List.count_append, List.count_nil]; omega
      · rw [areas5, r5, r4, hres]; simp
      · exact look i5 (fun c hc => by simp [hc]) areas5
  · rw [Mem.bind_err e]
    rw [hcur] at hbad
    refine ⟨_, _, rfl, ⟨R4, A, D, [], i.perm ?_, hD, ?_, ?_, fun _ => rfl, fun h => (q4 h).1, nofun,
      .inr ⟨by rw [r4, hres], .inr (.inl ⟨rfl, hbad⟩)⟩⟩⟩
    · rw [List.append_nil]; exact List.perm_append_comm
    · rw [a4, hareas, r4, hres]; simp
    · exact look i (fun c hc => by simp [hc]) (by rw [a4, hareas])
  · rw [Mem.bind_err e]
    rw [hcur] at hnq ht
    refine ⟨_, _, rfl, ⟨R4, A, D, (v, .vec (([] ++ new).map Prod.fst)) :: polyObjs ([] ++ new), i.perm ?_, hD, ?_, ?_,
      fun h => absurd rfl h, fun h => (q4 h).1, nofun,
      .inr ⟨by rw [r4, hres], .inr (.inr (.inr ⟨rfl, .inl ⟨hnq, ht⟩⟩))⟩⟩⟩
    · unfold loopObjs
      exact List.perm_iff_count.2 fun a => by
        simp only [List.count_cons, List.count_append]; omega
    · rw [a4, hareas, r4, hres]; simp
    · exact look i (fun c hc => by simp [loopObjs, hc]) (by rw [a4, hareas])

/-! ### C76: the geometries -/

/-- If the builder succeeds, the geometry of the area is the multipolygon of the polygons of the outer
rings with their (merged) inner rings, each of them valid, and so is the multipolygon; and every inner
ring that is a feature of its own has an area with exactly this ring as outline. -/
theorem multipolygon_geometry {g : MpGeos} {rings : List Coords} {extra outer : List Nat}
    {inner : Nat → List Nat} (ha : Arranged rings.length extra outer inner) {m : MpMem}
    (h : buildGeometry g rings extra outer inner .start = (.ok (), m)) :
    (∃ ps last mp, Polygons g inner (fun k => rings[k]?) outer ps last ∧ ps ≠ [] ∧
      g.multiMakes ps = true ∧ g.multiValid ps = some true ∧
      m.result = some mp ∧ m.cells.lookup mp = some (.multi ps)) ∧
    m.areas.map (fun i => m.cells.lookup i) =
      (extra.filterMap fun j => rings[j]?).map (fun c => some (Geom.multi [polygonOf g c []])) := by
  obtain ⟨res, m', e, ⟨R, A, D, L, -, -, -, hl, -, -, -, hc⟩⟩ := buildGeometry_post (g := g) ha
  rw [h] at e
  cases e
  rcases hc with ⟨-, hc⟩ | ⟨-, ⟨h1, -⟩ | ⟨h1, -⟩ | ⟨h1, -⟩ | ⟨h1, -⟩⟩
  · exact ⟨hc, hl⟩
  all_goals cases h1

/-- If the builder does not succeed, this is why. -/
theorem multipolygon_failure {g : MpGeos} {rings : List Coords} {extra outer : List Nat}
    {inner : Nat → List Nat} (ha : Arranged rings.length extra outer inner) {m : MpMem} {e : Fail}
    (h : buildGeometry g rings extra outer inner .start = (.error e, m)) :
    m.result = none ∧
    ((e = .exn "no rings" ∧ outer = []) ∨
     (e = .exn "invalid ring" ∧ BadPolygon g inner (fun k => rings[k]?) outer) ∨
     (e = .exn "multipolygon invalid" ∧ ∃ ps last, Polygons g inner (fun k => rings[k]?) outer ps last ∧
        ps ≠ [] ∧ (g.multiMakes ps = false ∨ g.multiValid ps = some false)) ∨
     (e = .exn "GEOSException" ∧ (ThrowsAt g inner (fun k => rings[k]?) outer ∨
        ∃ ps last, Polygons g inner (fun k => rings[k]?) outer ps last ∧ ps ≠ [] ∧
          g.multiMakes ps = true ∧ g.multiValid ps = none))) := by
  obtain ⟨res, m', e', ⟨R, A, D, L, -, -, -, -, -, -, -, hc⟩⟩ := buildGeometry_post (g := g) ha
  rw [h] at e'
  cases e'
  rcases hc with ⟨h1, -⟩ | ⟨hr, ⟨h1, h2⟩ | ⟨h1, h2⟩ | ⟨h1, h2⟩ | ⟨h1, h2⟩⟩
  · cases h1
  · cases h1; exact ⟨hr, .inl ⟨rfl, h2⟩⟩
  · cases h1; exact ⟨hr, .inr (.inl ⟨rfl, h2⟩)⟩
  · cases h1; exact ⟨hr, .inr (.inr (.inl ⟨rfl, h2⟩))⟩
  · cases h1; exact ⟨hr, .inr (.inr (.inr ⟨rfl, h2.imp And.right id⟩))⟩

theorem Spec.Merges.quiet {g : MpGeos} {inner : List Nat} {a b : Nat → Option Coords} (h : Merges g inner a b)
    (hq : Quiet g inner a) : b = a := by
  cases h with
  | done => rfl
  | step hs _ =>
    obtain ⟨j, k, p, hsub, ⟨x, y, hs, hx, hy, ht, -⟩, -⟩ := hs
    exact absurd ht (hq j k x y hsub hx hy)

/-- The polygons when no inner rings touch. -/
def Spec.plainPolygons (g : MpGeos) (rings : List Coords) (outer : List Nat) (inner : Nat → List Nat) :
    List (Coords × List Coords) :=
  outer.filterMap fun i => (rings[i]?).map fun c => polygonOf g c ((inner i).filterMap fun j => rings[j]?)

theorem Spec.Polygons.quiet {g : MpGeos} {inner : Nat → List Nat} {rings : List Coords} {outer : List Nat}
    {ps : List (Coords × List Coords)} {last : Nat → Option Coords}
    (h : Polygons g inner (fun k => rings[k]?) outer ps last)
    (hq : AllQuiet g inner (fun k => rings[k]?) outer) :
    ps = plainPolygons g rings outer inner ∧ last = (fun k => rings[k]?) ∧ ∀ p ∈ ps, Good g p := by
  generalize hcur : (fun k : Nat => rings[k]?) = cur at h
  induction h with
  | nil => exact ⟨rfl, rfl, by simp⟩
  | cons hm hs hg _ ih =>
    subst hcur
    have := hm.1.quiet (hq _ (by simp))
    subst this
    obtain ⟨h1, h2, h3⟩ := ih (fun i hi => hq i (by simp [hi])) rfl
    refine ⟨?_, h2, ?_⟩
    · unfold plainPolygons at h1 ⊢
      simp only at hs
      rw [List.filterMap_cons, hs, h1]; rfl
    · intro p hp
      rcases List.mem_cons.1 hp with rfl | hp
      · exact hg
      · exact h3 p hp

/-- If no two inner rings of one outer ring touch along a line, the builder succeeds exactly if there is an outer
ring, all polygons (outer ring clockwise, its inner rings counterclockwise) are valid and the
multipolygon of them is valid; and this is the geometry. -/
theorem multipolygon_of_rings {g : MpGeos} {rings : List Coords} {extra outer : List Nat}
    {inner : Nat → List Nat} (ha : Arranged rings.length extra outer inner)
    (hq : AllQuiet g inner (fun k => rings[k]?) outer) (m : MpMem) :
    buildGeometry g rings extra outer inner .start = (.ok (), m) →
      ∃ mp, m.result = some mp ∧ m.cells.lookup mp = some (.multi (plainPolygons g rings outer inner)) := by
  intro h
  obtain ⟨⟨ps, last, mp, hp, -, -, -, hr, hl⟩, -⟩ := multipolygon_geometry ha h
  obtain ⟨rfl, -, -⟩ := hp.quiet hq
  exact ⟨mp, hr, hl⟩

theorem multipolygon_succeeds_iff {g : MpGeos} {rings : List Coords} {extra outer : List Nat}
    {inner : Nat → List Nat} (ha : Arranged rings.length extra outer inner)
    (hq : AllQuiet g inner (fun k => rings[k]?) outer) :
    (buildGeometry g rings extra outer inner .start).1 = .ok () ↔
      outer ≠ [] ∧ (∀ p ∈ plainPolygons g rings outer inner, Good g p) ∧
      g.multiMakes (plainPolygons g rings outer inner) = true ∧
      g.multiValid (plainPolygons g rings outer inner) = some true := by
  constructor
  · intro h
    obtain ⟨⟨ps, last, mp, hp, hne, hm, hv, -⟩, -⟩ := multipolygon_geometry ha (m := (buildGeometry g rings extra outer inner .start).2)
      (Prod.ext h rfl)
    obtain ⟨rfl, -, hg⟩ := hp.quiet hq
    refine ⟨?_, hg, hm, hv⟩
    rintro rfl
    exact hne rfl
  · rintro ⟨hne, hg, hm, hv⟩
    cases hb : buildGeometry g rings extra outer inner .start with
    | mk res m =>
      cases res with
      | ok _ => rfl
      | error e =>
        exfalso
        obtain ⟨-, h⟩ := multipolygon_failure ha hb
        rcases h with ⟨-, h⟩ | ⟨-, is, i, is', ps, c1, c2, shell, rfl, hp, hmg, hs, hbad⟩ | ⟨-, ps, last, hp, -, h⟩ | ⟨-, h | ⟨ps, last, hp, -, -, h⟩⟩
        · exact hne h
        · obtain ⟨-, rfl, -⟩ := hp.quiet fun x hx => hq x (by simp [hx])
          have := hmg.1.quiet (hq i (by simp))
          subst this
          refine hbad (hg _ ?_)
          unfold plainPolygons
          refine List.mem_filterMap.2 ⟨i, by simp, ?_⟩
          simp only at hs
          rw [hs]; rfl
        · obtain ⟨rfl, -, -⟩ := hp.quiet hq
          rcases h with h | h
          · rw [hm] at h; cases h
          · rw [hv] at h; cases h
        · obtain ⟨is, i, is', ps, c1, c2, rfl, hp, hmg, j, k, x, y, hs, hx, hy, ht, -⟩ := h
          obtain ⟨-, rfl, -⟩ := hp.quiet fun x hx => hq x (by simp [hx])
          have := hmg.quiet (hq i (by simp))
          subst this
          exact hq i (by simp) j k x y hs hx hy ht
        · obtain ⟨rfl, -, -⟩ := hp.quiet hq
          rw [hv] at h; cases h

/-- The direction of the rings: outer rings clockwise, inner rings counterclockwise (except for rings
for which GEOS gives the same answer for both ways to walk them). -/
theorem polygons_directed {g : MpGeos} {inner : Nat → List Nat} {cur last : Nat → Option Coords} {is : List Nat}
    {ps : List (Coords × List Coords)} (h : Polygons g inner cur is ps last) :
    ∀ p ∈ ps, (g.ccw p.1 = false ∨ g.ccw p.1 = g.ccw p.1.reverse) ∧
      ∀ c ∈ p.2, g.ccw c = true ∨ g.ccw c = g.ccw c.reverse := by
  have key : ∀ (b : Bool) (c : Coords), g.ccw (turn g b c) = b ∨ g.ccw (turn g b c) = g.ccw (turn g b c).reverse := by
    intro b c
    unfold turn
    by_cases hc : g.ccw c = b
    · rw [if_pos hc]; exact .inl hc
    · rw [if_neg hc, List.reverse_reverse]
      cases h1 : g.ccw c <;> cases h2 : g.ccw c.reverse <;> cases b <;> simp_all
  induction h with
  | nil => simp
  | cons _ _ _ _ ih =>
    intro p hp
    rcases List.mem_cons.1 hp with rfl | hp
    · refine ⟨key false _, ?_⟩
      intro c hc
      obtain ⟨c', -, rfl⟩ := List.mem_map.1 hc
      exact key true _
    · exact ih p hp

/-! ### C77: the objects -/

/-- Whatever GEOS answers, the builder never uses an object that it has deleted or given away (this
would be undefined behaviour): it succeeds or throws one of four exceptions. -/
theorem builder_defined {g : MpGeos} {rings : List Coords} {extra outer : List Nat}
    {inner : Nat → List Nat} (ha : Arranged rings.length extra outer inner) :
    (buildGeometry g rings extra outer inner .start).1 ∈
      [.ok (), .error (.exn "no rings"), .error (.exn "invalid ring"), .error (.exn "multipolygon invalid"),
       .error (.exn "GEOSException")] := by
  cases hb : buildGeometry g rings extra outer inner .start with
  | mk res m =>
    cases res with
    | ok _ => simp
    | error e =>
      obtain ⟨-, h⟩ := multipolygon_failure ha hb
      rcases h with ⟨rfl, -⟩ | ⟨rfl, -⟩ | ⟨rfl, -⟩ | ⟨rfl, -⟩ <;> simp

theorem destroyAll_inv {g : MpGeos} {m : MpMem} {R : List (Option GRing × Bool)} {A F : List (Nat × Geom)}
    (h : MpInv g m R (A ++ F)) (ha : m.areas ++ m.result.toList = A.map Prod.fst) :
    ∃ m', destroyAll m = (.ok (), m') ∧ m'.cells.Perm F := by
  have o : Owns m ((ringCells R ++ A) ++ F) := by rw [List.append_assoc]; exact h.owns
  obtain ⟨m', e, o', -⟩ := deleteAll_owns o
  refine ⟨m', ?_, o'.perm⟩
  have : m.rings.filterMap (·.polygon) = (ringCells R).map Prod.fst := by
    rw [h.rings]
    unfold ringCells
    rw [List.filterMap_map, List.map_filterMap]
    congr 1
    funext x
    cases hx : x.1 <;> simp [hx]
  unfold destroyAll
  rw [this, List.append_assoc, ha, ← List.map_append, e]

/-- Afterwards the rings and the areas can be destroyed: no object is deleted twice, neither after
success nor after an exception.  Unless GEOS has thrown, only symmetric differences of touching inner rings
are left over, and nothing at all if no two inner rings of one outer ring touch along a line. -/
theorem objects_deleted_once {g : MpGeos} {rings : List Coords} {extra outer : List Nat}
    {inner : Nat → List Nat} (ha : Arranged rings.length extra outer inner) :
    ∃ m', destroyAll (buildGeometry g rings extra outer inner .start).2 = (.ok (), m') ∧
      ((buildGeometry g rings extra outer inner .start).1 ≠ .error (.exn "GEOSException") →
        Diffs m'.cells ∧ (AllQuiet g inner (fun k => rings[k]?) outer → m'.cells = [])) := by
  obtain ⟨res, m, e, ⟨R, A, D, L, hi, hD, hA, -, hL, hq, -, -⟩⟩ := buildGeometry_post (g := g) ha
  rw [e]
  obtain ⟨m', e', hp⟩ := destroyAll_inv hi hA
  refine ⟨m', e', fun hne => ?_⟩
  rw [hL hne, List.append_nil] at hp
  refine ⟨fun c hc => hD c (hp.mem_iff.1 hc), fun h => ?_⟩
  rw [hq h] at hp
  exact hp.eq_nil

/-- Disagreement: after a successful build something is left over (leaked) whenever two inner rings of one
outer ring touch along a line, and only then. -/
theorem leak_iff_touching {g : MpGeos} {rings : List Coords} {extra outer : List Nat}
    {inner : Nat → List Nat} (ha : Arranged rings.length extra outer inner) {m : MpMem}
    (h : buildGeometry g rings extra outer inner .start = (.ok (), m)) :
    ∃ m', destroyAll m = (.ok (), m') ∧
      (m'.cells = [] ↔ AllQuiet g inner (fun k => rings[k]?) outer) := by
  obtain ⟨res, m', e, ⟨R, A, D, L, hi, hD, hA, -, hL, hq, hq', -⟩⟩ := buildGeometry_post (g := g) ha
  rw [h] at e
  cases e
  obtain ⟨m', e', hp⟩ := destroyAll_inv hi hA
  refine ⟨m', e', ?_⟩
  rw [hL (by simp), List.append_nil] at hp
  constructor
  · intro h
    rw [h] at hp
    exact hq' rfl hp.nil_eq.symm
  · intro h
    rw [hq h] at hp
    exact hp.eq_nil

/-! ### Examples -/

/-- Equality of outcomes is decidable. -/
instance decEqOutcome : DecidableEq (Except Fail Unit)
  | .ok _, .ok _ => .isTrue rfl
  | .error a, .error b => if h : a = b then .isTrue (h ▸ rfl) else .isFalse fun e => h (Except.error.inj e)
  | .ok _, .error _ => .isFalse nofun
  | .error _, .ok _ => .isFalse nofun

/-- A square with this corner. -/
def square (x y size : Int) : Coords := [⟨x, y⟩, ⟨x + size, y⟩, ⟨x + size, y + size⟩, ⟨x, y + size⟩, ⟨x, y⟩]

/-- A GEOS that knows about the direction of any ring (by the area) and about squares side by side, of
side length 2: it can make the union, except for squares that begin at coordinate 50. -/
def squareGeos (throws : Bool) : MpGeos where
  ccw c := decide (0 < ((c.zip (c.drop 1)).map fun q => q.1.x * q.2.y - q.2.x * q.1.y).sum)
  touch a b := match a, b with
    | p :: _, q :: _ => if p.y = q.y ∧ p.x + 2 = q.x then .line else if p.x = q.x then .other else .apart
    | _, _ => .apart
  polygonize a b := if throws then none else match a, b with
    | p :: _, q :: _ => if p.y = 50 then some (some []) else
        some (some [([p, ⟨q.x + 2, p.y⟩, ⟨q.x + 2, p.y + 2⟩, ⟨p.x, p.y + 2⟩, p], [])])
    | _, _ => some none
  polygonMakes _ _ := true
  polygonValid _ _ := some true
  multiMakes _ := true
  multiValid _ := some true

/-- The big square has two small squares in it, side by side; another big one has none. -/
def squareRings : List Coords := [square 0 0 100, square 10 10 2, square 12 10 2, square 200 0 10]

/-- The inner rings of these. -/
def squareInner : Nat → List Nat := fun i => if i = 0 then [1, 2] else []

theorem squares_arranged : Arranged squareRings.length [2] [0, 3] squareInner := by
  constructor <;> decide

/-- Touching squares: the two inner rings become one hole, the extra area has the original ring, and
the symmetric difference is left over. -/
example : let r := buildGeometry (squareGeos false) squareRings [2] [0, 3] squareInner .start
    r.1 = .ok () ∧
    r.2.result.bind (fun i => r.2.cells.lookup i) = some (.multi
      [((square 0 0 100).reverse, [[⟨10, 10⟩, ⟨14, 10⟩, ⟨14, 12⟩, ⟨10, 12⟩, ⟨10, 10⟩]]),
       ((square 200 0 10).reverse, [])]) ∧
    r.2.areas.map (fun i => r.2.cells.lookup i) = [some (.multi [((square 12 10 2).reverse, [])])] ∧
    (destroyAll r.2).2.cells.map Prod.snd = [.diff (square 10 10 2) (square 12 10 2)] := by
  decide +kernel

/-- Without touching squares: the hypotheses of `multipolygon_of_rings` are met and nothing is left over. -/
example : let rings := [square 0 0 100, square 10 10 2, square 22 10 2, square 200 0 10]
    let r := buildGeometry (squareGeos false) rings [2] [0, 3] squareInner .start
    Arranged rings.length [2] [0, 3] squareInner ∧ AllQuiet (squareGeos false) squareInner (fun k => rings[k]?) [0, 3] ∧
    r.1 = .ok () ∧ (destroyAll r.2).2.cells = [] ∧
    plainPolygons (squareGeos false) rings [0, 3] squareInner =
      [((square 0 0 100).reverse, [square 10 10 2, square 22 10 2]), ((square 200 0 10).reverse, [])] := by
  refine ⟨by constructor <;> decide, ?_, by decide +kernel⟩
  intro i hi j k x y hs hx hy
  rcases List.mem_cons.1 hi with rfl | hi
  · have := ringPairs_iff.2 hs
    have h2 : (j, k) = (1, 2) := by simpa [ringPairs, squareInner] using this
    cases h2
    cases hx; cases hy
    decide
  · rw [List.mem_singleton.1 hi] at hs
    exact absurd hs (by simp [squareInner])

/-- Disagreement: two inner rings that touch along a line and have a union are not merged if an earlier
pair of touching inner rings has no union with one outline. -/
theorem merging_stops : ∃ (g : MpGeos) (rings : List Coords) (inner : Nat → List Nat),
    Arranged rings.length [] [0] inner ∧
    (∃ p, UnionIs g (fun k => rings[k]?) 3 4 p) ∧ [3, 4].Sublist (inner 0) ∧
    let r := buildGeometry g rings [] [0] inner .start
    r.1 = .ok () ∧ r.2.result.bind (fun i => r.2.cells.lookup i) =
      some (.multi [polygonOf g (square 0 0 100)
        [square 10 50 2, square 12 50 2, square 10 10 2, square 12 10 2]]) := by
  refine ⟨squareGeos false, [square 0 0 100, square 10 50 2, square 12 50 2, square 10 10 2, square 12 10 2],
    fun i => if i = 0 then [1, 2, 3, 4] else [], by constructor <;> decide, ?_, by decide, by decide +kernel⟩
  exact ⟨_, _, _, _, rfl, rfl, rfl, rfl⟩

/-- Disagreement: when GEOS throws while touching inner rings are merged, the polygons made before and
their vector are left over. -/
theorem exception_leaks : ∃ (g : MpGeos) (rings : List Coords) (inner : Nat → List Nat),
    Arranged rings.length [] [3, 0] inner ∧
    let r := buildGeometry g rings [] [3, 0] inner .start
    r.1 = .error (.exn "GEOSException") ∧ (destroyAll r.2).1 = .ok () ∧
    (destroyAll r.2).2.cells.map Prod.snd =
      [.diff (square 10 10 2) (square 12 10 2), .poly (square 200 0 10).reverse [], .vec [8]] := by
  refine ⟨squareGeos true, squareRings, squareInner, by constructor <;> decide, by decide +kernel⟩

end Osmium

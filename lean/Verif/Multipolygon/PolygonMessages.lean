import Verif.Multipolygon.GeometryProps

/-
C133: what the builder says on stderr about exceptions of GEOS while it makes the polygons of a
relation (multipolygon/builder.hpp 822, 902).  The program of Multipolygon/Memory.lean is written once
more with its output to stderr; the first theorem says that it is the same program.
-/
namespace Osmium
open Spec

/-- The exceptions of GEOS that the builder catches and reports: `pairThrows` that it cannot intersect
two rings, `what` the text of the exception at a polygon.  (multipolygon/builder.hpp 821-822, 900-902) -/
structure GeosErrors where
  pairThrows : Coords → Coords → Bool
  what : Coords → List Coords → String

/-- The line of multipolygon/builder.hpp 822. -/
def pairLine : String := "Exception while checking intersection of rings\n"

/-- The line of multipolygon/builder.hpp 902. -/
def polygonLine (rid : Int) (what : String) : String :=
  "Exception during creation of polygon for relation #" ++ toString rid ++ ": " ++ what ++
    " (treating as invalid polygon)\n"

/-- A piece of program with what it says on stderr. (multipolygon/builder.hpp 758-972) -/
def LogMem (α : Type) := MpMem → (Except Fail α × MpMem) × List String

namespace LogMem

/-- One after the other; a failure ends it. -/
instance : Monad LogMem where
  pure a := fun m => ((.ok a, m), [])
  bind x f := fun m =>
    match x m with
    | ((.ok a, m'), l) => ((f a m').1, l ++ (f a m').2)
    | ((.error e, m'), l) => ((.error e, m'), l)

/-- A piece that says nothing. -/
def of {α : Type} (x : Mem α) : LogMem α := fun m => (x m, [])

/-- Output to stderr. (multipolygon/builder.hpp 822, 902) -/
def say (s : String) : LogMem Unit := fun m => ((.ok (), m), [s])

end LogMem

open LogMem (of say)

/-- multipolygon/builder.hpp 809-860 with 822, as `touchPairs`. -/
def noisyPairs (g : MpGeos) (t : GeosErrors) (rec : LogMem Unit) : List (Nat × Nat) → LogMem Unit
  | [] => pure ()
  | (j, k) :: ps => do
    let rj ← of (Mem.getRing j)
    let rk ← of (Mem.getRing k)
    match rj.polygon, rk.polygon with
    | some a, some b => do
      let ga ← of (Mem.lookPoly a)
      let gb ← of (Mem.lookPoly b)
      if t.pairThrows ga.1 gb.1 then do
        say pairLine
        noisyPairs g t rec ps
      else match g.touch ga.1 gb.1 with
        | .apart => noisyPairs g t rec ps
        | .other => do
          let inter ← of (Mem.alloc (.inter ga.1 gb.1))
          let _ ← of (Mem.take inter)
          noisyPairs g t rec ps
        | .line => do
          let inter ← of (Mem.alloc (.inter ga.1 gb.1))
          let _ ← of (Mem.take inter)
          let _ ← of (Mem.alloc (.diff ga.1 gb.1))
          match g.polygonize ga.1 gb.1 with
          | none => of (Mem.fail (.exn "GEOSException"))
          | some none => noisyPairs g t rec ps
          | some (some polys) => do
            let is ← of (allocPolys polys)
            let v ← of (Mem.alloc (.vec is))
            match is with
            | [p] => do
              let _ ← of (Mem.take a)
              let gp ← of (Mem.lookPoly p)
              of (Mem.setRing j ⟨some p, g.ccw gp.1⟩)
              let _ ← of (Mem.take b)
              let rk ← of (Mem.getRing k)
              of (Mem.setRing k { rk with polygon := none })
              let _ ← of (Mem.take v)
              rec
            | is => of (Mem.deleteAll (is ++ [v]))
    | _, _ => noisyPairs g t rec ps

/-- multipolygon/builder.hpp 804-862 `check_touching_inner_rings`. -/
def noisyTouching (g : MpGeos) (t : GeosErrors) (inner : List Nat) : Nat → LogMem Unit
  | 0 => of (Mem.fail (.exn "out of fuel"))
  | fuel + 1 => noisyPairs g t (noisyTouching g t inner fuel) (ringPairs inner)

/-- multipolygon/builder.hpp 902 when `createPolygon` has thrown: the text of the exception depends on
the outer ring and the holes given. -/
def sayUnmade (t : GeosErrors) (rid : Int) (ring holes : Nat) : LogMem Unit := fun m =>
  ((.ok (), m), [polygonLine rid
    (match (Mem.lookRing ring m).1, ((Mem.lookVec holes >>= Mem.lookRings) m).1 with
      | .ok s, .ok cs => t.what s cs
      | _, _ => "")])

/-- multipolygon/builder.hpp 876-919: one outer ring, with 902. -/
def noisyPolygon (g : MpGeos) (t : GeosErrors) (rid : Int) (polygons : Nat) (i : Nat) (inner : List Nat) :
    LogMem Unit := do
  noisyTouching g t inner (inner.length + 1)
  let holes ← of (Mem.alloc (.vec []))
  of (pushHoles holes inner)
  let r ← of (Mem.getRing i)
  let ring ← of (ringInDirection r false)
  match ← of (createPolygon g ring holes) with
  | none => do
    sayUnmade t rid ring holes
    let hs ← of (Mem.lookVec holes)
    of (Mem.deleteAll (hs ++ [holes, ring]))
    let ps ← of (Mem.lookVec polygons)
    of (Mem.deleteAll (ps ++ [polygons]))
    of (Mem.fail (.exn "invalid ring"))
  | some p => do
    let gp ← of (Mem.lookPoly p)
    if g.polygonValid gp.1 gp.2 = some true then of (Mem.pushVec polygons p)
    else do
      (if g.polygonValid gp.1 gp.2 = none then say (polygonLine rid (t.what gp.1 gp.2)) else pure ())
      let _ ← of (Mem.take p)
      let ps ← of (Mem.lookVec polygons)
      of (Mem.deleteAll (ps ++ [polygons]))
      of (Mem.fail (.exn "invalid ring"))

/-- multipolygon/builder.hpp 876-946: the loop over the outer rings. -/
def noisyPolygons (g : MpGeos) (t : GeosErrors) (rid : Int) (polygons : Nat) (inner : Nat → List Nat) :
    List Nat → LogMem Unit
  | [] => pure ()
  | i :: is => do
    noisyPolygon g t rid polygons i (inner i)
    noisyPolygons g t rid polygons inner is

/-- multipolygon/builder.hpp 786-800 and 868-972 with 822 and 902, as `buildGeometry`, for the relation
`rid`. -/
def noisyGeometry (g : MpGeos) (t : GeosErrors) (rid : Int) (rings : List Coords) (extra outer : List Nat)
    (inner : Nat → List Nat) : LogMem Unit := do
  of (allocRings g rings)
  of (extraAreas extra)
  let polygons ← of (Mem.alloc (.vec []))
  noisyPolygons g t rid polygons inner outer
  of (finishMulti g polygons)

/-! ### Specification -/

/-- For rings that GEOS cannot intersect, there is no intersection. (multipolygon/builder.hpp 818-825:
`inter` stays null) -/
def Spec.GeosErrors.Fit (t : GeosErrors) (g : MpGeos) : Prop :=
  ∀ x y, t.pairThrows x y = true → g.touch x y = .apart

/-- GEOS throws when the polygon is made or when it is asked whether it is valid. -/
def Spec.PolygonThrows (g : MpGeos) (p : Coords × List Coords) : Prop :=
  g.polygonMakes p.1 p.2 = false ∨ g.polygonValid p.1 p.2 = none

instance (g : MpGeos) (p : Coords × List Coords) : Decidable (PolygonThrows g p) := by
  unfold PolygonThrows; infer_instance

/-- The number of pairs of these rings that GEOS cannot intersect. -/
def Spec.badPairs (t : GeosErrors) : List Coords → Nat
  | [] => 0
  | x :: xs => xs.countP (t.pairThrows x) + badPairs t xs

/-- The lines about the intersections of the inner rings of these outer rings. -/
def Spec.pairLines (t : GeosErrors) (rings : List Coords) (inner : Nat → List Nat) (is : List Nat) :
    List String :=
  is.flatMap fun i => List.replicate (badPairs t ((inner i).filterMap fun j => rings[j]?)) pairLine

/-- The line about the polygon, if GEOS throws at it. -/
def Spec.polygonLines (g : MpGeos) (t : GeosErrors) (rid : Int) (p : Coords × List Coords) : List String :=
  if PolygonThrows g p then [polygonLine rid (t.what p.1 p.2)] else []

/-! ### The same program -/

namespace LogMem

/-- Without the output. -/
def quiet {α : Type} (x : LogMem α) : Mem α := fun m => (x m).1

theorem quiet_bind {α β : Type} (x : LogMem α) (f : α → LogMem β) :
    quiet (x >>= f) = quiet x >>= fun a => quiet (f a) := by
  funext m
  show (match x m with
    | ((.ok a, m'), l) => ((f a m').1, l ++ (f a m').2)
    | ((.error e, m'), l) => ((.error e, m'), l)).1 =
    (match (x m).1 with | (.ok a, m') => (f a m').1 | (.error e, m') => (.error e, m'))
  rcases x m with ⟨⟨_ | _, m'⟩, l⟩ <;> rfl

theorem quiet_of {α : Type} (x : Mem α) : quiet (of x) = x := rfl

theorem quiet_pure {α : Type} (a : α) : quiet (pure a : LogMem α) = pure a := rfl

theorem quiet_say (s : String) : quiet (say s) = pure () := rfl

theorem pure_then {β : Type} (x : Mem β) : ((pure () : Mem Unit) >>= fun _ => x) = x := rfl

end LogMem
open LogMem

theorem noisyPairs_quiet {g : MpGeos} {t : GeosErrors} (ht : GeosErrors.Fit t g) (rec : LogMem Unit) :
    ∀ ps, quiet (noisyPairs g t rec ps) = touchPairs g (quiet rec) ps := by
  intro ps
  induction ps with
  | nil => rfl
  | cons q ps ih =>
    obtain ⟨j, k⟩ := q
    unfold noisyPairs touchPairs
    simp only [quiet_bind, quiet_of]
    congr 1; funext rj; congr 1; funext rk
    rcases rj with ⟨_ | a, dj⟩
    · exact ih
    rcases rk with ⟨_ | b, dk⟩
    · exact ih
    simp only [quiet_bind, quiet_of]
    congr 1; funext ga; congr 1; funext gb
    cases hp : t.pairThrows ga.1 gb.1
    · simp only [Bool.false_eq_true, if_false]
      cases g.touch ga.1 gb.1
      · exact ih
      · simp only [quiet_bind, quiet_of]
        congr 1; funext i1; congr 1; funext _; congr 1; funext _
        rcases g.polygonize ga.1 gb.1 with _ | _ | polys
        · rfl
        · exact ih
        · simp only [quiet_bind, quiet_of]
          congr 1; funext is; congr 1; funext v
          rcases is with _ | ⟨p, _ | ⟨p', is⟩⟩
          · rfl
          · simp only [quiet_bind, quiet_of]
          · rfl
      · simp only [quiet_bind, quiet_of, ih]
    · rw [ht _ _ hp]
      simp only [if_true, quiet_bind, quiet_say, ih]
      rfl

theorem noisyTouching_quiet {g : MpGeos} {t : GeosErrors} (ht : GeosErrors.Fit t g) (inner : List Nat) (fuel : Nat) :
    quiet (noisyTouching g t inner fuel) = checkTouching g inner fuel := by
  induction fuel with
  | zero => rfl
  | succ fuel ih => unfold noisyTouching checkTouching; rw [noisyPairs_quiet ht, ih]

theorem noisyPolygon_quiet {g : MpGeos} {t : GeosErrors} (ht : GeosErrors.Fit t g) (rid : Int) (v i : Nat)
    (inner : List Nat) : quiet (noisyPolygon g t rid v i inner) = outerPolygon g v i inner := by
  unfold noisyPolygon outerPolygon
  simp only [quiet_bind, quiet_of, noisyTouching_quiet ht]
  congr 1; funext _; congr 1; funext holes; congr 1; funext _; congr 1; funext r
  congr 1; funext ring; congr 1; funext p
  rcases p with _ | p
  · simp only [quiet_bind, quiet_of]; rfl
  · simp only [quiet_bind, quiet_of]
    congr 1; funext gp
    by_cases hv : g.polygonValid gp.1 gp.2 = some true
    · rw [if_pos hv, if_pos hv]; rfl
    · rw [if_neg hv, if_neg hv]
      simp only [quiet_bind, quiet_of]
      split <;> rfl

theorem noisyPolygons_quiet {g : MpGeos} {t : GeosErrors} (ht : GeosErrors.Fit t g) (rid : Int) (v : Nat)
    (inner : Nat → List Nat) (is : List Nat) :
    quiet (noisyPolygons g t rid v inner is) = outerPolygons g v inner is := by
  induction is with
  | nil => rfl
  | cons i is ih =>
    unfold noisyPolygons outerPolygons
    simp only [quiet_bind, noisyPolygon_quiet ht, ih]

/-- What is said changes nothing: the builder makes the same areas, or fails in the same way.  In
particular two inner rings that GEOS cannot intersect are treated like rings that do not touch. -/
theorem noisy_same {g : MpGeos} {t : GeosErrors} (ht : GeosErrors.Fit t g) (rid : Int) (rings : List Coords)
    (extra outer : List Nat) (inner : Nat → List Nat) (m : MpMem) :
    (noisyGeometry g t rid rings extra outer inner m).1 = buildGeometry g rings extra outer inner m := by
  have : quiet (noisyGeometry g t rid rings extra outer inner) = buildGeometry g rings extra outer inner := by
    unfold noisyGeometry buildGeometry buildMultipolygon
    simp only [quiet_bind, quiet_of, noisyPolygons_quiet ht]
  exact congrFun this m

/-! ### The lines -/

namespace LogMem

theorem bind_of {α β : Type} {x : Mem α} {f : α → LogMem β} {m m' : MpMem} {a : α}
    (h : x m = (.ok a, m')) : (of x >>= f) m = f a m' := by
  show (match (x m, ([] : List String)) with
    | ((.ok a, m'), l) => ((f a m').1, l ++ (f a m').2)
    | ((.error e, m'), l) => ((.error e, m'), l)) = _
  rw [h]; rfl

theorem bind_ok {α β : Type} {x : LogMem α} {f : α → LogMem β} {m m' : MpMem} {a : α} {l : List String}
    (h : x m = ((.ok a, m'), l)) : (x >>= f) m = ((f a m').1, l ++ (f a m').2) := by
  show (match x m with
    | ((.ok a, m'), l) => ((f a m').1, l ++ (f a m').2)
    | ((.error e, m'), l) => ((.error e, m'), l)) = _
  rw [h]

theorem bind_err {α β : Type} {x : LogMem α} {f : α → LogMem β} {m m' : MpMem} {e : Fail} {l : List String}
    (h : x m = ((.error e, m'), l)) : (x >>= f) m = ((.error e, m'), l) := by
  show (match x m with
    | ((.ok a, m'), l) => ((f a m').1, l ++ (f a m').2)
    | ((.error e, m'), l) => ((.error e, m'), l)) = _
  rw [h]

/-- The piece says lines with the property only. -/
def Only {α : Type} (P : String → Prop) (x : LogMem α) : Prop := ∀ m, ∀ s ∈ (x m).2, P s

theorem Only.bind {α β : Type} {P : String → Prop} {x : LogMem α} {f : α → LogMem β} (hx : Only P x)
    (hf : ∀ a, Only P (f a)) : Only P (x >>= f) := by
  intro m
  rcases h : x m with ⟨⟨e | a, m'⟩, l⟩
  · rw [bind_err h]
    have := hx m
    rw [h] at this
    exact this
  · rw [bind_ok h]
    intro s hs
    rcases List.mem_append.1 hs with hs | hs
    · have := hx m
      rw [h] at this
      exact this s hs
    · exact hf a m' s hs

theorem Only.of {α : Type} {P : String → Prop} (x : Mem α) : Only P (of x) := fun _ _ h => nomatch h

end LogMem

theorem noisyPairs_only {g : MpGeos} {t : GeosErrors} {P : String → Prop}
    (hP : ∀ x y, t.pairThrows x y = true → P pairLine) {rec : LogMem Unit}
    (hr : Only P rec) : ∀ ps, Only P (noisyPairs g t rec ps) := by
  intro ps
  induction ps with
  | nil => exact fun _ _ h => nomatch h
  | cons q ps ih =>
    obtain ⟨j, k⟩ := q
    unfold noisyPairs
    refine .bind (.of _) fun rj => .bind (.of _) fun rk => ?_
    split
    · refine .bind (.of _) fun ga => .bind (.of _) fun gb => ?_
      split
      · rename_i hp
        refine .bind (fun m s hs => ?_) fun _ => ih
        rw [List.mem_singleton.1 hs]
        exact hP _ _ hp
      · split
        · exact ih
        · exact .bind (.of _) fun _ => .bind (.of _) fun _ => ih
        · refine .bind (.of _) fun _ => .bind (.of _) fun _ => .bind (.of _) fun _ => ?_
          split
          · exact .of _
          · exact ih
          · refine .bind (.of _) fun is => .bind (.of _) fun v => ?_
            split
            · exact .bind (.of _) fun _ => .bind (.of _) fun _ => .bind (.of _) fun _ => .bind (.of _) fun _ =>
                .bind (.of _) fun _ => .bind (.of _) fun _ => .bind (.of _) fun _ => hr
            · exact .of _
    · exact ih

theorem noisyTouching_only {g : MpGeos} {t : GeosErrors} {P : String → Prop}
    (hP : ∀ x y, t.pairThrows x y = true → P pairLine) (inner : List Nat) (fuel : Nat) :
    Only P (noisyTouching g t inner fuel) := by
  induction fuel with
  | zero => exact .of _
  | succ fuel ih => exact noisyPairs_only hP ih _

/-- One outer ring: first the lines about its inner rings, and then the line about its polygon. -/
theorem noisyPolygon_says {g : MpGeos} {t : GeosErrors} (htf : GeosErrors.Fit t g) {rid : Int} {v i : Nat}
    {inner : List Nat} {m : MpMem}
    {R : List (Option GRing × Bool)} {ps : List (Nat × (Coords × List Coords))} {F : List (Nat × Geom)}
    (h : MpInv g m R (loopObjs v ps F)) (hnd : inner.Nodup) (hlt : ∀ j ∈ inner, j < R.length)
    (hi : i < R.length) (hin : i ∉ inner) (hc : (curOf R i).isSome) :
    ∃ L, (noisyPolygon g t rid v i inner m).2 = (noisyTouching g t inner (inner.length + 1) m).2 ++ L ∧
      ((noisyPolygon g t rid v i inner m).1.1 = .error (.exn "invalid ring") ∧
        (∃ cur shell, Merged g inner (curOf R) cur ∧ (Quiet g inner (curOf R) → cur = curOf R) ∧
          cur i = some shell ∧ ¬ Good g (polygonOf g shell (inner.filterMap cur)) ∧
          L = polygonLines g t rid (polygonOf g shell (inner.filterMap cur))) ∨
       (noisyPolygon g t rid v i inner m).1.1 ≠ .error (.exn "invalid ring") ∧ L = []) := by
  have hfuel : liveCount R inner < inner.length + 1 := Nat.lt_succ_of_le List.countP_le_length
  obtain ⟨m1, R1, D, i1, hD, hM, hlen, ha, hr, hq, hdq, hres⟩ := checkTouching_inv g inner hnd _ m R _ h hlt hfuel
  have i1' := i1.perm (loopObjs_perm (v := v) (ps := ps))
  have hsame : (noisyTouching g t inner (inner.length + 1) m).1 = checkTouching g inner (inner.length + 1) m :=
    congrFun (noisyTouching_quiet htf inner (inner.length + 1)) m
  generalize hn : noisyTouching g t inner (inner.length + 1) m = n at hsame
  obtain ⟨n1, L0⟩ := n
  simp only at hsame
  subst hsame
  unfold noisyPolygon
  rcases hres with ⟨e1, hmg⟩ | ⟨e1, ht⟩
  · rw [e1] at hn
    rw [bind_ok hn]
    simp only
    obtain ⟨m2, holes, e2, i2, r2⟩ := alloc_inv i1' (.vec [])
    obtain ⟨m3, hs, e3, i3, q3, r3⟩ := pushHoles_inv (F := loopObjs v ps (D ++ F)) inner
      (fun j hj => by rw [hlen]; exact hlt j hj) m2 [] i2
    rw [bind_of e2, bind_of e3]
    have hcur : curOf R1 i = curOf R i := Merges.keep hM hin
    rcases curOf_get (R := R1) (j := i) (by omega) with ⟨d, hj, cj⟩ | ⟨r, d, hj, cj⟩
    · rw [← hcur, cj] at hc; cases hc
    · obtain ⟨m4, ring, e4, i4, r4⟩ := ringInDirection_inv i3 hj false
      rw [bind_of (getRing_inv i3 hj)]
      simp only [Option.map_some]
      rw [bind_of e4]
      have hpoly : polygonOf g r.c (inner.filterMap (curOf R1)) = (turn g false r.c, hs.map Prod.snd) := by
        rw [q3]; rfl
      have hqc : Quiet g inner (curOf R) → curOf R1 = curOf R := fun h => by rw [(hq h).2.1]
      rcases createPolygon_inv i4 with ⟨hm, m5, p, e5, i5, r5⟩ | ⟨hm, e5⟩
      · rw [bind_of e5]
        simp only
        have ep : Mem.lookPoly p m5 = (.ok (turn g false r.c, hs.map Prod.snd), m5) :=
          lookPoly_owns i5.owns (List.mem_append_right _ (by simp))
        rw [bind_of ep]
        dsimp only
        by_cases hv : g.polygonValid (turn g false r.c) (hs.map Prod.snd) = some true
        · rw [if_pos hv]
          have i5' : MpInv g m5 R1 ((v, .vec (ps.map Prod.fst)) ::
              (p, .poly (turn g false r.c) (hs.map Prod.snd)) :: (polyObjs ps ++ (D ++ F))) :=
            i5.perm (List.Perm.swap ..)
          obtain ⟨m6, e6, i6, r6⟩ := pushVec_inv (i := p) i5'
          refine ⟨[], rfl, .inr ⟨?_, rfl⟩⟩
          show (Mem.pushVec v p m5).1 ≠ _
          rw [e6]; nofun
        · rw [if_neg hv]
          obtain ⟨m6, e6, i6, r6⟩ := take_inv i5
          obtain ⟨e7, m7, e8, i7, r7⟩ := dropLoop_inv i6
          have tail : (of (Mem.take p) >>= fun _ => of (Mem.lookVec v) >>= fun ps =>
              of (Mem.deleteAll (ps ++ [v])) >>= fun _ => of (Mem.fail (.exn "invalid ring")) : LogMem Unit) m5 =
              ((.error (.exn "invalid ring"), m7), []) := by
            rw [bind_of e6, bind_of e7, bind_of e8]; rfl
          by_cases hw : g.polygonValid (turn g false r.c) (hs.map Prod.snd) = none
          · rw [if_pos hw]
            rw [bind_ok (show say _ m5 = ((.ok (), m5), [_]) from rfl), tail]
            refine ⟨_, rfl, .inl ⟨rfl, curOf R1, r.c, ⟨hM, hmg⟩, hqc, cj, ?_, ?_⟩⟩
            · rw [hpoly]; exact fun h => hv h.2
            · rw [hpoly]
              unfold polygonLines
              rw [if_pos (.inr hw)]; rfl
          · rw [if_neg hw]
            rw [bind_ok (show (pure () : LogMem Unit) m5 = ((.ok (), m5), []) from rfl), tail]
            refine ⟨_, rfl, .inl ⟨rfl, curOf R1, r.c, ⟨hM, hmg⟩, hqc, cj, ?_, ?_⟩⟩
            · rw [hpoly]; exact fun h => hv h.2
            · rw [hpoly]
              unfold polygonLines
              rw [if_neg]; rfl
              rintro (h | h)
              · exact absurd (hm.symm.trans h) nofun
              · exact hw h
      · rw [bind_of e5]
        simp only
        have ev := lookVec_inv i4 (i := holes) (l := hs.map Prod.fst) (by simp)
        have i4' : MpInv g m4 R1 ((ringObjs hs ++ [(holes, .vec (hs.map Prod.fst)), (ring, .ring (turn g false r.c))]) ++
            loopObjs v ps (D ++ F)) := by
          refine i4.perm ?_
          exact List.perm_iff_count.2 fun a => by
            simp only [List.count_cons, List.count_append, List.count_nil]; omega
        obtain ⟨m5, e6, i5, r5⟩ := deleteAll_inv i4'
        rw [List.map_append, ringObjs_fst] at e6
        have e6' : Mem.deleteAll (hs.map Prod.fst ++ [holes, ring]) m4 = (.ok (), m5) := e6
        obtain ⟨e7, m7, e8, i7, r7⟩ := dropLoop_inv i5
        have tail : (of (Mem.lookVec holes) >>= fun hs => of (Mem.deleteAll (hs ++ [holes, ring])) >>= fun _ =>
            of (Mem.lookVec v) >>= fun ps => of (Mem.deleteAll (ps ++ [v])) >>= fun _ =>
            of (Mem.fail (.exn "invalid ring")) : LogMem Unit) m4 = ((.error (.exn "invalid ring"), m7), []) := by
          rw [bind_of ev, bind_of e6', bind_of e7, bind_of e8]; rfl
        have l1 : Mem.lookRing ring m4 = (.ok (turn g false r.c), m4) :=
          lookRing_owns i4.owns (List.mem_append_right _ (by simp))
        have l3 : Mem.lookRings (hs.map Prod.fst) m4 = (.ok (hs.map Prod.snd), m4) :=
          lookRings_owns i4.owns hs fun r hr => List.mem_append_right _ (by
            simp only [List.mem_cons, List.mem_append]
            exact .inr (.inr (.inl (List.mem_map.2 ⟨r, hr, rfl⟩))))
        have hsay : sayUnmade t rid ring holes m4 =
            ((.ok (), m4), [polygonLine rid (t.what (turn g false r.c) (hs.map Prod.snd))]) := by
          unfold sayUnmade
          rw [Mem.bind_ok ev, l1, l3]
        rw [bind_ok hsay, tail]
        refine ⟨_, rfl, .inl ⟨rfl, curOf R1, r.c, ⟨hM, hmg⟩, hqc, cj, ?_, ?_⟩⟩
        · rw [hpoly]
          exact fun h => Bool.false_ne_true (hm.symm.trans h.1)
        · rw [hpoly]
          unfold polygonLines
          rw [if_pos (.inl hm)]; rfl
  · rw [e1] at hn
    rw [bind_err hn]
    exact ⟨[], by simp, .inr ⟨by simp, rfl⟩⟩

theorem noisyPolygons_says {g : MpGeos} {t : GeosErrors} (htf : GeosErrors.Fit t g) {rid : Int} {v : Nat}
    {inner : Nat → List Nat} :
    ∀ (is : List Nat) (m : MpMem) (R : List (Option GRing × Bool))
    (ps : List (Nat × (Coords × List Coords))) (F : List (Nat × Geom)),
    MpInv g m R (loopObjs v ps F) → (∀ i ∈ is, (inner i).Nodup) → (∀ i ∈ is, ∀ j ∈ inner i, j < R.length) →
    (∀ i ∈ is, i < R.length) → (∀ i ∈ is, ∀ i' ∈ is, i ∉ inner i') → (∀ i ∈ is, (curOf R i).isSome) →
    ((noisyPolygons g t rid v inner is m).1.1 = .error (.exn "invalid ring") →
      ∃ L a i b qs cur cur' shell, is = a ++ i :: b ∧ Polygons g inner (curOf R) a qs cur ∧
        Merged g (inner i) cur cur' ∧ cur' i = some shell ∧
        ¬ Good g (polygonOf g shell ((inner i).filterMap cur')) ∧ (∀ s ∈ L, s = pairLine) ∧
        (noisyPolygons g t rid v inner is m).2 =
          L ++ polygonLines g t rid (polygonOf g shell ((inner i).filterMap cur'))) ∧
    ((noisyPolygons g t rid v inner is m).1.1 ≠ .error (.exn "invalid ring") →
      ∀ s ∈ (noisyPolygons g t rid v inner is m).2, s = pairLine) := by
  intro is
  induction is with
  | nil =>
    intro m R ps F h _ _ _ _ _
    exact ⟨nofun, fun _ _ h => nomatch h⟩
  | cons i is ih =>
    intro m R ps F h hnd hin hlt hap hcur
    unfold noisyPolygons
    obtain ⟨L, hL, hsaid⟩ := noisyPolygon_says htf (rid := rid) h (hnd i (by simp)) (hin i (by simp))
      (hlt i (by simp)) (hap i (by simp) i (by simp)) (hcur i (by simp))
    have honly : ∀ s ∈ (noisyTouching g t (inner i) ((inner i).length + 1) m).2, s = pairLine :=
      noisyTouching_only (P := fun s => s = pairLine) (fun _ _ _ => rfl) _ _ m
    generalize noisyTouching g t (inner i) ((inner i).length + 1) m = n at hL honly
    have hsame : (noisyPolygon g t rid v i (inner i) m).1 = outerPolygon g v i (inner i) m :=
      congrFun (noisyPolygon_quiet htf rid v i (inner i)) m
    obtain ⟨m1, R1, D, hD, hlen, ha, hr, hM, hq, hdq, hres⟩ := outerPolygon_inv h (hnd i (by simp)) (hin i (by simp))
      (hlt i (by simp)) (hap i (by simp) i (by simp)) (hcur i (by simp))
    generalize hP : noisyPolygon g t rid v i (inner i) m = P at hsame hL hsaid
    obtain ⟨P1, P2⟩ := P
    simp only at hsame hL hsaid
    subst hsame hL
    rcases hsaid with ⟨hbad, cur', shell, hmg, -, hs, hg, rfl⟩ | ⟨hnb, rfl⟩
    · rcases hO : outerPolygon g v i (inner i) m with ⟨o1, o2⟩
      rw [hO] at hP hbad
      simp only at hbad
      subst hbad
      rw [bind_err hP]
      exact ⟨fun _ => ⟨n.2, [], i, is, [], _, cur', shell, rfl, .nil _, hmg, hs, hg, honly, rfl⟩, fun h => absurd rfl h⟩
    · rw [List.append_nil] at hP
      rcases hres with ⟨p, shell, e, i1, hmg, hs, hg⟩ | ⟨shell, e, i1, hmg, hs, hg⟩ | ⟨e, i1, hnq, ht⟩
      · rw [e] at hP
        rw [bind_ok hP]
        have hcur1 : ∀ i' ∈ is, (curOf R1 i').isSome := by
          intro i' hi'
          rw [Merges.keep hM (hap i' (by simp [hi']) i (by simp))]
          exact hcur i' (by simp [hi'])
        obtain ⟨ih1, ih2⟩ := ih m1 R1 _ _ i1 (fun x hx => hnd x (by simp [hx]))
          (fun x hx => by rw [hlen]; exact hin x (by simp [hx])) (fun x hx => by rw [hlen]; exact hlt x (by simp [hx]))
          (fun x hx y hy => hap x (by simp [hx]) y (by simp [hy])) hcur1
        constructor
        · intro hbad
          obtain ⟨L, a, i', b, qs, c1, c2, sh, rfl, hp, hm, h1, h2, h3, h4⟩ := ih1 hbad
          refine ⟨n.2 ++ L, i :: a, i', b, _, c1, c2, sh, rfl, .cons hmg hs hg hp, hm, h1, h2, ?_, ?_⟩
          · intro s hs
            rcases List.mem_append.1 hs with hs | hs
            · exact honly s hs
            · exact h3 s hs
          · rw [List.append_assoc, ← h4]
        · intro hne s hs
          rcases List.mem_append.1 hs with hs | hs
          · exact honly s hs
          · exact ih2 hne s hs
      · rw [e] at hnb; exact absurd rfl hnb
      · rw [e] at hP
        rw [bind_err hP]
        exact ⟨by simp, fun _ => honly⟩

/-- If the program fails because a polygon cannot be made or is not valid, the polygon is the one of the
first such outer ring, and if GEOS threw at this polygon, this is the last line on stderr, with the id of the
relation and the text of the exception.  There is no such line otherwise.  All other lines say that the
intersection of two rings could not be checked. -/
theorem polygon_messages {g : MpGeos} {t : GeosErrors} (htf : GeosErrors.Fit t g) (rid : Int)
    {rings : List Coords} {extra outer : List Nat} {inner : Nat → List Nat}
    (ha : Arranged rings.length extra outer inner) :
    let r := noisyGeometry g t rid rings extra outer inner .start
    (r.1.1 = .error (.exn "invalid ring") →
      ∃ L is i is' ps cur cur' shell, outer = is ++ i :: is' ∧
        Polygons g inner (fun k => rings[k]?) is ps cur ∧ Merged g (inner i) cur cur' ∧ cur' i = some shell ∧
        ¬ Good g (polygonOf g shell ((inner i).filterMap cur')) ∧ (∀ s ∈ L, s = pairLine) ∧
        r.2 = L ++ polygonLines g t rid (polygonOf g shell ((inner i).filterMap cur'))) ∧
    (r.1.1 ≠ .error (.exn "invalid ring") → ∀ s ∈ r.2, s = pairLine) := by
  have hstart : MpInv g .start [] [] := ⟨rfl, by simp, ⟨List.Perm.refl _, by simp [ringCells], by simp [ringCells]⟩⟩
  obtain ⟨m1, R, e1, i1, a1, r1, c1⟩ := allocRings_inv rings _ _ _ hstart
  rw [List.nil_append] at i1
  have hlen : R.length = rings.length := by simpa using congrArg List.length c1
  have hcur : curOf R = fun k => rings[k]? := by
    funext k
    have := congrArg (fun l => l[k]?) c1
    simp only [List.getElem?_map] at this
    unfold curOf
    cases hR : R[k]? <;> cases hr : rings[k]? <;> simp [hR, hr] at this ⊢
    exact this
  have hsome : ∀ k, k < rings.length → (curOf R k).isSome := by
    intro k hk
    rw [hcur]
    simp [hk]
  obtain ⟨m2, A, e2, i2, a2, r2, c2⟩ := extraAreas_inv extra m1 [] i1 fun j hj => hsome j (ha.extra_lt j hj)
  rw [List.append_nil] at i2
  obtain ⟨m3, v, e3, i3, r3⟩ := alloc_inv i2 (.vec [])
  obtain ⟨h1, h2⟩ := noisyPolygons_says (g := g) htf (rid := rid) (v := v) (inner := inner) outer m3 R [] A i3
    ha.nodup (by rw [hlen]; exact ha.inner_lt) (by rw [hlen]; exact ha.outer_lt) ha.apart
    (fun i hi => hsome i (ha.outer_lt i hi))
  obtain ⟨m4, R4, D, hD, a4, r4, q4, d4, h4⟩ := outerPolygons_inv (g := g) (v := v) (inner := inner) outer m3 R [] A i3
    ha.nodup (by rw [hlen]; exact ha.inner_lt) (by rw [hlen]; exact ha.outer_lt) ha.apart
    (fun i hi => hsome i (ha.outer_lt i hi))
  have hsame : (noisyPolygons g t rid v inner outer m3).1 = outerPolygons g v inner outer m3 :=
    congrFun (noisyPolygons_quiet htf rid v inner outer) m3
  rw [hcur] at h1
  intro r
  have hr : r = (noisyPolygons g t rid v inner outer >>= fun _ => of (finishMulti g v)) m3 := by
    show noisyGeometry _ _ _ _ _ _ _ _ = _
    unfold noisyGeometry
    rw [bind_of e1, bind_of e2, bind_of e3]
  rw [hr]
  generalize hP : noisyPolygons g t rid v inner outer m3 = P at hsame h1 h2
  obtain ⟨P1, L⟩ := P
  simp only at hsame h1 h2
  subst hsame
  rcases h4 with ⟨new, e, i, hp⟩ | ⟨e, i, hbad⟩ | ⟨new, e, i, hnq, ht⟩
  · rw [e] at hP h2
    rw [bind_ok hP]
    obtain ⟨m5, a5, h5⟩ := finishMulti_inv i
    refine ⟨fun hb => ?_, fun _ s hs => h2 (by simp) s (by simpa [of] using hs)⟩
    exfalso
    have hb' : (finishMulti g v m4).1 = .error (.exn "invalid ring") := hb
    rcases h5 with ⟨mp, e5, -⟩ | ⟨e5, -⟩ | ⟨e5, -⟩ | ⟨mp, e5, -⟩ <;> rw [e5] at hb' <;> simp at hb'
  · rw [e] at hP h1
    rw [bind_err hP]
    exact ⟨fun _ => h1 rfl, fun h => absurd rfl h⟩
  · rw [e] at hP h2
    rw [bind_err hP]
    exact ⟨by simp, fun _ => h2 (by simp)⟩

/-- If GEOS can intersect all rings, there is no line about intersections. -/
theorem no_pair_messages {g : MpGeos} {t : GeosErrors} (rid : Int)
    {rings : List Coords} {extra outer : List Nat} {inner : Nat → List Nat}
    (hn : ∀ x y, t.pairThrows x y = false) (m : MpMem) :
    ∀ s ∈ (noisyGeometry g t rid rings extra outer inner m).2, ∃ what, s = polygonLine rid what := by
  have hP : ∀ x y, t.pairThrows x y = true → ∃ what, pairLine = polygonLine rid what := by
    intro x y h; rw [hn] at h; cases h
  have hpoly : ∀ v i js, Only (fun s => ∃ what, s = polygonLine rid what) (noisyPolygon g t rid v i js) := by
    intro v i js
    unfold noisyPolygon
    refine .bind (noisyTouching_only hP _ _) fun _ => .bind (.of _) fun _ => .bind (.of _) fun _ =>
      .bind (.of _) fun _ => .bind (.of _) fun _ => .bind (.of _) fun p => ?_
    split
    · refine .bind (fun m s hs => ⟨_, List.mem_singleton.1 hs⟩) fun _ => .bind (.of _) fun _ => .bind (.of _) fun _ =>
        .bind (.of _) fun _ => .bind (.of _) fun _ => .of _
    · refine .bind (.of _) fun gp => ?_
      split
      · exact .of _
      · refine .bind ?_ fun _ => .bind (.of _) fun _ => .bind (.of _) fun _ => .bind (.of _) fun _ => .of _
        split
        · exact fun m s hs => ⟨_, List.mem_singleton.1 hs⟩
        · exact fun _ _ h => nomatch h
  have hloop : ∀ v is, Only (fun s => ∃ what, s = polygonLine rid what) (noisyPolygons g t rid v inner is) := by
    intro v is
    induction is with
    | nil => exact fun _ _ h => nomatch h
    | cons i is ih => exact .bind (hpoly _ _ _) fun _ => ih
  have : Only (fun s => ∃ what, s = polygonLine rid what) (noisyGeometry g t rid rings extra outer inner) :=
    .bind (.of _) fun _ => .bind (.of _) fun _ => .bind (.of _) fun v => .bind (hloop v _) fun _ => .of _
  exact this m

/-! ### Rings that do not touch -/

/-- What is said about one pair of rings. -/
def pairSays (t : GeosErrors) (cur : Nat → Option Coords) (q : Nat × Nat) : List String :=
  match cur q.1, cur q.2 with
  | some x, some y => if t.pairThrows x y then [pairLine] else []
  | _, _ => []

theorem noisyPairs_log {g : MpGeos} {t : GeosErrors} (rec : LogMem Unit) {R : List (Option GRing × Bool)}
    {F : List (Nat × Geom)} : ∀ ps : List (Nat × Nat), (∀ q ∈ ps, q.1 < R.length ∧ q.2 < R.length) →
    (∀ q ∈ ps, ∀ x y, curOf R q.1 = some x → curOf R q.2 = some y → g.touch x y ≠ .line) →
    ∀ m, MpInv g m R F → ∃ m', noisyPairs g t rec ps m = ((.ok (), m'), ps.flatMap (pairSays t (curOf R))) := by
  intro ps
  induction ps with
  | nil => intro _ _ m _; exact ⟨m, rfl⟩
  | cons q ps ih =>
    obtain ⟨j, k⟩ := q
    intro hlt hnl m h
    have ih' := ih (fun q hq => hlt q (by simp [hq])) fun q hq => hnl q (by simp [hq])
    obtain ⟨hjl, hkl⟩ := hlt (j, k) (by simp)
    unfold noisyPairs
    rcases curOf_get hjl with ⟨dj, hj, cj⟩ | ⟨ra, dj, hj, cj⟩
    · obtain ⟨⟨xk, dk⟩, hk⟩ : ∃ x, R[k]? = some x := ⟨_, List.getElem?_eq_getElem hkl⟩
      rw [bind_of (getRing_inv h hj), bind_of (getRing_inv h hk)]
      obtain ⟨m', e⟩ := ih' m h
      refine ⟨m', ?_⟩
      simp only [Option.map_none, List.flatMap_cons]
      rw [e]
      simp [pairSays, cj]
    rcases curOf_get hkl with ⟨dk, hk, ck⟩ | ⟨rb, dk, hk, ck⟩
    · rw [bind_of (getRing_inv h hj), bind_of (getRing_inv h hk)]
      obtain ⟨m', e⟩ := ih' m h
      refine ⟨m', ?_⟩
      simp only [Option.map_none, Option.map_some, List.flatMap_cons]
      rw [e]
      simp [pairSays, cj, ck]
    rw [bind_of (getRing_inv h hj), bind_of (getRing_inv h hk)]
    have ea : Mem.lookPoly ra.p m = (.ok (ra.c, ra.hs), m) :=
      lookPoly_owns h.owns (List.mem_append_left _ (List.mem_filterMap.2 ⟨_, List.mem_of_getElem? hj, rfl⟩))
    have eb : Mem.lookPoly rb.p m = (.ok (rb.c, rb.hs), m) :=
      lookPoly_owns h.owns (List.mem_append_left _ (List.mem_filterMap.2 ⟨_, List.mem_of_getElem? hk, rfl⟩))
    simp only [Option.map_some]
    rw [bind_of ea, bind_of eb]
    simp only [List.flatMap_cons]
    have hsays : pairSays t (curOf R) (j, k) = if t.pairThrows ra.c rb.c then [pairLine] else [] := by
      simp [pairSays, cj, ck]
    rw [hsays]
    have hn := hnl (j, k) (by simp) _ _ cj ck
    cases hp : t.pairThrows ra.c rb.c
    · simp only [Bool.false_eq_true, if_false, List.nil_append]
      cases htouch : g.touch ra.c rb.c
      · exact ih' m h
      · exact absurd htouch hn
      · obtain ⟨m1, x, e1, i1, -⟩ := alloc_inv h (.inter ra.c rb.c)
        obtain ⟨m2, e2, i2, -⟩ := take_inv i1
        simp only
        rw [bind_of e1, bind_of e2]
        exact ih' m2 i2
    · simp only [if_true]
      rw [bind_ok (show say pairLine m = ((.ok (), m), [pairLine]) from rfl)]
      obtain ⟨m', e⟩ := ih' m h
      exact ⟨m', by rw [e]⟩

theorem pairSays_row (t : GeosErrors) (cur : Nat → Option Coords) (j : Nat) (x : Coords) (hj : cur j = some x)
    (js : List Nat) : (js.map fun k => (j, k)).flatMap (pairSays t cur) =
      List.replicate ((js.filterMap cur).countP (t.pairThrows x)) pairLine := by
  induction js with
  | nil => rfl
  | cons k js ih =>
    simp only [List.map_cons, List.flatMap_cons, ih]
    cases hk : cur k with
    | none => simp [pairSays, hj, hk]
    | some y =>
      cases hp : t.pairThrows x y
      · simp [pairSays, hj, hk, hp]
      · simp [pairSays, hj, hk, hp, List.replicate_succ]

theorem pairSays_all (t : GeosErrors) (cur : Nat → Option Coords) (js : List Nat) :
    (ringPairs js).flatMap (pairSays t cur) = List.replicate (badPairs t (js.filterMap cur)) pairLine := by
  induction js with
  | nil => rfl
  | cons j js ih =>
    unfold ringPairs
    rw [List.flatMap_append, ih]
    cases hj : cur j with
    | none =>
      have : (js.map fun k => (j, k)).flatMap (pairSays t cur) = [] := by
        rw [List.flatMap_eq_nil_iff]
        intro q hq
        obtain ⟨k, -, rfl⟩ := List.mem_map.1 hq
        simp [pairSays, hj]
      simp [this, hj]
    | some x =>
      rw [pairSays_row t cur j x hj, List.replicate_append_replicate]
      simp [hj, badPairs]

/-- The polygon of an outer ring with its inner rings as they are. -/
def Spec.ringPolygon (g : MpGeos) (rings : List Coords) (inner : Nat → List Nat) (i : Nat) : Coords × List Coords :=
  polygonOf g (rings[i]?.getD []) ((inner i).filterMap fun j => rings[j]?)

/-- The lines of a relation whose inner rings do not touch: the polygons are made one after the other up to
the first that is not made or not valid. -/
def Spec.allLines (g : MpGeos) (t : GeosErrors) (rid : Int) (rings : List Coords) (inner : Nat → List Nat) :
    List Nat → List String
  | [] => []
  | i :: is =>
    List.replicate (badPairs t ((inner i).filterMap fun j => rings[j]?)) pairLine ++
    if g.polygonMakes (ringPolygon g rings inner i).1 (ringPolygon g rings inner i).2 = true ∧
        g.polygonValid (ringPolygon g rings inner i).1 (ringPolygon g rings inner i).2 = some true then
      allLines g t rid rings inner is
    else polygonLines g t rid (ringPolygon g rings inner i)

theorem noisyPolygons_log {g : MpGeos} {t : GeosErrors} (htf : GeosErrors.Fit t g) {rid : Int} {v : Nat}
    {inner : Nat → List Nat} {rings : List Coords} {R : List (Option GRing × Bool)}
    (hcR : curOf R = fun k => rings[k]?) :
    ∀ (is : List Nat) (m : MpMem) (ps : List (Nat × (Coords × List Coords))) (F : List (Nat × Geom)),
    MpInv g m R (loopObjs v ps F) → (∀ i ∈ is, (inner i).Nodup) → (∀ i ∈ is, ∀ j ∈ inner i, j < R.length) →
    (∀ i ∈ is, i < R.length) → (∀ i ∈ is, ∀ i' ∈ is, i ∉ inner i') → (∀ i ∈ is, (curOf R i).isSome) →
    AllQuiet g inner (curOf R) is →
    (noisyPolygons g t rid v inner is m).2 = allLines g t rid rings inner is := by
  intro is
  induction is with
  | nil => intro m ps F h _ _ _ _ _ _; rfl
  | cons i is ih =>
    intro m ps F h hnd hin hlt hap hcur hquiet
    unfold noisyPolygons
    have hqi : Quiet g (inner i) (curOf R) := hquiet i (by simp)
    obtain ⟨L, hL, hsaid⟩ := noisyPolygon_says htf (rid := rid) h (hnd i (by simp)) (hin i (by simp))
      (hlt i (by simp)) (hap i (by simp) i (by simp)) (hcur i (by simp))
    have hlog : (noisyTouching g t (inner i) ((inner i).length + 1) m).2 =
        List.replicate (badPairs t ((inner i).filterMap fun j => rings[j]?)) pairLine := by
      have hsub : ∀ q ∈ ringPairs (inner i), [q.1, q.2].Sublist (inner i) := fun q hq => ringPairs_iff.1 hq
      obtain ⟨m', e⟩ := noisyPairs_log (g := g) (t := t) (noisyTouching g t (inner i) (inner i).length)
        (ringPairs (inner i))
        (fun q hq => ⟨hin i (by simp) _ ((hsub q hq).subset (by simp)), hin i (by simp) _ ((hsub q hq).subset (by simp))⟩)
        (fun q hq x y hx hy => hqi _ _ _ _ (hsub q hq) hx hy) m h
      unfold noisyTouching
      rw [e, pairSays_all, hcR]
    have hsame : (noisyPolygon g t rid v i (inner i) m).1 = outerPolygon g v i (inner i) m :=
      congrFun (noisyPolygon_quiet htf rid v i (inner i)) m
    obtain ⟨m1, R1, D, hD, hlen, ha, hr, hM, hq, hdq, hres⟩ := outerPolygon_inv h (hnd i (by simp)) (hin i (by simp))
      (hlt i (by simp)) (hap i (by simp) i (by simp)) (hcur i (by simp))
    obtain ⟨rfl, rfl⟩ := hq hqi
    have hpoly : ∀ shell, curOf R1 i = some shell →
        polygonOf g shell ((inner i).filterMap (curOf R1)) = ringPolygon g rings inner i := by
      intro shell hs
      rw [hcR] at hs ⊢
      simp only at hs
      unfold ringPolygon
      rw [hs]; rfl
    unfold allLines
    rw [← hlog]
    generalize noisyTouching g t (inner i) ((inner i).length + 1) m = n at hL
    generalize hP : noisyPolygon g t rid v i (inner i) m = P at hsame hL hsaid
    obtain ⟨P1, P2⟩ := P
    simp only at hsame hL hsaid
    subst hsame hL
    rcases hsaid with ⟨hbad, cur', shell, hmg, hqc, hs, hg, rfl⟩ | ⟨hnb, rfl⟩
    · have hqc := hqc hqi
      subst hqc
      rw [hpoly shell hs] at hg hP
      rcases hO : outerPolygon g v i (inner i) m with ⟨o1, o2⟩
      rw [hO] at hP hbad
      simp only at hbad
      subst hbad
      rw [bind_err hP]
      rw [if_neg (by exact hg)]
    · rw [List.append_nil] at hP
      rcases hres with ⟨p, shell, e, i1, hmg, hs, hg⟩ | ⟨shell, e, i1, hmg, hs, hg⟩ | ⟨e, i1, hnq, ht⟩
      · rw [e] at hP
        rw [bind_ok hP]
        rw [hpoly shell hs] at hg
        rw [if_pos (by exact hg)]
        simp only
        rw [ih m1 _ _ i1 (fun x hx => hnd x (by simp [hx]))
          (fun x hx => hin x (by simp [hx])) (fun x hx => hlt x (by simp [hx]))
          (fun x hx y hy => hap x (by simp [hx]) y (by simp [hy])) (fun x hx => hcur x (by simp [hx]))
          fun x hx => hquiet x (by simp [hx])]
      · rw [e] at hnb; exact absurd rfl hnb
      · exact absurd hqi hnq

/-- Everything that is said about a relation in which no two inner rings of one outer ring touch along a
line. -/
theorem polygon_messages_exact {g : MpGeos} {t : GeosErrors} (htf : GeosErrors.Fit t g) (rid : Int)
    {rings : List Coords} {extra outer : List Nat} {inner : Nat → List Nat}
    (ha : Arranged rings.length extra outer inner) (hq : AllQuiet g inner (fun k => rings[k]?) outer) :
    (noisyGeometry g t rid rings extra outer inner .start).2 = allLines g t rid rings inner outer := by
  have hstart : MpInv g .start [] [] := ⟨rfl, by simp, ⟨List.Perm.refl _, by simp [ringCells], by simp [ringCells]⟩⟩
  obtain ⟨m1, R, e1, i1, a1, r1, c1⟩ := allocRings_inv rings _ _ _ hstart
  rw [List.nil_append] at i1
  have hlen : R.length = rings.length := by simpa using congrArg List.length c1
  have hcur : curOf R = fun k => rings[k]? := by
    funext k
    have := congrArg (fun l => l[k]?) c1
    simp only [List.getElem?_map] at this
    unfold curOf
    cases hR : R[k]? <;> cases hr : rings[k]? <;> simp [hR, hr] at this ⊢
    exact this
  have hsome : ∀ k, k < rings.length → (curOf R k).isSome := by
    intro k hk
    rw [hcur]
    simp [hk]
  obtain ⟨m2, A, e2, i2, a2, r2, c2⟩ := extraAreas_inv extra m1 [] i1 fun j hj => hsome j (ha.extra_lt j hj)
  rw [List.append_nil] at i2
  obtain ⟨m3, v, e3, i3, r3⟩ := alloc_inv i2 (.vec [])
  have h1 := noisyPolygons_log (g := g) htf (rid := rid) (v := v) (inner := inner) hcur outer m3 [] A i3
    ha.nodup (by rw [hlen]; exact ha.inner_lt) (by rw [hlen]; exact ha.outer_lt) ha.apart
    (fun i hi => hsome i (ha.outer_lt i hi)) (by rw [hcur]; exact hq)
  unfold noisyGeometry
  rw [bind_of e1, bind_of e2, bind_of e3]
  rcases hP : noisyPolygons g t rid v inner outer m3 with ⟨⟨e | a, m4⟩, L⟩
  · rw [bind_err hP]
    rw [hP] at h1
    exact h1
  · rw [bind_ok hP]
    rw [hP] at h1
    simp only at h1
    rw [h1]
    exact List.append_nil _

/-! ### Examples -/

/-- GEOS that cannot intersect rings that start in the same column, and that throws at the given polygon. -/
def crankyGeos (bad : Coords) : MpGeos :=
  { squareGeos false with
    touch := fun x y => if (x.head?.map (·.x)) = (y.head?.map (·.x)) then .apart else (squareGeos false).touch x y
    polygonValid := fun s _ => if s = bad then none else some true }

/-- The exceptions of `crankyGeos`. -/
def crankyErrors : GeosErrors := ⟨fun x y => (x.head?.map (·.x)) = (y.head?.map (·.x)), fun _ _ => "side location conflict"⟩

/-- The exceptions fit. -/
theorem cranky_fits (bad : Coords) : GeosErrors.Fit crankyErrors (crankyGeos bad) := by
  intro x y h
  have h' : x.head?.map (·.x) = y.head?.map (·.x) := by simpa [crankyErrors] using h
  show (if _ then _ else _) = _
  rw [if_pos h']

/-- Two outer rings; the first has three inner rings, two of them in the same column. -/
def crankyRings : List Coords :=
  [square 0 0 100, square 10 10 2, square 10 30 2, square 50 10 2, square 200 0 10]

/-- The inner rings of `crankyRings`. -/
def crankyInner : Nat → List Nat := fun i => if i = 0 then [1, 2, 3] else []

theorem cranky_arranged : Arranged crankyRings.length [] [0, 4] crankyInner := by
  constructor <;> decide

theorem cranky_quiet (bad : Coords) : AllQuiet (crankyGeos bad) crankyInner (fun k => crankyRings[k]?) [0, 4] := by
  intro i hi j k x y hs hx hy
  rcases List.mem_cons.1 hi with rfl | hi
  · have h2 : (j, k) ∈ [(1, 2), (1, 3), (2, 3)] := by simpa [ringPairs, crankyInner] using ringPairs_iff.2 hs
    simp only [List.mem_cons, List.not_mem_nil, or_false, Prod.mk.injEq] at h2
    rcases h2 with ⟨rfl, rfl⟩ | ⟨rfl, rfl⟩ | ⟨rfl, rfl⟩ <;> cases hx <;> cases hy <;>
      (show (crankyGeos []).touch _ _ ≠ _) <;> decide
  · rw [List.mem_singleton.1 hi] at hs
    simp [crankyInner] at hs

/-- One pair cannot be intersected, and the polygon of the second outer ring makes GEOS throw. -/
example : (noisyGeometry (crankyGeos (square 200 0 10).reverse) crankyErrors (-7) crankyRings [] [0, 4] crankyInner .start).2 =
    ["Exception while checking intersection of rings\n",
     "Exception during creation of polygon for relation #-7: side location conflict (treating as invalid polygon)\n"] := by
  rw [polygon_messages_exact (cranky_fits _) _ cranky_arranged (cranky_quiet _)]
  decide +kernel

/-- It fails. -/
example : (noisyGeometry (crankyGeos (square 200 0 10).reverse) crankyErrors (-7) crankyRings [] [0, 4] crankyInner .start).1.1 =
    .error (.exn "invalid ring") := by
  rw [noisy_same (cranky_fits _)]
  decide +kernel

example := (polygon_messages (cranky_fits (square 200 0 10).reverse) (-7) cranky_arranged).1

/-- If the second polygon is fine, one line is left and the relation gets its area. -/
example : (noisyGeometry (crankyGeos []) crankyErrors (-7) crankyRings [] [0, 4] crankyInner .start).1.1 = .ok () ∧
    (noisyGeometry (crankyGeos []) crankyErrors (-7) crankyRings [] [0, 4] crankyInner .start).2 = [pairLine] := by
  decide +kernel

example := no_pair_messages (g := crankyGeos []) (t := ⟨fun _ _ => false, fun _ _ => ""⟩) 3 (rings := crankyRings)
  (extra := []) (outer := [0, 4]) (inner := crankyInner) (fun _ _ => rfl) .start

end Osmium

import Verif.Multipolygon.Interrupted
import Verif.Multipolygon.Reports
import Verif.Examples.AreasProps

/-
C123: what osmium_mpdump has printed when GEOS throws an exception in the second pass.
-/
namespace Osmium
open Spec

/-- examples/osmium_mpdump.cpp 22-48: what is handed to the standard output for some calls, and the exception that ends
it; `f` is the exception after these calls. -/
def mpdumpTrace (wkt : List (Coords × List Coords) → List Char) (f : Option Fail) : List WholeCall → List Line × Option Fail
  | [] => ([], f)
  | .call _ :: cs => mpdumpTrace wkt f cs
  | .area a g :: cs =>
    match mpdumpArea wkt a g with
    | .error e => ([], some e)
    | .ok ls =>
      match mpdumpTrace wkt f cs with
      | (rest, f) => (ls ++ rest, f)

/-- examples/osmium_mpdump.cpp 63-84 `main`: the second pass, `s` is the assembler after the first one: what is handed
to the standard output, and the exception that ends the program.  (The text is kept by the stream, which is not written
out when the program is aborted; so in a terminal or file up to one buffer at the end may be missing.) -/
def mpdumpSoFar {S T : Type} (wkt : List (Coords × List Coords) → List Char) (env : WholeEnv) (pos : IdStore S Position)
    (neg : IdStore T Position) (s : Asm) (calls : List Cb) : List Line × Option Fail :=
  match secondTrace env pos neg (pos.empty, neg.empty) s calls with
  | (cs, f) => mpdumpTrace wkt f cs

theorem mpdumpTrace_ok (wkt : List (Coords × List Coords) → List Char) (f : Area × Option Geom → List Line)
    (x : Option Fail) (calls : List WholeCall) (h : ∀ a ∈ areasIn calls, mpdumpArea wkt a.1 a.2 = .ok (f a)) :
    mpdumpTrace wkt x calls = (((areasIn calls).map f).flatten, x) := by
  induction calls with
  | nil => rfl
  | cons c calls ih =>
    cases c with
    | call c => exact ih h
    | area a g =>
      have h1 : mpdumpArea wkt a g = .ok (f (a, g)) := h (a, g) (by simp [areasIn])
      have h2 := ih fun b hb => h b (by
        have : areasIn (.area a g :: calls) = (a, g) :: areasIn calls := rfl
        rw [this]
        exact List.mem_cons_of_mem _ hb)
      rw [mpdumpTrace, h1, h2]
      rfl

/-- **C123**, for all calls: if an exception is thrown while an area is printed (`get_geometry` or the writer of GEOS),
then what was handed to the standard output is what is printed for the areas before, and the exception is that one. -/
theorem mpdump_stops (wkt : List (Coords × List Coords) → List Char) (x : Option Fail) (a : Area) (g : Option Geom) (e : Fail)
    (before after : List WholeCall) (ls : List Line) (h1 : mpdumpCalls wkt before = .ok ls)
    (h2 : mpdumpArea wkt a g = .error e) :
    mpdumpTrace wkt x (before ++ .area a g :: after) = (ls, some e) := by
  induction before generalizing ls with
  | nil =>
    cases h1
    rw [List.nil_append, mpdumpTrace, h2]
  | cons c cs ih =>
    cases c with
    | call c => exact ih ls h1
    | area b k =>
      rw [List.cons_append, mpdumpTrace]
      rw [mpdumpCalls] at h1
      cases hb : mpdumpArea wkt b k with
      | error f => rw [hb] at h1; cases h1
      | ok l1 =>
        rw [hb] at h1
        cases hc : mpdumpCalls wkt cs with
        | error f => rw [hc] at h1; cases h1
        | ok l2 =>
          rw [hc] at h1
          cases h1
          simp only [ih l2 hc]

theorem mpdump_way_area {ns : List Node} {unset : Position} (wkt : List (Coords × List Coords) → List Char) {v w : Way}
    (hloc : LocatedBy ns unset v w) (hid : SmallId w.obj.id) (hc : IsClosedArea w) :
    mpdumpArea wkt (areaOfWay w).1 (areaOfWay w).2 = .ok (wayDump wkt w) := by
  rw [mpdumpArea_eq wkt _ _ _ (areaPolygons_way hloc hc)]
  obtain ⟨o1, o2⟩ := area_from_way_origin w.obj.id _ (areaIdOfWay_small hid)
  show Except.ok (areaLines wkt (if areaFromWay (w.obj.id * 2) = true then _ else _) (w.obj.id * 2)
    (areaOrigId (w.obj.id * 2)) { w.obj with id := w.obj.id * 2 } _) = _
  rw [o1, o2, areaLines_id, Int.mul_comm]
  rfl

theorem mpdump_relation_area (wkt : List (Coords × List Coords) → List Char) (env : WholeEnv)
    (hsort : env.ringEnv.SortOk) (ws : List Way) (r : Relation) (hid : SmallId r.obj.id) (h0 : r.obj.id ≠ 0)
    (hidw : ∀ w ∈ ws, SmallId w.obj.id) (hv : ∀ w ∈ ws, ∀ t ∈ w.obj.tags, t.value ≠ "")
    (a : Area × Option Geom) (ha : a ∈ areasOfRelation env ws r) :
    ∃ d, mpdumpArea wkt a.1 a.2 = .ok d ∧ RelationDump wkt ws r a d := by
  obtain ⟨ps, origin, areaId, origId, o, hm⟩ := relation_areas env hsort ws r hid h0 hidw hv a ha
  obtain ⟨i1, i2⟩ := madeFor_ids hm
  have hps : areaPolygons a.1 a.2 = .ok ps := by rw [hm.1]; rfl
  refine ⟨_, mpdumpArea_eq wkt _ _ _ hps, ps, origin, areaId, origId, o, hm, ?_⟩
  rw [hm.2.1]
  simp only
  rw [areaLines_id, i1, ← i2]

theorem located_back {ns : List Node} {unset : Position} {ws ws' : List Way}
    (hl : List.Forall₂ (LocatedBy ns unset) ws ws') : ∀ w' ∈ ws', ∃ w ∈ ws, LocatedBy ns unset w w' := by
  intro w' hw'
  obtain ⟨i, hi, rfl⟩ := List.getElem_of_mem hw'
  have hlen := hl.length_eq
  refine ⟨ws[i]'(by omega), List.getElem_mem _, ?_⟩
  have := hl.get (i := i) (by omega) hi
  simpa only [List.get_eq_getElem] using this

/-- **C123** (partial, as above) for osmium_mpdump: if GEOS throws an exception while a relation is assembled, then what
the program has handed to the standard output before is, in some order, one whole description for each closed way
before the way that completes this relation, if it is not in a multipolygon relation; for each area of the relations
completed by earlier ways; and for those of some of the relations completed by the same way.  Otherwise it is what the
program prints (C92). -/
theorem mpdump_before_exception_partial {S T : Type} {pos : IdStore S Position} {neg : IdStore T Position}
    {okp okn : List (Nat × Position) → Prop} {up un : Nat → Res Position} {unset : Position}
    (wkt : List (Coords × List Coords) → List Char)
    (fp : Faithful pos okp up) (fn : Faithful neg okn un) (env : WholeEnv) (hsort : env.ringEnv.SortOk) (m : Meta)
    (ns : List Node) (ws : List Way) (rs : List Relation) (hd : DistinctObjects (fileOf ns ws rs))
    (hn : ∀ n ∈ ns, NegatableId n.obj.id) (hw : ∀ w ∈ ws, ∀ wn ∈ w.nodes, NegatableId wn.ref)
    (hokp : ∀ j, okp ((posOps (nodeCalls ns)).take j)) (hokn : ∀ j, okn ((negOps (nodeCalls ns)).take j))
    (hu : ∀ w ∈ ws, ∀ wn ∈ w.nodes, (∀ n ∈ ns, n.obj.id ≠ wn.ref) →
      (if 0 ≤ wn.ref then up wn.ref.toNat else un (-wn.ref).toNat) = .ok unset)
    (hnodes : ∀ w ∈ ws, w.nodes ≠ []) (hidw : ∀ w ∈ ws, SmallId w.obj.id)
    (hidr : ∀ r ∈ rs, SmallId r.obj.id ∧ r.obj.id ≠ 0)
    (hv : ∀ w ∈ ws, ∀ t ∈ w.obj.tags, t.value ≠ "")
    (s : Asm) (h1 : Asm.AfterPass1 mpCfg (protocol m (fileOf ns ws rs)) s) :
    ∃ ws', List.Forall₂ (LocatedBy ns unset) ws ws' ∧
      ((∃ ls, mpdumpMain wkt env pos neg s (protocol m (fileOf ns ws rs)) = .ok ls ∧
          mpdumpSoFar wkt env pos neg s (protocol m (fileOf ns ws rs)) = (ls, none)) ∨
       ∃ (ws1 : List Way) (w : Way) (ws2 : List Way) (rs1 : List Relation) (r : Relation) (rs2 : List Relation)
         (ds : List (List Line)) (parts : List (List (List Line))),
          ws' = ws1 ++ w :: ws2 ∧
          (rs1 ++ r :: rs2).Perm (rs.filter fun r => decide (IsMultipolygon r) && decide (CompletedBy ws1 w r)) ∧
          buildWhole env r (wayMembers ws' r) = .error geosError ∧
          mpdumpSoFar wkt env pos neg s (protocol m (fileOf ns ws rs)) = (ds.flatten, some geosError) ∧
          ds.Perm ((ws1.filter fun w => decide (¬ InMultipolygon rs w) && decide (IsClosedArea w)).map (wayDump wkt) ++
            parts.flatten) ∧
          List.Forall₂ (fun r part => List.Forall₂ (RelationDump wkt ws' r) (areasOfRelation env ws' r) part)
            ((rs.filter fun r => decide (IsMultipolygon r) && decide (HasItsWays ws1 r)) ++ rs1) parts) := by
  obtain ⟨ws', hl, hx⟩ := areas_before_exception_partial fp fn env hsort m ns ws rs hd hn hw hokp hokn hu hnodes hidw
    (fun r hr => (hidr r hr).1) hv s h1
  refine ⟨ws', hl, ?_⟩
  have hback := located_back hl
  have hidw' : ∀ w ∈ ws', SmallId w.obj.id := fun w hw' => by
    obtain ⟨v, hv1, e⟩ := hback w hw'
    rw [e.1]; exact hidw v hv1
  have hv' : ∀ w ∈ ws', ∀ t ∈ w.obj.tags, t.value ≠ "" := fun w hw' => by
    obtain ⟨v, hv1, e⟩ := hback w hw'
    rw [e.1]; exact hv v hv1
  rcases hx with ⟨calls, e1, e2⟩ | ⟨ws1, w, ws2, rs1, r, rs2, calls, -, e2, e3, e4, e5, -, -, e6⟩
  · -- no exception
    left
    obtain ⟨ws3, hl3, hz⟩ := multipolygons_file_partial fp fn env hsort m ns ws rs hd hn hw hokp hokn hu hnodes hidw
      (fun r hr => (hidr r hr).1) hv s h1
    rcases hz with ⟨hz, -⟩ | ⟨cs, hz, -, -, hperm⟩
    · rw [hz] at e1; cases e1
    · rw [hz] at e1
      cases e1
      have hidw3 : ∀ w ∈ ws3, SmallId w.obj.id := fun w hw' => by
        obtain ⟨v, hv1, e⟩ := located_back hl3 w hw'
        rw [e.1]; exact hidw v hv1
      have hv3 : ∀ w ∈ ws3, ∀ t ∈ w.obj.tags, t.value ≠ "" := fun w hw' => by
        obtain ⟨v, hv1, e⟩ := located_back hl3 w hw'
        rw [e.1]; exact hv v hv1
      have hareas : ∀ a ∈ areasIn calls, mpdumpArea wkt a.1 a.2 = .ok ((mpdumpArea wkt a.1 a.2).toOption.getD []) := by
        intro a ha
        obtain ⟨d, hd⟩ : ∃ d, mpdumpArea wkt a.1 a.2 = .ok d := by
          rcases List.mem_append.1 (hperm.subset ha) with ha | ha
          · obtain ⟨w, hw', rfl⟩ := List.mem_map.1 ha
            simp only [List.mem_filter, Bool.and_eq_true, decide_eq_true_eq] at hw'
            obtain ⟨v, -, hloc⟩ := located_back hl3 w hw'.1
            exact ⟨_, mpdump_way_area wkt hloc (hidw3 w hw'.1) hw'.2.2⟩
          · obtain ⟨r, hr, ha⟩ := List.mem_flatMap.1 ha
            have hr := hidr r (List.mem_of_mem_filter hr)
            obtain ⟨d, hd, -⟩ := mpdump_relation_area wkt env hsort ws3 r hr.1 hr.2 hidw3 hv3 a ha
            exact ⟨d, hd⟩
        rw [hd]; rfl
      refine ⟨?_, ?_, ?_⟩
      · exact ((areasIn calls).map fun a => (mpdumpArea wkt a.1 a.2).toOption.getD []).flatten
      · unfold mpdumpMain
        rw [hz]
        exact mpdumpCalls_ok wkt _ calls hareas
      · unfold mpdumpSoFar
        rw [e2]
        exact mpdumpTrace_ok wkt _ _ calls hareas
  · right
    have hsub1 : ∀ v ∈ ws1, v ∈ ws' := fun v hv => by rw [e3]; simp [hv]
    have hrs : ∀ x ∈ (rs.filter fun r => decide (IsMultipolygon r) && decide (HasItsWays ws1 r)) ++ rs1, x ∈ rs := by
      intro x hx
      rcases List.mem_append.1 hx with hx | hx
      · exact List.mem_of_mem_filter hx
      · exact List.mem_of_mem_filter (e4.subset (by simp [hx]))
    have hway : ∀ w ∈ ws', IsClosedArea w → mpdumpArea wkt (areaOfWay w).1 (areaOfWay w).2 = .ok (wayDump wkt w) := by
      intro w hw' hc
      obtain ⟨v, -, hloc⟩ := hback w hw'
      exact mpdump_way_area wkt hloc (hidw' w hw') hc
    have hrel : ∀ r ∈ rs, ∀ a ∈ areasOfRelation env ws' r,
        ∃ d, mpdumpArea wkt a.1 a.2 = .ok d ∧ RelationDump wkt ws' r a d :=
      fun r hr a ha => mpdump_relation_area wkt env hsort ws' r (hidr r hr).1 (hidr r hr).2 hidw' hv' a ha
    let f : Area × Option Geom → List Line := fun a => (mpdumpArea wkt a.1 a.2).toOption.getD []
    have hf : ∀ a d, mpdumpArea wkt a.1 a.2 = .ok d → f a = d := fun a d h => by
      show (mpdumpArea wkt a.1 a.2).toOption.getD [] = d
      rw [h]; rfl
    have hmain : mpdumpTrace wkt (some geosError) calls = (((areasIn calls).map f).flatten, some geosError) := by
      refine mpdumpTrace_ok wkt f _ calls fun a ha => ?_
      have ha := e6.subset ha
      rcases List.mem_append.1 ha with ha | ha
      · obtain ⟨w, hw', rfl⟩ := List.mem_map.1 ha
        simp only [List.mem_filter, Bool.and_eq_true, decide_eq_true_eq] at hw'
        have := hway w (hsub1 w hw'.1) hw'.2.2
        rw [hf _ _ this]; exact this
      · obtain ⟨r, hr, ha⟩ := List.mem_flatMap.1 ha
        obtain ⟨d, hd, -⟩ := hrel r (hrs r hr) a ha
        rw [hf _ _ hd]; exact hd
    obtain ⟨parts, q1, q2⟩ := perm_parts e6 f (R := fun r a d => RelationDump wkt ws' r a d) (fun r hr a ha => by
      obtain ⟨d, hd, hrd⟩ := hrel r (hrs r hr) a ha
      rw [hf _ _ hd]; exact hrd)
    refine ⟨ws1, w, ws2, rs1, r, rs2, (areasIn calls).map f, parts, e3, e4, e5, ?_, ?_, q2⟩
    · unfold mpdumpSoFar
      rw [e2]
      exact hmain
    · refine q1.trans (List.Perm.of_eq ?_)
      congr 1
      refine List.map_congr_left fun w hw' => ?_
      simp only [List.mem_filter, Bool.and_eq_true, decide_eq_true_eq] at hw'
      exact hf _ _ (hway w (hsub1 w hw'.1) hw'.2.2)

/-! ### An example -/

/-- The GEOS of `squareEnv`, but it throws an exception when it is to check two polygons. (data for the examples, no
counterpart in /repo) -/
def throwEnv : WholeEnv :=
  { squareEnv with
    mp := { squareGeos false with multiValid := fun ps => if ps.length = 2 then none else some true }
    ccw_eq := squareEnv.ccw_eq }

/-- The ways of the file of C83 with the way 6 at the beginning, after another one. (data for the examples, no
counterpart in /repo) -/
def throwWays : List Way :=
  { squareWay 7 41 500 0 10 [⟨"building", "no"⟩] with
    nodes := [41, 42, 43, 44, 41].map fun i => ⟨i, .undef⟩ } :: pipeWays.drop 5 ++ pipeWays.take 5

/-- The relations, and one that is complete early. (data for the examples, no counterpart in /repo) -/
def throwRelations : List Relation :=
  pipeRelations.take 1 ++ [⟨{ squareRelation.obj with id := 11 }, [⟨'w', 6, "outer"⟩, ⟨'n', 1, ""⟩]⟩] ++
    pipeRelations.drop 1

/-- (data for the examples, no counterpart in /repo) -/
def throwCalls : List Cb := protocol (Meta.new false) (fileOf pipeNodes throwWays throwRelations)

/-- The assembler after the first pass. (data for the examples, no counterpart in /repo) -/
def throwAsm : Asm := ((Asm.new mpCfg).pass1 mpCfg throwCalls).1

/-- The calls with positions. (data for the examples, no counterpart in /repo) -/
def throwLocated : List Cb :=
  (cfwRun pipeStore pipeStore (pipeStore.empty, pipeStore.empty) throwCalls).toOption.getD []

/-- The events. (data for the examples, no counterpart in /repo) -/
def throwEvents : List AsmEvent :=
  match throwAsm.pass2 mpCfg throwLocated with
  | .error _ => []
  | .ok p => p.2

theorem throw_trace : secondTrace throwEnv pipeStore pipeStore (pipeStore.empty, pipeStore.empty) throwAsm throwCalls =
    wholeTrace throwEnv throwEvents := by
  have h1 : cfwRun pipeStore pipeStore (pipeStore.empty, pipeStore.empty) throwCalls = .ok throwLocated := by
    have h : (cfwRun pipeStore pipeStore (pipeStore.empty, pipeStore.empty) throwCalls).toBool = true := by decide +kernel
    unfold throwLocated
    cases hc : cfwRun pipeStore pipeStore (pipeStore.empty, pipeStore.empty) throwCalls with
    | error e => rw [hc] at h; cases h
    | ok x => rfl
  have h2 : ∃ s', throwAsm.pass2 mpCfg throwLocated = .ok (s', throwEvents) := by
    have h : (throwAsm.pass2 mpCfg throwLocated).toBool = true := by decide +kernel
    unfold throwEvents
    cases hc : throwAsm.pass2 mpCfg throwLocated with
    | error e => rw [hc] at h; cases h
    | ok x => exact ⟨x.1, rfl⟩
  obtain ⟨s', h2⟩ := h2
  exact secondTrace_eq throwEnv pipeStore pipeStore throwCalls _ throwAsm s' _ throwEvents h1 h2

/-- Two areas are printed before the exception of relation 9, which is completed by the last way. -/
example : mpdumpSoFar countWkt throwEnv pipeStore pipeStore throwAsm throwCalls =
    (["Area from way id=14 (orig_id=7) version=0 timestamp=0 uid=-1 user=", "  1", "  building=no", "",
      "Area from relation id=23 (orig_id=11) version=0 timestamp=0 uid=-1 user=", "  1", "  type=multipolygon",
      "  building=yes", ""].map String.toList, some geosError) := by
  unfold mpdumpSoFar
  rw [throw_trace]
  decide +kernel

/-- An area is printed; the next one has only one node, and GEOS throws an exception. -/
example : mpdumpTrace countWkt none ([.area ⟨{ squareRelation.obj with id := 23 }, []⟩ (some (.multi []))] ++
      .area ⟨{ squareRelation.obj with id := 14 }, [⟨1, .undef⟩]⟩ none :: [.area ⟨{ squareRelation.obj with id := 25 }, []⟩ (some (.multi []))]) =
    (["Area from relation id=23 (orig_id=11) version=0 timestamp=0 uid=-1 user=", "  0", "  type=multipolygon",
      ""].map String.toList, some geosError) :=
  mpdump_stops _ _ _ _ _ _ _ _ (by decide +kernel) (by decide +kernel)

/-- C125: with a GEOS that does not accept single polygons, relation 11 has been reported before this exception. -/
example : secondReports { throwEnv with mp := { squareGeos false with multiValid := fun ps => if ps.length = 2 then none else some false } }
      pipeStore pipeStore throwAsm throwCalls =
        [txt "Building multipolygon based on relation 11 failed: multipolygon invalid"] := by
  have h1 : cfwRun pipeStore pipeStore (pipeStore.empty, pipeStore.empty) throwCalls = .ok throwLocated := by
    have h : (cfwRun pipeStore pipeStore (pipeStore.empty, pipeStore.empty) throwCalls).toBool = true := by decide +kernel
    unfold throwLocated
    cases hc : cfwRun pipeStore pipeStore (pipeStore.empty, pipeStore.empty) throwCalls with
    | error e => rw [hc] at h; cases h
    | ok x => rfl
  have h2 : ∃ s', throwAsm.pass2 mpCfg throwLocated = .ok (s', throwEvents) := by
    have h : (throwAsm.pass2 mpCfg throwLocated).toBool = true := by decide +kernel
    unfold throwEvents
    cases hc : throwAsm.pass2 mpCfg throwLocated with
    | error e => rw [hc] at h; cases h
    | ok x => exact ⟨x.1, rfl⟩
  obtain ⟨s', h2⟩ := h2
  unfold secondReports
  rw [h1]
  simp only [h2]
  decide +kernel

theorem throw_pass1 : Asm.AfterPass1 mpCfg throwCalls throwAsm := by
  have h2 : ((Asm.new mpCfg).pass1 mpCfg throwCalls).2 = true := by decide +kernel
  simp only [Asm.AfterPass1, h2, if_true]
  refine ⟨rfl, rfl, fun t => ⟨.refl _, ?_⟩⟩
  cases t <;> decide +kernel

/-- The hypotheses are met. -/
example : throwEnv.ringEnv.SortOk ∧ DistinctObjects (fileOf pipeNodes throwWays throwRelations) ∧
    (∀ w ∈ throwWays, ∀ wn ∈ w.nodes, NegatableId wn.ref) ∧
    (∀ w ∈ throwWays, ∀ wn ∈ w.nodes, ∃ n ∈ pipeNodes, n.obj.id = wn.ref) ∧
    (∀ w ∈ throwWays, w.nodes ≠ []) ∧ (∀ w ∈ throwWays, SmallId w.obj.id) ∧
    (∀ r ∈ throwRelations, SmallId r.obj.id ∧ r.obj.id ≠ 0) ∧ ∀ w ∈ throwWays, ∀ t ∈ w.obj.tags, t.value ≠ "" := by
  refine ⟨exampleEnv_sort false, ?_, ?_, ?_, ?_, ?_, ?_, ?_⟩
  · unfold DistinctObjects; decide +kernel
  · unfold NegatableId; decide +kernel
  · decide +kernel
  · decide +kernel
  · unfold SmallId; decide +kernel
  · unfold SmallId; decide +kernel
  · decide +kernel

end Osmium

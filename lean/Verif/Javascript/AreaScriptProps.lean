import Verif.Javascript.AreaScript
import Verif.Javascript.ListingFile

/-
C116: the shapefile and the listing of area.js.
-/
namespace Osmium
open Spec Text

namespace Spec

/-- The area has the tag `key` with a value. -/
def HasTag (tags : TagList) (key : String) : Prop := ∃ v, firstValue tags key = some v ∧ v ≠ ""

open Classical in
/-- The type of an area. -/
noncomputable def areaTypeName (tags : TagList) : String :=
  if HasTag tags "boundary" then "boundary" else if HasTag tags "building" then "building" else "unknown"

/-- What is in the columns for an area. -/
noncomputable def areaAttrs (toInt32 : JsString → Int) (o : Obj) (column : String) : ScriptAttr :=
  if column = "id" then columnNumber o.id
  else if column = "type" then columnText toInt32 (areaTypeName o.tags)
  else if column = "name" then columnTag toInt32 o.tags "name"
  else .missing

/-- The shape and the record of an area. -/
def AreaRow (ident : ShpObject → Nat) (toInt32 : JsString → Int) (fields : List DbfField) (a : Area × Option Geom)
    (r : ShpShape × DbfRow) : Prop :=
  (∃ ps, AreaRings a ps ∧ RingsShape ident ps r.1) ∧ RowOf fields (areaAttrs toInt32 a.1.obj) r.2

/-- The line for an area. -/
def originLine (a : Area) : List Char :=
  "area ".toList ++ intDec a.obj.id ++ " from ".toList ++ (if areaFromWay a.obj.id then "way".toList else "relation".toList)

/-- Tags with different keys, the values of which are OSM texts. -/
def TextTags (tags : TagList) : Prop := (tags.map (·.key)).Nodup ∧ ∀ t ∈ tags, OsmText t.value

/-- An id such that the id of the area made from the object is a number that scripts see as it is. -/
def HalfId (id : Int) : Prop := |id| < 4503599627370496

end Spec

/-! ### One area -/

theorem areaType_ok (toInt32 : JsString → Int) {tags : TagList} (hv : ∀ t ∈ tags, OsmText t.value) :
    areaType toInt32 tags = .ok (columnText toInt32 (areaTypeName tags)) := by
  have k1 : ScriptKey "boundary" := scriptKey_of_check (by decide)
  have k2 : ScriptKey "building" := scriptKey_of_check (by decide)
  unfold areaType areaTypeName
  rw [jsTag_first hv k1, bind_ok, jsTag_first hv k2]
  by_cases h1 : HasTag tags "boundary"
  · rw [if_pos ((truthy_first _ _).2 h1), if_pos h1]
    rfl
  · rw [if_neg (fun h => h1 ((truthy_first _ _).1 h)), if_neg h1]
    simp only [Except.map]
    by_cases h2 : HasTag tags "building"
    · rw [if_pos ((truthy_first _ _).2 h2), if_pos h2]
      rfl
    · rw [if_neg (fun h => h2 ((truthy_first _ _).1 h)), if_neg h2]
      rfl

/-- (helper for statements and proofs, no counterpart in /repo) -/
noncomputable def areaAddition (ident : ShpObject → Nat) (toInt32 : JsString → Int) (a : Area × Option Geom) : ShpCall :=
  .add (areaSeen ident a).geom (areaAttrs toInt32 a.1.obj)

theorem areaAdd_ok (fits : DbfField → DbfValue → Bool) (toInt32 : JsString → Int) (ident : ShpObject → Nat)
    (h : ShpTable × Bool) (a : Area) (g : Option Geom) (hv : ∀ t ∈ a.obj.tags, OsmText t.value)
    (hs : HasShape ident (a, g)) :
    areaAdd fits toInt32 ident h a g = shpCall fits h (areaAddition ident toInt32 (a, g)) := by
  obtain ⟨ps, sh, h1, h2, h3, -⟩ := areaSeen_shape hs
  unfold areaAdd areaAddition
  rw [h1, bind_ok, jsTag_first hv scriptKey_name, bind_ok, areaType_ok toInt32 hv, bind_ok, h2, bind_ok, h3]
  congr 2
  funext k
  unfold areaAttrs
  rw [tagAttr_first, idAttr_eq]
  by_cases e1 : k = "id"
  · rw [if_pos e1, if_pos e1]
  · rw [if_neg e1, if_neg e1]
    by_cases e2 : k = "name"
    · subst e2
      rw [if_pos rfl, if_neg (by decide), if_pos rfl]
    · rw [if_neg e2, if_neg e2]

theorem areaAdd_no_shape (fits : DbfField → DbfValue → Bool) (toInt32 : JsString → Int) (ident : ShpObject → Nat)
    (h : ShpTable × Bool) (a : Area) (g : Option Geom) (hv : ∀ t ∈ a.obj.tags, OsmText t.value)
    (hs : ¬ HasShape ident (a, g)) : ∃ e, areaAdd fits toInt32 ident h a g = .error e := by
  unfold areaAdd
  cases h1 : areaPolygons a g with
  | error e => exact ⟨e, rfl⟩
  | ok ps =>
    rw [bind_ok, jsTag_first hv scriptKey_name, bind_ok, areaType_ok toInt32 hv, bind_ok]
    cases h2 : shapeArgument ident (.multi ps) with
    | error e => exact ⟨e, rfl⟩
    | ok sh =>
      exfalso
      obtain ⟨s', e, -⟩ := shapeArgument_stores (g := .multi ps) trivial h2
      exact hs ⟨ps, s', h1, by rw [h2, e]⟩

theorem shownArea_ok {num : ℚ → List Char} (hn : NumberText num) {o : Obj} (ho : |o.id| ≤ 9007199254740992) :
    shownProps num (jsAreaProp o []) ["id", "from"] =
      .ok [utf16 (intDec o.id), utf16 (if areaFromWay o.id then "way".toList else "relation".toList)] := by
  have e1 : ∃ v, jsAreaProp o [] "id" = .ok v ∧ jsShow num v = utf16 (intDec o.id) := by
    refine ⟨.num o.id, ?_, by rw [jsShow, hn.1 _ ho, jsLit_eq]⟩
    simp [jsAreaProp, jsObjectProp, jsNumber_exact ho]
  have e0 : ∃ v, jsAreaProp o [] "from" = .ok v ∧
      jsShow num v = utf16 (if areaFromWay o.id then "way".toList else "relation".toList) := by
    refine ⟨.str (v8New (textBytes (if areaFromWay o.id then "way" else "relation"))), by
      simp only [jsAreaProp, if_true], ?_⟩
    rw [jsShow]
    cases areaFromWay o.id
    · exact v8New_utf8 (cs := "relation".toList) (by decide +kernel)
    · exact v8New_utf8 (cs := "way".toList) (by decide +kernel)
  exact shownProps_cons e1 (shownProps_cons (names := []) (ts := []) e0 rfl)

theorem originLine_printable {a : Area} (ho : |a.obj.id| ≤ 9007199254740992) : Printable (originLine a) := by
  have k1 := intDec_short ho
  have k2 : "area ".toList.length = 5 ∧ " from ".toList.length = 6 ∧ "way".toList.length = 3 ∧ "relation".toList.length = 8 := by
    decide +kernel
  apply printable_short
  · unfold originLine
    simp only [List.mem_append, not_or]
    refine ⟨⟨⟨by decide +kernel, intDec_not_nul _⟩, by decide +kernel⟩, ?_⟩
    split <;> decide +kernel
  · unfold originLine
    rw [List.length_append, List.length_append, List.length_append]
    split <;> omega

theorem areaCallback_ok (fits : DbfField → DbfValue → Bool) (toInt32 : JsString → Int) (ident : ShpObject → Nat)
    {num : ℚ → List Char} (hn : NumberText num) (s : AreaOutput) (a : Area) (g : Option Geom)
    (ho : |a.obj.id| ≤ 9007199254740992) :
    areaCallback fits toInt32 ident num s a g =
      (areaAdd fits toInt32 ident s.file a g).map fun h => ⟨h, s.out ++ printed [originLine a]⟩ := by
  unfold areaCallback
  rw [shownArea_ok hn ho, bind_ok]
  dsimp only
  have e : areaText (utf16 (intDec a.obj.id)) (utf16 (if areaFromWay a.obj.id then "way".toList else "relation".toList)) =
      utf16 (originLine a) := by
    unfold areaText originLine
    rw [jsLit_eq, jsLit_eq, ← utf16_append', ← utf16_append', ← utf16_append']
  rw [e, printText_ok _ _ (originLine_printable ho), bind_ok, printed_one]

/-! ### All calls -/

namespace Spec

/-- The lines for a call. -/
def originLines : WholeCall → List (List Char)
  | .call (.init _) => ["Start!".toList]
  | .call .final => ["End!".toList]
  | .area a _ => [originLine a]
  | _ => []

end Spec

theorem areaScript_chain (fits : DbfField → DbfValue → Bool) (toInt32 : JsString → Int) (ident : ShpObject → Nat)
    {num : ℚ → List Char} (hn : NumberText num) (calls : List WholeCall) (hf : WholeCall.call .final ∉ calls)
    (ha : ∀ a ∈ areasIn calls, |a.1.obj.id| ≤ 9007199254740992 ∧ (∀ t ∈ a.1.obj.tags, OsmText t.value) ∧ HasShape ident a)
    (s : AreaOutput) :
    callChain (areaScriptCall fits toInt32 ident num) s calls =
      (callChain (shpCall fits) s.file ((areasIn calls).map (areaAddition ident toInt32))).map
        fun h => ⟨h, s.out ++ printed (calls.flatMap originLines)⟩ := by
  have hnil : printed [] = [] := by simp [printed, utf8]
  induction calls generalizing s with
  | nil =>
    show Except.ok s = Except.ok _
    rw [List.flatMap_nil, hnil, List.append_nil]
  | cons c calls ih =>
    have skip : areaScriptCall fits toInt32 ident num s c = .ok s → areasIn (c :: calls) = areasIn calls →
        originLines c = [] → callChain (areaScriptCall fits toInt32 ident num) s (c :: calls) =
      (callChain (shpCall fits) s.file ((areasIn (c :: calls)).map (areaAddition ident toInt32))).map
        fun h => ⟨h, s.out ++ printed ((c :: calls).flatMap originLines)⟩ := by
      intro h1 h2 h3
      rw [callChain, h1, h2, List.flatMap_cons, h3, List.nil_append]
      exact ih (fun h => hf (List.mem_cons_of_mem _ h)) (by rw [← h2]; exact ha) s
    rcases c with ⟨a, g⟩ | c
    · have e : areasIn (.area a g :: calls) = (a, g) :: areasIn calls := rfl
      rw [e] at ha ⊢
      obtain ⟨a1, a2, a3⟩ := ha (a, g) List.mem_cons_self
      rw [callChain, areaScriptCall, areaCallback_ok fits toInt32 ident hn s a g a1,
        areaAdd_ok fits toInt32 ident s.file a g a2 a3, List.map_cons, callChain]
      cases shpCall fits s.file (areaAddition ident toInt32 (a, g)) with
      | error e => rfl
      | ok h =>
        show callChain (areaScriptCall fits toInt32 ident num) (⟨h, s.out ++ printed [originLine a]⟩ : AreaOutput) calls = _
        rw [ih (fun h => hf (List.mem_cons_of_mem _ h)) (fun b hb => ha b (List.mem_cons_of_mem _ hb))]
        simp only [List.flatMap_cons, originLines, printed_append, List.append_assoc]
    · rcases c with m | t | o | t | _
      · have e : areasIn (.call (.init m) :: calls) = areasIn calls := rfl
        rw [e] at ha ⊢
        have h1 : areaScriptCall fits toInt32 ident num s (.call (.init m)) =
            .ok ⟨s.file, s.out ++ printed ["Start!".toList]⟩ := by
          rw [areaScriptCall, jsLit_eq, printText_ok _ _ (printable_short (by decide +kernel) (by decide +kernel)), printed_one]
          rfl
        rw [callChain, h1]
        simp only
        rw [ih (fun h => hf (List.mem_cons_of_mem _ h)) ha]
        simp only [List.flatMap_cons, originLines, printed_append, List.append_assoc]
      · exact skip rfl rfl rfl
      · exact skip rfl rfl rfl
      · exact skip rfl rfl rfl
      · exact absurd List.mem_cons_self hf

/-- Without the first and the last call. -/
theorem origin_lines {calls : List WholeCall} (hb : ∀ m, WholeCall.call (.init m) ∉ calls)
    (hf : WholeCall.call .final ∉ calls) : calls.flatMap originLines = (areasIn calls).map fun a => originLine a.1 := by
  induction calls with
  | nil => rfl
  | cons c l ih =>
    have ih := ih (fun m h => hb m (List.mem_cons_of_mem _ h)) (fun h => hf (List.mem_cons_of_mem _ h))
    rw [List.flatMap_cons, ih]
    rcases c with ⟨a, g⟩ | c
    · rfl
    · rcases c with m | t | o | t | _
      · exact absurd List.mem_cons_self (hb m)
      · rfl
      · rfl
      · rfl
      · exact absurd List.mem_cons_self hf

/-! ### The first call -/

theorem secondPass_init {S T : Type} {pos : IdStore S Position} {neg : IdStore T Position} (env : WholeEnv) (s : Asm)
    (m : Meta) (cs : List Cb) (calls : List WholeCall) (h : secondPass env pos neg s (.init m :: cs) = .ok calls) :
    ∃ calls', calls = .call (.init m) :: calls' := by
  unfold secondPass at h
  cases h1 : cfwRun pos neg (pos.empty, neg.empty) (.init m :: cs) with
  | error e => rw [h1] at h; cases h
  | ok out =>
    rw [h1] at h
    simp only at h
    have h2 : ∃ out', out = .init m :: out' := by
      rw [cfwRun] at h1
      change (do let out ← cfwRun pos neg _ cs; return Cb.init m :: out) = _ at h1
      cases h3 : cfwRun pos neg (pos.empty, neg.empty) cs with
      | error e => rw [h3] at h1; cases h1
      | ok o => rw [h3] at h1; cases h1; exact ⟨o, rfl⟩
    obtain ⟨out', rfl⟩ := h2
    cases h3 : s.pass2 mpCfg (.init m :: out') with
    | error e => rw [h3] at h; cases h
    | ok p =>
      rw [h3] at h
      simp only at h
      have h4 : ∃ es, p.2 = .next (.init m) :: es := by
        rw [Asm.pass2] at h3
        change (do let q ← Asm.pass2 mpCfg _ out'; return (q.1, [AsmEvent.next (.init m)] ++ q.2)) = _ at h3
        cases h5 : Asm.pass2 mpCfg s out' with
        | error e => rw [h5] at h3; cases h3
        | ok q => rw [h5] at h3; cases h3; exact ⟨q.2, rfl⟩
      obtain ⟨es, he⟩ := h4
      rw [he, wholeCalls] at h
      change (wholeCalls env es).map (fun rest => [WholeCall.call (.init m)] ++ rest) = _ at h
      cases h6 : wholeCalls env es with
      | error e => rw [h6] at h; cases h
      | ok cs => rw [h6] at h; cases h; exact ⟨cs, rfl⟩

theorem areaOpen_ok (fits : DbfField → DbfValue → Bool) :
    ∃ h, exportOpen fits "polygon" areaColumns = .ok h ∧ h.2 = true ∧ TableGood h.1 := by
  let calls : List FileCall := .type "polygon" :: areaColumns.map fun c => .column c.name c.type c.size
  have h3 : ∀ c ∈ calls, KnownTypes c := by simp [calls, KnownTypes, areaColumns]
  have h4 : GoodColumns calls := ⟨by decide, by decide, by decide⟩
  obtain ⟨g, t, e1, e2, e3⟩ := openShape_ok (fits := fits) (f := ⟨"", "polygon", areaColumns, none⟩) (calls := calls)
    h3 h4 rfl rfl
  unfold openShape at e1
  unfold exportOpen
  simp only at e1
  cases ho : scriptOpenShp "polygon" with
  | error e => rw [ho] at e1; cases e1
  | ok t0 =>
    rw [ho] at e1
    simp only at e1 ⊢
    cases hc : callChain (fun h c => shpCall fits h (.addField (columnArgs c))) (t0, true) areaColumns with
    | error e => rw [hc] at e1; cases e1
    | ok h =>
      rw [hc] at e1
      cases e1
      cases e2
      exact ⟨_, rfl, rfl, e3⟩

theorem areaAddition_good (ident : ShpObject → Nat) (toInt32 : JsString → Int) (a : Area × Option Geom)
    (ht : ∀ t ∈ a.1.obj.tags, Storable t.value) : GoodAddition (areaAddition ident toInt32 a) := by
  refine ⟨_, _, rfl, fun k => ?_⟩
  unfold areaAttrs
  split
  · exact columnNumber_good _
  · split
    · refine attrGood_text (fun u hu => ascii_storable (fun c hc => ?_) u (List.mem_of_getElem? hu)) _
      unfold areaTypeName at hc
      split at hc
      · revert c; decide
      · split at hc
        · revert c; decide
        · revert c; decide
    · split
      · exact columnTag_good toInt32 ht _
      · exact missing_good

theorem rows_of_all_areas {ident : ShpObject → Nat} {toInt32 : JsString → Int} {fields : List DbfField}
    (as : List (Area × Option Geom)) (h : ∀ a ∈ as, HasShape ident a) :
    ∀ L, Rows .polygon fields (as.map (areaAddition ident toInt32)) L →
      List.Forall₂ (AreaRow ident toInt32 fields) as L := by
  induction as with
  | nil => intro L hL; cases hL; exact .nil
  | cons a as ih =>
    intro L hL
    have ih := ih fun a m => h a (List.mem_cons_of_mem _ m)
    obtain ⟨ps, sh, h1, -, h3, h4, h5⟩ := areaSeen_shape (h a List.mem_cons_self)
    rw [List.map_cons, areaAddition, h3] at hL
    rcases hL with ⟨k1, -⟩ | ⟨s, row, L', k1, k2, k3, k4, k5⟩
    · exact absurd h5 (k1 _ rfl)
    · cases k1
      subst k4
      exact .cons ⟨⟨ps, areaRings_iff h1, h4⟩, k3⟩ (ih L' k5)

/-! ### Whole files -/

/-- **C116** (partial: as C83).  `osmjs -2 -m -l ... -j area.js` for a file with nodes, ways and relations in this order,
no object twice.  If GEOS throws an exception while a relation is assembled, that is the result.  Otherwise, if there is
no exception, the shapefile has exactly one polygon for each area, with its id, its type and its name, and the listing
has, between `Start!` and `End!`, exactly one line for each area, in the order of the shapefile.  The areas are those of
the closed ways that are not in a multipolygon relation, and those of the multipolygon relations that have their ways.
And there is no exception if the library for shapefiles refuses no value and all texts can be stored. -/
theorem area_script_partial {S T : Type} {pos : IdStore S Position} {neg : IdStore T Position}
    {okp okn : List (Nat × Position) → Prop} {up un : Nat → Res Position} {unset : Position}
    (fp : Faithful pos okp up) (fnn : Faithful neg okn un) (env : WholeEnv) (hsort : env.ringEnv.SortOk) (m : Meta)
    (ns : List Node) (ws : List Way) (rs : List Relation) (hd : DistinctObjects (fileOf ns ws rs))
    (hn : ∀ n ∈ ns, NegatableId n.obj.id) (hw : ∀ w ∈ ws, ∀ wn ∈ w.nodes, NegatableId wn.ref)
    (hokp : ∀ j, okp ((posOps (nodeCalls ns)).take j)) (hokn : ∀ j, okn ((negOps (nodeCalls ns)).take j))
    (hu : ∀ w ∈ ws, ∀ wn ∈ w.nodes, (∀ n ∈ ns, n.obj.id ≠ wn.ref) →
      (if 0 ≤ wn.ref then up wn.ref.toNat else un (-wn.ref).toNat) = .ok unset)
    (hnodes : ∀ w ∈ ws, w.nodes ≠ []) (hidw : ∀ w ∈ ws, HalfId w.obj.id)
    (hidr : ∀ r ∈ rs, HalfId r.obj.id ∧ r.obj.id ≠ 0)
    (hv : ∀ w ∈ ws, ∀ t ∈ w.obj.tags, t.value ≠ "")
    (htw : ∀ w ∈ ws, TextTags w.obj.tags) (htr : ∀ r ∈ rs, TextTags r.obj.tags)
    (s : Asm) (h1 : Asm.AfterPass1 mpCfg (protocol m (fileOf ns ws rs)) s)
    (fits : DbfField → DbfValue → Bool) (toInt32 : JsString → Int) (ident : ShpObject → Nat)
    {num : ℚ → List Char} (hnum : NumberText num) :
    ∃ ws', List.Forall₂ (LocatedBy ns unset) ws ws' ∧
      ((areaScript env pos neg s fits toInt32 ident num (protocol m (fileOf ns ws rs)) = .error geosError ∧
          ∃ r ∈ rs, IsMultipolygon r ∧ HasItsWays ws' r ∧ buildWhole env r (wayMembers ws' r) = .error geosError) ∨
       ((∀ f, areaScript env pos neg s fits toInt32 ident num (protocol m (fileOf ns ws rs)) = .ok f →
          ∃ (fields : List DbfField) (as : List (Area × Option Geom)),
            List.Forall₂ (fun c f => FieldOf (columnArgs c) f) areaColumns fields ∧
            as.Perm
              ((ws'.filter fun w => decide (¬ InMultipolygon rs w) && decide (IsClosedArea w)).map areaOfWay ++
               (rs.filter fun r => decide (IsMultipolygon r) && decide (HasItsWays ws' r)).flatMap
                (areasOfRelation env ws')) ∧
            List.Forall₂ (AreaRow ident toInt32 fields) as (contents f.file.1) ∧ f.file.2 = false ∧
            f.out = printed ("Start!".toList :: as.map (fun a => originLine a.1) ++ ["End!".toList])) ∧
        ((∀ f v, fits f v = true) → (∀ w ∈ ws, ∀ t ∈ w.obj.tags, Storable t.value) →
          (∀ r ∈ rs, ∀ t ∈ r.obj.tags, Storable t.value) →
          (∀ r ∈ rs, ∀ a ∈ areasOfRelation env ws' r, ∀ ps, AreaRings a ps → ∃ p ∈ ps, p.1 ≠ []) →
          ∃ f, areaScript env pos neg s fits toInt32 ident num (protocol m (fileOf ns ws rs)) = .ok f))) := by
  have small : ∀ i, HalfId i → SmallId i := by
    intro i h; unfold HalfId at h; unfold SmallId; rw [abs_lt] at h; omega
  have hsw : ∀ w ∈ ws, SmallId w.obj.id := fun w h => small _ (hidw w h)
  have hsr : ∀ r ∈ rs, SmallId r.obj.id := fun r h => small _ (hidr r h).1
  obtain ⟨ws', hl, hx⟩ := multipolygons_file_partial fp fnn env hsort m ns ws rs hd hn hw hokp hokn hu hnodes hsw hsr hv s h1
  refine ⟨ws', hl, ?_⟩
  obtain ⟨f0, hload, ho0, hg0⟩ := areaOpen_ok fits
  rcases hx with ⟨e1, e2⟩ | ⟨calls, e1, -, e3, e4⟩
  · left
    refine ⟨?_, e2⟩
    unfold areaScript
    rw [hload, e1]
  right
  have hback := forall₂_mem_right hl
  have hidw' : ∀ w ∈ ws', HalfId w.obj.id := fun w hw' => by
    obtain ⟨v, hv1, e⟩ := hback w hw'
    rw [e.1]; exact hidw v hv1
  have hv' : ∀ w ∈ ws', ∀ t ∈ w.obj.tags, t.value ≠ "" := fun w hw' => by
    obtain ⟨v, hv1, e⟩ := hback w hw'
    rw [e.1]; exact hv v hv1
  have htw' : ∀ w ∈ ws', TextTags w.obj.tags := fun w hw' => by
    obtain ⟨v, hv1, e⟩ := hback w hw'
    rw [e.1]; exact htw v hv1
  -- the first and the last call
  have hp : ∀ vs, ∃ body, protocol m (fileOf ns vs rs) = .init m :: body ++ [Cb.final] ∧ Cb.final ∉ body ∧
      ∀ m', Cb.init m' ∉ body := by
    intro vs
    rw [protocol_fileOf]
    have hi : ∀ (m' : Meta) (l : List OsmObj), Cb.init m' ∉ runCalls l := by
      intro m' l
      cases l <;> simp [runCalls]
    have := final_not_mem_runCalls
    refine ⟨runCalls (ns.map OsmObj.node) ++ (runCalls (vs.map OsmObj.way) ++
      runCalls (rs.map OsmObj.relation)), by simp, ?_, ?_⟩
    · simp [this]
    · simp [hi]
  obtain ⟨body0, hb0, -⟩ := hp ws
  obtain ⟨body, hb, hbf, hbi⟩ := hp ws'
  obtain ⟨calls, rfl⟩ := secondPass_final env s (.init m :: body0) calls (by rw [← hb0]; exact e1)
  have hstart : ∃ inner, calls = .call (.init m) :: inner := by
    obtain ⟨c', hc'⟩ := secondPass_init env s m (body0 ++ [.final]) _ (by rw [hb0] at e1; exact e1)
    cases calls with
    | nil => cases hc'
    | cons c calls => cases hc'; exact ⟨calls, rfl⟩
  obtain ⟨calls, rfl⟩ := hstart
  have ho : otherCalls calls = body := by
    have : otherCalls (WholeCall.call (.init m) :: calls ++ [.call .final]) = .init m :: otherCalls calls ++ [Cb.final] := by
      unfold otherCalls
      rw [List.filterMap_append, List.filterMap_cons]
      rfl
    rw [this, hb] at e3
    exact (List.cons.inj (List.append_cancel_right e3)).2
  have ha : areasIn (WholeCall.call (.init m) :: calls ++ [.call .final]) = areasIn calls := by
    unfold areasIn
    rw [List.filterMap_append, List.filterMap_cons]
    exact List.append_nil _
  rw [ha] at e4
  have hmemo : ∀ c, WholeCall.call c ∈ calls → c ∈ body := by
    intro c hc
    rw [← ho]
    exact List.mem_filterMap.2 ⟨_, hc, rfl⟩
  have hfinal : WholeCall.call .final ∉ calls := fun h => hbf (hmemo _ h)
  have hfinal' : WholeCall.call .final ∉ WholeCall.call (.init m) :: calls := by simp [hfinal]
  have hinit : ∀ m', WholeCall.call (.init m') ∉ calls := fun m' h => hbi m' (hmemo _ h)
  -- ids and tags
  have hfrom : ∀ a ∈ areasIn calls, |a.1.obj.id| ≤ 9007199254740992 ∧
      ∀ t ∈ a.1.obj.tags, (∃ w ∈ ws, t ∈ w.obj.tags) ∨ ∃ r ∈ rs, t ∈ r.obj.tags := by
    intro a ha'
    have hws : ∀ w ∈ ws', ∀ t ∈ w.obj.tags, ∃ v ∈ ws, t ∈ v.obj.tags := by
      intro w hw' t ht
      obtain ⟨v, hv1, e⟩ := hback w hw'
      exact ⟨v, hv1, by rw [← e.1]; exact ht⟩
    rcases List.mem_append.1 (e4.subset ha') with h | h
    · obtain ⟨w, hw', rfl⟩ := List.mem_map.1 h
      have hw' := List.mem_of_mem_filter hw'
      refine ⟨?_, fun t ht => .inl (hws w hw' t ht)⟩
      have := hidw' w hw'
      unfold HalfId at this
      rw [abs_lt] at this
      show |w.obj.id * 2| ≤ _
      rw [abs_le]
      omega
    · obtain ⟨r, hr, h⟩ := List.mem_flatMap.1 h
      have hr := List.mem_of_mem_filter hr
      obtain ⟨-, q2⟩ := relation_area_tags env hsort ws' r (hsr r hr) (fun w h => small _ (hidw' w h)) hv' (htr r hr).1
        (fun w hw' => (htw' w hw').1) a h
      refine ⟨?_, fun t ht => ?_⟩
      · obtain ⟨ps, origin, areaId, origId, o, -, hm, hm2⟩ := relation_areas env hsort ws' r (hsr r hr) (hidr r hr).2
          (fun w h => small _ (hidw' w h)) hv' a h
        rw [hm]
        show |areaId| ≤ _
        rw [abs_le]
        rcases hm2 with ⟨_, _, -, hi, -⟩ | ⟨w, hw', -, -, hi, -⟩
        · have := (hidr r hr).1
          unfold HalfId at this
          rw [abs_lt] at this
          split at hi <;> omega
        · have := hidw' w hw'
          unfold HalfId at this
          rw [abs_lt] at this
          omega
      · rcases q2 t ht with h | ⟨w, hw', h⟩
        · exact .inr ⟨r, hr, h⟩
        · exact .inl (hws w hw' t h)
  have htext : ∀ a ∈ areasIn calls, ∀ t ∈ a.1.obj.tags, OsmText t.value := by
    intro a ha' t ht
    rcases (hfrom a ha').2 t ht with ⟨w, hw', h⟩ | ⟨r, hr, h⟩
    · exact (htw w hw').2 t h
    · exact (htr r hr).2 t h
  have hmain : (∀ a ∈ areasIn calls, HasShape ident a) →
      areaScript env pos neg s fits toInt32 ident num (protocol m (fileOf ns ws rs)) =
        (callChain (shpCall fits) f0 ((areasIn calls).map (areaAddition ident toInt32))).bind fun h =>
          (shpCall fits h .close).map fun h =>
            ⟨h, printed ("Start!".toList :: (areasIn calls).map (fun a => originLine a.1) ++ ["End!".toList])⟩ := by
    intro hshape
    unfold areaScript
    rw [hload, e1]
    simp only
    rw [callChain_append, areaScript_chain fits toInt32 ident hnum _ hfinal' (fun a h =>
      ⟨(hfrom a h).1, htext a h, hshape a h⟩)]
    have e5 : areasIn (WholeCall.call (.init m) :: calls) = areasIn calls := rfl
    rw [e5]
    cases callChain (shpCall fits) f0 ((areasIn calls).map (areaAddition ident toInt32)) with
    | error e => rfl
    | ok h =>
      rw [bind_ok]
      simp only [Except.map]
      rw [callChain, areaScriptCall]
      simp only
      cases shpCall fits h .close with
      | error e => rfl
      | ok h' =>
        rw [bind_ok, jsLit_eq, printText_ok _ _ (printable_short (by decide +kernel) (by decide +kernel)), List.flatMap_cons,
          origin_lines hinit hfinal, ← printed_one, List.nil_append, ← printed_append]
        rfl
  refine ⟨?_, ?_⟩
  · intro f hf
    have hshape : ∀ a ∈ areasIn calls, HasShape ident a := by
      intro a ha'
      by_contra hno
      have hmem : WholeCall.area a.1 a.2 ∈ WholeCall.call (.init m) :: calls ++ [.call .final] := by
        obtain ⟨c, hc, e⟩ := List.mem_filterMap.1 ha'
        cases c with
        | call c => cases e
        | area b g => cases e; exact List.mem_append_left _ (List.mem_cons_of_mem _ hc)
      obtain ⟨e, he⟩ := callChain_error (f := areaScriptCall fits toInt32 ident num) (b := .area a.1 a.2)
        (fun s => by
          obtain ⟨e, he⟩ := areaAdd_no_shape fits toInt32 ident s.file a.1 a.2 (htext a ha') hno
          refine ⟨e, ?_⟩
          rw [areaScriptCall, areaCallback_ok fits toInt32 ident hnum s a.1 a.2 (hfrom a ha').1, he]
          rfl) _ hmem ⟨f0, []⟩
      unfold areaScript at hf
      rw [hload, e1] at hf
      simp only at hf
      rw [he] at hf
      cases hf
    rw [hmain hshape] at hf
    cases hr : callChain (shpCall fits) f0 ((areasIn calls).map (areaAddition ident toInt32)) with
    | error e => rw [hr] at hf; cases hf
    | ok h =>
      rw [hr, bind_ok] at hf
      have hadd : ShpCall.close ∉ (areasIn calls).map (areaAddition ident toInt32) := by
        intro h
        obtain ⟨a, -, e⟩ := List.mem_map.1 h
        cases e
      obtain ⟨t0, fields, k1, k2, k3⟩ := export_file hadd hload hr
      have hty : t0.base.type = .polygon := by cases k1; rfl
      rw [hty] at k3
      have hopen : h.2 = true := by
        have : f0 = (f0.1, true) := by rw [← ho0]
        rw [this] at hr
        exact (shpCalls_after hadd hr).2
      obtain ⟨t, b⟩ := h
      cases hopen
      have hclose : shpCall fits (t, true) .close = .ok (t, false) := rfl
      rw [hclose] at hf
      cases hf
      exact ⟨fields, areasIn calls, k2, e4, rows_of_all_areas _ hshape _ k3, rfl, rfl⟩
  · intro hfits s2 s3 hcorner
    have hshape : ∀ a ∈ areasIn calls, HasShape ident a := by
      intro a ha'
      have key : ∀ ps, areaPolygons a.1 a.2 = .ok ps → (∃ p ∈ ps, p.1 ≠ []) → HasShape ident a := by
        intro ps k1 k2
        obtain ⟨g, sh, k3, k4, -⟩ := script_area_shape ident a.1.obj ps k2
        cases k3
        exact ⟨ps, sh, k1, k4⟩
      rcases List.mem_append.1 (e4.subset ha') with h | h
      · obtain ⟨w, hw', rfl⟩ := List.mem_map.1 h
        simp only [List.mem_filter, Bool.and_eq_true, decide_eq_true_eq] at hw'
        obtain ⟨v, -, hloc⟩ := hback w hw'.1
        refine key _ (areaPolygons_way hloc hw'.2.2) ⟨_, List.mem_singleton_self _, ?_⟩
        intro h0
        have h0 := List.map_eq_nil_iff.1 h0
        have := hw'.2.2.1
        rw [h0] at this
        simp at this
      · obtain ⟨r, hr, h⟩ := List.mem_flatMap.1 h
        have hr := List.mem_of_mem_filter hr
        obtain ⟨ps, origin, areaId, origId, o, hm⟩ := relation_areas env hsort ws' r (hsr r hr) (hidr r hr).2
          (fun w h => small _ (hidw' w h)) hv' a h
        exact key ps (by rw [hm.1]; rfl) (hcorner r hr a h ps (.inl hm.1))
    rw [hmain hshape]
    obtain ⟨h', r1, r2, r3⟩ := additions_ok hfits ((areasIn calls).map (areaAddition ident toInt32)) (fun c hc => by
      obtain ⟨a, ha', rfl⟩ := List.mem_map.1 hc
      refine areaAddition_good ident toInt32 a fun t ht => ?_
      rcases (hfrom a ha').2 t ht with ⟨w, hw', h⟩ | ⟨r, hr, h⟩
      · exact s2 w hw' t h
      · exact s3 r hr t h) ho0 hg0
    rw [r1, bind_ok]
    obtain ⟨t, b⟩ := h'
    cases r2
    exact ⟨_, rfl⟩

/-! ### Examples, and what is not as promised -/

/-- The file of C83: an area of a way that is an inner ring, the multipolygon with three rings, and the closed way. -/
example : (areaScript squareEnv pipeStore pipeStore pipeAsm (fun _ _ => true) (fun _ => 0) (fun o => o.xs.length)
      sampleNumber pipeCalls).toOption.map (fun f => (contents f.file.1, f.out)) =
    some ([(⟨.polygon, 1, 5, 5⟩, [(0, .int 6), (1, .string (utf8 "unknown".toList)), (2, .null)]),
      (⟨.polygon, 3, 15, 15⟩, [(0, .int 19), (1, .string (utf8 "unknown".toList)), (2, .null)]),
      (⟨.polygon, 1, 5, 5⟩, [(0, .int 12), (1, .string (utf8 "building".toList)), (2, .null)])],
      printed (["Start!", "area 6 from way", "area 19 from relation", "area 12 from way", "End!"].map String.toList)) := by
  decide +kernel

/-- The hypotheses of `area_script_partial` can be met. -/
example : DistinctObjects (fileOf pipeNodes pipeWays pipeRelations) ∧
    (∀ n ∈ pipeNodes, NegatableId n.obj.id) ∧ (∀ w ∈ pipeWays, ∀ wn ∈ w.nodes, NegatableId wn.ref) ∧
    (∀ j, RoomToGrow 100 ((posOps (nodeCalls pipeNodes)).take j)) ∧
    (∀ j, RoomToGrow 100 ((negOps (nodeCalls pipeNodes)).take j)) ∧
    (∀ w ∈ pipeWays, ∀ wn ∈ w.nodes, ∃ n ∈ pipeNodes, n.obj.id = wn.ref) ∧
    (∀ w ∈ pipeWays, w.nodes ≠ []) ∧ (∀ w ∈ pipeWays, HalfId w.obj.id) ∧
    (∀ r ∈ pipeRelations, HalfId r.obj.id ∧ r.obj.id ≠ 0) ∧
    (∀ w ∈ pipeWays, ∀ t ∈ w.obj.tags, t.value ≠ "") ∧
    (∀ w ∈ pipeWays, TextTags w.obj.tags) ∧ (∀ r ∈ pipeRelations, TextTags r.obj.tags) ∧
    Asm.AfterPass1 mpCfg pipeCalls pipeAsm ∧ NumberText sampleNumber := by
  have hneg : negOps (nodeCalls pipeNodes) = [] := by decide +kernel
  have hpos : ∀ o ∈ posOps (nodeCalls pipeNodes), o.1 < 100 := by decide +kernel
  refine ⟨?_, ?_, ?_, ?_, ?_, ?_, ?_, ?_, ?_, ?_, ?_, ?_, pipe_pass1, sampleNumber_ok⟩
  · unfold DistinctObjects; decide +kernel
  · unfold NegatableId; decide +kernel
  · unfold NegatableId; decide +kernel
  · intro j o ho
    have := hpos o (List.mem_of_mem_take ho)
    omega
  · intro j o ho
    rw [hneg] at ho
    simp at ho
  · decide +kernel
  · decide +kernel
  · unfold HalfId; decide +kernel
  · unfold HalfId; decide +kernel
  · decide +kernel
  · unfold TextTags OsmText; decide +kernel
  · unfold TextTags OsmText; decide +kernel

/-- The closed way of C83 with a large id. (for the examples) -/
def largeWay : Way := ⟨{ (squareWay 6 41 500 0 10 [⟨"building", "yes"⟩]).obj with id := 1073741824 },
  (squareWay 6 41 500 0 10 []).nodes⟩
/-- (for the examples) -/
def largeCalls : List Cb := protocol (Meta.new false) (fileOf pipeNodes [largeWay] (pipeRelations.drop 1))
/-- (for the examples) -/
def largeAsm : Asm := ((Asm.new mpCfg).pass1 mpCfg largeCalls).1

theorem large_pass1 : Asm.AfterPass1 mpCfg largeCalls largeAsm := by
  have h2 : ((Asm.new mpCfg).pass1 mpCfg largeCalls).2 = true := by decide +kernel
  simp only [Asm.AfterPass1, h2, if_true]
  refine ⟨rfl, rfl, fun t => ⟨.refl _, ?_⟩⟩
  cases t <;> decide +kernel

/-- **C116, disagreement.**  The id of an area is twice that of its way, and the column for it holds 32 bits: a closed
way with the id 1073741824 gets the negative id -2147483648 in the shapefile, though the script prints the right one.
If the library refuses numbers that are wider than the column (10 characters), the program ends with an exception. -/
theorem area_script_large_id :
    (∃ f, areaScript squareEnv pipeStore pipeStore largeAsm (fun _ _ => true) (fun _ => 0) (fun o => o.xs.length)
        sampleNumber largeCalls = .ok f ∧
      contents f.file.1 = [(⟨.polygon, 1, 5, 5⟩, [(0, .int (-2147483648)), (1, .string (utf8 "building".toList)), (2, .null)])] ∧
      f.out = printed (["Start!", "area 2147483648 from way", "End!"].map String.toList)) ∧
    areaScript squareEnv pipeStore pipeStore largeAsm widthFits (fun _ => 0) (fun o => o.xs.length)
        sampleNumber largeCalls = .error (.exn "Can't add value to field") := by
  constructor
  · have h : (areaScript squareEnv pipeStore pipeStore largeAsm (fun _ _ => true) (fun _ => 0) (fun o => o.xs.length)
        sampleNumber largeCalls).toOption.map (fun f => (contents f.file.1, f.out)) =
      some ([(⟨.polygon, 1, 5, 5⟩, [(0, .int (-2147483648)), (1, .string (utf8 "building".toList)), (2, .null)])],
        printed (["Start!", "area 2147483648 from way", "End!"].map String.toList)) := by decide +kernel
    cases hr : areaScript squareEnv pipeStore pipeStore largeAsm (fun _ _ => true) (fun _ => 0) (fun o => o.xs.length)
        sampleNumber largeCalls with
    | error e => rw [hr] at h; cases h
    | ok f =>
      rw [hr] at h
      have h := Option.some.inj h
      exact ⟨f, rfl, (Prod.mk.inj h).1, (Prod.mk.inj h).2⟩
  · have h : (match areaScript squareEnv pipeStore pipeStore largeAsm widthFits (fun _ => 0) (fun o => o.xs.length)
        sampleNumber largeCalls with
      | .error e => decide (e = .exn "Can't add value to field")
      | .ok _ => false) = true := by decide +kernel
    cases hr : areaScript squareEnv pipeStore pipeStore largeAsm widthFits (fun _ => 0) (fun o => o.xs.length)
        sampleNumber largeCalls with
    | error e => rw [hr] at h; simp only [decide_eq_true_eq] at h; rw [h]
    | ok f => rw [hr] at h; cases h

end Osmium

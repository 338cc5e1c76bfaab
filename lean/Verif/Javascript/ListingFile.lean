import Verif.Javascript.ListingRead

/-
C115: what objects.js and objects_2pass.js print for whole files.
-/
namespace Osmium
open Spec Text

namespace Spec

/-- All lines for an object. (specification, no counterpart in /repo) -/
def objectLines (num : ℚ → List Char) (o : OsmObj) : List (List Char) :=
  objectLine num o :: tagLines (objTags o) ++ partLines o

end Spec

theorem listRun_eq {S T : Type} {pos : IdStore S Position} {neg : IdStore T Position} (num : ℚ → List Char)
    (calls : List Cb) (c : S × T) (cs : List Cb) (out : List UInt8) (h : cfwRun pos neg c calls = .ok cs) :
    listRun pos neg num c out calls = callChain (listWholeCall num) out (cs.map .call) := by
  induction calls generalizing c cs out with
  | nil => cases h; rfl
  | cons call calls ih =>
    unfold cfwRun at h
    cases h1 : cfwStep pos neg c call with
    | error e => rw [h1] at h; cases h
    | ok r =>
      rw [h1] at h
      change (do let out ← cfwRun pos neg r.1 calls; return r.2 :: out) = _ at h
      cases h2 : cfwRun pos neg r.1 calls with
      | error e => rw [h2] at h; cases h
      | ok o =>
        rw [h2] at h
        cases h
        rw [listRun, List.map_cons, callChain, h1]
        obtain ⟨c', call'⟩ := r
        simp only
        rw [show listWholeCall num out (.call call') = listCall num out call' from rfl]
        cases listCall num out call' with
        | error e => rfl
        | ok s' => exact ih c' o s' h2

theorem protocol_lines (num : ℚ → List Char) (m : Meta) (os : List OsmObj) :
    ((protocol m os).map WholeCall.call).flatMap (callLines num) =
      "Start!".toList :: os.flatMap (objectLines num) ++ ["End!".toList] := by
  have hr : ∀ rs : List (List OsmObj),
      ((rs.flatMap runCalls).map WholeCall.call).flatMap (callLines num) = rs.flatten.flatMap (objectLines num) := by
    intro rs
    induction rs with
    | nil => rfl
    | cons r rs ih =>
      rw [List.flatMap_cons, List.map_append, List.flatMap_append, ih, List.flatten_cons, List.flatMap_append]
      congr 1
      cases r with
      | nil => rfl
      | cons o r =>
        have e : ∀ l : List OsmObj, ((l.map Cb.obj).map WholeCall.call).flatMap (callLines num) = l.flatMap (objectLines num) := by
          intro l
          rw [List.map_map, List.flatMap_map]
          rfl
        have e1 : runCalls (o :: r) = [.before o.type] ++ ((o :: r).map Cb.obj ++ [.after o.type]) := rfl
        rw [e1, List.map_append, List.map_append, List.flatMap_append, List.flatMap_append, e]
        show [] ++ (_ ++ []) = _
        rw [List.nil_append, List.append_nil]
  have e : protocol m os = [.init m] ++ ((runs os).flatMap runCalls ++ [.final]) := rfl
  rw [e, List.map_append, List.map_append, List.flatMap_append, List.flatMap_append, hr, runs_flatten]
  rfl

theorem protocol_obj {m : Meta} {os : List OsmObj} {o : OsmObj} (h : Cb.obj o ∈ protocol m os) : o ∈ os := by
  unfold protocol at h
  simp only [List.cons_append, List.mem_cons, List.mem_append, List.mem_flatMap, reduceCtorEq, false_or, List.not_mem_nil,
    or_false] at h
  obtain ⟨r, hr, h⟩ := h
  have ho : o ∈ r := by
    cases r with
    | nil => cases h
    | cons a r => simpa [runCalls] using h
  rw [← runs_flatten os]
  exact List.mem_flatten.2 ⟨r, hr, ho⟩

/-- **C115 (partial: a file with nodes, ways and relations in this order, no two nodes with the same id).**  `osmjs -l ...
-j objects.js`: if a script can see all of the objects, the listing has, between `Start!` and `End!`, the lines for all
objects in order, the ways being located by the nodes of the file. -/
theorem listing_file_partial {S T : Type} {pos : IdStore S Position} {neg : IdStore T Position}
    {okp okn : List (Nat × Position) → Prop} {up un : Nat → Res Position} {unset : Position}
    (fp : Faithful pos okp up) (fnn : Faithful neg okn un) (m : Meta)
    (ns : List Node) (ws : List Way) (rs : List Relation) (hd : (ns.map fun n => n.obj.id).Nodup)
    (hn : ∀ n ∈ ns, NegatableId n.obj.id) (hw : ∀ w ∈ ws, ∀ wn ∈ w.nodes, NegatableId wn.ref)
    (hokp : ∀ j, okp ((posOps (nodeCalls ns)).take j)) (hokn : ∀ j, okn ((negOps (nodeCalls ns)).take j))
    (hu : ∀ w ∈ ws, ∀ wn ∈ w.nodes, (∀ n ∈ ns, n.obj.id ≠ wn.ref) →
      (if 0 ≤ wn.ref then up wn.ref.toNat else un (-wn.ref).toNat) = .ok unset)
    {num : ℚ → List Char} (hnum : NumberText num) :
    ∃ ws', List.Forall₂ (LocatedBy ns unset) ws ws' ∧
      ((∀ o ∈ fileOf ns ws' rs, PlainObject num o) →
        listRun pos neg num (pos.empty, neg.empty) [] (protocol m (fileOf ns ws rs)) =
          .ok (printed ("Start!".toList :: (fileOf ns ws' rs).flatMap (objectLines num) ++ ["End!".toList]))) := by
  obtain ⟨ws', h1, h2⟩ := coordinates_file fp fnn m ns ws rs hd hn hw hokp hokn hu
  refine ⟨ws', h1, fun hp => ?_⟩
  rw [listRun_eq num _ _ _ _ h2, listing_lines_partial hnum, protocol_lines]
  intro c hc
  obtain ⟨b, hb, rfl⟩ := List.mem_map.1 hc
  cases b with
  | obj o => exact hp o (protocol_obj hb)
  | _ => trivial

/-- **C115 (partial as C83).**  `osmjs -2 -m -l ... -j objects_2pass.js`: unless GEOS throws an exception, the listing
has the lines for all the objects of the file, in order, and between them the lines for the areas of the closed ways
that are not members of a multipolygon relation, and those of the multipolygon relations that have ways, all of which
are in the file. -/
theorem listing_areas_partial {S T : Type} {pos : IdStore S Position} {neg : IdStore T Position}
    {okp okn : List (Nat × Position) → Prop} {up un : Nat → Res Position} {unset : Position}
    (fp : Faithful pos okp up) (fn : Faithful neg okn un) (env : WholeEnv) (hsort : env.ringEnv.SortOk) (m : Meta)
    (ns : List Node) (ws : List Way) (rs : List Relation) (hd : DistinctObjects (fileOf ns ws rs))
    (hn : ∀ n ∈ ns, NegatableId n.obj.id) (hw : ∀ w ∈ ws, ∀ wn ∈ w.nodes, NegatableId wn.ref)
    (hokp : ∀ j, okp ((posOps (nodeCalls ns)).take j)) (hokn : ∀ j, okn ((negOps (nodeCalls ns)).take j))
    (hu : ∀ w ∈ ws, ∀ wn ∈ w.nodes, (∀ n ∈ ns, n.obj.id ≠ wn.ref) →
      (if 0 ≤ wn.ref then up wn.ref.toNat else un (-wn.ref).toNat) = .ok unset)
    (hnodes : ∀ w ∈ ws, w.nodes ≠ []) (hidw : ∀ w ∈ ws, SmallId w.obj.id) (hidr : ∀ r ∈ rs, SmallId r.obj.id)
    (hv : ∀ w ∈ ws, ∀ t ∈ w.obj.tags, t.value ≠ "")
    (s : Asm) (h1 : Asm.AfterPass1 mpCfg (protocol m (fileOf ns ws rs)) s)
    {num : ℚ → List Char} (hnum : NumberText num) :
    ∃ ws', List.Forall₂ (LocatedBy ns unset) ws ws' ∧
      ((listAreas env pos neg s num (protocol m (fileOf ns ws rs)) = .error geosError ∧
          ∃ r ∈ rs, IsMultipolygon r ∧ HasItsWays ws' r ∧ buildWhole env r (wayMembers ws' r) = .error geosError) ∨
       ((∀ o ∈ fileOf ns ws' rs, PlainObject num o) →
        (∀ a ∈ (ws'.filter fun w => decide (¬ InMultipolygon rs w) && decide (IsClosedArea w)).map areaOfWay ++
             (rs.filter fun r => decide (IsMultipolygon r) && decide (HasItsWays ws' r)).flatMap (areasOfRelation env ws'),
          PlainAttrs a.1.obj) →
        ∃ calls, otherCalls calls = protocol m (fileOf ns ws' rs) ∧
          (areasIn calls).Perm
            ((ws'.filter fun w => decide (¬ InMultipolygon rs w) && decide (IsClosedArea w)).map areaOfWay ++
             (rs.filter fun r => decide (IsMultipolygon r) && decide (HasItsWays ws' r)).flatMap
              (areasOfRelation env ws')) ∧
          listAreas env pos neg s num (protocol m (fileOf ns ws rs)) = .ok (printed (calls.flatMap (callLines num))))) := by
  obtain ⟨ws', hl, hx⟩ := multipolygons_file_partial fp fn env hsort m ns ws rs hd hn hw hokp hokn hu hnodes hidw hidr hv s h1
  refine ⟨ws', hl, ?_⟩
  rcases hx with ⟨e, hr⟩ | ⟨calls, e, -, ho, ha⟩
  · exact .inl ⟨by unfold listAreas; rw [e], hr⟩
  · refine .inr fun hp hpa => ⟨calls, ho, ha, ?_⟩
    unfold listAreas
    rw [e]
    simp only
    rw [listing_lines_partial hnum]
    intro c hc
    cases c with
    | area a g =>
      refine hpa (a, g) (ha.mem_iff.1 ?_)
      exact List.mem_filterMap.2 ⟨_, hc, rfl⟩
    | call b =>
      cases b with
      | obj o =>
        refine hp o (protocol_obj (m := m) ?_)
        rw [← ho]
        exact List.mem_filterMap.2 ⟨_, hc, rfl⟩
      | _ => trivial

/-! ### What is not as promised -/

theorem listTags_keys {num : ℚ → List Char} {tags : TagList} (hk : ∀ t ∈ tags, OsmText t.key) (out : List UInt8) :
    listTags num tags out = callChain (listTag num tags) out (tags.map fun t => utf16 t.key.toList) := by
  unfold listTags
  rw [script_tag_keys tags hk, bind_ok]

theorem listTag_value {num : ℚ → List Char} {tags : TagList} {k v : String} (hk : OsmText k) (hv : OsmText v)
    (h : jsTag tags (utf16 k.toList) = .ok (.str (utf16 v.toList))) (out : List UInt8) :
    listTag num tags out (utf16 k.toList) = .ok (out ++ printed [' ' :: k.toList ++ '=' :: v.toList]) := by
  have hp : Printable (' ' :: k.toList ++ '=' :: v.toList) := by
    apply printable_short
    · have h1 := hk.1
      have h2 := hv.1
      simp only [List.cons_append, List.mem_cons, List.mem_append, not_or]
      exact ⟨by decide, h1, by decide, h2⟩
    · have h1 := hk.2
      have h2 := hv.2
      simp only [List.cons_append, List.length_cons, List.length_append]
      omega
  have e : jsLit [' '] ++ utf16 k.toList ++ jsLit ['='] ++ utf16 v.toList = utf16 (' ' :: k.toList ++ '=' :: v.toList) := by
    simp only [jsLit_eq, ← utf16_append']
    simp
  rw [printed_one, ← printText_ok _ _ hp, ← e, listTag, h, bind_ok, jsShow]

/-- **C115, disagreement**: if a key occurs twice, its first value is printed twice and the second one is not. -/
theorem listing_repeated_key {num : ℚ → List Char} (k v v' : String) (hk : OsmText k) (hi : ¬ IndexName k.toList)
    (hv : OsmText v) (hv' : OsmText v') (out : List UInt8) :
    listTags num [⟨k, v⟩, ⟨k, v'⟩] out =
      .ok (out ++ printed [' ' :: k.toList ++ '=' :: v.toList, ' ' :: k.toList ++ '=' :: v.toList]) := by
  have hj : jsTag [⟨k, v⟩, ⟨k, v'⟩] (utf16 k.toList) = .ok (.str (utf16 v.toList)) := by
    rw [script_tag_partial _ k hk hi]
    · simp [jsTagValue, jsText]
    · intro t ht
      simp only [List.mem_cons, List.not_mem_nil, or_false] at ht
      rcases ht with rfl | rfl
      · exact hv
      · exact hv'
  rw [listTags_keys]
  · simp only [List.map_cons, List.map_nil, callChain]
    rw [listTag_value hk hv hj]
    simp only
    rw [listTag_value hk hv hj, List.append_assoc, ← printed_append]
    rfl
  · intro t ht
    simp only [List.mem_cons, List.not_mem_nil, or_false] at ht
    rcases ht with rfl | rfl <;> exact hk

/-- **C115, disagreement**: the values of keys that are numbers are not printed. -/
theorem listing_number_key {num : ℚ → List Char} (n : Nat) (hn : n < 4294967295) (v : String) (out : List UInt8) :
    listTags num [⟨String.ofList (natDec n), v⟩] out = .ok (out ++ printed [' ' :: natDec n ++ "=undefined".toList]) := by
  have h0 : '\x00' ∉ natDec n := by
    intro h
    have := natDec_digits n _ h
    revert this; decide
  have hl := natDec_length_le n 10 (by decide) (by omega)
  have hk : OsmText (String.ofList (natDec n)) := ⟨by simpa using h0, by rw [String.toList_ofList]; omega⟩
  have hp : Printable (' ' :: natDec n ++ "=undefined".toList) := by
    apply printable_short
    · simp only [List.cons_append, List.mem_cons, List.mem_append, not_or]
      exact ⟨by decide, h0, by decide +kernel⟩
    · have : "=undefined".toList.length = 10 := by decide +kernel
      simp only [List.cons_append, List.length_cons, List.length_append, this]
      omega
  have e : jsLit [' '] ++ utf16 (natDec n) ++ jsLit ['='] ++ jsLit "undefined".toList =
      utf16 (' ' :: natDec n ++ "=undefined".toList) := by
    simp only [jsLit_eq, ← utf16_append']
    have : "=undefined".toList = '=' :: "undefined".toList := by decide +kernel
    rw [this]
    simp
  rw [listTags_keys]
  · simp only [List.map_cons, List.map_nil, callChain, String.toList_ofList]
    rw [printed_one, ← printText_ok _ _ hp, ← e, listTag, script_index_keys _ n hn, bind_ok, jsShow]
    · cases printText out (jsLit [' '] ++ utf16 (natDec n) ++ jsLit ['='] ++ jsLit "undefined".toList) <;> rfl
    all_goals simp
  · intro t ht
    simp only [List.mem_cons, List.not_mem_nil, or_false] at ht
    rw [ht]; exact hk

/-- **C115, disagreement**: different tags have the same lines if a key has an equals sign, and also if a value has a
newline; a tag of a way may look like one of its nodes. -/
theorem listing_ambiguous :
    (tagLines [⟨"a=b", "c"⟩] = tagLines [⟨"a", "b=c"⟩] ∧
      printed (tagLines [⟨"a", "1\n b=2"⟩]) = printed (tagLines [⟨"a", "1"⟩, ⟨"b", "2"⟩])) ∧
    tagLines [⟨"member n 1 x", "y"⟩] = partLines (.relation ⟨Obj.new, [⟨'n', 1, "x=y"⟩]⟩) := by
  refine ⟨⟨by decide +kernel, by decide +kernel⟩, by decide +kernel⟩

/-! ### Examples -/

/-- Numbers as texts, with the decimal digits of integers only. (data for the examples, no counterpart in /repo) -/
def sampleNumber (q : ℚ) : List Char := if q.den = 1 then intDec q.num else "0.5".toList

theorem sampleNumber_ok : NumberText sampleNumber := by
  constructor
  · intro n _
    simp [sampleNumber]
  · intro q c hc
    unfold sampleNumber at hc
    split at hc
    · constructor <;> rintro rfl
      · exact intDec_not_nul _ hc
      · exact intDec_line _ hc
    · revert c; decide +kernel

/-- A way with a tag and two nodes. (data for the examples, no counterpart in /repo) -/
def sampleWay : Way where
  obj := { Obj.new with id := 17, version := 3, user := "me and you", tags := [⟨"highway", "residential"⟩] }
  nodes := [⟨1, ⟨10, 20⟩⟩, ⟨2, ⟨30, 40⟩⟩]

/-- A relation with the way as a member. (data for the examples, no counterpart in /repo) -/
def sampleRelation : Relation where
  obj := { Obj.new with id := -5, timestamp := 1000000000 }
  members := [⟨'w', 17, "outer"⟩]

/-- What is given to the script, with the area of a closed way. (data for the examples, no counterpart in /repo) -/
def sampleObjects : List WholeCall :=
  [.call (.init (Meta.new false)), .call (.before .way), .call (.obj (.way sampleWay)), .call (.after .way),
   .area ⟨{ Obj.new with id := 34 }, []⟩ none, .call (.obj (.relation sampleRelation)), .call .final]

/-- Short texts of one line. -/
theorem sample_text (s : String) (h : '\x00' ∉ s.toList ∧ s.toList.length ≤ 255 ∧ '\n' ∉ s.toList) : OsmText s ∧ OneLine s :=
  ⟨⟨h.1, h.2.1⟩, h.2.2⟩

example : ∀ c ∈ sampleObjects, PlainCall sampleNumber c ∧ ClearCall c := by
  have h1 : PlainObject sampleNumber (.way sampleWay) := by
    refine ⟨by decide +kernel, ⟨by decide, by decide, by decide, by decide, (sample_text _ (by decide +kernel)).1, by decide, ?_⟩, by decide, by decide⟩
    intro t ht
    rw [List.mem_singleton.1 ht]
    exact ⟨(sample_text _ (by decide +kernel)).1, (sample_text _ (by decide +kernel)).1, not_index_of_letter (c := 'h') (by decide) (by decide)⟩
  have h2 : ClearAttrs sampleWay.obj := by
    refine ⟨(sample_text _ (by decide +kernel)).2, ?_, .inl rfl⟩
    intro t ht
    rw [List.mem_singleton.1 ht]
    exact ⟨(sample_text _ (by decide +kernel)).2, (sample_text _ (by decide +kernel)).2, by decide +kernel⟩
  have h3 : PlainObject sampleNumber (.relation sampleRelation) := by
    refine ⟨by decide +kernel, ⟨by decide, by decide, by decide, by decide, (sample_text _ (by decide +kernel)).1, by decide, ?_⟩, by decide, ?_⟩
    · intro t ht; cases ht
    · intro m hm
      rw [List.mem_singleton.1 hm]
      exact ⟨by decide, by decide, (sample_text _ (by decide +kernel)).1⟩
  have h4 : ClearAttrs sampleRelation.obj := by
    refine ⟨(sample_text _ (by decide +kernel)).2, ?_, .inr (by unfold InIsoRange; decide +kernel)⟩
    intro t ht; cases ht
  intro c hc
  simp only [sampleObjects, List.mem_cons, List.not_mem_nil, or_false] at hc
  rcases hc with rfl | rfl | rfl | rfl | rfl | rfl | rfl
  · exact ⟨trivial, trivial⟩
  · exact ⟨trivial, trivial⟩
  · refine ⟨h1, h2, ?_⟩
    intro n hn
    simp only [sampleWay, List.mem_cons, List.not_mem_nil, or_false] at hn
    rcases hn with rfl | rfl <;> exact ⟨by decide, by decide⟩
  · exact ⟨trivial, trivial⟩
  · refine ⟨⟨by decide, by decide, by decide, by decide, (sample_text _ (by decide +kernel)).1, by decide, ?_⟩, ⟨(sample_text _ (by decide +kernel)).2, ?_, .inl rfl⟩⟩
    · intro t ht; cases ht
    · intro t ht; cases ht
  · refine ⟨h3, h4, ?_⟩
    intro m hm
    rw [List.mem_singleton.1 hm]
    exact ⟨(sample_text _ (by decide +kernel)).2, by decide +kernel⟩
  · exact ⟨trivial, trivial⟩

/-- The lines for the way. -/
example : callLines sampleNumber (.call (.obj (.way sampleWay))) =
    ["way 17 3  -1 me and you 0 LINESTRING(1e-06 2e-06,3e-06 4e-06)".toList, " highway=residential".toList,
     " ref 1".toList, " ref 2".toList] := by
  decide +kernel

end Osmium

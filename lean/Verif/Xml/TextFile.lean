import Verif.Xml.TextRun
/-
The calls of the XML writer: they make one element, and their texts are those of the objects.
-/
namespace Osmium

/-! ### Numbers and times are written in ASCII -/

/-- Digits and the signs between them. (helper for statements and proofs, no counterpart in /repo) -/
def Plain (cs : List Char) : Prop := ∀ c ∈ cs, 45 ≤ c.toNat ∧ c.toNat ≤ 90

theorem Plain.append {a b : List Char} (ha : Plain a) (hb : Plain b) : Plain (a ++ b) := by
  intro c hc
  rcases List.mem_append.1 hc with h | h
  · exact ha c h
  · exact hb c h

theorem Plain.cons {c : Char} {b : List Char} (hc : 45 ≤ c.toNat ∧ c.toNat ≤ 90) (hb : Plain b) : Plain (c :: b) := by
  intro d hd
  rcases List.mem_cons.1 hd with rfl | h
  · exact hc
  · exact hb d h

theorem Plain.nil : Plain [] := by intro c hc; cases hc

theorem plain_natDec (n : Nat) : Plain (Text.natDec n) := by
  intro c hc
  have := Text.natDec_digits n c hc
  simp only [Text.isDigit, Bool.and_eq_true, decide_eq_true_eq] at this
  omega

theorem plain_intDec (n : Int) : Plain (Text.intDec n) := by
  unfold Text.intDec
  split
  · exact Plain.cons (by decide) (plain_natDec _)
  · exact plain_natDec _

theorem plain_digit (d : Nat) (h : d < 10) : 45 ≤ (Text.digitChar d).toNat ∧ (Text.digitChar d).toNat ≤ 90 := by
  revert h; revert d; decide

theorem plain_fmt7 (q : ℚ) : Plain (Text.fmt7 q) := by
  unfold Text.fmt7
  refine Plain.append (Plain.append ?_ (plain_natDec _)) (Plain.cons (by decide) ?_)
  · split
    · exact Plain.cons (by decide) Plain.nil
    · exact Plain.nil
  · unfold Text.dec7
    repeat first | exact Plain.nil | refine Plain.cons (plain_digit _ (Nat.mod_lt _ (by decide))) ?_

theorem plain_dec2 (n : Int) : Plain (Time.dec2 n) :=
  Plain.cons (plain_digit _ (Nat.mod_lt _ (by decide))) (Plain.cons (plain_digit _ (Nat.mod_lt _ (by decide))) Plain.nil)

theorem plain_toIso (t : Int) : Plain (Time.toIso t) := by
  unfold Time.toIso
  split
  · exact Plain.nil
  · dsimp only
    split
    · unfold Time.isoText
      refine (((((Plain.append (plain_intDec _) ?_).append ?_).append ?_).append ?_).append ?_).append ?_
      all_goals first
        | exact Plain.cons (by decide) (plain_dec2 _)
        | exact Plain.cons (by decide) Plain.nil
    · exact Plain.nil

theorem plain_text {cs : List Char} (h : Plain cs) : XmlText (str cs) := by
  intro c hc
  simp only [str, String.toList_ofList] at hc
  have := h c hc
  simp [isXmlChar]
  omega

/-! ### The calls of the writer -/

/-! #### They make one element -/

theorem meta_run (ft : FileType) (o : Obj) (d : Nat) (dn : Bool) :
    ∃ ks, CS.run ⟨d, dn, some []⟩ (writeMeta ft o) = some ⟨d, dn, some ks⟩ ∧ "lat" ∉ ks ∧ "lon" ∉ ks := by
  unfold writeMeta
  generalize (str (Text.intDec o.id)) = a1
  generalize (str (Text.intDec (wrapS32 o.version))) = a2
  generalize (str (Time.toIso o.timestamp)) = a3
  generalize (str (Text.intDec o.uid)) = a4
  generalize (str (Text.intDec o.changeset)) = a5
  generalize (if o.visible then "true" else "false") = a6
  have g1 : goodName "id" = true := by decide
  have g2 : goodName "version" = true := by decide
  have g3 : goodName "timestamp" = true := by decide
  have g4 : goodName "uid" = true := by decide
  have g5 : goodName "user" = true := by decide
  have g6 : goodName "changeset" = true := by decide
  have g7 : goodName "visible" = true := by decide
  split <;> split <;> split <;> split <;> split <;>
    simp [CS.run, CS.step, g1, g2, g3, g4, g5, g6, g7]

/-- Calls that make whole elements inside of another one. (helper for statements and proofs, no counterpart in /repo) -/
def Whole (cs : List WCall) : Prop := ∀ d k, ∃ k', CS.run ⟨d + 1, false, k⟩ cs = some ⟨d + 1, false, k'⟩

theorem Whole.nil : Whole [] := fun _ k => ⟨k, rfl⟩

theorem Whole.append {a b : List WCall} (ha : Whole a) (hb : Whole b) : Whole (a ++ b) := by
  intro d k
  obtain ⟨k1, h1⟩ := ha d k
  obtain ⟨k2, h2⟩ := hb d k1
  exact ⟨k2, by rw [CS.run_append, h1]; exact h2⟩

theorem Whole.flatMap {α : Type} {f : α → List WCall} (l : List α) (h : ∀ a, Whole (f a)) : Whole (l.flatMap f) := by
  induction l with
  | nil => exact Whole.nil
  | cons a l ih => rw [List.flatMap_cons]; exact (h a).append ih

theorem whole_tags (ts : TagList) : Whole (writeTags ts) := by
  refine Whole.flatMap ts fun t d k => ⟨none, ?_⟩
  have g1 : goodName "tag" = true := by decide
  have g2 : goodName "k" = true := by decide
  have g3 : goodName "v" = true := by decide
  simp [CS.run, CS.step, g1, g2, g3]

/-- Start tag, what is inside, end tag. -/
theorem whole_element {n : String} {as inn : List WCall} (hn : goodName n = true)
    (ha : ∀ d, ∃ ks, CS.run ⟨d, false, some []⟩ as = some ⟨d, false, some ks⟩) (hi : Whole inn) :
    Whole ([WCall.start n] ++ as ++ inn ++ [.close]) := by
  intro d k
  obtain ⟨ks, h1⟩ := ha (d + 2)
  obtain ⟨k2, h2⟩ := hi (d + 1) (some ks)
  refine ⟨none, ?_⟩
  have h0 : CS.run ⟨d + 1, false, k⟩ [WCall.start n] = some ⟨d + 2, false, some []⟩ := by
    simp [CS.run, CS.step, hn]
  rw [CS.run_append, CS.run_append, CS.run_append, h0]
  simp only [h1, h2]
  simp [CS.run, CS.step]

theorem whole_body (ft : FileType) (o : OsmObj) : Whole (writeBody ft o) := by
  cases o with
  | node n =>
    have key : Whole ([WCall.start "node"] ++ (writeMeta ft n.obj ++
        (if n.position.defined then
          [.attr "lat" (str (Text.fmt7 (fixToDouble n.position.y))),
           .attr "lon" (str (Text.fmt7 (fixToDouble n.position.x)))] else [])) ++ writeTags n.obj.tags ++ [.close]) := by
      refine whole_element (by decide) ?_ (whole_tags _)
      intro d
      obtain ⟨ks, h1, h2, h3⟩ := meta_run ft n.obj d false
      rw [CS.run_append, h1]
      have g1 : goodName "lat" = true := by decide
      have g2 : goodName "lon" = true := by decide
      by_cases hp : n.position.defined = true
      · simp only [if_pos hp]
        exact ⟨ks ++ ["lat"] ++ ["lon"], by simp [CS.run, CS.step, g1, g2, h2, h3]⟩
      · simp only [if_neg hp]
        exact ⟨ks, rfl⟩
    simpa [writeBody] using key
  | way w =>
    have key := whole_element (n := "way") (by decide)
      (fun d => (meta_run ft w.obj d false).imp fun _ h => h.1)
      (Whole.append (Whole.flatMap w.nodes (f := fun wn => [WCall.start "nd", .attr "ref" (str (Text.intDec wn.ref)), .close])
        (fun a d k => ⟨none, by
          have g1 : goodName "nd" = true := by decide
          have g2 : goodName "ref" = true := by decide
          simp [CS.run, CS.step, g1, g2]⟩)) (whole_tags w.obj.tags))
    simpa [writeBody] using key
  | relation r =>
    have key := whole_element (n := "relation") (by decide)
      (fun d => (meta_run ft r.obj d false).imp fun _ h => h.1)
      (Whole.append (Whole.flatMap r.members (f := fun m => [WCall.start "member", .attr "type" m.typeName,
          .attr "ref" (str (Text.intDec m.ref)), .attr "role" m.role, .close])
        (fun a d k => ⟨none, by
          have g1 : goodName "member" = true := by decide
          have g2 : goodName "ref" = true := by decide
          have g3 : goodName "type" = true := by decide
          have g4 : goodName "role" = true := by decide
          simp [CS.run, CS.step, g1, g2, g3, g4]⟩)) (whole_tags r.obj.tags))
    simpa [writeBody] using key

/-- The number of open elements between two objects. (helper for statements and proofs, no counterpart in /repo) -/
def levelOf (last : Option Char) : Nat := if last.isSome then 2 else 1

/-- A section of a change file, or none. (helper for statements and proofs, no counterpart in /repo) -/
def IsSec (op : Option Char) : Prop := op = none ∨ op = some 'c' ∨ op = some 'm' ∨ op = some 'd'

theorem opTag_run (last op : Option Char) (hop : IsSec op) (k : Option (List String)) :
    ∃ k', CS.run ⟨levelOf last, false, k⟩ (opTag last op).1 = some ⟨levelOf (opTag last op).2, false, k'⟩ := by
  unfold opTag
  by_cases h : op = last
  · rw [if_pos h]; exact ⟨k, rfl⟩
  · rw [if_neg h]
    have g1 : goodName "create" = true := by decide
    have g2 : goodName "modify" = true := by decide
    have g3 : goodName "delete" = true := by decide
    cases last with
    | none =>
      rcases hop with rfl | rfl | rfl | rfl
      · exact absurd rfl h
      all_goals exact ⟨some [], by simp [CS.run, CS.step, levelOf, g1, g2, g3]⟩
    | some l =>
      rcases hop with rfl | rfl | rfl | rfl
      · exact ⟨none, by simp [CS.run, CS.step, levelOf]⟩
      all_goals exact ⟨some [], by simp [CS.run, CS.step, levelOf, g1, g2, g3]⟩

theorem opTag_snd (last op : Option Char) : (opTag last op).2 = op := by
  unfold opTag
  split
  · next h => exact h.symm
  · rfl

theorem isSec_opOf (o : Obj) : IsSec (some (opOf o)) := by
  unfold opOf IsSec
  split <;> [split; skip] <;> simp

theorem levelOf_eq (l : Option Char) : ∃ d, levelOf l = d + 1 := by
  cases l
  · exact ⟨0, rfl⟩
  · exact ⟨1, rfl⟩

theorem writeObj_run (ft : FileType) (last : Option Char) (o : OsmObj) (k : Option (List String)) :
    ∃ k', CS.run ⟨levelOf last, false, k⟩ (writeObj ft last o).1 = some ⟨levelOf (writeObj ft last o).2, false, k'⟩ := by
  unfold writeObj
  by_cases h : ft = .change
  · simp only [if_pos h]
    obtain ⟨k1, h1⟩ := opTag_run last (some (opOf o.obj)) (isSec_opOf _) k
    obtain ⟨d, hd⟩ := levelOf_eq (opTag last (some (opOf o.obj))).2
    obtain ⟨k2, h2⟩ := whole_body ft o d k1
    exact ⟨k2, by rw [CS.run_append, h1]; simp only [hd]; exact h2⟩
  · simp only [if_neg h]
    obtain ⟨d, hd⟩ := levelOf_eq last
    rw [hd]
    exact whole_body ft o d k

theorem writeObjs_run (ft : FileType) (last : Option Char) (os : List OsmObj) (k : Option (List String)) :
    ∃ k', CS.run ⟨levelOf last, false, k⟩ (writeObjs ft last os).1 =
      some ⟨levelOf (writeObjs ft last os).2, false, k'⟩ := by
  induction os generalizing last k with
  | nil => exact ⟨k, rfl⟩
  | cons o os ih =>
    simp only [writeObjs]
    obtain ⟨k1, h1⟩ := writeObj_run ft last o k
    obtain ⟨k2, h2⟩ := ih (writeObj ft last o).2 k1
    exact ⟨k2, by rw [CS.run_append, h1]; exact h2⟩

theorem writeObjs_last (ft : FileType) (last : Option Char) (os : List OsmObj) (h : ft ≠ .change) :
    (writeObjs ft last os).2 = last := by
  induction os generalizing last with
  | nil => rfl
  | cons o os ih =>
    simp only [writeObjs, writeObj, if_neg h]
    exact ih last

theorem whole_bounds (b : Bounds) : Whole (writeBounds b) := by
  unfold writeBounds
  split
  · intro d k
    have g1 : goodName "bounds" = true := by decide
    have g2 : goodName "minlon" = true := by decide
    have g3 : goodName "minlat" = true := by decide
    have g4 : goodName "maxlon" = true := by decide
    have g5 : goodName "maxlat" = true := by decide
    exact ⟨none, by simp [CS.run, CS.step, g1, g2, g3, g4, g5]⟩
  · exact Whole.nil

/-- A whole file but for the end of the root element. -/
theorem writeFile_run0 (ft : FileType) (gen : String) (m : Meta) (os : List OsmObj) :
    ∃ cs k, writeFile ft gen m os = cs ++ [.close] ∧ CS.run ⟨0, false, none⟩ cs = some ⟨1, false, k⟩ := by
  have e0 : CS.run ⟨0, false, none⟩ [.start (rootName ft), .attr "version" "0.6", .attr "generator" gen] =
      some ⟨1, false, some ["version", "generator"]⟩ := by
    have g1 : goodName (rootName ft) = true := by unfold rootName; split <;> decide
    have g2 : goodName "version" = true := by decide
    have g3 : goodName "generator" = true := by decide
    simp [CS.run, CS.step, g1, g2, g3]
  obtain ⟨k1, h1⟩ := whole_bounds m.bounds 0 (some ["version", "generator"])
  obtain ⟨k2, h2⟩ := writeObjs_run ft none os k1
  have e3 : ∃ k, CS.run ⟨levelOf (writeObjs ft none os).2, false, k2⟩
      (if ft = .change then (opTag (writeObjs ft none os).2 none).1 else []) = some ⟨1, false, k⟩ := by
    by_cases h : ft = .change
    · rw [if_pos h]
      obtain ⟨k3, h3⟩ := opTag_run (writeObjs ft none os).2 none (Or.inl rfl) k2
      rw [opTag_snd] at h3
      exact ⟨k3, h3⟩
    · rw [if_neg h, writeObjs_last ft none os h]
      exact ⟨k2, rfl⟩
  obtain ⟨k, e3⟩ := e3
  refine ⟨writeInit ft gen m ++ (writeObjs ft none os).1 ++
    (if ft = .change then (opTag (writeObjs ft none os).2 none).1 else []), k, ?_, ?_⟩
  · simp [writeFile, writeFinal]
  · unfold writeInit
    rw [CS.run_append, CS.run_append, CS.run_append, e0]
    have h2' : CS.run ⟨1, false, k1⟩ (writeObjs ft none os).1 = some ⟨levelOf (writeObjs ft none os).2, false, k2⟩ := h2
    simp only [h1, Nat.zero_add, h2', e3]

/-- A whole file is one element. -/
theorem writeFile_run (ft : FileType) (gen : String) (m : Meta) (os : List OsmObj) :
    CS.run ⟨0, false, none⟩ (writeFile ft gen m os) = some ⟨0, true, none⟩ := by
  obtain ⟨cs, k, h1, h2⟩ := writeFile_run0 ft gen m os
  rw [h1, CS.run_append, h2]
  simp [CS.run, CS.step]

/-! #### Their texts -/

/-- All values of attributes are allowed. (helper for statements and proofs, no counterpart in /repo) -/
def AllGood (cs : List WCall) : Prop := ∀ c ∈ cs, GoodCall c

theorem allGood_nil : AllGood [] ↔ True := by simp [AllGood]

theorem allGood_cons (c : WCall) (cs : List WCall) : AllGood (c :: cs) ↔ GoodCall c ∧ AllGood cs := by simp [AllGood]

theorem allGood_append (a b : List WCall) : AllGood (a ++ b) ↔ AllGood a ∧ AllGood b := by
  simp [AllGood, or_imp, forall_and]

theorem allGood_flatMap {α : Type} (f : α → List WCall) (l : List α) :
    AllGood (l.flatMap f) ↔ ∀ a ∈ l, AllGood (f a) := by
  induction l with
  | nil => simp [AllGood]
  | cons a l ih => rw [List.flatMap_cons, allGood_append, ih]; simp

theorem xmlText_ascii (s : String) (h : s.toList.all (fun c => decide (32 ≤ c.toNat) && decide (c.toNat ≤ 126)) = true) :
    XmlText s := by
  intro c hc
  have := List.all_eq_true.1 h c hc
  simp only [Bool.and_eq_true, decide_eq_true_eq] at this
  simp [isXmlChar]
  omega

theorem good_attr (k v : String) : GoodCall (.attr k v) ↔ XmlText v := Iff.rfl
theorem good_start (n : String) : GoodCall (.start n) ↔ True := Iff.rfl
theorem good_close : GoodCall .close ↔ True := Iff.rfl

theorem good_int (n : Int) : XmlText (str (Text.intDec n)) := plain_text (plain_intDec n)
theorem good_fmt (q : ℚ) : XmlText (str (Text.fmt7 q)) := plain_text (plain_fmt7 q)
theorem good_iso (n : Int) : XmlText (str (Time.toIso n)) := plain_text (plain_toIso n)

theorem allGood_meta (ft : FileType) (o : Obj) :
    AllGood (writeMeta ft o) ↔ (o.uid > 0 → XmlText o.user) := by
  have h1 : XmlText (if o.visible then "true" else "false") := by
    split <;> exact xmlText_ascii _ (by decide)
  unfold writeMeta
  simp only [allGood_append]
  constructor
  · rintro ⟨⟨⟨_, h⟩, _⟩, _⟩ hu
    rw [if_pos hu] at h
    exact h (.attr "user" o.user) (by simp)
  · intro h
    refine ⟨⟨⟨⟨⟨?_, ?_⟩, ?_⟩, ?_⟩, ?_⟩, ?_⟩
    · simp [allGood_cons, allGood_nil, good_attr, good_int]
    · split <;> simp [allGood_cons, allGood_nil, good_attr, good_int]
    · split <;> simp [allGood_cons, allGood_nil, good_attr, good_iso]
    · split
      · next hu => simp [allGood_cons, allGood_nil, good_attr, good_int, h hu]
      · simp [allGood_nil]
    · split <;> simp [allGood_cons, allGood_nil, good_attr, good_int]
    · split <;> simp [allGood_cons, allGood_nil, good_attr, h1]

theorem allGood_tags (ts : TagList) : AllGood (writeTags ts) ↔ ∀ t ∈ ts, XmlText t.key ∧ XmlText t.value := by
  unfold writeTags
  simp [allGood_flatMap, allGood_cons, allGood_nil, good_attr, good_start, good_close]

theorem good_typeName (m : Member) : XmlText m.typeName := by
  unfold Member.typeName
  split
  · exact xmlText_ascii _ (by decide)
  · split
    · exact xmlText_ascii _ (by decide)
    · split <;> exact xmlText_ascii _ (by decide)

theorem allGood_body (ft : FileType) (o : OsmObj) : AllGood (writeBody ft o) ↔
    (o.obj.uid > 0 → XmlText o.obj.user) ∧ (∀ t ∈ o.obj.tags, XmlText t.key ∧ XmlText t.value) ∧
    (∀ r, o = .relation r → ∀ m ∈ r.members, XmlText m.role) := by
  cases o with
  | node n =>
    have h : AllGood (if n.position.defined then
          [WCall.attr "lat" (str (Text.fmt7 (fixToDouble n.position.y))),
           .attr "lon" (str (Text.fmt7 (fixToDouble n.position.x)))] else []) := by
      split <;> simp [allGood_cons, allGood_nil, good_attr, good_fmt]
    simp [writeBody, allGood_append, allGood_cons, allGood_nil, good_start, good_close, allGood_meta, allGood_tags,
      OsmObj.obj, h]
  | way w =>
    simp [writeBody, allGood_append, allGood_cons, allGood_nil, good_start, good_close, good_attr, good_int,
      allGood_meta, allGood_tags, allGood_flatMap, OsmObj.obj]
  | relation r =>
    simp [writeBody, allGood_append, allGood_cons, allGood_nil, good_start, good_close, good_attr, good_int,
      allGood_meta, allGood_tags, allGood_flatMap, OsmObj.obj, good_typeName]
    tauto

theorem allGood_opTag (last op : Option Char) : AllGood (opTag last op).1 := by
  unfold opTag
  split
  · simp [allGood_nil]
  · rw [allGood_append]
    constructor
    · split <;> simp [allGood_cons, allGood_nil, good_close]
    · split
      · simp [allGood_cons, allGood_nil, good_start]
      · split
        · simp [allGood_cons, allGood_nil, good_start]
        · split <;> simp [allGood_cons, allGood_nil, good_start]

theorem allGood_objs (ft : FileType) (last : Option Char) (os : List OsmObj) :
    AllGood (writeObjs ft last os).1 ↔ ∀ o ∈ os, AllGood (writeBody ft o) := by
  induction os generalizing last with
  | nil => simp [writeObjs, allGood_nil]
  | cons o os ih =>
    simp only [writeObjs, allGood_append, ih, List.forall_mem_cons]
    refine and_congr ?_ Iff.rfl
    unfold writeObj
    split
    · simp [allGood_append, allGood_opTag]
    · rfl

theorem allGood_file (ft : FileType) (gen : String) (m : Meta) (os : List OsmObj) :
    AllGood (writeFile ft gen m os) ↔ XmlText gen ∧ ∀ o ∈ os, AllGood (writeBody ft o) := by
  have h1 : AllGood (writeBounds m.bounds) := by
    unfold writeBounds
    split <;> simp [allGood_cons, allGood_nil, good_start, good_close, good_attr, good_fmt]
  have h2 : AllGood (writeFinal ft (writeObjs ft none os).2) := by
    unfold writeFinal
    rw [allGood_append]
    constructor
    · split
      · exact allGood_opTag _ _
      · simp [allGood_nil]
    · simp [allGood_cons, allGood_nil, good_close]
  have h3 : XmlText "0.6" := xmlText_ascii _ (by decide)
  unfold writeFile writeInit
  simp [allGood_append, allGood_cons, allGood_nil, good_start, good_attr, h1, h2, h3, allGood_objs]

/-! ### ASCII -/

/-- Only characters of ASCII. (helper for statements and proofs, no counterpart in /repo) -/
def Ascii (cs : List Char) : Prop := ∀ c ∈ cs, c.toNat < 128

theorem Ascii.append {a b : List Char} (ha : Ascii a) (hb : Ascii b) : Ascii (a ++ b) := by
  intro c hc
  rcases List.mem_append.1 hc with h | h
  · exact ha c h
  · exact hb c h

theorem Ascii.cons {c : Char} {b : List Char} (hc : c.toNat < 128) (hb : Ascii b) : Ascii (c :: b) := by
  intro d hd
  rcases List.mem_cons.1 hd with rfl | h
  · exact hc
  · exact hb d h

theorem ascii_dec {cs : List Char} (h : cs.all (fun c => decide (c.toNat < 128)) = true) : Ascii cs := by
  intro c hc
  simpa using List.all_eq_true.1 h c hc

theorem asciiChars_asciiBytes {cs : List Char} (h : Ascii cs) : asciiChars (asciiBytes cs) = cs := by
  unfold asciiChars asciiBytes
  rw [List.map_map]
  conv_rhs => rw [← List.map_id cs]
  refine List.map_congr_left fun c hc => ?_
  have := h c hc
  have h1 : (UInt8.ofNat c.toNat).toNat = c.toNat := by
    rw [UInt8.toNat_ofNat']
    omega
  have h2 : UInt8.ofNat c.toNat < 128 := by
    rw [UInt8.lt_iff_toNat_lt, h1]
    exact this
  simp [h2, h1]

theorem ascii_name {n : String} (h : goodName n = true) : Ascii n.toList := by
  obtain ⟨c, cs, hcs, h1, h2⟩ := goodName_iff h
  have key : ∀ c : Char, isNameChar c = true → c.toNat < 128 := by
    intro c hc
    simp only [isNameChar, isNameStart, Bool.or_eq_true, Bool.and_eq_true, decide_eq_true_eq, beq_iff_eq] at hc
    rcases hc with (((((h | h) | h) | h) | h) | h) | h
    · omega
    · omega
    · subst h; decide
    · subst h; decide
    · omega
    · subst h; decide
    · subst h; decide
  rw [hcs]
  refine Ascii.cons (key c ?_) fun a ha => key a (h2 a ha)
  simp [isNameChar, h1]

theorem ascii_indent (n : Nat) : Ascii (indentText n) := by
  intro c hc
  simp only [indentText, List.mem_flatten, List.mem_replicate] at hc
  obtain ⟨l, ⟨_, rfl⟩, h⟩ := hc
  revert h
  revert c
  exact ascii_dec (cs := "  ".toList) (by decide)

theorem ascii_hex (d : Nat) (h : d < 16) : (hexDigit d).toNat < 128 := by revert h; revert d; decide

theorem ascii_esc (c : Char) : Ascii (escChar c) := by
  unfold escChar
  repeat' split
  all_goals try exact ascii_dec (by decide)
  · refine (Ascii.append (ascii_dec (by decide)) ?_).append (ascii_dec (by decide))
    intro d hd
    obtain ⟨x, hx, rfl⟩ := hexAux_digit 6 _ d hd
    exact ascii_hex x hx
  · exact Ascii.cons (by omega) (by intro d hd; cases hd)

theorem ascii_text (w : TW) (s s1 : CS) (c : WCall) (hw : ∀ n ∈ w.stack, goodName n = true) (hs : s.step c = some s1) :
    Ascii (w.text c) := by
  cases c with
  | start n =>
    simp only [CS.step] at hs
    split at hs
    · next h =>
      rw [Bool.and_eq_true] at h
      refine (Ascii.append ?_ (ascii_indent _)).append (Ascii.cons (by decide) (ascii_name h.1))
      split <;> exact ascii_dec (by decide)
    · cases hs
  | attr k v =>
    simp only [CS.step] at hs
    split at hs
    · cases hs
    · split at hs
      · next h =>
        rw [Bool.and_eq_true] at h
        refine (((Ascii.cons (by decide) (ascii_name h.1)).append (ascii_dec (by decide))).append ?_).append
          (ascii_dec (by decide))
        intro c hc
        obtain ⟨d, _, hd⟩ := List.mem_flatMap.1 hc
        exact ascii_esc d c hd
      · cases hs
  | close =>
    simp only [TW.text]
    cases h : w.stack with
    | nil => intro c hc; cases hc
    | cons n st =>
      simp only
      split
      · exact ascii_dec (by decide)
      · exact (((ascii_indent _).append (ascii_dec (by decide))).append (ascii_name (hw n (by simp [h])))).append
          (ascii_dec (by decide))

theorem ascii_texts (cs : List WCall) (w : TW) (s s1 : CS) (hw : ∀ n ∈ w.stack, goodName n = true)
    (hs : s.run cs = some s1) : Ascii (w.texts cs).flatten := by
  induction cs generalizing w s with
  | nil => intro c hc; cases hc
  | cons c cs ih =>
    simp only [CS.run] at hs
    cases h1 : s.step c with
    | none => rw [h1] at hs; cases hs
    | some s2 =>
      rw [h1] at hs
      simp only [TW.texts]
      cases h2 : w.step c with
      | none => intro d hd; cases hd
      | some r =>
        obtain ⟨w1, e⟩ := r
        simp only [List.flatten_cons]
        refine (ascii_text w s s2 c hw h1).append (ih w1 s2 ?_ hs)
        cases c with
        | start n =>
          simp only [TW.step] at h2
          cases h2
          simp only [CS.step] at h1
          split at h1
          · next h =>
            rw [Bool.and_eq_true] at h
            intro m hm
            rcases List.mem_cons.1 hm with rfl | hm
            · exact h.1
            · exact hw m hm
          · cases h1
        | attr k v =>
          simp only [TW.step] at h2
          split at h2
          · cases h2
          · cases h2; exact hw
        | close =>
          simp only [TW.step] at h2
          split at h2
          · cases h2
          · next n st hst =>
            cases h2
            intro m hm
            exact hw m (by simp [hst, hm])


end Osmium
